import Verif.Model.Py

/-!
# Specification of the declassification distance
-/

namespace Verif.Spec

/-- The probability of a token that speaks for ham: scores are computed from tokens that are at least 0.346 from the middle. -/
def hammy (q : Rat) : Prop := q ≤ 1 / 2 - 346 / 1000

/-- The probability of a token that speaks for spam. -/
def spammy (q : Rat) : Prop := 1 / 2 + 346 / 1000 ≤ q

end Verif.Spec
