import Verif.Model.HeaderChars

/-!
# Specification of the rule about illegal characters
-/

namespace Verif.HeaderChars
open Verif Py Mail

/-- The number of characters of a text that are not ASCII. -/
def nonAscii (text : Str) : Nat := text.countP fun c => decide (128 ≤ c.toNat)

/-- `k` of `n` characters are at least `count`, and at least the fraction `ratio` of them. -/
def TooMany (k n : Nat) (ratio : Rat) (count : Int) : Prop := 0 < n ∧ ratio * (n : Rat) ≤ (k : Rat) ∧ count ≤ (k : Int)

end Verif.HeaderChars
