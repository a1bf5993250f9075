import Verif.Model.BayesScore
import Mathlib.Data.Real.Sqrt

/-!
# The declassification distance of a token: `oa/plugins/bayes.py` 1287-1329
-/

namespace Verif.BayesScore
open Verif Py

/-- `p` (oa/plugins/bayes.py 1313). -/
def border : Rat := 1 / 2 - minStrength

/-- `a` (oa/plugins/bayes.py 1320). -/
def coeffA (Nb : Nat) : Rat := Nb * (1 - border)

/-- `b` (oa/plugins/bayes.py 1321). -/
def coeffB (Na Nb nb : Nat) : Rat := Nb * (fwSX + nb * (1 - border) - border * fwS) - border * Na * nb

/-- `c` (oa/plugins/bayes.py 1322). -/
def coeffC (Na nb : Nat) : Rat := Na * nb * (fwSX - border * (fwS + nb))

/-- `(-b + math.sqrt(disc_max_0)) / (2 * a)` (oa/plugins/bayes.py 1323-1325).  Simplification: exact arithmetic. -/
noncomputable def root (Na Nb nb : Nat) : ℝ :=
  let a : ℝ := (coeffA Nb : ℝ)
  let b : ℝ := (coeffB Na Nb nb : ℝ)
  let c : ℝ := (coeffC Na nb : ℝ)
  let discrim := b * b - 4 * a * c
  (-b + √(if discrim < 0 then 0 else discrim)) / (2 * a)

/-- The counts of the other kind and of the kind of the token (oa/plugins/bayes.py 1312). -/
def sides (Ns Nn ns nn : Nat) (prob : Rat) : Nat × Nat × Nat × Nat :=
  if prob > 1 / 2 then (Nn, nn, Ns, ns) else (Ns, ns, Nn, nn)

/-- `_compute_declassification_distance` (oa/plugins/bayes.py 1287-1329) of a token with `ns` spam and `nn` ham messages of `Ns` and `Nn`. -/
noncomputable def distance (hapaxes : Bool) (Ns Nn ns nn : Nat) (prob : Rat) : Int :=
  if ns = 0 ∧ nn = 0 then 0
  else if !hapaxes ∧ ns + nn < 2 then 0
  else if Ns = 0 ∨ Nn = 0 then 0
  else if strength prob < minStrength then 0
  else
    let r := sides Ns Nn ns nn prob
    let exact : ℝ := (1 - 1 / 1000000 + root r.1 r.2.2.1 r.2.2.2) - r.2.1
    if exact < 1 then 1 else ⌊exact⌋

end Verif.BayesScore
