import Verif.Model.Py
import Mathlib.Data.Real.Basic
import Mathlib.Analysis.SpecialFunctions.Log.Basic

/-!
# Scoring a message: `oa/plugins/bayes.py` 63-151 and 1060-1248
-/

namespace Verif.BayesScore
open Verif Py

/-! ### Probabilities of tokens -/

/-- A row of the token table: token, spam count and ham count (the access time has no effect on the
score).  Simplification: counts are not negative. -/
structure Row where
  token : Str
  spam : Nat
  ham : Nat
deriving DecidableEq, Repr

/-- `Chi.FW_S_CONSTANT` (oa/plugins/bayes.py 84). -/
def fwS : Rat := 30 / 1000
/-- `Chi.FW_S_DOT_X` (oa/plugins/bayes.py 72, 87). -/
def fwSX : Rat := 538 / 1000 * fwS
/-- `Chi.MIN_PROB_STRENGTH` (oa/plugins/bayes.py 91). -/
def minStrength : Rat := 346 / 1000
/-- `N_SIGNIFICANT_TOKENS` (oa/plugins/bayes.py 448). -/
def nSignificant : Nat := 150

/-- The probability of one token (oa/plugins/bayes.py 1094-1123) with `spam` and `ham` counts in `ns` spam
and `nn` ham messages; `none` is `None`.  Simplification: exact rational arithmetic instead of floats. -/
def tokenProb (hapaxes : Bool) (ns nn : Nat) (r : Row) : Option Rat :=
  let threshold := if hapaxes then 1 else 2
  if r.spam + r.ham ≥ threshold then
    let s : Rat := r.spam
    let n : Rat := r.ham
    let prob := s * nn / (n * ns + s * nn)
    let robn := s + n
    some ((fwSX + robn * prob) / (fwS + robn))
  else none

/-- `_compute_prob_for_all_tokens` (oa/plugins/bayes.py 1090-1124); the result `none` is `None`. -/
def allProbs (hapaxes : Bool) (ns nn : Nat) (rows : List Row) : Option (List (Option Rat)) :=
  if ns = 0 ∨ nn = 0 then none else some (rows.map (tokenProb hapaxes ns nn))

/-- The table `pw` (oa/plugins/bayes.py 1156-1164): the rows and the probabilities that are not `None`, in
step.  `none` is the `TypeError` of iterating over `None`. -/
def table (hapaxes : Bool) (ns nn : Nat) (rows : List Row) : Option (Dict Str Rat) :=
  match allProbs hapaxes ns nn rows with
  | none => none
  | some ps => some ((rows.zip (ps.filterMap id)).foldl (fun d x => Dict.set d x.1.token x.2) [])

/-- `tok_strength` (oa/plugins/bayes.py 1190-1191). -/
def strength (p : Rat) : Rat := if p - 1 / 2 < 0 then 1 / 2 - p else p - 1 / 2

/-- The tokens the score is computed from, with their probabilities (oa/plugins/bayes.py 1195-1225). -/
def chosen (pw : Dict Str Rat) : List (Str × Rat) :=
  ((sortedBy (fun a b : Str × Rat => decide (strength a.2 < strength b.2)) pw).take nSignificant).filter
    fun x => !decide (strength x.2 < minStrength)

/-! ### Combining them -/

/-- The floating-point arithmetic the combination uses: rounding of a result, logarithm, exponential and
`frexp`. -/
structure Arith where
  rnd : ℝ → ℝ
  log : ℝ → ℝ
  exp : ℝ → ℝ
  frexp : ℝ → ℝ × ℤ

/-- Lines 122-127: scale a number that has become too small. -/
noncomputable def rescale (A : Arith) (x : ℝ) (e : ℤ) : ℝ × ℤ :=
  open Classical in
  if x < 10 ^ (-200 : ℤ) then ((A.frexp x).1, e + (A.frexp x).2) else (x, e)

/-- The loop in `Chi.combine` (oa/plugins/bayes.py 119-127) on `S`, `Sexp`, `H` and `Hexp`. -/
noncomputable def accumulate (A : Arith) : (ℝ × ℤ) × (ℝ × ℤ) → List ℝ → (ℝ × ℤ) × (ℝ × ℤ)
  | st, [] => st
  | ((S, Sexp), (H, Hexp)), p :: ps =>
    accumulate A (rescale A (A.rnd (S * A.rnd (1 - p))) Sexp, rescale A (A.rnd (H * p)) Hexp) ps

/-- The loop in `Chi.chi2Q` (oa/plugins/bayes.py 142-145), for `i`, `i + 1`, ..., `k` more rounds. -/
noncomputable def chiLoop (A : Arith) (m : ℝ) : Nat → Nat → ℝ → ℝ → ℝ
  | 0, _, _, total => total
  | k + 1, i, term, total =>
    chiLoop A m k (i + 1) (A.rnd (term * A.rnd (m / i))) (A.rnd (total + A.rnd (term * A.rnd (m / i))))

/-- `Chi.chi2Q` (oa/plugins/bayes.py 137-151). -/
noncomputable def chi2Q (A : Arith) (x2 : ℝ) (halfv : Nat) : ℝ :=
  let m := A.rnd (x2 / 2)
  min (chiLoop A m (halfv - 1) 1 (A.exp (-m)) (A.exp (-m))) 1

/-- `Chi.combine` (oa/plugins/bayes.py 93-135); `none` is the `ValueError` of the logarithm. -/
noncomputable def combine (A : Arith) (ns nn : Nat) (ps : List ℝ) : Option ℝ :=
  open Classical in
  if ns + nn = 0 then some (1 / 2)
  else
    let r := accumulate A ((A.rnd (ns / (ns + nn : ℝ)), 0), (A.rnd (nn / (ns + nn : ℝ)), 0)) ps
    if r.1.1 ≤ 0 ∨ r.2.1 ≤ 0 then none
    else
      let S := A.rnd (A.log r.1.1 + A.rnd (r.1.2 * A.log 2))
      let H := A.rnd (A.log r.2.1 + A.rnd (r.2.2 * A.log 2))
      let S' := A.rnd (1 - chi2Q A (A.rnd (-2 * S)) ps.length)
      let H' := A.rnd (1 - chi2Q A (A.rnd (-2 * H)) ps.length)
      some (A.rnd (A.rnd (A.rnd (S' - H') + 1) / 2))

/-- `check_bayes` (oa/plugins/bayes.py 1060-1088) with the score that `scan` gave (`none` is `None`);
`maxScore` is `none` for infinity.  A score of 0 counts as false. -/
def checkBayes (useLearner useBayes useRules : Bool) (score : Option Rat) (minScore : Rat)
    (maxScore : Option Rat) : Bool :=
  if !useLearner then false
  else if !useBayes then false
  else if !useRules then false
  else match score with
    | none => false
    | some x => !decide (x = 0) && (decide (minScore < x) && (match maxScore with
      | none => true
      | some y => decide (x ≤ y)))

end Verif.BayesScore
