import Verif.Model.BayesScore
import Mathlib.Algebra.BigOperators.Group.Finset.Basic
import Mathlib.Analysis.SpecialFunctions.Exp

/-!
# Specification of Bayes scores
-/

namespace Verif.BayesScore
open Verif Py

/-- What holds of floating-point arithmetic: rounding keeps the order and does not change small whole
numbers, the logarithm of a number up to 1 is not positive, an exponential is not negative, and `frexp`
splits a number between 0 and 1 into a positive factor up to 1 and an exponent up to 0. -/
structure Lawful (A : Arith) : Prop where
  mono : Monotone A.rnd
  rnd0 : A.rnd 0 = 0
  rnd1 : A.rnd 1 = 1
  rnd2 : A.rnd 2 = 2
  rndm1 : A.rnd (-1) = -1
  logNonpos : ∀ x, 0 < x → x ≤ 1 → A.log x ≤ 0
  log2 : 0 ≤ A.log 2
  expNonneg : ∀ x, 0 ≤ A.exp x
  frexpPos : ∀ x, 0 < x → x < 1 → 0 < (A.frexp x).1 ∧ (A.frexp x).1 ≤ 1 ∧ (A.frexp x).2 ≤ 0
  frexp0 : A.frexp 0 = (0, 0)

/-- Exact arithmetic: nothing is rounded. -/
structure Exact (A : Arith) : Prop where
  rnd : ∀ x, A.rnd x = x
  log : ∀ x, A.log x = Real.log x
  exp : ∀ x, A.exp x = Real.exp x
  frexpVal : ∀ x, 0 < x → x = (A.frexp x).1 * 2 ^ (A.frexp x).2

/-- Fewer than `k` events (but at least none) when `m` are expected: the chi-square tail for `2 k`
degrees of freedom at `2 m`. -/
noncomputable def tail (m : ℝ) (k : Nat) : ℝ :=
  Real.exp (-m) * ∑ i ∈ Finset.range (max k 1), m ^ i / (i.factorial : ℝ)

/-- Fisher's combination of the probabilities, with the shares of spam and ham as first factors. -/
noncomputable def fisher (ns nn : Nat) (ps : List ℝ) : ℝ :=
  (tail (-Real.log (nn / (ns + nn : ℝ) * ps.prod)) ps.length -
    tail (-Real.log (ns / (ns + nn : ℝ) * (ps.map fun p => 1 - p).prod)) ps.length + 1) / 2

/-- The ratio of a token's frequency in spam to its frequency in both. -/
def ratio (s n ns nn : Nat) : Rat := ((s : Rat) / ns) / ((n : Rat) / nn + (s : Rat) / ns)

end Verif.BayesScore
