import Verif.Spec.BayesScore
import Verif.Lemmas.Py
import Mathlib.Tactic.Linarith
import Mathlib.Tactic.Positivity
import Mathlib.Tactic.FieldSimp
import Mathlib.Tactic.Ring
import Mathlib.Analysis.Calculus.Deriv.MeanValue
import Mathlib.Analysis.SpecialFunctions.ExpDeriv
import Mathlib.Analysis.Calculus.Deriv.Pow
import Mathlib.Algebra.Order.BigOperators.Group.List

namespace Verif.BayesScore
open Verif Py

/-! ### Range, for any rounding -/

section lawful
variable {A : Arith} (L : Lawful A)
include L

theorem rnd_nonneg {x : ℝ} (h : 0 ≤ x) : 0 ≤ A.rnd x := by rw [← L.rnd0]; exact L.mono h
theorem rnd_nonpos {x : ℝ} (h : x ≤ 0) : A.rnd x ≤ 0 := by rw [← L.rnd0]; exact L.mono h
theorem rnd_le_one {x : ℝ} (h : x ≤ 1) : A.rnd x ≤ 1 := by rw [← L.rnd1]; exact L.mono h
theorem rnd_le_two {x : ℝ} (h : x ≤ 2) : A.rnd x ≤ 2 := by rw [← L.rnd2]; exact L.mono h
theorem rnd_ge_m1 {x : ℝ} (h : -1 ≤ x) : -1 ≤ A.rnd x := by rw [← L.rndm1]; exact L.mono h

theorem rescale_range {x : ℝ} {e : ℤ} (h0 : 0 ≤ x) (h1 : x ≤ 1) (he : e ≤ 0) :
    0 ≤ (rescale A x e).1 ∧ (rescale A x e).1 ≤ 1 ∧ (rescale A x e).2 ≤ 0 := by
  unfold rescale
  split
  · rename_i h
    have hx1 : x < 1 := lt_of_lt_of_le h (by norm_num)
    rcases eq_or_lt_of_le h0 with h0 | h0
    · rw [← h0, L.frexp0]; simp [he]
    · obtain ⟨a, b, c⟩ := L.frexpPos x h0 hx1
      exact ⟨le_of_lt a, b, by simp only; omega⟩
  · exact ⟨h0, h1, he⟩

theorem accumulate_range (ps : List ℝ) (hp : ∀ p ∈ ps, 0 ≤ p ∧ p ≤ 1) (st : (ℝ × ℤ) × (ℝ × ℤ))
    (h1 : 0 ≤ st.1.1 ∧ st.1.1 ≤ 1 ∧ st.1.2 ≤ 0) (h2 : 0 ≤ st.2.1 ∧ st.2.1 ≤ 1 ∧ st.2.2 ≤ 0) :
    (0 ≤ (accumulate A st ps).1.1 ∧ (accumulate A st ps).1.1 ≤ 1 ∧ (accumulate A st ps).1.2 ≤ 0) ∧
    (0 ≤ (accumulate A st ps).2.1 ∧ (accumulate A st ps).2.1 ≤ 1 ∧ (accumulate A st ps).2.2 ≤ 0) := by
  induction ps generalizing st with
  | nil => exact ⟨h1, h2⟩
  | cons p ps ih =>
    obtain ⟨⟨S, Se⟩, ⟨H, He⟩⟩ := st
    obtain ⟨p0, p1⟩ := hp p List.mem_cons_self
    simp only at h1 h2
    simp only [accumulate]
    have q0 := rnd_nonneg L (x := 1 - p) (by linarith)
    have q1 := rnd_le_one L (x := 1 - p) (by linarith)
    apply ih (fun q hq => hp q (List.mem_cons_of_mem _ hq))
    · exact rescale_range L (rnd_nonneg L (mul_nonneg h1.1 q0))
        (rnd_le_one L (mul_le_one₀ h1.2.1 q0 q1)) h1.2.2
    · exact rescale_range L (rnd_nonneg L (mul_nonneg h2.1 p0))
        (rnd_le_one L (mul_le_one₀ h2.2.1 p0 p1)) h2.2.2

theorem chiLoop_nonneg {m : ℝ} (hm : 0 ≤ m) (k i : Nat) (term total : ℝ) (h1 : 0 ≤ term) (h2 : 0 ≤ total) :
    0 ≤ chiLoop A m k i term total := by
  induction k generalizing i term total with
  | zero => exact h2
  | succ k ih =>
    have h3 : 0 ≤ A.rnd (term * A.rnd (m / i)) :=
      rnd_nonneg L (mul_nonneg h1 (rnd_nonneg L (div_nonneg hm (Nat.cast_nonneg i))))
    exact ih _ _ _ h3 (rnd_nonneg L (add_nonneg h2 h3))

theorem chi2Q_range {x : ℝ} (hx : 0 ≤ x) (k : Nat) : 0 ≤ chi2Q A x k ∧ chi2Q A x k ≤ 1 := by
  unfold chi2Q
  refine ⟨le_min ?_ zero_le_one, min_le_right _ _⟩
  exact chiLoop_nonneg L (rnd_nonneg L (by linarith)) _ _ _ _ (L.expNonneg _) (L.expNonneg _)

theorem side_range {x : ℝ} {e : ℤ} (h0 : 0 < x) (h1 : x ≤ 1) (he : e ≤ 0) (k : Nat) :
    0 ≤ A.rnd (1 - chi2Q A (A.rnd (-2 * A.rnd (A.log x + A.rnd (e * A.log 2)))) k) ∧
    A.rnd (1 - chi2Q A (A.rnd (-2 * A.rnd (A.log x + A.rnd (e * A.log 2)))) k) ≤ 1 := by
  have h2 : A.rnd (e * A.log 2) ≤ 0 :=
    rnd_nonpos L (mul_nonpos_of_nonpos_of_nonneg (by exact_mod_cast he) L.log2)
  have h3 : A.rnd (A.log x + A.rnd (e * A.log 2)) ≤ 0 :=
    rnd_nonpos L (by have := L.logNonpos x h0 h1; linarith)
  have h4 := chi2Q_range L (x := A.rnd (-2 * A.rnd (A.log x + A.rnd (e * A.log 2))))
    (rnd_nonneg L (by linarith)) k
  exact ⟨rnd_nonneg L (by linarith [h4.2]), rnd_le_one L (by linarith [h4.1])⟩

end lawful

/-! ### The value, for exact arithmetic -/

section exact
variable {A : Arith} (E : Exact A)
include E

theorem rescale_val {x : ℝ} {e : ℤ} (h : 0 < x) :
    (rescale A x e).1 * 2 ^ (rescale A x e).2 = x * 2 ^ e := by
  unfold rescale
  split
  · simp only
    rw [zpow_add₀ (by norm_num), mul_comm (2 ^ e : ℝ), ← mul_assoc, ← E.frexpVal x h]
  · rfl

theorem rescale_pos {x : ℝ} {e : ℤ} (h : 0 < x) : 0 < (rescale A x e).1 := by
  have h1 := rescale_val E (e := e) h
  have h2 : 0 < x * (2 : ℝ) ^ e := by positivity
  rw [← h1] at h2
  exact (pos_iff_pos_of_mul_pos h2).2 (by positivity)

theorem accumulate_val (ps : List ℝ) (hp : ∀ p ∈ ps, 0 < p ∧ p < 1) (st : (ℝ × ℤ) × (ℝ × ℤ))
    (h1 : 0 < st.1.1) (h2 : 0 < st.2.1) :
    0 < (accumulate A st ps).1.1 ∧ 0 < (accumulate A st ps).2.1 ∧
    (accumulate A st ps).1.1 * 2 ^ (accumulate A st ps).1.2 =
      st.1.1 * 2 ^ st.1.2 * (ps.map fun p => 1 - p).prod ∧
    (accumulate A st ps).2.1 * 2 ^ (accumulate A st ps).2.2 = st.2.1 * 2 ^ st.2.2 * ps.prod := by
  induction ps generalizing st with
  | nil => exact ⟨h1, h2, by simp [accumulate], by simp [accumulate]⟩
  | cons p ps ih =>
    obtain ⟨⟨S, Se⟩, ⟨H, He⟩⟩ := st
    obtain ⟨p0, p1⟩ := hp p List.mem_cons_self
    simp only at h1 h2
    simp only [accumulate, E.rnd]
    have hS : 0 < S * (1 - p) := mul_pos h1 (by linarith)
    have hH : 0 < H * p := mul_pos h2 p0
    obtain ⟨a, b, c, d⟩ := ih (fun q hq => hp q (List.mem_cons_of_mem _ hq))
      (rescale A (S * (1 - p)) Se, rescale A (H * p) He) (rescale_pos E hS) (rescale_pos E hH)
    refine ⟨a, b, ?_, ?_⟩
    · rw [c]; simp only; rw [rescale_val E hS, List.map_cons, List.prod_cons]; ring
    · rw [d]; simp only; rw [rescale_val E hH, List.prod_cons]; ring

theorem chiLoop_val (m : ℝ) (k i : Nat) (total : ℝ) :
    chiLoop A m k (i + 1) (Real.exp (-m) * (m ^ i / (i.factorial : ℝ))) total =
      total + Real.exp (-m) * ∑ j ∈ Finset.range k, m ^ (i + 1 + j) / ((i + 1 + j).factorial : ℝ) := by
  induction k generalizing i total with
  | zero => simp [chiLoop]
  | succ k ih =>
    have ht : Real.exp (-m) * (m ^ i / (i.factorial : ℝ)) * (m / ((i + 1 : Nat) : ℝ)) =
        Real.exp (-m) * (m ^ (i + 1) / ((i + 1).factorial : ℝ)) := by
      rw [Nat.factorial_succ, Nat.cast_mul, pow_succ]
      have : (i.factorial : ℝ) ≠ 0 := by exact_mod_cast Nat.factorial_ne_zero i
      have : ((i + 1 : Nat) : ℝ) ≠ 0 := by exact_mod_cast Nat.succ_ne_zero i
      field_simp
    rw [chiLoop, E.rnd, E.rnd, E.rnd, ht, ih, Finset.sum_range_succ']
    simp only [Nat.add_zero]
    rw [mul_add, show (∑ j ∈ Finset.range k, m ^ (i + 1 + 1 + j) / ((i + 1 + 1 + j).factorial : ℝ)) =
      ∑ j ∈ Finset.range k, m ^ (i + 1 + (j + 1)) / ((i + 1 + (j + 1)).factorial : ℝ) from
        Finset.sum_congr rfl (fun j _ => by rw [show i + 1 + 1 + j = i + 1 + (j + 1) by omega])]
    ring

theorem chi2Q_val {m : ℝ} (hm : 0 ≤ m) (k : Nat) : chi2Q A (2 * m) k = tail m k := by
  unfold chi2Q tail
  simp only [E.rnd, E.exp]
  rw [show 2 * m / 2 = m by ring]
  have h := chiLoop_val E m (k - 1) 0 (Real.exp (-m))
  simp only [pow_zero, Nat.factorial_zero, Nat.cast_one, div_one, mul_one, Nat.zero_add] at h
  rw [h]
  have hk : max k 1 = (k - 1) + 1 := by omega
  have hs : Real.exp (-m) + Real.exp (-m) * ∑ j ∈ Finset.range (k - 1), m ^ (1 + j) / ((1 + j).factorial : ℝ) =
      Real.exp (-m) * ∑ i ∈ Finset.range (max k 1), m ^ i / (i.factorial : ℝ) := by
    rw [hk, Finset.sum_range_succ']
    simp only [pow_zero, Nat.factorial_zero, Nat.cast_one, div_one]
    rw [mul_add, mul_one, add_comm]
    congr 2
    exact Finset.sum_congr rfl (fun j _ => by rw [Nat.add_comm 1 j])
  rw [hs]
  apply min_eq_left
  have h1 := Real.sum_le_exp_of_nonneg hm (max k 1)
  calc Real.exp (-m) * ∑ i ∈ Finset.range (max k 1), m ^ i / (i.factorial : ℝ)
      ≤ Real.exp (-m) * Real.exp m := mul_le_mul_of_nonneg_left h1 (Real.exp_nonneg _)
    _ = 1 := by rw [← Real.exp_add]; simp

end exact

theorem prod_range (ps : List ℝ) (hp : ∀ p ∈ ps, 0 < p ∧ p < 1) : 0 < ps.prod ∧ ps.prod ≤ 1 := by
  induction ps with
  | nil => simp
  | cons p ps ih =>
    obtain ⟨a, b⟩ := ih fun q hq => hp q (List.mem_cons_of_mem _ hq)
    obtain ⟨p0, p1⟩ := hp p List.mem_cons_self
    rw [List.prod_cons]
    exact ⟨mul_pos p0 a, mul_le_one₀ (le_of_lt p1) (le_of_lt a) b⟩

theorem map_range (ps : List ℝ) (hp : ∀ p ∈ ps, 0 < p ∧ p < 1) : ∀ p ∈ ps.map (fun p => 1 - p), 0 < p ∧ p < 1 := by
  intro q hq
  obtain ⟨p, h, rfl⟩ := List.mem_map.1 hq
  have := hp p h
  constructor <;> linarith

theorem tail_hasDerivAt (k : Nat) (m : ℝ) :
    HasDerivAt (fun m => tail m (k + 1)) (-(Real.exp (-m) * (m ^ k / (k.factorial : ℝ)))) m := by
  have hexp : HasDerivAt (fun m : ℝ => Real.exp (-m)) (-Real.exp (-m)) m := by
    have := (hasDerivAt_neg m).exp
    simpa using this
  induction k with
  | zero =>
    have : (fun m => tail m (0 + 1)) = fun m : ℝ => Real.exp (-m) := by
      funext m; simp [tail]
    rw [this]
    simpa using hexp
  | succ k ih =>
    have : (fun m => tail m (k + 1 + 1)) =
        fun m : ℝ => tail m (k + 1) + Real.exp (-m) * (m ^ (k + 1) / ((k + 1).factorial : ℝ)) := by
      funext m
      simp only [tail]
      rw [show max (k + 1 + 1) 1 = (k + 1) + 1 by omega, show max (k + 1) 1 = k + 1 by omega,
        Finset.sum_range_succ]
      ring
    rw [this]
    have hp : HasDerivAt (fun m : ℝ => m ^ (k + 1) / ((k + 1).factorial : ℝ))
        (((k + 1 : Nat) : ℝ) * m ^ k / ((k + 1).factorial : ℝ)) m := by
      have := (hasDerivAt_pow (k + 1) m).div_const ((k + 1).factorial : ℝ)
      simpa using this
    have h := ih.add (hexp.mul hp)
    have hf : (((k + 1 : Nat) : ℝ) * m ^ k / ((k + 1).factorial : ℝ)) = m ^ k / (k.factorial : ℝ) := by
      rw [Nat.factorial_succ, Nat.cast_mul]
      have : (k.factorial : ℝ) ≠ 0 := by exact_mod_cast Nat.factorial_ne_zero k
      have : ((k + 1 : Nat) : ℝ) ≠ 0 := by exact_mod_cast Nat.succ_ne_zero k
      field_simp
    rw [hf] at h
    exact h.congr_deriv (by ring)

theorem tail_anti (k : Nat) {a b : ℝ} (ha : 0 ≤ a) (hab : a ≤ b) : tail b k ≤ tail a k := by
  have key : ∀ k, AntitoneOn (fun m => tail m (k + 1)) (Set.Ici 0) := by
    intro k
    apply antitoneOn_of_deriv_nonpos (convex_Ici 0)
    · exact fun x _ => (tail_hasDerivAt k x).continuousAt.continuousWithinAt
    · exact fun x _ => (tail_hasDerivAt k x).differentiableAt.differentiableWithinAt
    · intro x hx
      rw [interior_Ici] at hx
      rw [(tail_hasDerivAt k x).deriv]
      have : 0 < x := hx
      have : 0 ≤ Real.exp (-x) * (x ^ k / (k.factorial : ℝ)) := by positivity
      linarith
  cases k with
  | zero =>
    have h := key 0 (Set.mem_Ici.2 ha) (Set.mem_Ici.2 (ha.trans hab)) hab
    simpa [tail] using h
  | succ k => exact key k (Set.mem_Ici.2 ha) (Set.mem_Ici.2 (ha.trans hab)) hab

end Verif.BayesScore
