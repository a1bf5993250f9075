import Verif.Model.BayesDistance
import Verif.Spec.BayesDistance
import Verif.Props.BayesScore
import Mathlib.Tactic.FieldSimp
import Mathlib.Tactic.Linarith
import Mathlib.Tactic.Positivity
import Mathlib.Tactic.LinearCombination

/-!
# C159: the declassification distance of a token
-/

namespace Verif.Props
open Verif Py BayesScore Spec

theorem coeffA_pos {Nb : Nat} (hb : 0 < Nb) : 0 < coeffA Nb := by
  unfold coeffA border minStrength
  have : (0 : Rat) < Nb := by exact_mod_cast hb
  have h2 : (0 : Rat) < 1 - (1 / 2 - 346 / 1000) := by norm_num
  exact mul_pos this h2

theorem coeffC_neg {Na nb : Nat} (ha : 0 < Na) (hn : 0 < nb) : coeffC Na nb < 0 := by
  unfold coeffC border minStrength fwSX fwS
  have h1 : (0 : Rat) < Na := by exact_mod_cast ha
  have h2 : (1 : Rat) ≤ nb := by exact_mod_cast hn
  have h3 : (538 / 1000 * (30 / 1000) - (1 / 2 - 346 / 1000) * (30 / 1000 + nb) : Rat) < 0 := by
    norm_num; linarith
  exact mul_neg_of_pos_of_neg (mul_pos h1 (by linarith)) h3

/-- The quadratic as a product. -/
theorem quad_root {Na Nb nb : Nat} (ha : 0 < Na) (hb : 0 < Nb) (hn : 0 < nb) :
    ∃ w : ℝ, w ^ 2 = (coeffB Na Nb nb : ℝ) * (coeffB Na Nb nb : ℝ) - 4 * (coeffA Nb : ℝ) * (coeffC Na nb : ℝ) ∧ 0 < w ∧ -w < (coeffB Na Nb nb : ℝ) ∧
      2 * (coeffA Nb : ℝ) * root Na Nb nb = w - (coeffB Na Nb nb : ℝ) ∧
      ∀ x : ℝ, 4 * (coeffA Nb : ℝ) * ((coeffA Nb : ℝ) * x ^ 2 + (coeffB Na Nb nb : ℝ) * x + (coeffC Na nb : ℝ)) =
        2 * (coeffA Nb : ℝ) * (x - root Na Nb nb) * (2 * (coeffA Nb : ℝ) * x + (coeffB Na Nb nb : ℝ) + w) := by
  have hA : (0 : ℝ) < (coeffA Nb : ℝ) := by exact_mod_cast coeffA_pos hb
  have hC : (coeffC Na nb : ℝ) < 0 := by exact_mod_cast coeffC_neg ha hn
  unfold root
  simp only []
  generalize (coeffA Nb : ℝ) = a at *
  generalize (coeffB Na Nb nb : ℝ) = b at *
  generalize (coeffC Na nb : ℝ) = c at *
  have hac := mul_neg_of_pos_of_neg hA hC
  have hd : 0 < b * b - 4 * a * c := by nlinarith [mul_self_nonneg b]
  rw [if_neg (not_lt.2 hd.le)]
  have hs := Real.sq_sqrt hd.le
  have hs0 := Real.sqrt_pos.2 hd
  generalize √(b * b - 4 * a * c) = w at *
  have hr : 2 * a * ((-b + w) / (2 * a)) = w - b := by field_simp; ring
  refine ⟨w, hs, hs0, ?_, hr, fun x => ?_⟩
  · by_contra hc
    rw [not_lt] at hc
    nlinarith
  · have : 2 * a * (x - (-b + w) / (2 * a)) = 2 * a * x + b - w := by rw [mul_sub, hr]; ring
    rw [this]
    linear_combination hs

/-- The quadratic is negative exactly below the root. -/
theorem below_root {Na Nb nb : Nat} (ha : 0 < Na) (hb : 0 < Nb) (hn : 0 < nb) {x : ℝ} (hx : 0 ≤ x) :
    (coeffA Nb : ℝ) * x ^ 2 + (coeffB Na Nb nb : ℝ) * x + (coeffC Na nb : ℝ) < 0 ↔ x < root Na Nb nb := by
  have hA : (0 : ℝ) < (coeffA Nb : ℝ) := by exact_mod_cast coeffA_pos hb
  obtain ⟨w, _, hw, hbw, _, key⟩ := quad_root ha hb hn
  have key := key x
  generalize (coeffA Nb : ℝ) = a at *
  generalize (coeffB Na Nb nb : ℝ) = b at *
  generalize (coeffC Na nb : ℝ) = c at *
  have hp : 0 < 2 * a * x + b + w := by nlinarith [mul_nonneg hA.le hx]
  constructor
  · intro h
    by_contra hc
    rw [not_lt] at hc
    have h1 : 0 ≤ 2 * a * (x - root Na Nb nb) * (2 * a * x + b + w) := mul_nonneg (mul_nonneg (by linarith) (by linarith)) hp.le
    rw [← key] at h1
    have : 4 * a * (a * x ^ 2 + b * x + c) < 0 := mul_neg_of_pos_of_neg (by linarith) h
    linarith
  · intro h
    have h1 : 2 * a * (x - root Na Nb nb) * (2 * a * x + b + w) < 0 := mul_neg_of_neg_of_pos (mul_neg_of_pos_of_neg (by linarith) (by linarith)) hp
    rw [← key] at h1
    by_contra hc
    rw [not_lt] at hc
    have : 0 ≤ 4 * a * (a * x ^ 2 + b * x + c) := mul_nonneg (by linarith) hc
    linarith

/-- … and positive exactly above it. -/
theorem above_root {Na Nb nb : Nat} (ha : 0 < Na) (hb : 0 < Nb) (hn : 0 < nb) {x : ℝ} (hx : 0 ≤ x) :
    0 < (coeffA Nb : ℝ) * x ^ 2 + (coeffB Na Nb nb : ℝ) * x + (coeffC Na nb : ℝ) ↔ root Na Nb nb < x := by
  have hA : (0 : ℝ) < (coeffA Nb : ℝ) := by exact_mod_cast coeffA_pos hb
  obtain ⟨w, _, hw, hbw, _, key⟩ := quad_root ha hb hn
  have key := key x
  generalize (coeffA Nb : ℝ) = a at *
  generalize (coeffB Na Nb nb : ℝ) = b at *
  generalize (coeffC Na nb : ℝ) = c at *
  have hp : 0 < 2 * a * x + b + w := by nlinarith [mul_nonneg hA.le hx]
  constructor
  · intro h
    by_contra hc
    rw [not_lt] at hc
    have h1 : 2 * a * (x - root Na Nb nb) * (2 * a * x + b + w) ≤ 0 :=
      mul_nonpos_of_nonpos_of_nonneg (mul_nonpos_of_nonneg_of_nonpos (by linarith) (by linarith)) hp.le
    rw [← key] at h1
    have : 0 < 4 * a * (a * x ^ 2 + b * x + c) := mul_pos (by linarith) h
    linarith
  · intro h
    have h1 : 0 < 2 * a * (x - root Na Nb nb) * (2 * a * x + b + w) := mul_pos (mul_pos (by linarith) (by linarith)) hp
    rw [← key] at h1
    by_contra hc
    rw [not_lt] at hc
    have : 4 * a * (a * x ^ 2 + b * x + c) ≤ 0 := mul_nonpos_of_nonneg_of_nonpos (by linarith) hc
    linarith

/-- The probability of a token that was seen. -/
theorem prob_eq {hapaxes : Bool} {Ns Nn ns nn : Nat} {t : Str} {q : Rat} (h : tokenProb hapaxes Ns Nn ⟨t, ns, nn⟩ = some q) (hs : 0 < Ns) (hn : 0 < Nn) :
    0 < ns + nn ∧ q * ((fwS + (ns + nn)) * (nn * Ns + ns * Nn)) = fwSX * (nn * Ns + ns * Nn) + (ns + nn) * (ns * Nn) := by
  unfold tokenProb at h
  simp only at h
  by_cases hge : ns + nn ≥ (if hapaxes then 1 else 2)
  · rw [if_pos hge] at h
    have hpos : 0 < ns + nn := by
      split at hge <;> omega
    have hD : (0 : Rat) < nn * Ns + ns * Nn := by
      have : 0 < nn * Ns + ns * Nn := by
        rcases Nat.eq_zero_or_pos ns with h0 | h0
        · have : 0 < nn := by omega
          have := Nat.mul_pos this hs
          omega
        · have := Nat.mul_pos h0 hn
          omega
      exact_mod_cast this
    have hE : (0 : Rat) < fwS + (ns + nn) := by
      have : (0 : Rat) < ns + nn := by exact_mod_cast hpos
      have h2 : (0 : Rat) < fwS := by unfold fwS; norm_num
      linarith
    refine ⟨hpos, ?_⟩
    have := Option.some.inj h
    rw [← this]
    field_simp
  · rw [if_neg hge] at h
    cases h

/-- The weight of one sighting makes the priors of both kinds differ. -/
def skew : Rat := 2 * fwSX - fwS

/-- A hammy token in terms of the quadratic. -/
theorem hammy_quad {hapaxes : Bool} {Ns Nn ns nn : Nat} {t : Str} {q : Rat} (h : tokenProb hapaxes Ns Nn ⟨t, ns, nn⟩ = some q) (hs : 0 < Ns) (hn : 0 < Nn) :
    ∃ D : Rat, 0 < D ∧ (q - border) * D = coeffA Nn * ns ^ 2 + coeffB Ns Nn nn * ns + coeffC Ns nn ∧ D = (fwS + (ns + nn)) * (nn * Ns + ns * Nn) := by
  obtain ⟨hpos, e⟩ := prob_eq h hs hn
  refine ⟨(fwS + (ns + nn)) * (nn * Ns + ns * Nn), ?_, ?_, rfl⟩
  · have hD : (0 : Rat) < nn * Ns + ns * Nn := by
      have : 0 < nn * Ns + ns * Nn := by
        rcases Nat.eq_zero_or_pos ns with h0 | h0
        · have : 0 < nn := by omega
          have := Nat.mul_pos this hs
          omega
        · have := Nat.mul_pos h0 hn
          omega
      exact_mod_cast this
    have hE : (0 : Rat) < fwS + (ns + nn) := by
      have : (0 : Rat) < ns + nn := by exact_mod_cast hpos
      have h2 : (0 : Rat) < fwS := by unfold fwS; norm_num
      linarith
    exact mul_pos hE hD
  · rw [sub_mul, e]
    unfold coeffA coeffB coeffC
    ring

/-- A spammy token in terms of the quadratic: the code uses the prior of the other kind. -/
theorem spammy_quad {hapaxes : Bool} {Ns Nn ns nn : Nat} {t : Str} {q : Rat} (h : tokenProb hapaxes Ns Nn ⟨t, ns, nn⟩ = some q) (hs : 0 < Ns) (hn : 0 < Nn) :
    ∃ D : Rat, 0 < D ∧ (1 - border - q) * D = coeffA Ns * nn ^ 2 + coeffB Nn Ns ns * nn + coeffC Nn ns - skew * (nn * Ns + ns * Nn) := by
  obtain ⟨hpos, e⟩ := prob_eq h hs hn
  refine ⟨(fwS + (ns + nn)) * (nn * Ns + ns * Nn), ?_, ?_⟩
  · have hD : (0 : Rat) < nn * Ns + ns * Nn := by
      have : 0 < nn * Ns + ns * Nn := by
        rcases Nat.eq_zero_or_pos ns with h0 | h0
        · have : 0 < nn := by omega
          have := Nat.mul_pos this hs
          omega
        · have := Nat.mul_pos h0 hn
          omega
      exact_mod_cast this
    have hE : (0 : Rat) < fwS + (ns + nn) := by
      have : (0 : Rat) < ns + nn := by exact_mod_cast hpos
      have h2 : (0 : Rat) < fwS := by unfold fwS; norm_num
      linarith
    exact mul_pos hE hD
  · rw [sub_mul, e]
    unfold coeffA coeffB coeffC skew
    ring

theorem strength_lt (q : Rat) : strength q < minStrength ↔ ¬ hammy q ∧ ¬ spammy q := by
  unfold strength minStrength hammy spammy
  rw [not_le, not_le]
  split
  · constructor
    · intro h; constructor <;> linarith
    · rintro ⟨h1, h2⟩; linarith
  · constructor
    · intro h; constructor <;> linarith
    · rintro ⟨h1, h2⟩; linarith

/-- A token that is not used because it was not seen often enough has no distance. -/
theorem C159_unseen (hapaxes : Bool) (Ns Nn ns nn : Nat) (t : Str) (prob : Rat) (h : tokenProb hapaxes Ns Nn ⟨t, ns, nn⟩ = none) :
    distance hapaxes Ns Nn ns nn prob = 0 := by
  have := (C47_skipped hapaxes Ns Nn ⟨t, ns, nn⟩).1 h
  simp only at this
  unfold distance
  cases hapaxes with
  | true =>
    rw [if_pos]
    simp at this
    omega
  | false =>
    simp at this
    split
    · rfl
    · rw [if_pos]
      simpa using this

/-- What is computed for a token that was seen and speaks for ham or spam. -/
theorem distance_eq {hapaxes : Bool} {Ns Nn ns nn : Nat} {t : Str} {q : Rat} (h : tokenProb hapaxes Ns Nn ⟨t, ns, nn⟩ = some q) (hs : 0 < Ns) (hn : 0 < Nn) :
    distance hapaxes Ns Nn ns nn q =
      if strength q < minStrength then 0
      else
        let r := sides Ns Nn ns nn q
        let exact : ℝ := (1 - 1 / 1000000 + root r.1 r.2.2.1 r.2.2.2) - r.2.1
        if exact < 1 then 1 else ⌊exact⌋ := by
  have h1 : ¬ ns + nn < (if hapaxes then 1 else 2) := by
    rw [← C47_skipped hapaxes Ns Nn ⟨t, ns, nn⟩, h]; simp
  unfold distance
  rw [if_neg, if_neg, if_neg]
  · omega
  · rintro ⟨h2, h3⟩
    simp at h2
    subst h2
    simp at h1
    omega
  · rintro ⟨rfl, rfl⟩
    apply h1
    split <;> simp

/-- The distance is 0 exactly for tokens that speak for neither, and at least 1 for all others. -/
theorem C159_neutral (hapaxes : Bool) (Ns Nn ns nn : Nat) (t : Str) (q : Rat) (hs : 0 < Ns) (hn : 0 < Nn)
    (h : tokenProb hapaxes Ns Nn ⟨t, ns, nn⟩ = some q) :
    (distance hapaxes Ns Nn ns nn q = 0 ↔ ¬ hammy q ∧ ¬ spammy q) ∧ (hammy q ∨ spammy q → 1 ≤ distance hapaxes Ns Nn ns nn q) := by
  have h1 : ¬ strength q < minStrength → 1 ≤ distance hapaxes Ns Nn ns nn q := by
    intro hst
    rw [distance_eq h hs hn, if_neg hst]
    simp only []
    split
    · exact le_refl _
    · rename_i hx
      rw [not_lt] at hx
      exact Int.le_floor.2 (by simpa using hx)
  rw [← strength_lt]
  refine ⟨⟨fun e => ?_, fun e => by rw [distance_eq h hs hn, if_pos e]⟩, fun hq => h1 fun hst => ?_⟩
  · by_contra hc
    have := h1 hc
    omega
  · rw [strength_lt] at hst
    rcases hq with hq | hq
    · exact hst.1 hq
    · exact hst.2 hq

/-- The distance of a token that speaks for ham. -/
theorem hammy_distance {hapaxes : Bool} {Ns Nn ns nn : Nat} {t : Str} {q : Rat} (h : tokenProb hapaxes Ns Nn ⟨t, ns, nn⟩ = some q) (hs : 0 < Ns) (hn : 0 < Nn)
    (hq : hammy q) : 0 < nn ∧ 1 ≤ distance hapaxes Ns Nn ns nn q ∧ (ns : ℝ) + distance hapaxes Ns Nn ns nn q > root Ns Nn nn - 1 / 1000000 ∧
      ∀ k : Nat, 0 < k → (k : Int) < distance hapaxes Ns Nn ns nn q → ((ns + k : Nat) : ℝ) < root Ns Nn nn := by
  have hst : ¬ strength q < minStrength := fun hc => ((strength_lt q).1 hc).1 hq
  have hhalf : ¬ q > 1 / 2 := by unfold hammy at hq; rw [not_lt]; linarith
  have hd : distance hapaxes Ns Nn ns nn q = if ((1 - 1 / 1000000 + root Ns Nn nn) - ns : ℝ) < 1 then 1 else ⌊((1 - 1 / 1000000 + root Ns Nn nn) - ns : ℝ)⌋ := by
    rw [distance_eq h hs hn, if_neg hst]
    simp only [sides, if_neg hhalf]
  have hnn : 0 < nn := by
    rcases Nat.eq_zero_or_pos nn with rfl | h0
    · exfalso
      obtain ⟨hpos, e⟩ := prob_eq h hs hn
      have h1 : (1 : Rat) ≤ ns := by exact_mod_cast (by omega : 1 ≤ ns)
      have h2 : (0 : Rat) < Nn := by exact_mod_cast hn
      have h3 : q * (fwS + ns) * (ns * Nn) = (fwSX + ns) * (ns * Nn) := by
        simp at e
        linarith
      have h4 : q * (fwS + ns) = fwSX + ns := mul_right_cancel₀ (by positivity) h3
      unfold hammy at hq
      unfold fwSX fwS at h4
      nlinarith
    · exact h0
  refine ⟨hnn, (C159_neutral hapaxes Ns Nn ns nn t q hs hn h).2 (.inl hq), ?_, ?_⟩
  · rw [hd]
    split
    · rename_i hx
      push_cast
      linarith
    · have := Int.sub_one_lt_floor ((1 - 1 / 1000000 + root Ns Nn nn) - ns : ℝ)
      linarith
  · intro k hk hlt
    rw [hd] at hlt
    split at hlt
    · omega
    · have h1 : (k : Int) + 1 ≤ ⌊((1 - 1 / 1000000 + root Ns Nn nn) - ns : ℝ)⌋ := hlt
      have h2 := Int.le_floor.1 h1
      push_cast at h2 ⊢
      linarith

/-- With fewer spam messages than the distance says, the token would still have spoken for ham. -/
theorem C159_hammy_least (hapaxes : Bool) (Ns Nn ns nn k : Nat) (t : Str) (q q' : Rat) (hs : 0 < Ns) (hn : 0 < Nn)
    (h : tokenProb hapaxes Ns Nn ⟨t, ns, nn⟩ = some q) (hq : hammy q) (hk : (k : Int) < distance hapaxes Ns Nn ns nn q)
    (h' : tokenProb hapaxes Ns Nn ⟨t, ns + k, nn⟩ = some q') : hammy q' := by
  obtain ⟨hnn, _, _, hl⟩ := hammy_distance h hs hn hq
  rcases Nat.eq_zero_or_pos k with rfl | hk0
  · rw [Nat.add_zero, h] at h'
    rw [← Option.some.inj h']
    exact hq
  · have h1 := hl k hk0 hk
    have h2 := (below_root hs hn hnn (Nat.cast_nonneg _)).2 h1
    obtain ⟨D, hD, e, _⟩ := hammy_quad h' hs hn
    have h3 : (q' - border) * D < 0 := by
      rw [e]
      exact_mod_cast h2
    unfold hammy
    by_contra hc
    rw [not_le] at hc
    have : 0 ≤ (q' - border) * D := mul_nonneg (by unfold border minStrength; linarith) hD.le
    linarith

/-- With more spam messages than the distance says, the token would not have spoken for ham. -/
theorem C159_hammy_more (hapaxes : Bool) (Ns Nn ns nn k : Nat) (t : Str) (q q' : Rat) (hs : 0 < Ns) (hn : 0 < Nn)
    (h : tokenProb hapaxes Ns Nn ⟨t, ns, nn⟩ = some q) (hq : hammy q) (hk : distance hapaxes Ns Nn ns nn q < k)
    (h' : tokenProb hapaxes Ns Nn ⟨t, ns + k, nn⟩ = some q') : ¬ hammy q' := by
  obtain ⟨hnn, _, hg, _⟩ := hammy_distance h hs hn hq
  have h1 : root Ns Nn nn < ((ns + k : Nat) : ℝ) := by
    have : (distance hapaxes Ns Nn ns nn q : ℝ) + 1 ≤ k := by exact_mod_cast hk
    push_cast
    linarith
  have h2 := (above_root hs hn hnn (Nat.cast_nonneg _)).2 h1
  obtain ⟨D, hD, e, _⟩ := hammy_quad h' hs hn
  have h3 : 0 < (q' - border) * D := by
    rw [e]
    exact_mod_cast h2
  intro hc
  unfold hammy at hc
  have : (q' - border) * D ≤ 0 := mul_nonpos_of_nonpos_of_nonneg (by unfold border minStrength; linarith) hD.le
  linarith

/-- With as many spam messages as the distance says, the token would not have spoken for ham, or its probability would be nearer than two
millionths to the border. -/
theorem C159_hammy_enough (hapaxes : Bool) (Ns Nn ns nn k : Nat) (t : Str) (q q' : Rat) (hs : 0 < Ns) (hn : 0 < Nn)
    (h : tokenProb hapaxes Ns Nn ⟨t, ns, nn⟩ = some q) (hq : hammy q) (hk : distance hapaxes Ns Nn ns nn q ≤ k)
    (h' : tokenProb hapaxes Ns Nn ⟨t, ns + k, nn⟩ = some q') : 1 / 2 - 346 / 1000 - 2 / 1000000 < q' := by
  obtain ⟨hnn, h1, hg, _⟩ := hammy_distance h hs hn hq
  have hk1 : 1 ≤ ns + k := by omega
  have hx : root Ns Nn nn < ((ns + k : Nat) : ℝ) + 1 / 1000000 := by
    have : (distance hapaxes Ns Nn ns nn q : ℝ) ≤ k := by exact_mod_cast hk
    push_cast
    linarith
  obtain ⟨D, hD, e, eD⟩ := hammy_quad h' hs hn
  generalize ns + k = x at *
  have hA : (0 : ℝ) < (coeffA Nn : ℝ) := by exact_mod_cast coeffA_pos hn
  have hbound : (coeffB Ns Nn nn : ℝ) ≤ Nn * (12 / 1000 + nn * (846 / 1000)) := by
    have : coeffB Ns Nn nn ≤ Nn * (12 / 1000 + nn * (846 / 1000)) := by
      unfold coeffB border minStrength fwSX fwS
      have h1 : (0 : Rat) ≤ Nn := by positivity
      have h2 : (0 : Rat) ≤ (Ns : Rat) * nn := by positivity
      nlinarith
    have h2 := (Rat.cast_le (K := ℝ)).2 this
    push_cast at h2
    exact h2
  have hAe : (coeffA Nn : ℝ) = Nn * (846 / 1000) := by
    have : coeffA Nn = Nn * (846 / 1000) := by unfold coeffA border minStrength; norm_num
    rw [this]; push_cast; ring
  have hP : -(1 / 1000000 * (Nn * (17 / 10 * (x + nn)))) ≤
      (coeffA Nn : ℝ) * (x : ℝ) ^ 2 + (coeffB Ns Nn nn : ℝ) * x + (coeffC Ns nn : ℝ) := by
    obtain ⟨w, _, hw, hbw, hr, key⟩ := quad_root hs hn hnn
    have key := key x
    have hx0 : (1 : ℝ) ≤ x := by exact_mod_cast hk1
    have hN : (1 : ℝ) ≤ Nn := by exact_mod_cast hn
    have hnn' : (1 : ℝ) ≤ nn := by exact_mod_cast hnn
    by_cases hle : root Ns Nn nn ≤ x
    · have h5 : 0 ≤ (coeffA Nn : ℝ) * (x : ℝ) ^ 2 + (coeffB Ns Nn nn : ℝ) * x + (coeffC Ns nn : ℝ) := by
        by_contra hc
        rw [not_le] at hc
        exact absurd ((below_root hs hn hnn (Nat.cast_nonneg x)).1 hc) (not_lt.2 hle)
      have : (0 : ℝ) ≤ 1 / 1000000 * (Nn * (17 / 10 * (x + nn))) := by positivity
      linarith
    · rw [not_le] at hle
      have hpos : 0 < 2 * (coeffA Nn : ℝ) * x + (coeffB Ns Nn nn : ℝ) + w := by
        have : 0 < (coeffA Nn : ℝ) * x := mul_pos hA (by linarith)
        linarith
      have hup : 2 * (coeffA Nn : ℝ) * x + (coeffB Ns Nn nn : ℝ) + w ≤ 2 * (Nn * (17 / 10 * (x + nn))) := by
        have h6 : w = 2 * (coeffA Nn : ℝ) * root Ns Nn nn + (coeffB Ns Nn nn : ℝ) := by linarith
        have h7 : (coeffA Nn : ℝ) * root Ns Nn nn ≤ (coeffA Nn : ℝ) * (x + 1 / 1000000) := mul_le_mul_of_nonneg_left hx.le hA.le
        rw [hAe] at h6 h7 ⊢
        have h8 : (Nn : ℝ) * 1 ≤ Nn * x := mul_le_mul_of_nonneg_left hx0 (by linarith)
        have h9 : (Nn : ℝ) * 1 ≤ Nn * nn := mul_le_mul_of_nonneg_left hnn' (by linarith)
        nlinarith
      generalize 2 * (coeffA Nn : ℝ) * x + (coeffB Ns Nn nn : ℝ) + w = u at *
      generalize (coeffA Nn : ℝ) * (x : ℝ) ^ 2 + (coeffB Ns Nn nn : ℝ) * x + (coeffC Ns nn : ℝ) = P at *
      have h10 : 2 * P = (x - root Ns Nn nn) * u := by
        have : (2 * (coeffA Nn : ℝ)) * (2 * P) = (2 * (coeffA Nn : ℝ)) * ((x - root Ns Nn nn) * u) := by linarith
        exact mul_left_cancel₀ (by linarith) this
      have h11 : (root Ns Nn nn - x) * u ≤ 1 / 1000000 * u := mul_le_mul_of_nonneg_right (by linarith) hpos.le
      linarith
  have hP' : -(1 / 1000000 * (Nn * (17 / 10 * (x + nn)))) ≤ coeffA Nn * (x : Rat) ^ 2 + coeffB Ns Nn nn * x + coeffC Ns nn := by
    rw [← Rat.cast_le (K := ℝ)]
    push_cast
    exact hP
  rw [← e] at hP'
  have hD' : Nn * (x + nn : Rat) ≤ D := by
    rw [eD]
    have hx0 : (1 : Rat) ≤ x := by exact_mod_cast hk1
    have hN : (1 : Rat) ≤ Nn := by exact_mod_cast hn
    have hnn' : (1 : Rat) ≤ nn := by exact_mod_cast hnn
    have hs' : (1 : Rat) ≤ Ns := by exact_mod_cast hs
    have h1 : (x + nn : Rat) ≤ fwS + (x + nn) := by unfold fwS; linarith
    have h2 : (Nn : Rat) ≤ nn * Ns + x * Nn := by nlinarith
    calc (Nn : Rat) * (x + nn) = (x + nn) * Nn := by ring
      _ ≤ (fwS + (x + nn)) * (nn * Ns + x * Nn) := mul_le_mul h1 h2 (by linarith) (by linarith)
  have hb : border = 1 / 2 - 346 / 1000 := rfl
  by_contra hc
  rw [not_lt] at hc
  have h12 : (q' - border) * D ≤ -(2 / 1000000) * D := mul_le_mul_of_nonneg_right (by rw [hb]; linarith) hD.le
  linarith

/-- The distance of a token that speaks for spam. -/
theorem spammy_distance {hapaxes : Bool} {Ns Nn ns nn : Nat} {t : Str} {q : Rat} (h : tokenProb hapaxes Ns Nn ⟨t, ns, nn⟩ = some q) (hs : 0 < Ns) (hn : 0 < Nn)
    (hq : spammy q) : 0 < ns ∧ 1 ≤ distance hapaxes Ns Nn ns nn q ∧ (nn : ℝ) + distance hapaxes Ns Nn ns nn q > root Nn Ns ns - 1 / 1000000 ∧
      ∀ k : Nat, 0 < k → (k : Int) < distance hapaxes Ns Nn ns nn q → ((nn + k : Nat) : ℝ) < root Nn Ns ns := by
  have hst : ¬ strength q < minStrength := fun hc => ((strength_lt q).1 hc).2 hq
  have hhalf : q > 1 / 2 := by unfold spammy at hq; linarith
  have hd : distance hapaxes Ns Nn ns nn q = if ((1 - 1 / 1000000 + root Nn Ns ns) - nn : ℝ) < 1 then 1 else ⌊((1 - 1 / 1000000 + root Nn Ns ns) - nn : ℝ)⌋ := by
    rw [distance_eq h hs hn, if_neg hst]
    simp only [sides, if_pos hhalf]
  have hns : 0 < ns := by
    rcases Nat.eq_zero_or_pos ns with rfl | h0
    · exfalso
      obtain ⟨hpos, e⟩ := prob_eq h hs hn
      have h1 : (1 : Rat) ≤ nn := by exact_mod_cast (by omega : 1 ≤ nn)
      have h2 : (0 : Rat) < Ns := by exact_mod_cast hs
      have h3 : q * (fwS + nn) * (nn * Ns) = fwSX * (nn * Ns) := by
        simp at e
        linarith
      have h4 : q * (fwS + nn) = fwSX := mul_right_cancel₀ (by positivity) h3
      unfold spammy at hq
      unfold fwSX fwS at h4
      nlinarith
    · exact h0
  refine ⟨hns, (C159_neutral hapaxes Ns Nn ns nn t q hs hn h).2 (.inr hq), ?_, ?_⟩
  · rw [hd]
    split
    · rename_i hx
      push_cast
      linarith
    · have := Int.sub_one_lt_floor ((1 - 1 / 1000000 + root Nn Ns ns) - nn : ℝ)
      linarith
  · intro k hk hlt
    rw [hd] at hlt
    split at hlt
    · omega
    · have h1 : (k : Int) + 1 ≤ ⌊((1 - 1 / 1000000 + root Nn Ns ns) - nn : ℝ)⌋ := hlt
      have h2 := Int.le_floor.1 h1
      push_cast at h2 ⊢
      linarith

/-- With fewer ham messages than the distance says, the token would still have spoken for spam. -/
theorem C159_spammy_least (hapaxes : Bool) (Ns Nn ns nn k : Nat) (t : Str) (q q' : Rat) (hs : 0 < Ns) (hn : 0 < Nn)
    (h : tokenProb hapaxes Ns Nn ⟨t, ns, nn⟩ = some q) (hq : spammy q) (hk : (k : Int) < distance hapaxes Ns Nn ns nn q)
    (h' : tokenProb hapaxes Ns Nn ⟨t, ns, nn + k⟩ = some q') : spammy q' := by
  obtain ⟨hns, _, _, hl⟩ := spammy_distance h hs hn hq
  rcases Nat.eq_zero_or_pos k with rfl | hk0
  · rw [Nat.add_zero, h] at h'
    rw [← Option.some.inj h']
    exact hq
  · have h1 := hl k hk0 hk
    have h2 := (below_root hn hs hns (Nat.cast_nonneg _)).2 h1
    have h2' : coeffA Ns * ((nn + k : Nat) : Rat) ^ 2 + coeffB Nn Ns ns * ((nn + k : Nat) : Rat) + coeffC Nn ns < 0 := by exact_mod_cast h2
    obtain ⟨D, hD, e⟩ := spammy_quad h' hs hn
    have h3 : (1 - border - q') * D < 0 := by
      rw [e]
      have : (0 : Rat) ≤ skew * (((nn + k : Nat) : Rat) * Ns + ns * Nn) := by
        have : (0 : Rat) ≤ skew := by unfold skew fwSX fwS; norm_num
        positivity
      linarith
    unfold spammy
    by_contra hc
    rw [not_le] at hc
    have : 0 ≤ (1 - border - q') * D := mul_nonneg (by unfold border minStrength; linarith) hD.le
    linarith

/-- The root grows at most with the ratio of the corpus sizes, and the quadratic grows fast enough after it. -/
theorem root_margin {Na Nb nb : Nat} (ha : 0 < Na) (hb : 0 < Nb) (hn : 0 < nb) {x : ℝ} (hx : root Na Nb nb + 9 / 10 ≤ x) (hx0 : 0 ≤ x) :
    (skew : ℝ) * (x * Nb + nb * Na) < (coeffA Nb : ℝ) * x ^ 2 + (coeffB Na Nb nb : ℝ) * x + (coeffC Na nb : ℝ) := by
  obtain ⟨w, hw2, hw, hbw, hr, key⟩ := quad_root ha hb hn
  have key := key x
  have hAe : (coeffA Nb : ℝ) = Nb * (846 / 1000) := by
    have : coeffA Nb = Nb * (846 / 1000) := by unfold coeffA border minStrength; norm_num
    rw [this]; push_cast; ring
  have hBe : (coeffB Na Nb nb : ℝ) = Nb * (1152 / 100000 + nb * (846 / 1000)) - 154 / 1000 * Na * nb := by
    have : coeffB Na Nb nb = Nb * (1152 / 100000 + nb * (846 / 1000)) - 154 / 1000 * Na * nb := by
      unfold coeffB border minStrength fwSX fwS; ring
    rw [this]; push_cast; ring
  have hCe : (coeffC Na nb : ℝ) = -(Na * nb * (154 / 1000 * nb - 1152 / 100000)) := by
    have : coeffC Na nb = -(Na * nb * (154 / 1000 * nb - 1152 / 100000)) := by
      unfold coeffC border minStrength fwSX fwS; ring
    rw [this]; push_cast; ring
  have hSe : (skew : ℝ) = 228 / 100000 := by
    have : skew = 228 / 100000 := by unfold skew fwSX fwS; norm_num
    rw [this]; push_cast; ring
  rw [hSe]
  have hA : (1 : ℝ) ≤ Na := by exact_mod_cast ha
  have hB : (1 : ℝ) ≤ Nb := by exact_mod_cast hb
  have hN : (1 : ℝ) ≤ nb := by exact_mod_cast hn
  generalize (coeffA Nb : ℝ) = a at *
  generalize (coeffB Na Nb nb : ℝ) = b at *
  generalize (coeffC Na nb : ℝ) = c at *
  generalize root Na Nb nb = r at *
  generalize (Na : ℝ) = A at *
  generalize (Nb : ℝ) = B at *
  generalize (nb : ℝ) = n at *
  -- the discriminant
  have hAn : 0 < A * n := by positivity
  have hBn : 0 < B * n := by positivity
  have hdisc : w ^ 2 = (B * (1152 / 100000 + n * (846 / 1000)) + 154 / 1000 * (A * n)) ^ 2 - 4608 / 100000 * (B * (A * n)) := by
    rw [hw2, hBe, hAe, hCe]; ring
  have hlow : (B * (1152 / 100000 + n * (846 / 1000)) + 154 / 1000 * (A * n)) / 2 ≤ w := by
    by_contra hc
    rw [not_le] at hc
    have h1 : w ^ 2 ≤ ((B * (1152 / 100000 + n * (846 / 1000)) + 154 / 1000 * (A * n)) / 2) ^ 2 := by
      apply pow_le_pow_left₀ hw.le hc.le
    rw [hdisc] at h1
    have h2 : 4 * (B * (n * (846 / 1000)) * (154 / 1000 * (A * n))) ≤ (B * (1152 / 100000 + n * (846 / 1000)) + 154 / 1000 * (A * n)) ^ 2 := by
      have e : (B * (1152 / 100000 + n * (846 / 1000)) + 154 / 1000 * (A * n)) ^ 2 =
          (B * (n * (846 / 1000)) - 154 / 1000 * (A * n)) ^ 2 + 4 * (B * (n * (846 / 1000)) * (154 / 1000 * (A * n))) +
          (B * (1152 / 100000)) ^ 2 + 2 * (B * (1152 / 100000)) * (B * (n * (846 / 1000)) + 154 / 1000 * (A * n)) := by ring
      rw [e]
      have p1 : 0 ≤ (B * (n * (846 / 1000)) - 154 / 1000 * (A * n)) ^ 2 := sq_nonneg _
      have p2 : 0 ≤ (B * (1152 / 100000)) ^ 2 := sq_nonneg _
      have p3 : 0 ≤ 2 * (B * (1152 / 100000)) * (B * (n * (846 / 1000)) + 154 / 1000 * (A * n)) := by positivity
      linarith
    have h3 : B * (A * n) ≤ B * n * (A * n) := by
      have : B * (A * n) * 1 ≤ B * (A * n) * n := mul_le_mul_of_nonneg_left hN (by positivity)
      linarith
    have h4 : 0 < B * (A * n) := by positivity
    nlinarith
  have hup : w ≤ B * (1152 / 100000 + n * (846 / 1000)) + 154 / 1000 * (A * n) := by
    by_contra hc
    rw [not_le] at hc
    have h1 : (B * (1152 / 100000 + n * (846 / 1000)) + 154 / 1000 * (A * n)) ^ 2 < w ^ 2 := by
      apply pow_lt_pow_left₀ hc (by positivity) (by norm_num)
    have h4 : 0 < B * (A * n) := by positivity
    linarith
  -- the factors
  have ha0 : 0 < a := by rw [hAe]; positivity
  have hBr : B * (846 / 1000) * r ≤ 154 / 1000 * (A * n) := by
    rw [hAe] at hr
    rw [hBe] at hr
    linarith
  have key2 : 2 * (a * x ^ 2 + b * x + c) = (x - r) * (2 * a * x + b + w) := by
    have : (2 * a) * (2 * (a * x ^ 2 + b * x + c)) = (2 * a) * ((x - r) * (2 * a * x + b + w)) := by linarith
    exact mul_left_cancel₀ (by linarith) this
  have hu : 2 * a * x + b + w = 2 * a * (x - r) + 2 * w := by
    have : 2 * a * (x - r) = 2 * a * x - (w - b) := by rw [mul_sub, hr]
    rw [this]; ring
  obtain ⟨y, rfl⟩ : ∃ y, x = r + y := ⟨x - r, by ring⟩
  have hy : 9 / 10 ≤ y := by linarith
  rw [hu] at key2
  have e1 : r + y - r = y := by ring
  rw [e1] at key2
  rw [hAe] at key2
  have k1 : 9 / 10 * w ≤ y * w := mul_le_mul_of_nonneg_right hy hw.le
  have k2 : 9 / 10 * (B * y) ≤ y * (B * y) := mul_le_mul_of_nonneg_right hy (by positivity)
  rw [hAe]
  nlinarith

/-- With more ham messages than the distance says, the token would not have spoken for spam. -/
theorem C159_spammy_more (hapaxes : Bool) (Ns Nn ns nn k : Nat) (t : Str) (q q' : Rat) (hs : 0 < Ns) (hn : 0 < Nn)
    (h : tokenProb hapaxes Ns Nn ⟨t, ns, nn⟩ = some q) (hq : spammy q) (hk : distance hapaxes Ns Nn ns nn q < k)
    (h' : tokenProb hapaxes Ns Nn ⟨t, ns, nn + k⟩ = some q') : ¬ spammy q' := by
  obtain ⟨hns, _, hg, _⟩ := spammy_distance h hs hn hq
  have h1 : root Nn Ns ns + 9 / 10 ≤ ((nn + k : Nat) : ℝ) := by
    have : (distance hapaxes Ns Nn ns nn q : ℝ) + 1 ≤ k := by exact_mod_cast hk
    push_cast
    linarith
  have h2 := root_margin hn hs hns h1 (Nat.cast_nonneg _)
  have h2' : skew * (((nn + k : Nat) : Rat) * Ns + ns * Nn) <
      coeffA Ns * ((nn + k : Nat) : Rat) ^ 2 + coeffB Nn Ns ns * ((nn + k : Nat) : Rat) + coeffC Nn ns := by
    exact_mod_cast h2
  obtain ⟨D, hD, e⟩ := spammy_quad h' hs hn
  have h3 : 0 < (1 - border - q') * D := by
    rw [e]
    linarith
  intro hc
  unfold spammy at hc
  have : (1 - border - q') * D ≤ 0 := mul_nonpos_of_nonpos_of_nonneg (by unfold border minStrength; linarith) hD.le
  linarith

/-- The root for a corpus with 3 messages of the kind of the token for every 67 of the other kind. -/
theorem root_3_67 (m : Nat) (hm : 0 < m) : (3 + 1 / 1000000 : ℝ) < root (67 * m) (3 * m) 1 ∧ root (67 * m) (3 * m) 1 < (4 : ℝ) := by
  have hmR : (0 : ℝ) < m := by exact_mod_cast hm
  have hAe : (coeffA (3 * m) : ℝ) = m * (2538 / 1000) := by
    have : coeffA (3 * m) = m * (2538 / 1000) := by unfold coeffA border minStrength; push_cast; ring
    rw [this]; push_cast; ring
  have hBe : (coeffB (67 * m) (3 * m) 1 : ℝ) = m * (257256 / 100000 - 10318 / 1000) := by
    have : coeffB (67 * m) (3 * m) 1 = m * (257256 / 100000 - 10318 / 1000) := by
      unfold coeffB border minStrength fwSX fwS; push_cast; ring
    rw [this]; push_cast; ring
  have hCe : (coeffC (67 * m) 1 : ℝ) = -(m * (67 * (14248 / 100000))) := by
    have : coeffC (67 * m) 1 = -(m * (67 * (14248 / 100000))) := by
      unfold coeffC border minStrength fwSX fwS; push_cast; ring
    rw [this]; push_cast; ring
  have h1 : (3 + 1 / 1000000 : ℝ) < root (67 * m) (3 * m) 1 := by
    rw [← below_root (by omega) (by omega) (by omega) (by norm_num), hAe, hBe, hCe]
    have : (m : ℝ) * (2538 / 1000) * (3 + 1 / 1000000) ^ 2 + m * (257256 / 100000 - 10318 / 1000) * (3 + 1 / 1000000) + -(m * (67 * (14248 / 100000))) =
        m * (2538 / 1000 * (3 + 1 / 1000000) ^ 2 + (257256 / 100000 - 10318 / 1000) * (3 + 1 / 1000000) - 67 * (14248 / 100000)) := by ring
    rw [this]
    exact mul_neg_of_pos_of_neg hmR (by norm_num)
  have h2 : root (67 * m) (3 * m) 1 < (4 : ℝ) := by
    rw [← above_root (by omega) (by omega) (by omega) (by norm_num), hAe, hBe, hCe]
    have : (m : ℝ) * (2538 / 1000) * 4 ^ 2 + m * (257256 / 100000 - 10318 / 1000) * 4 + -(m * (67 * (14248 / 100000))) =
        m * (2538 / 1000 * 4 ^ 2 + (257256 / 100000 - 10318 / 1000) * 4 - 67 * (14248 / 100000)) := by ring
    rw [this]
    exact mul_pos hmR (by norm_num)
  exact ⟨h1, h2⟩

/-- For tokens that speak for spam the distance can be too small: whenever there are 3 spam messages for every 67 ham messages, a token
seen in one spam message gets 4, and with 4 ham messages it still speaks for spam. -/
theorem C159_spammy_violated (m : Nat) (hm : 0 < m) (t : Str) : ∃ q q', tokenProb true (3 * m) (67 * m) ⟨t, 1, 0⟩ = some q ∧ spammy q ∧
    distance true (3 * m) (67 * m) 1 0 q = 4 ∧ tokenProb true (3 * m) (67 * m) ⟨t, 1, 4⟩ = some q' ∧ spammy q' := by
  have hm1 : (0 : Rat) < m := by exact_mod_cast hm
  obtain ⟨q, hq⟩ : ∃ q, tokenProb true (3 * m) (67 * m) ⟨t, 1, 0⟩ = some q := ⟨_, rfl⟩
  obtain ⟨q', hq'⟩ : ∃ q', tokenProb true (3 * m) (67 * m) ⟨t, 1, 4⟩ = some q' := ⟨_, rfl⟩
  have e := (prob_eq hq (by omega) (by omega)).2
  have e' := (prob_eq hq' (by omega) (by omega)).2
  push_cast at e e'
  unfold fwSX fwS at e e'
  have hv : q = 101614 / 103000 := by
    have : (m : Rat) * (q * 103000) = m * 101614 := by linarith
    have := mul_left_cancel₀ (ne_of_gt hm1) this
    linarith
  have hv' : spammy q' := by
    unfold spammy
    have : (m : Rat) * (q' * (503 / 100 * 79)) = m * (538 / 1000 * (30 / 1000) * 79 + 335) := by linarith
    have := mul_left_cancel₀ (ne_of_gt hm1) this
    linarith
  have hsp : spammy q := by unfold spammy; rw [hv]; norm_num
  refine ⟨q, q', hq, hsp, ?_, hq', hv'⟩
  have hst : ¬ strength q < minStrength := fun hc => ((strength_lt q).1 hc).2 hsp
  have hhalf : q > 1 / 2 := by rw [hv]; norm_num
  rw [distance_eq hq (by omega) (by omega), if_neg hst]
  simp only [sides, if_pos hhalf]
  obtain ⟨h1, h2⟩ := root_3_67 m hm
  rw [if_neg (by rw [not_lt]; push_cast; linarith)]
  rw [Int.floor_eq_iff]
  push_cast
  constructor <;> linarith

/-! ### The hypotheses can be met -/

/-- A token of one ham message in a corpus of 67 spam and 3 ham messages. -/
theorem hammy_case : ∃ q, tokenProb true 67 3 ⟨c!"meeting", 0, 1⟩ = some q ∧ hammy q ∧
    distance true 67 3 0 1 q = 4 := by
  refine ⟨_, rfl, ?_, ?_⟩
  · unfold hammy fwSX fwS; norm_num
  · have h : tokenProb true 67 3 ⟨c!"meeting", 0, 1⟩ = some _ := rfl
    have hst : ¬ strength ((fwSX + (((0 : Nat) : Rat) + ((1 : Nat) : Rat)) * (((0 : Nat) : Rat) * ((3 : Nat) : Rat) / (((1 : Nat) : Rat) * ((67 : Nat) : Rat) +
        ((0 : Nat) : Rat) * ((3 : Nat) : Rat)))) / (fwS + (((0 : Nat) : Rat) + ((1 : Nat) : Rat)))) < minStrength := by
      unfold strength minStrength fwSX fwS; norm_num
    have hhalf : ¬ ((fwSX + (((0 : Nat) : Rat) + ((1 : Nat) : Rat)) * (((0 : Nat) : Rat) * ((3 : Nat) : Rat) / (((1 : Nat) : Rat) * ((67 : Nat) : Rat) +
        ((0 : Nat) : Rat) * ((3 : Nat) : Rat)))) / (fwS + (((0 : Nat) : Rat) + ((1 : Nat) : Rat)))) > 1 / 2 := by
      unfold fwSX fwS; norm_num
    rw [distance_eq h (by omega) (by omega), if_neg hst]
    simp only [sides, if_neg hhalf]
    obtain ⟨h1, h2⟩ := root_3_67 1 (by omega)
    rw [if_neg (by rw [not_lt]; push_cast; linarith)]
    rw [Int.floor_eq_iff]
    push_cast
    constructor <;> linarith

example : ∃ q q₁ q₂ q₃, tokenProb true 67 3 ⟨c!"meeting", 0, 1⟩ = some q ∧ distance true 67 3 0 1 q ≠ 0 ∧
    tokenProb true 67 3 ⟨c!"meeting", 3, 1⟩ = some q₁ ∧ hammy q₁ ∧
    tokenProb true 67 3 ⟨c!"meeting", 4, 1⟩ = some q₂ ∧ 1 / 2 - 346 / 1000 - 2 / 1000000 < q₂ ∧
    tokenProb true 67 3 ⟨c!"meeting", 5, 1⟩ = some q₃ ∧ ¬ hammy q₃ := by
  obtain ⟨q, h, hq, hd⟩ := hammy_case
  refine ⟨q, _, _, _, h, fun h0 => ?_, rfl, C159_hammy_least true 67 3 0 1 3 _ q _ (by omega) (by omega) h hq (by rw [hd]; decide) rfl, rfl,
    C159_hammy_enough true 67 3 0 1 4 _ q _ (by omega) (by omega) h hq (by rw [hd]; decide) rfl, rfl,
    C159_hammy_more true 67 3 0 1 5 _ q _ (by omega) (by omega) h hq (by rw [hd]; decide) rfl⟩
  exact ((C159_neutral true 67 3 0 1 _ q (by omega) (by omega) h).1.1 h0).1 hq

example : ∃ q q₁ q₂, tokenProb true 3 67 ⟨c!"pills", 1, 0⟩ = some q ∧ tokenProb true 3 67 ⟨c!"pills", 1, 3⟩ = some q₁ ∧ spammy q₁ ∧
    tokenProb true 3 67 ⟨c!"pills", 1, 5⟩ = some q₂ ∧ ¬ spammy q₂ := by
  obtain ⟨q, _, h, hq, hd, _⟩ := C159_spammy_violated 1 (by omega) c!"pills"
  exact ⟨q, _, _, h, rfl, C159_spammy_least true 3 67 1 0 3 _ q _ (by omega) (by omega) h hq (by rw [hd]; decide) rfl, rfl,
    C159_spammy_more true 3 67 1 0 5 _ q _ (by omega) (by omega) h hq (by rw [hd]; decide) rfl⟩

example : distance false 10 10 1 0 (1 / 5) = 0 := C159_unseen false 10 10 1 0 c!"once" _ rfl

end Verif.Props
