import Verif.Lemmas.BayesScore

/-!
# C47, C48, C49, C63: the Bayes score
-/

namespace Verif.Props
open Verif Py BayesScore

/-! ## C47 -/

/-- Which tokens are skipped: those seen fewer than once, or than twice with `bayes_use_hapaxes 0`. -/
theorem C47_skipped (hapaxes : Bool) (ns nn : Nat) (r : Row) :
    tokenProb hapaxes ns nn r = none ↔ r.spam + r.ham < (if hapaxes then 1 else 2) := by
  unfold tokenProb
  simp only
  by_cases h : r.spam + r.ham ≥ (if hapaxes then 1 else 2)
  · rw [if_pos h]
    exact ⟨fun e => (nomatch e), fun e => absurd e (not_lt.2 h)⟩
  · rw [if_neg h]
    exact ⟨fun _ => not_le.1 h, fun _ => rfl⟩

private theorem pos_denominator {s n ns nn : Nat} (hs : 0 < ns) (hn : 0 < nn) (h : 0 < s + n) :
    (0 : Rat) < (n : Rat) * ns + (s : Rat) * nn := by
  have : 0 < n * ns + s * nn := by
    rcases Nat.eq_zero_or_pos s with e | e
    · have : 0 < n := by omega
      have := Nat.mul_pos this hs
      omega
    · have := Nat.mul_pos e hn
      omega
  exact_mod_cast this

/-- The probability is the mean of 0.538, with weight 0.03, and the ratio of the frequencies, with the
number of messages the token is in as weight. -/
theorem C47_value (hapaxes : Bool) (ns nn : Nat) (hs : 0 < ns) (hn : 0 < nn) (r : Row) (p : Rat)
    (h : tokenProb hapaxes ns nn r = some p) :
    p = (3 / 100 * (538 / 1000) + (r.spam + r.ham) * ratio r.spam r.ham ns nn) / (3 / 100 + (r.spam + r.ham)) := by
  have hne : ¬ r.spam + r.ham < (if hapaxes then 1 else 2) := by
    rw [← C47_skipped hapaxes ns nn, h]; simp
  have hp : 0 < r.spam + r.ham := by
    by_contra hc
    apply hne
    cases hapaxes <;> simp <;> omega
  have hd := pos_denominator hs hn hp
  unfold tokenProb at h
  simp only at h
  rw [if_pos (not_lt.1 hne)] at h
  rw [← Option.some.inj h]
  have hns : (ns : Rat) ≠ 0 := by exact_mod_cast hs.ne'
  have hnn : (nn : Rat) ≠ 0 := by exact_mod_cast hn.ne'
  have hr : ratio r.spam r.ham ns nn = (r.spam : Rat) * nn / (r.ham * ns + r.spam * nn) := by
    unfold ratio
    have h2 : (r.ham : Rat) / nn + (r.spam : Rat) / ns = (r.ham * ns + r.spam * nn) / (nn * ns) := by
      field_simp
    rw [h2, div_div_eq_mul_div]
    field_simp
  rw [hr]
  unfold fwSX fwS
  norm_num

/-- Every probability that is computed is strictly between 0 and 1. -/
theorem C47_range (hapaxes : Bool) (ns nn : Nat) (hs : 0 < ns) (hn : 0 < nn) (r : Row) (p : Rat)
    (h : tokenProb hapaxes ns nn r = some p) : 0 < p ∧ p < 1 := by
  have hne : ¬ r.spam + r.ham < (if hapaxes then 1 else 2) := by
    rw [← C47_skipped hapaxes ns nn, h]; simp
  have hp : 0 < r.spam + r.ham := by
    by_contra hc
    apply hne
    cases hapaxes <;> simp <;> omega
  have hd := pos_denominator hs hn hp
  unfold tokenProb at h
  simp only at h
  rw [if_pos (not_lt.1 hne)] at h
  rw [← Option.some.inj h]
  have hN : (0 : Rat) < (r.spam : Rat) + r.ham := by exact_mod_cast hp
  have q0 : 0 ≤ (r.spam : Rat) * nn / (r.ham * ns + r.spam * nn) := by positivity
  have q1 : (r.spam : Rat) * nn / (r.ham * ns + r.spam * nn) ≤ 1 := by
    rw [div_le_one hd]
    have : (0 : Rat) ≤ (r.ham : Rat) * ns := by positivity
    linarith
  generalize (r.spam : Rat) * nn / (r.ham * ns + r.spam * nn) = q at q0 q1
  have hS : (0 : Rat) < fwS := by unfold fwS; norm_num
  have hX : (0 : Rat) < fwSX := by unfold fwSX fwS; norm_num
  have hXS : fwSX < fwS := by unfold fwSX fwS; norm_num
  generalize (r.spam : Rat) + r.ham = N at hN
  constructor
  · exact div_pos (by positivity) (by linarith)
  · rw [div_lt_one (by linarith)]
    have : N * q ≤ N := mul_le_of_le_one_right hN.le q1
    linarith

private theorem step_up (n ns nn s : Nat) (hs : 0 < ns) (hn : 0 < nn) (hle : ns ≤ nn) (h : 0 < s + n) :
    (fwSX + ((s : Rat) + n) * ((s : Rat) * nn / (n * ns + s * nn))) / (fwS + ((s : Rat) + n)) ≤
    (fwSX + ((s + 1 : Nat) + (n : Rat)) * (((s + 1 : Nat) : Rat) * nn / (n * ns + (s + 1 : Nat) * nn))) /
      (fwS + ((s + 1 : Nat) + (n : Rat))) := by
  have hd := pos_denominator hs hn h
  have hd' := pos_denominator (s := s + 1) (n := n) hs hn (by omega)
  have hle' : (ns : Rat) ≤ nn := by exact_mod_cast hle
  have hs0 : (0 : Rat) ≤ s := by positivity
  have hn0 : (0 : Rat) ≤ n := by positivity
  have hns : (0 : Rat) < ns := by exact_mod_cast hs
  have hnn : (0 : Rat) < nn := by exact_mod_cast hn
  have hN : (0 : Rat) < (s : Rat) + n := by exact_mod_cast h
  push_cast at hd' ⊢
  have g : ∀ x : Rat, 0 < (n : Rat) * ns + x * nn →
      (x + n) * (x * nn / (n * ns + x * nn)) = x + n * (nn - ns) * (x / (n * ns + x * nn)) := by
    intro x hx
    have := hx.ne'
    field_simp
    ring
  rw [g _ hd, g _ hd']
  have hh : (s : Rat) / (n * ns + s * nn) ≤ (s + 1) / (n * ns + (s + 1) * nn) := by
    rw [div_le_div_iff₀ hd hd']
    have : (0 : Rat) ≤ n * ns := by positivity
    linarith
  have hc : (0 : Rat) ≤ n * (nn - ns) := mul_nonneg hn0 (by linarith)
  have hm := mul_le_mul_of_nonneg_left hh hc
  have hg : n * (nn - ns) * ((s : Rat) / (n * ns + s * nn)) ≤ n := by
    have h1 : (nn - ns) * ((s : Rat) / (n * ns + s * nn)) ≤ 1 := by
      rw [← mul_div_assoc, div_le_one hd]
      have : (0 : Rat) ≤ n * ns := by positivity
      have : (0 : Rat) ≤ ns * s := by positivity
      linarith
    have := mul_le_mul_of_nonneg_left h1 hn0
    linarith
  generalize n * (nn - ns) * ((s : Rat) / (n * ns + s * nn)) = a at hm hg
  generalize n * (nn - ns) * (((s : Rat) + 1) / (n * ns + (s + 1) * nn)) = b at hm
  have hS : (0 : Rat) < fwS := by unfold fwS; norm_num
  have hXS : fwSX < fwS := by unfold fwSX fwS; norm_num
  rw [div_le_div_iff₀ (by linarith) (by linarith)]
  nlinarith

/-- More spam occurrences do not lower the probability if there are at least as many ham messages as
spam messages.  Missing: more spam messages than ham messages, where it is false
(`C47_more_spam_violated`). -/
theorem C47_more_spam_partial (hapaxes : Bool) (ns nn : Nat) (hs : 0 < ns) (hn : 0 < nn) (hle : ns ≤ nn)
    (t : Str) (ham s s' : Nat) (hss : s ≤ s') (p p' : Rat)
    (h : tokenProb hapaxes ns nn ⟨t, s, ham⟩ = some p) (h' : tokenProb hapaxes ns nn ⟨t, s', ham⟩ = some p') :
    p ≤ p' := by
  have hne : ¬ s + ham < (if hapaxes then 1 else 2) := by
    have := C47_skipped hapaxes ns nn ⟨t, s, ham⟩
    rw [← this, h]; simp
  have hp : 0 < s + ham := by
    by_contra hc
    apply hne
    cases hapaxes <;> simp <;> omega
  have val : ∀ k, s ≤ k → tokenProb hapaxes ns nn ⟨t, k, ham⟩ = some
      ((fwSX + ((k : Rat) + ham) * ((k : Rat) * nn / (ham * ns + k * nn))) / (fwS + ((k : Rat) + ham))) := by
    intro k hk
    unfold tokenProb
    simp only
    rw [if_pos]
    have := not_lt.1 hne
    simp only [ge_iff_le]
    omega
  rw [val s le_rfl] at h
  rw [val s' hss] at h'
  rw [← Option.some.inj h, ← Option.some.inj h']
  clear h h' val
  induction s', hss using Nat.le_induction with
  | base => exact le_rfl
  | succ k hk ih => exact ih.trans (step_up ham ns nn k hs hn hle (by omega))

/-- C47 fails exactly for corpora with too much spam: the first spam message with a token that was seen in ham only lowers the probability as soon
as there are enough spam messages for the number of ham messages. -/
theorem C47_more_spam_violated (hapaxes : Bool) (ns nn : Nat) (hs : 0 < ns) (hn : 0 < nn) (t : Str) (ham : Nat) (hh : 0 < ham) (p p' : Rat)
    (h : tokenProb hapaxes ns nn ⟨t, 0, ham⟩ = some p) (h' : tokenProb hapaxes ns nn ⟨t, 1, ham⟩ = some p') :
    p' < p ↔ (1 + (ham : Rat)) * (fwS + ham) * nn < fwSX * (ham * ns + nn) := by
  have val : ∀ k q, tokenProb hapaxes ns nn ⟨t, k, ham⟩ = some q →
      q = ((fwSX + ((k : Rat) + ham) * ((k : Rat) * nn / (ham * ns + k * nn))) / (fwS + ((k : Rat) + ham))) := by
    intro k q hq
    by_cases hc : k + ham ≥ (if hapaxes then 1 else 2)
    · unfold tokenProb at hq
      rw [if_pos hc] at hq
      exact (Option.some.inj hq).symm
    · unfold tokenProb at hq
      rw [if_neg hc] at hq
      cases hq
  rw [val 0 p h, val 1 p' h']
  have a : (0 : Rat) < ham := by exact_mod_cast hh
  have b : (0 : Rat) < ns := by exact_mod_cast hs
  have c : (0 : Rat) < nn := by exact_mod_cast hn
  have d : (0 : Rat) < fwS := by norm_num [fwS]
  have e : (0 : Rat) < ham * ns + nn := by positivity
  simp only [Nat.cast_zero, Nat.cast_one, zero_mul, zero_div, mul_zero, add_zero, zero_add, one_mul]
  rw [div_lt_div_iff₀ (by positivity) (by positivity)]
  have key : (fwSX + (1 + (ham : Rat)) * ((nn : Rat) / (ham * ns + nn))) * (fwS + ham) - fwSX * (fwS + (1 + ham)) =
      ((1 + (ham : Rat)) * (fwS + ham) * nn - fwSX * (ham * ns + nn)) / (ham * ns + nn) := by
    field_simp
    ring
  rw [← sub_neg, key, div_neg_iff, sub_neg]
  constructor
  · rintro (⟨_, h2⟩ | ⟨h1, _⟩)
    · exact absurd h2 (not_lt.2 e.le)
    · exact h1
  · exact fun h1 => Or.inr ⟨h1, e⟩

/-- A token in one ham message out of 200 and in no spam message out of 30000 gets a lower probability
when it is in a spam message too. -/
example :
    ∃ p p', tokenProb true 30000 200 ⟨c!"pills", 0, 1⟩ = some p ∧
      tokenProb true 30000 200 ⟨c!"pills", 1, 1⟩ = some p' ∧ p' < p := by
  refine ⟨_, _, rfl, rfl, ?_⟩
  norm_num [fwSX, fwS]

/-- Without any spam or any ham messages there are no probabilities: the scan raises. -/
theorem C47_no_corpus (hapaxes : Bool) (ns nn : Nat) (rows : List Row) :
    table hapaxes ns nn rows = none ↔ ns = 0 ∨ nn = 0 := by
  unfold table allProbs
  by_cases h : ns = 0 ∨ nn = 0
  · simp [h]
  · rw [if_neg h]; simp [h]

/-! ## C48 -/

/-- Whatever the rounding, a score is between 0 and 1. -/
theorem C48_range (A : Arith) (L : Lawful A) (ns nn : Nat) (ps : List ℝ) (hp : ∀ p ∈ ps, 0 ≤ p ∧ p ≤ 1) (r : ℝ)
    (h : combine A ns nn ps = some r) : 0 ≤ r ∧ r ≤ 1 := by
  unfold combine at h
  split at h
  · rw [← Option.some.inj h]; norm_num
  · rename_i hne
    have hN : (0 : ℝ) < (ns : ℝ) + nn := by
      have : 0 < ns + nn := Nat.pos_of_ne_zero hne
      exact_mod_cast this
    have f1 : 0 ≤ (ns : ℝ) / (ns + nn) := by positivity
    have f2 : (ns : ℝ) / (ns + nn) ≤ 1 := by
      rw [div_le_one hN]
      have : (0 : ℝ) ≤ nn := by positivity
      linarith
    have f3 : 0 ≤ (nn : ℝ) / (ns + nn) := by positivity
    have f4 : (nn : ℝ) / (ns + nn) ≤ 1 := by
      rw [div_le_one hN]
      have : (0 : ℝ) ≤ ns := by positivity
      linarith
    have hacc := accumulate_range L ps hp ((A.rnd (ns / (ns + nn : ℝ)), 0), (A.rnd (nn / (ns + nn : ℝ)), 0))
      ⟨rnd_nonneg L f1, rnd_le_one L f2, le_rfl⟩ ⟨rnd_nonneg L f3, rnd_le_one L f4, le_rfl⟩
    simp only at h
    generalize accumulate A ((A.rnd (ns / (ns + nn : ℝ)), 0), (A.rnd (nn / (ns + nn : ℝ)), 0)) ps = q at h hacc
    split at h
    · exact nomatch h
    · rename_i hpos
      rw [not_or, not_le, not_le] at hpos
      have hS := side_range L hpos.1 hacc.1.2.1 hacc.1.2.2 ps.length
      have hH := side_range L hpos.2 hacc.2.2.1 hacc.2.2.2 ps.length
      rw [← Option.some.inj h]
      generalize A.rnd (1 - chi2Q A (A.rnd (-2 * A.rnd (A.log q.1.1 + A.rnd (q.1.2 * A.log 2)))) ps.length) = x at hS
      generalize A.rnd (1 - chi2Q A (A.rnd (-2 * A.rnd (A.log q.2.1 + A.rnd (q.2.2 * A.log 2)))) ps.length) = y at hH
      have d1 := rnd_ge_m1 L (x := x - y) (by linarith [hS.1, hH.2])
      have d2 := rnd_le_one L (x := x - y) (by linarith [hS.2, hH.1])
      have e1 := rnd_nonneg L (x := A.rnd (x - y) + 1) (by linarith)
      have e2 := rnd_le_two L (x := A.rnd (x - y) + 1) (by linarith)
      exact ⟨rnd_nonneg L (by linarith), rnd_le_one L (by linarith)⟩

/-- In exact arithmetic, the score of probabilities strictly between 0 and 1 is defined and is Fisher's
combination: the rescaling has no effect and no logarithm of 0 is taken. -/
theorem C48_value (A : Arith) (E : Exact A) (ns nn : Nat) (hs : 0 < ns) (hn : 0 < nn) (ps : List ℝ)
    (hp : ∀ p ∈ ps, 0 < p ∧ p < 1) : combine A ns nn ps = some (fisher ns nn ps) := by
  unfold combine
  rw [if_neg (by omega)]
  have hns : (0 : ℝ) < ns := by exact_mod_cast hs
  have hnn : (0 : ℝ) < nn := by exact_mod_cast hn
  simp only [E.rnd, E.log]
  have f1 : 0 < (ns : ℝ) / (ns + nn) := by positivity
  have f2 : 0 < (nn : ℝ) / (ns + nn) := by positivity
  obtain ⟨a, b, c, d⟩ := accumulate_val E ps hp ((ns / (ns + nn : ℝ), 0), (nn / (ns + nn : ℝ), 0)) f1 f2
  simp only [zpow_zero, mul_one] at c d
  generalize accumulate A ((ns / (ns + nn : ℝ), 0), (nn / (ns + nn : ℝ), 0)) ps = q at a b c d
  rw [if_neg (by rw [not_or, not_le, not_le]; exact ⟨a, b⟩)]
  have lg : ∀ (x : ℝ) (e : ℤ), 0 < x → Real.log x + e * Real.log 2 = Real.log (x * 2 ^ e) := by
    intro x e hx
    rw [Real.log_mul hx.ne' (by positivity), Real.log_zpow]
  have q1 := prod_range ps hp
  have q2 := prod_range _ (map_range ps hp)
  have g1 : (ns : ℝ) / (ns + nn) ≤ 1 := by rw [div_le_one (by positivity)]; linarith
  have g2 : (nn : ℝ) / (ns + nn) ≤ 1 := by rw [div_le_one (by positivity)]; linarith
  have l1 : Real.log ((ns : ℝ) / (ns + nn) * (ps.map fun p => 1 - p).prod) ≤ 0 :=
    Real.log_nonpos (mul_nonneg f1.le q2.1.le) (mul_le_one₀ g1 q2.1.le q2.2)
  have l2 : Real.log ((nn : ℝ) / (ns + nn) * ps.prod) ≤ 0 :=
    Real.log_nonpos (mul_nonneg f2.le q1.1.le) (mul_le_one₀ g2 q1.1.le q1.2)
  rw [lg _ _ a, lg _ _ b, c, d]
  rw [show ∀ x : ℝ, -2 * x = 2 * (-x) from fun x => by ring, show ∀ x : ℝ, -2 * x = 2 * (-x) from fun x => by ring,
    chi2Q_val E (by linarith), chi2Q_val E (by linarith)]
  unfold fisher
  congr 1
  ring

/-- Exchanging spam and ham and complementing every probability complements the score. -/
theorem C48_symmetric (A : Arith) (E : Exact A) (ns nn : Nat) (hs : 0 < ns) (hn : 0 < nn) (ps : List ℝ)
    (hp : ∀ p ∈ ps, 0 < p ∧ p < 1) (r : ℝ) (h : combine A ns nn ps = some r) :
    combine A nn ns (ps.map fun p => 1 - p) = some (1 - r) := by
  rw [C48_value A E ns nn hs hn ps hp] at h
  rw [C48_value A E nn ns hn hs _ (map_range ps hp), ← Option.some.inj h]
  unfold fisher
  rw [List.map_map, List.length_map]
  have : (ps.map ((fun p : ℝ => 1 - p) ∘ fun p => 1 - p)) = ps := by
    conv_rhs => rw [← List.map_id ps]
    apply List.map_congr_left
    intro p _
    simp
  rw [this, add_comm (nn : ℝ) ns]
  congr 1
  ring

/-- A token with a higher probability of spam in place of another does not lower the score. -/
theorem C48_monotone (A : Arith) (E : Exact A) (ns nn : Nat) (hs : 0 < ns) (hn : 0 < nn) (ps qs : List ℝ)
    (hp : ∀ p ∈ ps, 0 < p ∧ p < 1) (hq : ∀ q ∈ qs, 0 < q ∧ q < 1) (hle : List.Forall₂ (· ≤ ·) ps qs)
    (r r' : ℝ) (h : combine A ns nn ps = some r) (h' : combine A ns nn qs = some r') : r ≤ r' := by
  rw [C48_value A E ns nn hs hn ps hp] at h
  rw [C48_value A E ns nn hs hn qs hq] at h'
  rw [← Option.some.inj h, ← Option.some.inj h']
  have hns : (0 : ℝ) < ns := by exact_mod_cast hs
  have hnn : (0 : ℝ) < nn := by exact_mod_cast hn
  have f1 : 0 < (ns : ℝ) / (ns + nn) := by positivity
  have f2 : 0 < (nn : ℝ) / (ns + nn) := by positivity
  have g1 : (ns : ℝ) / (ns + nn) ≤ 1 := by rw [div_le_one (by positivity)]; linarith
  have g2 : (nn : ℝ) / (ns + nn) ≤ 1 := by rw [div_le_one (by positivity)]; linarith
  have prods : ps.prod ≤ qs.prod ∧ (qs.map fun p => 1 - p).prod ≤ (ps.map fun p => 1 - p).prod := by
    clear h h'
    induction hle with
    | nil => simp
    | @cons p q ps qs hpq _ ih =>
      have hp0 := hp p List.mem_cons_self
      have hq0 := hq q List.mem_cons_self
      have tp : ∀ x ∈ ps, 0 < x ∧ x < 1 := fun x hx => hp x (List.mem_cons_of_mem _ hx)
      have tq : ∀ x ∈ qs, 0 < x ∧ x < 1 := fun x hx => hq x (List.mem_cons_of_mem _ hx)
      obtain ⟨i1, i2⟩ := ih tp tq
      have a1 := prod_range ps tp
      have a2 := prod_range _ (map_range qs tq)
      simp only [List.prod_cons, List.map_cons]
      exact ⟨mul_le_mul hpq i1 a1.1.le hq0.1.le, mul_le_mul (by linarith) i2 a2.1.le (by linarith [hp0.2])⟩
  have p1 := prod_range ps hp
  have p2 := prod_range _ (map_range ps hp)
  have p3 := prod_range qs hq
  have p4 := prod_range _ (map_range qs hq)
  unfold fisher
  rw [← hle.length_eq]
  have t1 := tail_anti ps.length (a := -Real.log (nn / (ns + nn : ℝ) * qs.prod))
    (b := -Real.log (nn / (ns + nn : ℝ) * ps.prod))
    (neg_nonneg.2 (Real.log_nonpos (mul_nonneg f2.le p3.1.le) (mul_le_one₀ g2 p3.1.le p3.2)))
    (neg_le_neg (Real.log_le_log (mul_pos f2 p1.1) (mul_le_mul_of_nonneg_left prods.1 f2.le)))
  have t2 := tail_anti ps.length (a := -Real.log (ns / (ns + nn : ℝ) * (ps.map fun p => 1 - p).prod))
    (b := -Real.log (ns / (ns + nn : ℝ) * (qs.map fun p => 1 - p).prod))
    (neg_nonneg.2 (Real.log_nonpos (mul_nonneg f1.le p2.1.le) (mul_le_one₀ g1 p2.1.le p2.2)))
    (neg_le_neg (Real.log_le_log (mul_pos f1 p4.1) (mul_le_mul_of_nonneg_left prods.2 f1.le)))
  linarith

/-! ## C49 -/

private theorem sorted_strength (pw : Dict Str Rat) :
    (sortedBy (fun a b : Str × Rat => decide (strength a.2 < strength b.2)) pw).Pairwise
      (fun a b => strength a.2 ≤ strength b.2) := by
  have := sortedBy_pairwise (fun a b : Str × Rat => decide (strength a.2 < strength b.2))
    (by
      intro a b c h1 h2
      simp only [decide_eq_false_iff_not, not_lt] at *
      exact h1.trans h2)
    (by
      intro a b h
      simp only [decide_eq_true_eq, decide_eq_false_iff_not, not_lt] at *
      exact h.le) pw
  exact this.imp (by intro a b h; simpa using h)

/-- The tokens that are used are the weakest: a token that is strong enough and is not used is at least as
strong as every token that is used. -/
theorem C49_weakest_violated (pw : Dict Str Rat) (x y : Str × Rat) (hx : x ∈ chosen pw) (hy : y ∈ pw)
    (hs : minStrength ≤ strength y.2) (hn : y ∉ chosen pw) : strength x.2 ≤ strength y.2 := by
  unfold chosen at hx hn
  rw [List.mem_filter] at hx hn
  have hl := sorted_strength pw
  have hm : y ∈ sortedBy (fun a b : Str × Rat => decide (strength a.2 < strength b.2)) pw :=
    (sortedBy_perm _ pw).symm.subset hy
  generalize sortedBy (fun a b : Str × Rat => decide (strength a.2 < strength b.2)) pw = l at hx hn hl hm
  rw [← List.take_append_drop nSignificant l] at hl hm
  rcases List.mem_append.1 hm with hm | hm
  · exact absurd ⟨hm, by simp [hs]⟩ hn
  · exact (List.pairwise_append.1 hl).2.2 x hx.1 y hm

/-- With more tokens than the limit, a token stronger than all the others is not used. -/
theorem C49_strongest_violated (pw : Dict Str Rat) (x : Str × Rat) (hx : x ∈ pw)
    (hmax : ∀ y ∈ pw, y ≠ x → strength y.2 < strength x.2) (hd : pw.Nodup) (hlen : nSignificant < pw.length) :
    x ∉ chosen pw := by
  intro h
  unfold chosen at h
  rw [List.mem_filter] at h
  have hl := sorted_strength pw
  have hp := sortedBy_perm (fun a b : Str × Rat => decide (strength a.2 < strength b.2)) pw
  generalize sortedBy (fun a b : Str × Rat => decide (strength a.2 < strength b.2)) pw = l at h hl hp
  have hnd : l.Nodup := hp.nodup_iff.2 hd
  rw [← List.take_append_drop nSignificant l] at hl hnd
  cases hdr : l.drop nSignificant with
  | nil =>
    rw [List.drop_eq_nil_iff] at hdr
    rw [hp.length_eq] at hdr
    omega
  | cons y ys =>
    have hy : y ∈ l.drop nSignificant := by rw [hdr]; exact List.mem_cons_self
    have h1 := (List.pairwise_append.1 hl).2.2 x h.1 y hy
    have hne : y ≠ x := by
      intro e
      subst e
      exact (List.nodup_append.1 hnd).2.2 _ h.1 _ hy rfl
    have h2 := hmax y (hp.subset (List.mem_of_mem_drop hy)) hne
    exact absurd h1 (not_le.2 h2)

private theorem table_eq (hapaxes : Bool) (ns nn : Nat) (hs : 0 < ns) (hn : 0 < nn) (rows : List Row)
    (hd : (rows.map Row.token).Nodup) (f : Row → Rat) (hf : ∀ r ∈ rows, tokenProb hapaxes ns nn r = some (f r)) :
    table hapaxes ns nn rows = some (rows.map fun r => (r.token, f r)) := by
  unfold table allProbs
  rw [if_neg (by omega)]
  simp only
  congr 1
  have h1 : (rows.map (tokenProb hapaxes ns nn)).filterMap id = rows.map f := by
    clear hd
    induction rows with
    | nil => rfl
    | cons r rows ih =>
      rw [List.map_cons, hf r List.mem_cons_self, List.filterMap_cons]
      show f r :: (rows.map (tokenProb hapaxes ns nn)).filterMap id = _
      rw [ih fun q hq => hf q (List.mem_cons_of_mem _ hq), List.map_cons]
  rw [h1]
  clear h1 hf
  have key : ∀ (rows : List Row) (d : Dict Str Rat), (Dict.keys d ++ rows.map Row.token).Nodup →
      (rows.zip (rows.map f)).foldl (fun d x => Dict.set d x.1.token x.2) d =
        d ++ rows.map fun r => (r.token, f r) := by
    intro rows
    induction rows with
    | nil => intro d _; simp
    | cons r rows ih =>
      intro d hd
      simp only [List.map_cons, List.zip_cons_cons, List.foldl_cons]
      have hnm : r.token ∉ Dict.keys d := by
        intro hm
        exact (List.nodup_append.1 hd).2.2 _ hm _ List.mem_cons_self rfl
      rw [Dict.set_of_not_mem d _ hnm, ih]
      · simp
      · simpa [Dict.keys] using hd
  simpa using key rows [] (by simpa [Dict.keys] using hd)

/-- With at most 150 known tokens, none of them skipped, the tokens used are exactly those that are strong
enough, each with its own probability.  Missing: more tokens (`C49_strongest_violated`) and skipped ones
(`C49_misaligned_violated`). -/
theorem C49_few_partial (hapaxes : Bool) (ns nn : Nat) (hs : 0 < ns) (hn : 0 < nn) (rows : List Row)
    (hd : (rows.map Row.token).Nodup) (hlen : rows.length ≤ 150)
    (hk : ∀ r ∈ rows, tokenProb hapaxes ns nn r ≠ none) :
    ∃ pw, table hapaxes ns nn rows = some pw ∧
      ∀ t p, (t, p) ∈ chosen pw ↔
        ∃ r ∈ rows, r.token = t ∧ tokenProb hapaxes ns nn r = some p ∧ 346 / 1000 ≤ |p - 1 / 2| := by
  have hf : ∀ r ∈ rows, tokenProb hapaxes ns nn r = some ((tokenProb hapaxes ns nn r).getD 0) := by
    intro r hr
    cases h : tokenProb hapaxes ns nn r with
    | none => exact absurd h (hk r hr)
    | some p => rfl
  have hstr : ∀ p, strength p = |p - 1 / 2| := by
    intro p
    unfold strength
    split
    · rename_i h; rw [abs_of_neg h]; ring
    · rename_i h; rw [abs_of_nonneg (not_lt.1 h)]
  refine ⟨_, table_eq hapaxes ns nn hs hn rows hd _ hf, ?_⟩
  intro t p
  unfold chosen
  have hp := sortedBy_perm (fun a b : Str × Rat => decide (strength a.2 < strength b.2))
    (rows.map fun r => (r.token, (tokenProb hapaxes ns nn r).getD 0))
  rw [List.take_of_length_le (by rw [hp.length_eq, List.length_map]; exact hlen), List.mem_filter, hp.mem_iff,
    List.mem_map]
  simp only [Bool.not_eq_true', decide_eq_false_iff_not, not_lt, hstr, minStrength, Prod.mk.injEq]
  constructor
  · rintro ⟨⟨r, hr, h1, h2⟩, h3⟩
    exact ⟨r, hr, h1, by rw [hf r hr, h2], h3⟩
  · rintro ⟨r, hr, h1, h2, h3⟩
    exact ⟨⟨r, hr, h1, by rw [h2]; rfl⟩, h3⟩

/-- **C49** is violated: a known token that is skipped shifts the probabilities: a first token that is skipped, since it was seen once, gets the
probability of the second one. -/
theorem C49_misaligned_violated (hapaxes : Bool) (ns nn : Nat) (hs : ns ≠ 0) (hn : nn ≠ 0) (r r' : Row) (rows : List Row) (p : Rat)
    (h : tokenProb hapaxes ns nn r = none) (h' : tokenProb hapaxes ns nn r' = some p)
    (hne : r.token ∉ (r' :: rows).map Row.token) :
    ∃ d, table hapaxes ns nn (r :: r' :: rows) = some d ∧ Dict.get? d r.token = some p := by
  have hset : ∀ (l : List (Row × Rat)) (d : Dict Str Rat), (∀ x ∈ l, x.1.token ≠ r.token) →
      Dict.get? (l.foldl (fun d x => Dict.set d x.1.token x.2) d) r.token = Dict.get? d r.token := by
    intro l
    induction l with
    | nil => intro d _; rfl
    | cons x l ih =>
      intro d hx
      rw [List.foldl_cons, ih _ (fun y hy => hx y (List.mem_cons_of_mem _ hy)),
        Dict.get?_set_ne _ _ (hx x (List.mem_cons_self ..))]
  have ht : table hapaxes ns nn (r :: r' :: rows) = some (((r :: r' :: rows).zip (((r :: r' :: rows).map (tokenProb hapaxes ns nn)).filterMap id)).foldl
      (fun d x => Dict.set d x.1.token x.2) []) := by
    unfold table allProbs
    rw [if_neg (by simp [hs, hn])]
  refine ⟨_, ht, ?_⟩
  · simp only [List.map_cons, h, h', List.filterMap_cons, id, List.zip_cons_cons, List.foldl_cons]
    rw [hset]
    · exact Dict.get?_set_self _ _ _
    · intro x hx e
      exact hne (e ▸ List.mem_map_of_mem (f := Row.token) (List.of_mem_zip hx).1)

/-- Here the second token then has none. -/
example :
    table false 200 200 [⟨c!"once", 0, 1⟩, ⟨c!"pills", 100, 0⟩] =
      (tokenProb false 200 200 ⟨c!"pills", 100, 0⟩).map fun p => [(c!"once", p)] := by
  rfl

/-! ## C63 -/

/-- If adjacent bands cover the range of the scores, a score above the lowest bound is in exactly one. -/
theorem C63_one_band_partial (bounds : List Rat) (hb : bounds.Pairwise (· < ·)) (a z : Rat)
    (ha : bounds.head? = some a) (hz : bounds.getLast? = some z) (ha0 : 0 ≤ a) (x : Rat) (h1 : a < x) (h2 : x ≤ z) :
    ((bounds.zip bounds.tail).filter fun b => checkBayes true true true (some x) b.1 (some b.2)).length = 1 := by
  have hx0 : x ≠ 0 := (lt_of_le_of_lt ha0 h1).ne'
  have none_in : ∀ (l : List Rat) (a : Rat), (a :: l).Pairwise (· < ·) → x ≤ a →
      (((a :: l).zip l).filter fun b => checkBayes true true true (some x) b.1 (some b.2)) = [] := by
    intro l
    induction l with
    | nil => intros; rfl
    | cons b l ih =>
      intro a hp hxa
      rw [List.zip_cons_cons, List.filter_cons, if_neg]
      · exact ih b (List.pairwise_cons.1 hp).2 (hxa.trans (List.rel_of_pairwise_cons hp List.mem_cons_self).le)
      · simp [checkBayes, not_lt.2 hxa]
  cases bounds with
  | nil => cases ha
  | cons a' l =>
    simp only [List.head?_cons, Option.some.injEq] at ha
    subst ha
    clear ha0
    rw [List.tail_cons]
    induction l generalizing a' with
    | nil =>
      simp at hz
      subst hz
      exact absurd h1 (not_lt.2 h2)
    | cons b l ih =>
      have hp' := (List.pairwise_cons.1 hb).2
      rw [List.zip_cons_cons, List.filter_cons]
      by_cases hxb : x ≤ b
      · rw [if_pos (by simp [checkBayes, hx0, h1, hxb]), none_in l b hp' hxb]
        rfl
      · rw [if_neg (by simp [checkBayes, hxb])]
        exact ih b hp' (by simpa using hz) (not_le.1 hxb)

/-- A message with score 0, the least spammy of all, is in no band at all. -/
theorem C63_zero_violated (lo : Rat) (hi : Option Rat) : checkBayes true true true (some 0) lo hi = false := by
  simp [checkBayes]

/-- No band is hit without a score, or when any of the three switches is off. -/
theorem C63_switches (l b r : Bool) (s : Option Rat) (lo : Rat) (hi : Option Rat)
    (h : checkBayes l b r s lo hi = true) :
    l = true ∧ b = true ∧ r = true ∧ ∃ x, s = some x ∧ lo < x ∧ ∀ y, hi = some y → x ≤ y := by
  cases l <;> cases b <;> cases r <;> try (simp [checkBayes] at h; done)
  cases s with
  | none => simp [checkBayes] at h
  | some x =>
    cases hi with
    | none =>
      simp [checkBayes] at h
      exact ⟨rfl, rfl, rfl, x, rfl, h.2, fun y hy => nomatch hy⟩
    | some y =>
      simp [checkBayes] at h
      exact ⟨rfl, rfl, rfl, x, rfl, h.2.1, fun y' hy => by rw [← Option.some.inj hy]; exact h.2.2⟩

/-! ## The hypotheses can be met -/

/-- Arithmetic without rounding, with a `frexp` that need not do anything. -/
noncomputable def plain : Arith := ⟨fun x => x, Real.log, Real.exp, fun x => (x, 0)⟩

theorem plain_exact : Exact plain where
  rnd := fun _ => rfl
  log := fun _ => rfl
  exp := fun _ => rfl
  frexpVal := fun x _ => by simp [plain]

theorem plain_lawful : Lawful plain where
  mono := fun _ _ h => h
  rnd0 := rfl
  rnd1 := rfl
  rnd2 := rfl
  rndm1 := rfl
  logNonpos := fun x h h' => Real.log_nonpos h.le h'
  log2 := Real.log_nonneg (by norm_num)
  expNonneg := fun x => Real.exp_nonneg x
  frexpPos := fun x h h' => ⟨h, h'.le, le_rfl⟩
  frexp0 := rfl

example : ∃ r, combine plain 300 500 [9 / 10, 99 / 100, 1 / 10] = some r ∧ 0 ≤ r ∧ r ≤ 1 := by
  have hp : ∀ p ∈ ([9 / 10, 99 / 100, 1 / 10] : List ℝ), 0 < p ∧ p < 1 := by
    intro p hp
    simp only [List.mem_cons, List.not_mem_nil, or_false] at hp
    rcases hp with rfl | rfl | rfl <;> norm_num
  have h := C48_value plain plain_exact 300 500 (by norm_num) (by norm_num) _ hp
  exact ⟨_, h, C48_range plain plain_lawful 300 500 _ (fun p h => ⟨(hp p h).1.le, (hp p h).2.le⟩) _ h⟩

/-- One of `[0, 0.01], ..., [0.99, 1]`. -/
example : ((([0, 1 / 100, 1 / 2, 99 / 100, 1] : List Rat).zip [1 / 100, 1 / 2, 99 / 100, 1]).filter fun b =>
    checkBayes true true true (some (3 / 4)) b.1 (some b.2)) = [(1 / 2, 99 / 100)] := by decide +kernel

/-- 150 weak tokens and a strong one. -/
private def many : Dict Str Rat :=
  (c!"strong", 999 / 1000) :: (List.range 150).map fun i => (List.replicate i 'x', 9 / 10)

example : many.Nodup ∧ nSignificant < many.length ∧ (c!"strong", (999 / 1000 : Rat)) ∈ many ∧
    (c!"strong", (999 / 1000 : Rat)) ∉ chosen many := by
  have hd : many.Nodup := by
    unfold many
    rw [List.nodup_cons]
    constructor
    · intro h
      obtain ⟨i, _, h⟩ := List.mem_map.1 h
      have := congrArg Prod.snd h
      norm_num at this
    · refine List.Pairwise.map _ ?_ List.nodup_range
      intro a b hab h
      apply hab
      have := congrArg (fun x : Str × Rat => x.1.length) h
      simpa using this
  have hl : nSignificant < many.length := by simp [many, nSignificant]
  have hm : (c!"strong", (999 / 1000 : Rat)) ∈ many := List.mem_cons_self
  refine ⟨hd, hl, hm, C49_strongest_violated many _ hm ?_ hd hl⟩
  intro y hy hne
  rcases List.mem_cons.1 hy with h | h
  · exact absurd h hne
  · obtain ⟨i, _, h⟩ := List.mem_map.1 h
    rw [← h]
    norm_num [strength]

/-- Two tokens, one of them too weak to count. -/
example : (table true 200 200 [⟨c!"pills", 100, 0⟩, ⟨c!"hello", 10, 9⟩]).map (fun pw => (chosen pw).map Prod.fst) =
    some [c!"pills"] := by decide +kernel

example : tokenProb true 200 300 ⟨c!"pills", 3, 4⟩ ≠ none ∧ tokenProb true 200 300 ⟨c!"pills", 5, 4⟩ ≠ none := by
  decide +kernel

end Verif.Props
