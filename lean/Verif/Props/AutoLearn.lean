import Verif.Spec.AutoLearn
import Mathlib.Tactic.Ring
import Mathlib.Tactic.Linarith
import Mathlib.Algebra.Order.Field.Rat

/-!
# C53: automatic learning
-/

namespace Verif.Props
open Verif Py AutoLearn

theorem valid_counts (r : LRule) :
    (!(decide (r.score = 0) || r.tflags.any fun f => decide (f ∈ [c!"noautolearn", c!"userconf"]))) =
      decide (Counts r) := by
  rw [Bool.eq_iff_iff, decide_eq_true_iff]
  simp only [Bool.not_eq_true', Bool.or_eq_false_iff, decide_eq_false_iff_not, List.any_eq_false, decide_eq_true_eq,
    List.mem_cons, List.not_mem_nil, or_false, not_or]
  unfold Counts
  constructor
  · intro h
    exact ⟨h.1, fun hm => (h.2 _ hm).1 rfl, fun hm => (h.2 _ hm).2 rfl⟩
  · intro h
    exact ⟨h.1, fun f hf => ⟨fun e => h.2.1 (e ▸ hf), fun e => h.2.2 (e ▸ hf)⟩⟩

theorem sumOf_cons (r : LRule) (rs : List LRule) (P : LRule → Bool) :
    sumOf (r :: rs) P = (if decide (Counts r) && P r then r.score else 0) + sumOf rs P := by
  unfold sumOf
  rw [List.filter_cons]
  split <;> simp

/-- The loop computes the sums. -/
theorem points_acc (tests : Dict Str LRule) (a : Points) :
    (validTests tests).foldl (fun a p => addTest a p.2) a =
      ⟨a.header + sumOf (tests.map Prod.snd) onHeader, a.body + sumOf (tests.map Prod.snd) onBody,
       a.learned + sumOf (tests.map Prod.snd) isLearner,
       a.points + sumOf (tests.map Prod.snd) (fun r => !isLearner r),
       a.forced || (tests.map Prod.snd).any fun r => decide (Counts r) && !isLearner r &&
         decide (c!"autolearn_force" ∈ r.tflags)⟩ := by
  induction tests generalizing a with
  | nil => simp [validTests, sumOf]
  | cons p tests ih =>
    obtain ⟨n, r⟩ := p
    have hv : validTests ((n, r) :: tests) =
        if Counts r then (n, r) :: validTests tests else validTests tests := by
      unfold validTests
      rw [List.filter_cons, valid_counts]
      simp
    rw [hv]
    simp only [List.map_cons, sumOf_cons, List.any_cons]
    by_cases hc : Counts r
    · rw [if_pos hc, List.foldl_cons, ih]
      simp only [hc, decide_true, Bool.true_and]
      unfold addTest
      simp only [Points.mk.injEq]
      by_cases hl : c!"learn" ∈ r.tflags <;> by_cases hn : c!"net" ∈ r.tflags <;>
        by_cases h1 : r.kind = c!"header" <;> by_cases h2 : r.kind = c!"body" <;>
        by_cases h3 : r.kind = c!"uri" <;> by_cases h4 : r.kind = c!"meta" <;>
        simp_all [onHeader, onBody, isLearner, add_assoc, Bool.or_assoc]
    · rw [if_neg hc, ih]
      simp [hc]

theorem points_eq (tests : Dict Str LRule) :
    points tests =
      ⟨sumOf (tests.map Prod.snd) onHeader, sumOf (tests.map Prod.snd) onBody, sumOf (tests.map Prod.snd) isLearner,
       sumOf (tests.map Prod.snd) (fun r => !isLearner r),
       (tests.map Prod.snd).any fun r => decide (Counts r) && !isLearner r &&
         decide (c!"autolearn_force" ∈ r.tflags)⟩ := by
  unfold points
  rw [points_acc]
  simp

theorem forced_iff (tests : Dict Str LRule) : (points tests).forced = true ↔ Forced (tests.map Prod.snd) := by
  rw [points_eq]
  simp only [List.any_eq_true, Bool.and_eq_true, decide_eq_true_eq, Bool.not_eq_true', isLearner,
    decide_eq_false_iff_not, Forced, and_assoc]

/-- A message is learned as spam exactly if the Bayes plugin is loaded, the points, the minimums, the learner's
points and the score allow it, and learning on error only does not forbid it.  Missing: the points are those of
all rules of the ruleset, not of the rules the message matched (`C53_unmatched_violated`). -/
theorem C53_spam_partial (c : Conf) (bayes : Bool) (checked : Dict Str LRule) (score : Rat) :
    discriminate c bayes checked score = some .spam ↔
      bayes = true ∧ SpamCase c (checked.map Prod.snd) score ∧
      ¬ (c.onError = true ∧ Dict.has checked c!"BAYES_99" = true) := by
  have hp := points_eq checked
  have hf := forced_iff checked
  have key : SpamCase c (checked.map Prod.snd) score ↔
      c.spam ≤ (points checked).points ∧ ¬ (points checked).header < minPoints (points checked).forced ∧
      ¬ (points checked).body < minPoints (points checked).forced ∧ ¬ (points checked).learned < -1 ∧
      ¬ score ≤ c.required := by
    have e1 : (points checked).points = sumOf (checked.map Prod.snd) (fun r => !isLearner r) := by rw [hp]
    have e2 : (points checked).header = sumOf (checked.map Prod.snd) onHeader := by rw [hp]
    have e3 : (points checked).body = sumOf (checked.map Prod.snd) onBody := by rw [hp]
    have e4 : (points checked).learned = sumOf (checked.map Prod.snd) isLearner := by rw [hp]
    rw [e1, e2, e3, e4]
    have hmin : ∀ x : Rat, ¬ x < minPoints (points checked).forced ↔
        (3 ≤ x ∨ (Forced (checked.map Prod.snd) ∧ -99 ≤ x)) := by
      intro x
      unfold minPoints
      cases hfv : (points checked).forced with
      | true =>
        rw [hfv] at hf
        have := hf.1 rfl
        simp only [if_true, not_lt]
        constructor
        · intro h; exact Or.inr ⟨this, h⟩
        · rintro (h | h)
          · linarith
          · exact h.2
      | false =>
        rw [hfv] at hf
        have : ¬ Forced (checked.map Prod.snd) := fun h => by simpa using hf.2 h
        simp [this]
    rw [hmin, hmin]
    constructor
    · rintro ⟨h1, h2, h3, h4, h5⟩
      exact ⟨h1, h2, h3, not_lt.2 h4, not_le.2 h5⟩
    · rintro ⟨h1, h2, h3, h4, h5⟩
      exact ⟨h1, h2, h3, not_lt.1 h4, not_le.1 h5⟩
  rw [key]
  unfold discriminate shouldLearn bayesAgrees
  by_cases h1 : c.spam ≤ (points checked).points
  · by_cases h2 : (points checked).header < minPoints (points checked).forced <;>
      by_cases h3 : (points checked).body < minPoints (points checked).forced <;>
      by_cases h4 : (points checked).learned < -1 <;> by_cases h5 : score ≤ c.required <;>
      cases bayes <;> cases c.onError <;> cases Dict.has checked c!"BAYES_99" <;> simp [h1, h2, h3, h4, h5]
  · simp [h1]

/-- The decision that a message below the spam threshold should be learned (it can only be ham) is taken exactly
below the ham threshold, with the learner's points and the score allowing it.  Nothing comes of it
(`C53_never_ham`). -/
theorem C53_ham_decision_partial (c : Conf) (checked : Dict Str LRule) (score : Rat)
    (h : sumOf (checked.map Prod.snd) (fun r => !isLearner r) < c.spam) :
    shouldLearn c checked score = true ↔
      HamCase c (checked.map Prod.snd) score ∧ ¬ (c.onError = true ∧ Dict.has checked c!"BAYES_00" = true) := by
  have hp := points_eq checked
  have e1 : (points checked).points = sumOf (checked.map Prod.snd) (fun r => !isLearner r) := by rw [hp]
  have e4 : (points checked).learned = sumOf (checked.map Prod.snd) isLearner := by rw [hp]
  have key : HamCase c (checked.map Prod.snd) score ↔ (points checked).points < c.nonspam ∧
      ¬ (points checked).learned > 1 ∧ ¬ score ≥ c.required := by
    rw [e1, e4]
    constructor
    · rintro ⟨h1, h2, h3⟩
      exact ⟨h1, not_lt.2 h2, not_le.2 h3⟩
    · rintro ⟨h1, h2, h3⟩
      exact ⟨h1, not_lt.1 h2, not_le.1 h3⟩
  rw [← e1] at h
  have h' : ¬ c.spam ≤ (points checked).points := not_le.2 h
  rw [key]
  unfold shouldLearn bayesAgrees
  by_cases h1 : (points checked).points < c.nonspam <;> by_cases h2 : (points checked).learned > 1 <;>
    by_cases h3 : score ≥ c.required <;> cases c.onError <;> cases Dict.has checked c!"BAYES_00" <;>
    simp [h', h1, h2, h3]

/-- No message is ever learned as ham.  (So it is never learned as ham at or above the ham threshold; but the
branch that learns ham has the condition of the branch that learns spam.) -/
theorem C53_never_ham (c : Conf) (bayes : Bool) (checked : Dict Str LRule) (score : Rat) :
    discriminate c bayes checked score ≠ some .ham := by
  unfold discriminate
  split
  · split <;> simp
  · simp

/-- The full property fails, for all rulesets and messages: what is learned depends on the rules of the ruleset alone.  As long as their scores
are above the required score, all messages are learned alike, whatever rules they matched. -/
theorem C53_alike_violated (c : Conf) (bayes : Bool) (checked : Dict Str LRule) (s₁ s₂ : Rat) (h₁ : c.required < s₁) (h₂ : c.required < s₂) :
    discriminate c bayes checked s₁ = discriminate c bayes checked s₂ := by
  have hs : shouldLearn c checked s₁ = shouldLearn c checked s₂ := by
    unfold shouldLearn
    simp only [not_le.mpr h₁, not_le.mpr h₂, ge_iff_le, h₁.le, h₂.le, if_true, if_false]
  unfold discriminate
  rw [hs]

/-- So a message is learned as spam because of rules that it did not match: whenever some message is, every other one above the required
score is, although the points of the rules that it matched do not allow it. -/
theorem C53_unmatched_violated (c : Conf) (bayes : Bool) (checked : Dict Str LRule) (score₀ : Rat) (h₀ : discriminate c bayes checked score₀ = some .spam)
    (names : List Str) (score : Rat) (hs : c.required < score) (_ : ¬ SpamCase c (matched checked names) score) :
    discriminate c bayes checked score = some .spam := by
  have hr : c.required < score₀ := by
    have := ((C53_spam_partial c bayes checked score₀).1 h₀).2.1.score
    exact this
  rw [C53_alike_violated c bayes checked score score₀ hs hr, h₀]

/-- And with negatively scored rules in the ruleset a message may match any number of spam rules without being learned: if the points of the whole
ruleset are below the threshold, no message is. -/
theorem C53_not_learned_violated (c : Conf) (bayes : Bool) (checked : Dict Str LRule)
    (hp : sumOf (checked.map Prod.snd) (fun r => !isLearner r) < c.spam) (names : List Str) (score : Rat)
    (_ : SpamCase c (matched checked names) score) : discriminate c bayes checked score = none := by
  cases h : discriminate c bayes checked score with
  | none => rfl
  | some a =>
    cases a with
    | spam => exact absurd ((C53_spam_partial c bayes checked score).1 h).2.1.points (not_le.mpr hp)
    | ham => exact absurd h (C53_never_ham c bayes checked score)

/-- A message that matched only a rule that says nothing about headers or body, and whose points do not reach the threshold, learned as spam. -/
example :
    ∃ (c : Conf) (checked : Dict Str LRule) (names : List Str) (score : Rat),
      score = ((matched checked names).map LRule.score).sum ∧
      discriminate c true checked score = some .spam ∧ ¬ SpamCase c (matched checked names) score := by
  refine ⟨⟨1/10, 12, false, 5⟩, [(c!"H", ⟨c!"header", 4, []⟩), (c!"B", ⟨c!"body", 4, []⟩), (c!"F", ⟨c!"full", 6, []⟩)],
    [c!"F"], 6, by decide +kernel, by decide +kernel, ?_⟩
  intro h
  have := h.points
  exact absurd this (by decide +kernel)

/-- A message that matched spam rules, and is not learned. -/
example :
    ∃ (c : Conf) (checked : Dict Str LRule) (names : List Str) (score : Rat),
      score = ((matched checked names).map LRule.score).sum ∧ c.onError = false ∧
      SpamCase c (matched checked names) score ∧ sumOf (checked.map Prod.snd) (fun r => !isLearner r) < c.spam ∧
      discriminate c true checked score = none := by
  refine ⟨⟨1/10, 12, false, 5⟩, [(c!"H", ⟨c!"header", 7, []⟩), (c!"B", ⟨c!"body", 7, []⟩),
    (c!"WHITE", ⟨c!"header", -100, []⟩)], [c!"H", c!"B"], 14, by decide +kernel, rfl, ?_, by decide +kernel, by decide +kernel⟩
  exact ⟨by decide +kernel, Or.inl (by decide +kernel), Or.inl (by decide +kernel), by decide +kernel,
    by decide +kernel⟩

/-! ## The hypotheses can be met -/

/-- A message learned as spam, by rules it matched. -/
example : discriminate ⟨1/10, 12, false, 5⟩ true
    [(c!"H", ⟨c!"header", 7, []⟩), (c!"B", ⟨c!"body", 7, []⟩), (c!"L", ⟨c!"body", 3, [c!"learn"]⟩)] 14 = some .spam := by
  decide +kernel

/-- The same with too few points from headers, unless forced. -/
example : discriminate ⟨1/10, 12, false, 5⟩ true [(c!"B", ⟨c!"body", 14, []⟩)] 14 = none ∧
    discriminate ⟨1/10, 12, false, 5⟩ true [(c!"B", ⟨c!"body", 14, [c!"autolearn_force"]⟩)] 14 = some .spam := by
  decide +kernel

end Verif.Props
