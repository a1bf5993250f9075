import Verif.Spec.HeaderRules
import Verif.Lemmas.Headers
import Verif.Lemmas.Context
import Verif.Lemmas.Split

/-!
# C101 to C106: rules about presence, subjects, senders and providers
-/

namespace Verif.Props
open Verif Py Mail HeaderRules

/-! ## C101 and C102: presence and number of headers -/

/-- **C101**.  The rule about missing recipients holds exactly if no header is named `To` or `Apparently-To`, in whatever case;
a header without text counts. -/
theorem C101_missing (hs : List (Str × Str)) (m : Msg) (h : m.raw = collect hs) :
    missingTo m = true ↔ ∀ p ∈ hs, lower p.1 ≠ c!"to" ∧ lower p.1 ≠ c!"apparently-to" := by
  have e : ∀ n, getRaw m n = [] ↔ ∀ p ∈ hs, lower p.1 ≠ lower n := by
    intro n
    rw [getRaw_eq h n, Spec.rawValues]
    simp
  unfold missingTo
  by_cases h1 : getRaw m c!"To" = []
  · by_cases h2 : getRaw m c!"Apparently-To" = []
    · simp only [h1, h2, ne_eq, not_true_eq_false, if_false, true_iff]
      exact fun p hp => ⟨(e _).mp h1 p hp, (e _).mp h2 p hp⟩
    · simp only [h1, h2, ne_eq, not_true_eq_false, if_false, not_false_eq_true, if_true, Bool.false_eq_true, false_iff]
      exact fun hh => h2 ((e _).mpr fun p hp => (hh p hp).2)
  · simp only [h1, ne_eq, not_false_eq_true, if_true, Bool.false_eq_true, false_iff]
    exact fun hh => h1 ((e _).mpr fun p hp => (hh p hp).1)

-- a message without such headers, and one with an empty one in another case
example : missingTo (Msg.ofHeaders [(c!"From", c!"a@b.example"), (c!"Cc", c!"x@y.example")] []) = true ∧
    missingTo (Msg.ofHeaders [(c!"From", c!"a@b.example"), (c!"TO", [])] []) = false := by decide +kernel

theorem eraseDups_distinct (l : List Str) (h : l.Nodup) : l.eraseDups = l := by
  induction l with
  | nil => rfl
  | cons a l ih =>
    rw [List.nodup_cons] at h
    rw [List.eraseDups_cons, List.filter_eq_self.mpr, ih h.2]
    intro x hx
    have : x ≠ a := fun e => h.1 (e ▸ hx)
    simp [this]

theorem eraseDups_equal (v : Str) (l : List Str) (h : ∀ x ∈ l, x = v) : (v :: l).eraseDups = [v] := by
  rw [List.eraseDups_cons, List.filter_eq_nil_iff.mpr]
  · rfl
  · intro x hx; simp [h x hx]

theorem countRange_exact (m : Msg) (n : Str) (lo hi : Int) :
    countRange m n (some lo) (some hi) = some (decide (lo ≤ ((getRaw m n).eraseDups.length : Int) ∧
      ((getRaw m n).eraseDups.length : Int) ≤ hi)) := by
  simp only [countRange]
  by_cases h : lo ≤ ((getRaw m n).eraseDups.length : Int)
  · simp [h]
  · simp [h]

/-- **C102** (partial).  If the headers of the name given have different values, the rule holds exactly if their number is in
the range, bounds included. -/
theorem C102_number_partial (hs : List (Str × Str)) (m : Msg) (h : m.raw = collect hs) (n : Str) (lo hi : Int)
    (hd : ((hs.filter (fun p => lower p.1 == lower n)).map Prod.snd).Nodup) :
    countRange m n (some lo) (some hi) =
      some (decide (lo ≤ ((hs.filter (fun p => lower p.1 == lower n)).length : Int) ∧
        ((hs.filter (fun p => lower p.1 == lower n)).length : Int) ≤ hi)) := by
  rw [countRange_exact, getRaw_eq h n, Spec.rawValues, eraseDups_distinct _ hd, List.length_map]

/-- **C102** is violated: headers with the same value count as one, however many there are. -/
theorem C102_same_violated (hs : List (Str × Str)) (m : Msg) (h : m.raw = collect hs) (n v : Str)
    (h0 : ∃ p ∈ hs, lower p.1 = lower n) (hv : ∀ p ∈ hs, lower p.1 = lower n → p.2 = v) (lo hi : Int) :
    countRange m n (some lo) (some hi) = some (decide (lo ≤ 1 ∧ 1 ≤ hi)) := by
  rw [countRange_exact, getRaw_eq h n, Spec.rawValues]
  have : ∀ x ∈ (hs.filter (fun p => lower p.1 == lower n)).map Prod.snd, x = v := by
    intro x hx
    obtain ⟨p, hp, rfl⟩ := List.mem_map.mp hx
    have := List.mem_filter.mp hp
    exact hv p this.1 (by simpa using this.2)
  have hne : (hs.filter (fun p => lower p.1 == lower n)).map Prod.snd ≠ [] := by
    obtain ⟨p, hp, e⟩ := h0
    exact List.ne_nil_of_mem (List.mem_map_of_mem (List.mem_filter.mpr ⟨hp, by simpa using e⟩))
  generalize (hs.filter (fun p => lower p.1 == lower n)).map Prod.snd = l at this hne
  cases l with
  | nil => exact absurd rfl hne
  | cons a l =>
    have ha := this a (by simp)
    subst ha
    rw [eraseDups_equal a l fun x hx => this x (List.mem_cons_of_mem _ hx)]
    rfl

-- two subjects, and twice the same subject, where two to four are asked for
example : countRange (Msg.ofHeaders [(c!"Subject", c!"a"), (c!"subject", c!"b")] []) c!"Subject" (some 2) (some 4) = some true ∧
    countRange (Msg.ofHeaders [(c!"Subject", c!"a"), (c!"subject", c!"a")] []) c!"Subject" (some 2) (some 4) = some false := by
  decide +kernel

/-! ## C103: subjects in capital letters -/

theorem strip_ends (s : Str) : (∀ c, (strip s).head? = some c → isSpace c = false) ∧
    (∀ c, (strip s).getLast? = some c → isSpace c = false) := by
  have hd : ∀ (s : Str) c, (s.dropWhile isSpace).head? = some c → isSpace c = false := by
    intro s
    induction s with
    | nil => intro c h; cases h
    | cons a s ih =>
      intro c h
      rw [List.dropWhile_cons] at h
      split at h
      · exact ih c h
      · cases h; simp_all
  unfold strip stripBy rstripBy lstripBy
  constructor
  · intro c h
    rw [List.head?_reverse] at h
    have : ((s.dropWhile isSpace).reverse.dropWhile isSpace).getLast? = (s.dropWhile isSpace).reverse.getLast? := by
      have hsuf := List.dropWhile_suffix isSpace (l := (s.dropWhile isSpace).reverse)
      obtain ⟨t, ht⟩ := hsuf
      generalize hx : (s.dropWhile isSpace).reverse.dropWhile isSpace = x at *
      rw [← ht, List.getLast?_append]
      rw [h]; rfl
    rw [this, List.getLast?_reverse] at h
    exact hd s c h
  · intro c h
    rw [List.getLast?_reverse] at h
    exact hd _ c h

theorem lower_prefix (k s : Str) (h : startsWith k (lower s) = true) : ∃ w t, s = w ++ t ∧ lower w = k := by
  rw [startsWith, List.isPrefixOf_iff_prefix] at h
  obtain ⟨t, ht⟩ := h
  have ht : s.map Char.toLower = k ++ t := ht.symm
  obtain ⟨w, t', e1, e2, _⟩ := List.map_eq_append_iff.mp ht
  exact ⟨w, t', e1, e2⟩

theorem marks_prefix : ∀ k ∈ marks, ∀ k' ∈ marks, k <+: k' → k = k' := by decide +kernel

theorem lower_append (a b : Str) : lower (a ++ b) = lower a ++ lower b := by simp [lower]

theorem dropMark_mark (w t : Str) (h : lower w ∈ marks) : dropMark (w ++ t) = t := by
  unfold dropMark
  have hp : startsWith (lower w) (lower (w ++ t)) = true := by
    rw [startsWith, List.isPrefixOf_iff_prefix, lower_append]; exact ⟨_, rfl⟩
  cases hf : marks.find? (fun k => startsWith k (lower (w ++ t))) with
  | none =>
    have := List.find?_eq_none.mp hf _ h
    exact absurd hp this
  | some k =>
    have hk := List.mem_of_find?_eq_some hf
    have hk' : startsWith k (lower (w ++ t)) = true := List.find?_some (p := fun k => startsWith k (lower (w ++ t))) hf
    rw [startsWith, List.isPrefixOf_iff_prefix] at hp hk'
    have : k = lower w := by
      rcases List.prefix_or_prefix_of_prefix hk' hp with h1 | h1
      · exact marks_prefix _ hk _ h h1
      · exact (marks_prefix _ h _ hk h1).symm
    subst this
    simp [lower]

theorem dropMark_unmarked (s : Str) : Unmarked s (dropMark s) := by
  unfold dropMark
  cases hf : marks.find? (fun k => startsWith k (lower s)) with
  | none =>
    refine .plain s fun w t hw e => ?_
    have := List.find?_eq_none.mp hf _ hw
    apply this
    rw [e, startsWith, List.isPrefixOf_iff_prefix, lower_append]
    exact ⟨_, rfl⟩
  | some k =>
    have hk := List.mem_of_find?_eq_some hf
    obtain ⟨w, t, rfl, hw⟩ := lower_prefix k s (List.find?_some (p := fun k => startsWith k (lower s)) hf)
    subst hw
    have : (w ++ t).drop (lower w).length = t := by simp [lower]
    simp only [this]
    exact .mark w t hk

theorem unmarked_unique (s t : Str) (h : Unmarked s t) : t = dropMark s := by
  cases h with
  | mark w t h => exact (dropMark_mark w t h).symm
  | plain s h =>
    unfold dropMark
    cases hf : marks.find? (fun k => startsWith k (lower s)) with
    | none => rfl
    | some k =>
      obtain ⟨w, t, e, hw⟩ := lower_prefix k s (List.find?_some (p := fun k => startsWith k (lower s)) hf)
      exact absurd e (h w t (hw ▸ List.mem_of_find?_eq_some hf))

theorem caps_one (up low : Char → Bool) (t : Str) : Caps up low t ↔
    ¬ (strip t).length < 10 ∧ ¬ (splitWs (strip t)).length = 1 ∧ isUpperText up low (strip t) = true := by
  unfold Caps isUpperText
  simp only [Bool.and_eq_true, List.any_eq_true, List.all_eq_true, Bool.not_eq_true']
  constructor
  · rintro ⟨h1, ⟨c, hc, hs⟩, h3, h4⟩
    refine ⟨by omega, fun h => ?_, h3, h4⟩
    have := (splitWs_one (strip t) (List.ne_nil_of_mem hc) (strip_ends t).1 (strip_ends t).2).mp h c hc
    rw [hs] at this; cases this
  · rintro ⟨h1, h2, h3, h4⟩
    refine ⟨by omega, ?_, h3, h4⟩
    refine Classical.byContradiction fun hn => h2 ?_
    obtain ⟨c, hc, _⟩ := h3
    refine (splitWs_one (strip t) (List.ne_nil_of_mem hc) (strip_ends t).1 (strip_ends t).2).mpr fun x hx => ?_
    cases hx' : isSpace x with
    | false => rfl
    | true => exact absurd ⟨x, hx, hx'⟩ hn

/-- **C103** (partial).  If all subjects can be decoded, the rule holds exactly if one of them, without the mark of a reply or
a forwarded message it begins with, is in capital letters. -/
theorem C103_exact_partial (up low : Char → Bool) (subjects : List Str) :
    allCaps up low (subjects.map some) = some true ↔ ∃ s ∈ subjects, ∃ t, Unmarked s t ∧ Caps up low t := by
  have : ∀ subjects : List Str, allCaps up low (subjects.map some) =
      some (decide (∃ s ∈ subjects, ¬ (strip (dropMark s)).length < 10 ∧ ¬ (splitWs (strip (dropMark s))).length = 1 ∧
        isUpperText up low (strip (dropMark s)) = true)) := by
    intro subjects
    induction subjects with
    | nil => simp [allCaps]
    | cons s rest ih =>
      simp only [List.map_cons, allCaps, List.mem_cons, exists_eq_or_imp]
      by_cases h1 : (strip (dropMark s)).length < 10
      · rw [if_pos h1, ih]; simp [h1]
      · rw [if_neg h1]
        by_cases h2 : (splitWs (strip (dropMark s))).length = 1
        · rw [if_pos h2, ih]; simp [h2]
        · rw [if_neg h2]
          by_cases h3 : isUpperText up low (strip (dropMark s)) = true
          · rw [if_pos h3]; simp [h1, h2, h3]
          · rw [if_neg h3, ih]; simp [h3]
  rw [this]
  simp only [Option.some.injEq, decide_eq_true_eq, ← caps_one]
  constructor
  · rintro ⟨s, hs, hc⟩; exact ⟨s, hs, _, dropMark_unmarked s, hc⟩
  · rintro ⟨s, hs, t, hu, hc⟩; exact ⟨s, hs, by rw [← unmarked_unique s t hu]; exact hc⟩

/-- **C103** is violated: of several marks only the first is passed over; if there is another one, written as usual, with a small
letter, the rule does not hold, whatever follows. -/
theorem C103_marks_violated (up low : Char → Bool) (w w' : Str) (x : Str) (h : lower w ∈ marks)
    (hl : ∃ c ∈ w', low c = true ∧ isSpace c = false) :
    allCaps up low [some (w ++ c!" " ++ w' ++ x)] = some false := by
  obtain ⟨c, hc, hlow, hsp⟩ := hl
  have e : dropMark (w ++ c!" " ++ w' ++ x) = c!" " ++ w' ++ x := by
    rw [List.append_assoc, List.append_assoc, dropMark_mark w _ h]; simp
  have hin : c ∈ strip (c!" " ++ w' ++ x) := by
    have hd : ∀ (s : Str), c ∈ s → c ∈ s.dropWhile isSpace := by
      intro s
      induction s with
      | nil => intro h; cases h
      | cons a s ih =>
        intro h
        rw [List.dropWhile_cons]
        split
        · rename_i ha
          rcases List.mem_cons.mp h with rfl | h
          · rw [hsp] at ha; cases ha
          · exact ih h
        · exact h
    unfold strip stripBy rstripBy lstripBy
    rw [List.mem_reverse]
    apply hd
    rw [List.mem_reverse]
    apply hd
    simp [hc]
  have hu : isUpperText up low (strip (c!" " ++ w' ++ x)) = false := by
    unfold isUpperText
    rw [Bool.and_eq_false_iff]
    right
    rw [List.all_eq_false]
    exact ⟨c, hin, by simp [hlow]⟩
  simp only [allCaps, e, hu]
  split
  · rfl
  · split
    · rfl
    · simp

/-- **C103** is violated: after a subject that cannot be decoded no other is looked at. -/
theorem C103_undecodable_violated (up low : Char → Bool) (rest : List (Option Str)) :
    holds (allCaps up low (none :: rest)) = false := rfl

-- a subject in capitals after a mark, the same after two marks, and one that is a single word
example :
    allCaps (fun c => c.isUpper) (fun c => c.isLower) [some c!"RE: BUY THIS NOW"] = some true ∧
    allCaps (fun c => c.isUpper) (fun c => c.isLower) [some c!"Re: Fwd: BUY THIS NOW"] = some false ∧
    allCaps (fun c => c.isUpper) (fun c => c.isLower) [some c!"CONFIRMATION"] = some false := by decide +kernel

/-! ## C104: recipients in subjects -/

theorem hasSub_lower (x s : Str) : hasSub (lower x) (lower s) = true ↔ ∃ a y b, s = a ++ y ++ b ∧ lower y = lower x := by
  rw [hasSub_iff]
  constructor
  · rintro ⟨a, b, e⟩
    have e : s.map Char.toLower = (a ++ lower x) ++ b := e.symm
    obtain ⟨p, b', e1, e2, _⟩ := List.map_eq_append_iff.mp e
    obtain ⟨a', y, e4, _, e6⟩ := List.map_eq_append_iff.mp e2
    exact ⟨a', y, b', by rw [e1, e4], e6⟩
  · rintro ⟨a, y, b, rfl, e⟩
    exact ⟨lower a, lower b, by rw [lower_append, lower_append, e]⟩

/-- **C104** (partial).  The rule about addresses holds exactly if one of the recipients' addresses is in the subject, in whatever
case. -/
theorem C104_address_partial (u : Char → Bool) (tos : List Str) (subject : Str) :
    toInSubject u c!"address" tos subject = true ↔
      ∃ to ∈ tos, ∃ a y b, subject = a ++ y ++ b ∧ lower y = lower to := by
  unfold toInSubject
  rw [List.any_eq_true]
  simp only [if_true, hasSub_lower]

theorem endsWithText_iff (before : Str → Bool) (e s : Str) :
    endsWithText before e s = true ↔ ∃ a nl, (nl = [] ∨ nl = c!"\n") ∧ before a = true ∧ s = a ++ e ++ nl := by
  unfold endsWithText
  simp only [List.any_cons, List.any_nil, Bool.or_false, Bool.or_eq_true, Bool.and_eq_true, List.isSuffixOf_iff_suffix]
  have key : ∀ x : Str, x <:+ s ∧ before (s.take (s.length - x.length)) = true ↔ ∃ a, before a = true ∧ s = a ++ x := by
    intro x
    constructor
    · rintro ⟨⟨a, rfl⟩, h⟩
      refine ⟨a, ?_, rfl⟩
      simpa using h
    · rintro ⟨a, h, rfl⟩
      exact ⟨⟨a, rfl⟩, by simpa using h⟩
  rw [key, key]
  constructor
  · rintro (⟨a, h, e⟩ | ⟨a, h, e⟩)
    · exact ⟨a, [], Or.inl rfl, h, by simpa using e⟩
    · exact ⟨a, _, Or.inr rfl, h, by simpa using e⟩
  · rintro ⟨a, nl, rfl | rfl, h, e⟩
    · exact Or.inl ⟨a, h, by simpa using e⟩
    · exact Or.inr ⟨a, h, by simpa using e⟩

theorem mem_tails (s t : Str) : t ∈ tailsOf s ↔ t <:+ s := by
  induction s with
  | nil => simp [tailsOf]
  | cons c s ih =>
    rw [tailsOf, List.mem_cons, ih, List.suffix_cons_iff]

theorem mem_takeWhile_true (p : Char → Bool) (s : Str) : ∀ c ∈ s.takeWhile p, p c = true := by
  induction s with
  | nil => intro c h; cases h
  | cons a s ih =>
    intro c h
    rw [List.takeWhile_cons] at h
    split at h
    · rcases List.mem_cons.mp h with rfl | h
      · assumption
      · exact ih c h
    · cases h

theorem takeDrop_word (p : Char → Bool) (w r : Str) (hw : ∀ c ∈ w, p c = true) (hr : ∀ c, r.head? = some c → p c = false) :
    (w ++ r).takeWhile p = w ∧ (w ++ r).dropWhile p = r := by
  induction w with
  | nil =>
    cases r with
    | nil => exact ⟨rfl, rfl⟩
    | cons c r => simp [hr c rfl]
  | cons a w ih =>
    have := ih fun c hc => hw c (List.mem_cons_of_mem _ hc)
    simp [hw a (by simp), this]

theorem isWord_not_space (u : Char → Bool) (hu : ∀ c, isSpace c = true → u c = false) (c : Char) (h : isSpace c = true) :
    Content.isWord u c = false := by
  have h' := h
  unfold Content.isWord
  simp only [Bool.or_eq_false_iff, Bool.and_eq_false_iff, hu c h, or_true, and_true]
  unfold isSpace at h
  simp only [Bool.or_eq_true, Bool.and_eq_true, decide_eq_true_eq, beq_iff_eq] at h
  refine ⟨?_, ?_⟩
  · cases ha : c.isAlphanum with
    | false => rfl
    | true =>
      exfalso
      simp only [Char.isAlphanum, Char.isAlpha, Char.isUpper, Char.isLower, Char.isDigit, Bool.or_eq_true, Bool.and_eq_true,
        decide_eq_true_eq, UInt32.le_iff_toNat_le, ge_iff_le] at ha
      have e1 : 'A'.val.toNat = 65 := rfl
      have e2 : 'Z'.val.toNat = 90 := rfl
      have e3 : 'a'.val.toNat = 97 := rfl
      have e4 : 'z'.val.toNat = 122 := rfl
      have e5 : '0'.val.toNat = 48 := rfl
      have e6 : '9'.val.toNat = 57 := rfl
      have e7 : c.val.toNat = c.toNat := rfl
      omega
  · rw [beq_eq_false_iff_ne]
    rintro rfl
    exact absurd h' (by decide)

theorem gap_iff (u : Char → Bool) (hu : ∀ c, isSpace c = true → u c = false) (q : Str) :
    gap u q = true ↔ Blank q ∨ ∃ sp w sp', q = sp ++ w ++ sp' ∧ Blank sp ∧ (w ≠ [] ∧ ∀ c ∈ w, Content.isWord u c = true) ∧
      (sp' ≠ [] ∧ Blank sp') := by
  have hw := fun c hc => isWord_not_space u hu c hc
  have hq := List.takeWhile_append_dropWhile (p := isSpace) (l := q)
  unfold gap
  simp only [Bool.or_eq_true, Bool.and_eq_true, List.isEmpty_iff, Bool.not_eq_true', List.all_eq_true]
  constructor
  · rintro (h | ⟨⟨h1, h2⟩, h3⟩)
    · left
      rw [h, List.append_nil] at hq
      rw [← hq]; exact mem_takeWhile_true _ _
    · right
      refine ⟨q.takeWhile isSpace, (q.dropWhile isSpace).takeWhile (Content.isWord u), (q.dropWhile isSpace).dropWhile (Content.isWord u),
        ?_, mem_takeWhile_true _ _, ⟨by simpa using h1, mem_takeWhile_true _ _⟩, ⟨by simpa using h2, h3⟩⟩
      rw [List.append_assoc, List.takeWhile_append_dropWhile, hq]
  · rintro (h | ⟨sp, w, sp', rfl, h1, ⟨h2, h3⟩, h4, h5⟩)
    · left
      have := takeDrop_word isSpace q [] h (by simp)
      simpa using this.2
    · right
      have hne : ∀ c, (w ++ sp').head? = some c → isSpace c = false := by
        intro c hc
        cases w with
        | nil => exact absurd rfl h2
        | cons a w =>
          cases hc
          cases hs : isSpace c with
          | false => rfl
          | true => have := hw c hs; rw [h3 c (by simp)] at this; cases this
      have e1 := takeDrop_word isSpace sp (w ++ sp') h1 hne
      have e2 := takeDrop_word (Content.isWord u) w sp' h3 (fun c hc => hw c (h5 c (List.mem_of_mem_head? hc)))
      rw [List.append_assoc, e1.2, e2.1, e2.2]
      refine ⟨⟨?_, ?_⟩, h5⟩
      · cases w with
        | nil => exact absurd rfl h2
        | cons => rfl
      · cases sp' with
        | nil => exact absurd rfl h4
        | cons => rfl

theorem isPunct_iff (p : Char) : isPunct p = true ↔ p ∈ c!",:;!?-" := by
  simp [isPunct, or_assoc]

theorem punct_not_space (p : Char) (h : p ∈ c!",:;!?-") : isSpace p = false := by
  simp only [List.mem_cons, List.not_mem_nil, or_false] at h
  rcases h with rfl | rfl | rfl | rfl | rfl | rfl <;> decide

theorem userInSubject_iff (u : Char → Bool) (hu : ∀ c, isSpace c = true → u c = false) (user subject : Str) :
    userInSubject u user subject = true ↔ Speaks u user subject := by
  unfold userInSubject
  simp only [Bool.or_eq_true, Bool.and_eq_true, endsWithText_iff, List.any_eq_true, mem_tails, startsWith,
    List.isPrefixOf_iff_prefix]
  constructor
  · rintro (((⟨a, nl, hn, ha, e⟩ | ⟨t, ⟨a, e1⟩, hm, q, nl, hn, hg, e2⟩) | ⟨p, hp, a, nl, hn, _, e⟩) | ⟨⟨r, e⟩, h⟩)
    · have : a = [] := by simpa using ha
      subst this
      rw [e, List.nil_append]; exact .alone nl hn
    · have hmark : ∃ mark, (mark = c!"re:" ∨ mark = c!"fw:") ∧ t = mark ++ t.drop 3 := by
        rcases hm with ⟨r, hr⟩ | ⟨r, hr⟩
        · exact ⟨_, Or.inl rfl, by rw [← hr]; simp⟩
        · exact ⟨_, Or.inr rfl, by rw [← hr]; simp⟩
      obtain ⟨mark, hmk, et⟩ := hmark
      rw [e2] at et
      rcases (gap_iff u hu q).mp hg with hb | ⟨sp, w, sp', rfl, h1, h2, h3⟩
      · have := Speaks.reply (u := u) (user := user) a mark q nl hmk hb hn
        rw [← e1, et]; simpa using this
      · have := Speaks.replyWord (u := u) (user := user) a mark sp w sp' nl hmk h1 h2 h3 hn
        rw [← e1, et]; simpa using this
    · have : ∃ x, p = [x] ∧ x ∈ c!",:;!?-" := by
        simp only [List.mem_cons, List.not_mem_nil, or_false] at hp
        rcases hp with rfl | rfl | rfl | rfl | rfl | rfl
        · exact ⟨',', rfl, by simp⟩
        · exact ⟨':', rfl, by simp⟩
        · exact ⟨';', rfl, by simp⟩
        · exact ⟨'!', rfl, by simp⟩
        · exact ⟨'?', rfl, by simp⟩
        · exact ⟨'-', rfl, by simp⟩
      obtain ⟨x, rfl, hx⟩ := this
      have := Speaks.last (u := u) (user := user) a x nl hx hn
      rw [e]; simpa using this
    · rw [← e, List.drop_left] at h
      split at h
      · rename_i p c b hd
        simp only [Bool.and_eq_true] at h
        have hr := List.takeWhile_append_dropWhile (p := isSpace) (l := r)
        rw [hd] at hr
        have := Speaks.first (u := u) (user := user) (r.takeWhile isSpace) p c b (mem_takeWhile_true _ _) ((isPunct_iff p).mp h.1) h.2
        rw [← e, ← hr]; simpa using this
      · cases h
  · intro h
    cases h with
    | alone nl h => exact Or.inl (Or.inl (Or.inl ⟨[], nl, h, by simp, rfl⟩))
    | reply a mark sp nl hm hs h =>
      refine Or.inl (Or.inl (Or.inr ⟨mark ++ sp ++ user ++ nl, ⟨a, by simp⟩, ?_, sp, nl, h, (gap_iff u hu sp).mpr (Or.inl hs), ?_⟩))
      · rcases hm with rfl | rfl
        · exact Or.inl ⟨_, by simp; rfl⟩
        · exact Or.inr ⟨_, by simp; rfl⟩
      · rcases hm with rfl | rfl <;> simp
    | replyWord a mark sp word sp' nl hm hs hw hs' h =>
      refine Or.inl (Or.inl (Or.inr ⟨mark ++ sp ++ word ++ sp' ++ user ++ nl, ⟨a, by simp⟩, ?_, sp ++ word ++ sp', nl, h,
        (gap_iff u hu _).mpr (Or.inr ⟨sp, word, sp', rfl, hs, hw, hs'⟩), ?_⟩))
      · rcases hm with rfl | rfl
        · exact Or.inl ⟨_, by simp; rfl⟩
        · exact Or.inr ⟨_, by simp; rfl⟩
      · rcases hm with rfl | rfl <;> simp
    | last a p nl hp h =>
      refine Or.inl (Or.inr ⟨[p], ?_, a, nl, h, by simp, by simp⟩)
      simp only [List.mem_cons, List.not_mem_nil, or_false] at hp ⊢
      rcases hp with rfl | rfl | rfl | rfl | rfl | rfl <;> simp
    | first sp p c b hs hp hc =>
      right
      refine ⟨⟨sp ++ p :: c :: b, by simp⟩, ?_⟩
      have e := takeDrop_word isSpace sp (p :: c :: b) hs (by
        intro x hx; cases hx; exact punct_not_space p hp)
      rw [List.append_assoc, List.drop_left, e.2]
      simp [(isPunct_iff p).mpr hp, hc]

theorem userOf_exact (to user : Str) : userOf to = some user ↔ UserOf to user := by
  constructor
  · intro h
    unfold userOf at h
    split at h
    · rename_i c a d hr
      cases h
      obtain ⟨e, hd⟩ := rsplit1_mem hr
      have hsp : ∀ x ∈ (c :: a) ++ '@' :: d, isSpace x = false := fun x hx => by
        have := mem_takeWhile_true (fun c => !isSpace c) to x (by rw [e]; exact hx)
        simpa using this
      refine ⟨d, to.dropWhile (fun c => !isSpace c), ?_, by simp, fun x hx => hsp x (List.mem_append_left _ hx), hd,
        fun x hx => hsp x (by simp [hx]), fun x hx => ?_⟩
      · have := List.takeWhile_append_dropWhile (p := fun c => !isSpace c) (l := to)
        rw [e] at this
        simpa using this.symm
      · have : ∀ (s : Str), (s.dropWhile (fun c => !isSpace c)).head? = some x → isSpace x = true := by
          intro s
          induction s with
          | nil => intro h; cases h
          | cons y s ih =>
            rw [List.dropWhile_cons]
            split
            · exact ih
            · intro h; cases h; simp_all
        exact this to hx
    · cases h
  · rintro ⟨dom, tail, rfl, h0, hu, hd, hd', ht⟩
    have e : (user ++ '@' :: (dom ++ tail)).takeWhile (fun c => !isSpace c) = user ++ '@' :: dom := by
      have := (takeDrop_word (fun c => !isSpace c) (user ++ '@' :: dom) tail (by
        intro c hc
        rcases List.mem_append.mp hc with hc | hc
        · simp [hu c hc]
        · rcases List.mem_cons.mp hc with rfl | hc
          · decide
          · simp [hd' c hc]) (by intro c hc; simp [ht c hc])).1
      simpa using this
    unfold userOf
    rw [e, rsplit1_append user hd]
    cases user with
    | nil => exact absurd rfl h0
    | cons c a => rfl

theorem userOf_plain (user dom : Str) (h0 : user ≠ []) (hu : ∀ c ∈ user, isSpace c = false) (hd : '@' ∉ dom)
    (hd' : ∀ c ∈ dom, isSpace c = false) : UserOf (user ++ '@' :: dom) user :=
  ⟨dom, [], by simp, h0, hu, hd, hd', by simp⟩

/-- **C104** (partial).  The rule about users holds exactly if the subject speaks to the user of one of the recipients' addresses,
in one of the forms of `Speaks`. -/
theorem C104_user_partial (u : Char → Bool) (hu : ∀ c, isSpace c = true → u c = false) (tos : List Str) (subject : Str) :
    toInSubject u c!"user" tos subject = true ↔ ∃ to ∈ tos, ∃ user, UserOf to user ∧ Speaks u user subject := by
  unfold toInSubject
  rw [List.any_eq_true]
  simp only [show (c!"user" : Str) = c!"address" ↔ False by decide, if_false, if_true]
  constructor
  · rintro ⟨to, hm, h⟩
    cases hx : userOf to with
    | none => rw [hx] at h; cases h
    | some user =>
      rw [hx] at h
      exact ⟨to, hm, user, (userOf_exact to user).mp hx, (userInSubject_iff u hu _ _).mp h⟩
  · rintro ⟨to, hm, user, h1, h⟩
    refine ⟨to, hm, ?_⟩
    rw [(userOf_exact to user).mpr h1]
    exact (userInSubject_iff u hu _ _).mpr h

/-- **C104** (partial).  Other names of rules never hold. -/
theorem C104_other_partial (u : Char → Bool) (test : Str) (h1 : test ≠ c!"address") (h2 : test ≠ c!"user") (tos : List Str)
    (subject : Str) : toInSubject u test tos subject = false := by
  simp [toInSubject, h1, h2]

/-- **C104** is violated: the expression for replies knows `re:` in small letters only, so a subject `Re:` and the user, as
mail programs write it, does not count. -/
theorem C104_reply_violated (u : Char → Bool) (hu : ∀ c, isSpace c = true → u c = false) (user dom : Str) (h0 : user ≠ [])
    (h1 : ∀ c ∈ user, isSpace c = false) (h2 : ':' ∉ user) (h3 : user ≠ c!"Re") (hd : '@' ∉ dom) (hd' : ∀ c ∈ dom, isSpace c = false) :
    toInSubject u c!"user" [user ++ '@' :: dom] (c!"Re: " ++ user) = false := by
  rw [← Bool.not_eq_true, C104_user_partial u hu]
  rintro ⟨to, hm, user', hx, hs⟩
  rw [List.mem_singleton] at hm
  subst hm
  have e1 := (userOf_exact _ _).mpr hx
  rw [(userOf_exact _ _).mpr (userOf_plain user dom h0 h1 hd hd')] at e1
  cases e1
  have hlast : ∃ a z, user = a ++ [z] := ⟨user.dropLast, user.getLast h0, (List.dropLast_concat_getLast h0).symm⟩
  obtain ⟨a0, z, hz⟩ := hlast
  have hzs : isSpace z = false := h1 z (by rw [hz]; simp)
  -- no line break can follow
  have nolf : ∀ x nl : Str, (nl = [] ∨ nl = c!"\n") → c!"Re: " ++ user = x ++ nl → nl = [] := by
    intro x nl hn e
    rcases hn with rfl | rfl
    · rfl
    · exfalso
      rw [hz, ← List.append_assoc] at e
      have := congrArg List.getLast? e
      rw [List.getLast?_append, List.getLast?_append] at this
      simp at this
      rw [this] at hzs
      revert hzs; decide
  -- the only colon is the third character
  have colon : ∀ (mark x y : Str), mark = c!"re:" ∨ mark = c!"fw:" → c!"Re: " ++ user ≠ x ++ mark ++ y := by
    intro mark x y hm e
    have e : 'R' :: 'e' :: ':' :: ' ' :: user = x ++ (mark ++ y) := by rw [← List.append_assoc, ← e]; rfl
    have hm' : ∃ p q, mark = [p, q, ':'] ∧ p ≠ 'R' ∧ ':' ≠ p ∧ ':' ≠ q := by
      rcases hm with rfl | rfl
      · exact ⟨'r', 'e', rfl, by decide, by decide, by decide⟩
      · exact ⟨'f', 'w', rfl, by decide, by decide, by decide⟩
    obtain ⟨p, q, rfl, hp, hcp, hcq⟩ := hm'
    have hin : ':' ∈ p :: q :: ':' :: y := by simp
    match x, e with
    | [], e => simp at e; exact hp e.1.symm
    | [_], e => simp at e
    | [_, _], e => simp at e; exact hcp e.2.2.1
    | [_, _, _], e =>
      simp at e
      obtain ⟨_, _, _, _, e⟩ := e
      exact h2 (by rw [e]; simp)
    | _ :: _ :: _ :: _ :: x', e =>
      simp at e
      obtain ⟨_, _, _, _, e⟩ := e
      exact h2 (by rw [e]; simp)
  generalize hsub : c!"Re: " ++ user = s at hs
  cases hs with
  | alone nl h =>
    have := nolf _ _ h hsub
    subst this
    have := congrArg List.length hsub
    simp at this
    omega
  | reply a mark sp nl hm hsp h => exact colon mark a (sp ++ user ++ nl) hm (by rw [hsub]; simp)
  | replyWord a mark sp w sp' nl hm _ _ _ h => exact colon mark a (sp ++ w ++ sp' ++ user ++ nl) hm (by rw [hsub]; simp)
  | last a p nl hp h =>
    have := nolf (a ++ user ++ [p]) nl h (by rw [hsub]; simp)
    subst this
    -- `user` is followed by a mark and ends the subject: it would be shifted by one
    have hl := congrArg List.length hsub
    simp at hl
    have e := congrArg List.reverse hsub
    have hsh : ∀ (v : Str) (p c : Char) (x y : Str), v ++ c :: x = p :: v ++ y → ∀ z ∈ v, z = p := by
      intro v
      induction v with
      | nil => intro p c x y _ z hz; cases hz
      | cons b v ih =>
        intro p c x y e z hz
        simp only [List.cons_append, List.cons.injEq] at e
        obtain ⟨rfl, e⟩ := e
        rcases List.mem_cons.mp hz with rfl | hz
        · rfl
        · exact ih b c x y e z hz
    have e' : user.reverse ++ ' ' :: [':', 'e', 'R'] = p :: user.reverse ++ a.reverse := by
      have : (c!"Re: " ++ user).reverse = user.reverse ++ ' ' :: [':', 'e', 'R'] := by simp
      rw [← this, hsub]; simp
    have hall := hsh _ _ _ _ _ e'
    have hsp : ' ' = p := by
      -- the space comes after as many marks as `user` is long
      have : (user.reverse ++ ' ' :: [':', 'e', 'R'])[user.length]? = (p :: user.reverse ++ a.reverse)[user.length]? := by rw [e']
      rw [List.getElem?_append_right (by simp)] at this
      simp at this
      have h0' : 0 < user.length := List.length_pos_iff.mpr h0
      rw [show user.length = (user.length - 1) + 1 by omega] at this
      simp only [List.getElem?_cons_succ] at this
      rw [List.getElem?_append_left (by simp; omega)] at this
      have hm := List.mem_of_getElem? this.symm
      exact hall ' ' hm
    have := punct_not_space p hp
    rw [← hsp] at this
    exact absurd this (by decide)
  | first sp p c b hsp hp hc =>
    have e : 'R' :: 'e' :: ':' :: ' ' :: user = user ++ (sp ++ p :: c :: b) := by rw [← List.append_assoc, ← hsub]; rfl
    match user, h0, h1, h2, h3, e with
    | [], h0, _, _, _, _ => exact h0 rfl
    | [r], _, _, _, _, e =>
      simp at e
      obtain ⟨rfl, e⟩ := e
      cases sp with
      | nil => simp at e; rw [← e.1] at hp; revert hp; decide
      | cons y sp => simp at e; have := hsp y (by simp); rw [← e.1] at this; revert this; decide
    | [r, r'], _, _, _, h3, e => simp at e; exact h3 (by rw [← e.1, ← e.2.1])
    | r :: r' :: r'' :: t, _, _, h2, _, e => simp at e; exact h2 (by rw [← e.2.2.1]; simp)

/-- **C104** is violated: any subject that ends with the letters of the user and a punctuation mark counts, whatever stands before
them, even if they are the end of a longer word. -/
theorem C104_tail_violated (u : Char → Bool) (hu : ∀ c, isSpace c = true → u c = false) (user dom a : Str) (p : Char)
    (hp : p ∈ c!",:;!?-") (h0 : user ≠ []) (h1 : ∀ c ∈ user, isSpace c = false) (hd : '@' ∉ dom)
    (hd' : ∀ c ∈ dom, isSpace c = false) :
    toInSubject u c!"user" [user ++ '@' :: dom] (a ++ user ++ [p]) = true := by
  rw [C104_user_partial u hu]
  exact ⟨_, List.mem_singleton.mpr rfl, user, userOf_plain user dom h0 h1 hd hd', .last a p [] hp (Or.inl rfl)⟩

-- the address in another case, the user with a greeting, and the replies of mail programs
example : toInSubject (fun _ => false) c!"address" [c!"Jo@a.example"] c!"For jo@A.example only" = true ∧
    toInSubject (fun _ => false) c!"user" [c!"jo@a.example"] c!"jo, look at this" = true ∧
    toInSubject (fun _ => false) c!"user" [c!"jo@a.example"] c!"re: dear jo" = true ∧
    toInSubject (fun _ => false) c!"user" [c!"jo@a.example"] c!"Re: jo" = false ∧
    toInSubject (fun _ => false) c!"user" [c!"jo@a.example"] c!"Win a banjo!" = true := by decide +kernel

/-! ## C105: the sender of the message and the sender of the envelope -/

theorem domainOf_plain (l d : Str) (h : '@' ∉ d) : domainOf (l ++ '@' :: d) = d := by
  unfold domainOf
  rw [rsplit1_append l h]

theorem domainOf_exact (addr d : Str) : domainOf addr = d ↔ DomainOf addr d := by
  constructor
  · rintro rfl
    unfold domainOf
    cases h : rsplit1 '@' addr with
    | none =>
      refine Or.inr ⟨fun hm => ?_, rfl⟩
      have := (Context.rsplit1_isSome '@' addr).mpr hm
      rw [h] at this
      cases this
    | some p =>
      obtain ⟨l, d⟩ := p
      obtain ⟨e, hd⟩ := rsplit1_mem h
      exact Or.inl ⟨l, e, hd⟩
  · rintro (⟨l, rfl, h⟩ | ⟨h, rfl⟩)
    · exact domainOf_plain l d h
    · unfold domainOf
      rw [rsplit1_none h]

/-- **C105** (partial).  If the rule about domains holds, there are senders of the envelope and of the message, and the domain of the
first is not that of the second (of the last one, if there are several). -/
theorem C105_different_partial (froms : List Str) (sender d d' : Str) (h : DomainOf froms.flatten d) (h' : DomainOf sender d')
    (hr : differentDomains froms sender = true) : froms.flatten ≠ [] ∧ sender ≠ [] ∧ lower d' ≠ lower d := by
  unfold differentDomains at hr
  simp only [(domainOf_exact _ _).mpr h, (domainOf_exact _ _).mpr h'] at hr
  split at hr
  · cases hr
  · rename_i hne
    rw [not_or] at hne
    refine ⟨hne.2, hne.1, ?_⟩
    split at hr
    · rename_i hh
      intro e
      rw [e] at hh
      have : hasSub (lower d) (lower d) = true := (hasSub_iff _ _).mpr ⟨[], [], by simp⟩
      rw [this] at hh; cases hh
    · cases hr

/-- **C105** (partial).  The other way round: if there are senders and no part of the domain of the `From` address is the domain of
the envelope sender, the rule holds. -/
theorem C105_reported_partial (froms : List Str) (sender d d' : Str) (h : DomainOf froms.flatten d) (h' : DomainOf sender d')
    (h1 : froms.flatten ≠ []) (h2 : sender ≠ []) (hd : ∀ a b, lower d ≠ a ++ lower d' ++ b) :
    differentDomains froms sender = true := by
  unfold differentDomains
  have e3 : hasSub (lower d') (lower d) = false := by
    rw [← Bool.not_eq_true, hasSub_iff]
    rintro ⟨a, b, e⟩
    exact hd a b e.symm
  simp only [(domainOf_exact _ _).mpr h, (domainOf_exact _ _).mpr h', e3]
  simp [h1, h2]

/-- **C105** is violated: domains that differ are not reported if the one of the envelope sender is a part of the one of the
message, such as `ank.example` and `bank.example`. -/
theorem C105_part_violated (l l' a d' b : Str) (h : '@' ∉ a ++ d' ++ b) :
    differentDomains [l ++ '@' :: (a ++ d' ++ b)] (l' ++ '@' :: d') = false := by
  unfold differentDomains
  have h' : '@' ∉ d' := fun hh => h (by simp [hh])
  have e1 : domainOf [l ++ '@' :: (a ++ d' ++ b)].flatten = a ++ d' ++ b := by
    rw [List.flatten_singleton, domainOf_plain _ _ h]
  have e3 : hasSub (lower d') (lower (a ++ d' ++ b)) = true := by
    rw [hasSub_iff]
    exact ⟨lower a, lower b, by simp [lower]⟩
  simp only [e1, domainOf_plain l' d' h', e3]
  simp

/-- **C105** is violated: of several `From` addresses the last one decides; one of them may have any domain. -/
theorem C105_last_violated (before : List Str) (l l' d : Str) (h : '@' ∉ d) :
    differentDomains (before ++ [l ++ '@' :: d]) (l' ++ '@' :: d) = false := by
  cases hb : differentDomains (before ++ [l ++ '@' :: d]) (l' ++ '@' :: d) with
  | false => rfl
  | true =>
    refine absurd rfl (C105_different_partial _ _ d d (Or.inl ⟨before.flatten ++ l, ?_, h⟩) (Or.inl ⟨l', rfl, h⟩) hb).2.2
    simp

/-- **C105** (partial).  If the sender of the message is the sender of the envelope that the first relay that knows one was given, the
rule about matching senders holds. -/
theorem C105_same_partial (addr : Str) (relays : List (Option Str)) (rest : List Str)
    (h : knownSenders relays = addr :: rest) : matchingFrom [addr] relays = true := by
  unfold matchingFrom
  unfold knownSenders at h
  have : (relays.filterMap id).find? (fun e => !e.isEmpty) = some addr := by
    rw [← List.head?_filter, h]; rfl
  rw [this, List.flatten_singleton]
  exact (hasSub_iff _ _).mpr ⟨[], [], by simp⟩

/-- **C105** (partial).  If the rule about matching senders holds and a relay knows the sender of the envelope, this sender is a
part of the `From` addresses. -/
theorem C105_match_partial (froms : List Str) (relays : List (Option Str)) (env : Str) (rest : List Str)
    (h : knownSenders relays = env :: rest) : matchingFrom froms relays = true ↔ ∃ a b, froms.flatten = a ++ env ++ b := by
  unfold matchingFrom
  unfold knownSenders at h
  have : (relays.filterMap id).find? (fun e => !e.isEmpty) = some env := by
    rw [← List.head?_filter, h]; rfl
  rw [this]
  rw [Option.getD_some, hasSub_iff]
  constructor
  · rintro ⟨a, b, e⟩; exact ⟨a, b, e.symm⟩
  · rintro ⟨a, b, e⟩; exact ⟨a, b, e.symm⟩

/-- **C105** is violated: if no relay knows a sender of the envelope, the senders are said to match, whatever the message says. -/
theorem C105_unknown_violated (froms : List Str) (relays : List (Option Str)) (h : knownSenders relays = []) :
    matchingFrom froms relays = true := by
  unfold matchingFrom
  unfold knownSenders at h
  have : (relays.filterMap id).find? (fun e => !e.isEmpty) = none := by
    rw [← List.head?_filter, h]; rfl
  rw [this]
  exact (hasSub_iff _ _).mpr ⟨[], froms.flatten, by simp⟩

/-- **C105** is violated: it is enough that the sender of the envelope is a part of the address in the message. -/
theorem C105_contained_violated (a env b : Str) (relays : List (Option Str)) (rest : List Str)
    (h : knownSenders relays = env :: rest) : matchingFrom [a ++ env ++ b] relays = true :=
  (C105_match_partial _ relays env rest h).mpr ⟨a, b, by simp⟩

-- two domains, one inside the other, and a sender that is part of another one
example : differentDomains [c!"a@shop.example"] c!"b@other.example" = true ∧
    differentDomains [c!"a@bank.example"] c!"b@ank.example" = false ∧
    matchingFrom [c!"joe@a.example"] [none, some [], some c!"joe@a.example"] = true ∧
    matchingFrom [c!"joe@a.example"] [none, some c!"e@a.exam"] = true ∧
    matchingFrom [c!"joe@a.example"] [some c!"ann@a.example"] = false ∧
    matchingFrom [c!"joe@a.example"] [none, some []] = true := by decide +kernel

/-! ## C106: messages that claim to come from a provider -/

theorem gated_exact (m : Mailing) : gated m = false ↔ m.rcvd ≠ [] ∧ m.ezmlm = false ∧ m.msnGroups = false := by
  obtain ⟨r, e, g⟩ := m
  cases e <;> cases g <;> by_cases h : r = [] <;> simp [gated, h]

/-- **C106** (partial).  When exactly the rules about forged messages hold: the address in the message is one of that provider's
(or contains its name), there is a `Received` header that is not empty, the message has not come through a mailing list, and the
headers that the provider's servers would have written are not there. -/
theorem C106_exact_partial (froms : List Str) (m : Mailing) :
    (∀ whowhere ip, forgedEudora froms m whowhere ip = true ↔
      DomainOf froms.flatten c!"eudoramail.com" ∧ m.rcvd ≠ [] ∧ m.ezmlm = false ∧ m.msnGroups = false ∧
        ¬ (whowhere m.rcvd = true ∧ ip = true)) ∧
    (∀ resent xrcvd rdns known bulk, forgedYahoo froms m resent xrcvd rdns known bulk = true ↔
      (∃ a b, froms.flatten = a ++ c!"yahoo.com" ++ b) ∧ m.rcvd ≠ [] ∧ m.ezmlm = false ∧ m.msnGroups = false ∧
        (∀ n, some n ∈ rdns → ¬ ∃ a b, n = a ++ c!"yahoo.com" ++ b) ∧
        known (if resent ∧ xrcvd ≠ [] then xrcvd else m.rcvd) = false ∧
        ¬ (bulk (if resent ∧ xrcvd ≠ [] then xrcvd else m.rcvd) = true ∧ DomainOf froms.flatten c!"reply.yahoo.com")) ∧
    (∀ xorig xmailer juno mailCom untd mailer webmail, forgedJuno froms m xorig xmailer juno mailCom untd mailer webmail = true ↔
      (∃ d a, DomainOf froms.flatten d ∧ d = a ++ c!"juno.com") ∧ m.rcvd ≠ [] ∧ m.ezmlm = false ∧ m.msnGroups = false ∧
        (xorig ≠ [] → ¬ (juno m.rcvd = true ∧ ∃ a b, xmailer = a ++ c!"Juno " ++ b))) := by
  have sub : ∀ x y : Str, hasSub x y = true ↔ ∃ a b, y = a ++ x ++ b := fun x y => (hasSub_iff x y).trans
    ⟨fun ⟨a, b, e⟩ => ⟨a, b, e.symm⟩, fun ⟨a, b, e⟩ => ⟨a, b, e.symm⟩⟩
  refine ⟨fun whowhere ip => ?_, fun resent xrcvd rdns known bulk => ?_,
    fun xorig xmailer juno mailCom untd mailer webmail => ?_⟩
  · rw [← domainOf_exact]
    unfold forgedEudora
    by_cases h1 : domainOf froms.flatten = c!"eudoramail.com"
    · cases h2 : gated m with
      | true =>
        have := (not_congr (gated_exact m)).mp (by rw [h2]; simp)
        simp only [h1, ne_eq, not_true_eq_false, if_false, if_true, Bool.false_eq_true, false_iff]
        rintro ⟨_, g1, g2, g3, _⟩
        exact this ⟨g1, g2, g3⟩
      | false =>
        obtain ⟨g1, g2, g3⟩ := (gated_exact m).mp h2
        cases hw : whowhere m.rcvd <;> cases ip <;> simp [h1, g1, g2, g3, hw]
    · simp [h1]
  · rw [← domainOf_exact, ← sub]
    unfold forgedYahoo
    dsimp only
    have hx : (if resent = true then (if xrcvd ≠ [] then xrcvd else m.rcvd) else m.rcvd) =
        if resent = true ∧ xrcvd ≠ [] then xrcvd else m.rcvd := by
      cases resent <;> by_cases hx : xrcvd = [] <;> simp [hx]
    rw [hx]
    generalize (if resent = true ∧ xrcvd ≠ [] then xrcvd else m.rcvd) = r
    have hrd : (rdns.any fun r => match r with
        | none => false
        | some n => hasSub c!"yahoo.com" n) = true ↔ ¬ ∀ n, some n ∈ rdns → ¬ ∃ a b, n = a ++ c!"yahoo.com" ++ b := by
      rw [List.any_eq_true]
      constructor
      · rintro ⟨x, hm, hh⟩ hall
        cases x with
        | none => cases hh
        | some n => exact hall n hm ((sub _ _).mp hh)
      · intro hn
        refine Classical.byContradiction fun hno => hn fun n hm hh => hno ⟨some n, hm, (sub _ _).mpr hh⟩
    cases h1 : hasSub c!"yahoo.com" froms.flatten with
    | false => simp
    | true =>
      cases h2 : gated m with
      | true =>
        have := (not_congr (gated_exact m)).mp (by rw [h2]; simp)
        simp only [Bool.not_true, Bool.false_eq_true, if_false, if_true, false_iff]
        rintro ⟨_, g1, g2, g3, _⟩
        exact this ⟨g1, g2, g3⟩
      | false =>
        obtain ⟨g1, g2, g3⟩ := (gated_exact m).mp h2
        simp only [Bool.not_true, Bool.false_eq_true, if_false, true_and, g1, g2, g3, ne_eq, not_false_eq_true]
        by_cases h3 : ∀ n, some n ∈ rdns → ¬ ∃ a b, n = a ++ c!"yahoo.com" ++ b
        · refine Eq.to_iff (congrArg (· = true) (if_neg (fun hh => hrd.mp hh h3))) |>.trans ?_
          cases hk : known r with
          | true => simp
          | false =>
            by_cases hb : bulk r = true ∧ domainOf froms.flatten = c!"reply.yahoo.com"
            · simp [hb.1, hb.2]
            · have : ¬ ((bulk r && decide (domainOf froms.flatten = c!"reply.yahoo.com")) = true) := by simpa using hb
              rw [if_neg (by simp), if_neg this]
              simp only [true_iff, true_and]
              exact ⟨h3, hb⟩
        · refine Eq.to_iff (congrArg (· = true) (if_pos (hrd.mpr h3))) |>.trans ?_
          simp only [Bool.false_eq_true, false_iff]
          exact fun hh => h3 hh.1
  · have hj : (∃ d a, DomainOf froms.flatten d ∧ d = a ++ c!"juno.com") ↔ endsWith c!"juno.com" (domainOf froms.flatten) = true := by
      rw [endsWith, List.isSuffixOf_iff_suffix]
      constructor
      · rintro ⟨d, a, hd, rfl⟩
        rw [(domainOf_exact _ _).mpr hd]
        exact ⟨a, rfl⟩
      · rintro ⟨a, e⟩
        exact ⟨_, a, (domainOf_exact _ _).mp rfl, e.symm⟩
    rw [hj, ← sub]
    unfold forgedJuno
    cases endsWith c!"juno.com" (domainOf froms.flatten) with
    | false => simp
    | true =>
      cases h2 : gated m with
      | true =>
        have := (not_congr (gated_exact m)).mp (by rw [h2]; simp)
        simp only [Bool.not_true, Bool.false_eq_true, if_false, if_true, false_iff]
        rintro ⟨_, g1, g2, g3, _⟩
        exact this ⟨g1, g2, g3⟩
      | false =>
        obtain ⟨g1, g2, g3⟩ := (gated_exact m).mp h2
        by_cases hx : xorig = []
        · simp [hx, g1, g2, g3]
        · cases hju : juno m.rcvd <;> cases hs : hasSub c!"Juno " xmailer <;> simp [hx, g1, g2, g3]

/-- **C106** is violated: a message with an address of Juno and without an `X-Originating-IP` header is always taken to be forged,
whatever its `Received` headers and its `X-Mailer` say. -/
theorem C106_juno_violated (l a : Str) (m : Mailing) (xmailer : Str) (juno mailCom untd mailer webmail : Str → Bool)
    (ha : '@' ∉ a) (h1 : m.rcvd ≠ []) (h2 : m.ezmlm = false) (h3 : m.msnGroups = false) :
    forgedJuno [l ++ '@' :: (a ++ c!"juno.com")] m [] xmailer juno mailCom untd mailer webmail = true := by
  have hd : '@' ∉ a ++ c!"juno.com" := by simp [ha]
  have e : endsWith c!"juno.com" (domainOf [l ++ '@' :: (a ++ c!"juno.com")].flatten) = true := by
    rw [List.flatten_singleton, domainOf_plain _ _ hd, endsWith, List.isSuffixOf_iff_suffix]
    exact ⟨a, rfl⟩
  have hg : gated m = false := by simp [gated, h1, h2, h3]
  unfold forgedJuno
  rw [e, hg]
  simp

/-- **C106** is violated: a forged message is not found if the name of any of the relays contains the name of the provider, as
`yahoo.com.spam.example` does. -/
theorem C106_rdns_violated (froms : List Str) (m : Mailing) (resent : Bool) (xrcvd a b : Str) (rdns : List (Option Str))
    (known bulk : Str → Bool) (h : some (a ++ c!"yahoo.com" ++ b) ∈ rdns) :
    forgedYahoo froms m resent xrcvd rdns known bulk = false := by
  rw [← Bool.not_eq_true]
  intro hf
  exact (((C106_exact_partial froms m).2.1 resent xrcvd rdns known bulk).mp hf).2.2.2.2.1 _ h ⟨a, b, rfl⟩

/-- **C106** is violated: a message that does not claim to come from the provider is taken to be forged if the name is a part of its
address, before the `@` or in a longer domain. -/
theorem C106_claims_violated (a b : Str) (m : Mailing) (xrcvd : Str) (rdns : List (Option Str)) (known bulk : Str → Bool)
    (h1 : m.rcvd ≠ []) (h2 : m.ezmlm = false) (h3 : m.msnGroups = false) (hk : known m.rcvd = false) (hb : bulk m.rcvd = false)
    (hr : ∀ n, some n ∈ rdns → ¬ ∃ a b, n = a ++ c!"yahoo.com" ++ b) :
    forgedYahoo [a ++ c!"yahoo.com" ++ b] m false xrcvd rdns known bulk = true := by
  have hg : gated m = false := by simp [gated, h1, h2, h3]
  have e : hasSub c!"yahoo.com" [a ++ c!"yahoo.com" ++ b].flatten = true := (hasSub_iff _ _).mpr ⟨a, b, by simp⟩
  unfold forgedYahoo
  dsimp only
  rw [e, hg]
  rw [if_neg (by simp), if_neg (by simp), if_neg, if_neg (by simp [hk]), if_neg (by simp [hb])]
  rw [List.any_eq_true]
  rintro ⟨r, hm, hh⟩
  cases r with
  | none => cases hh
  | some n =>
    obtain ⟨x, y, e⟩ := (hasSub_iff _ _).mp hh
    exact hr n hm ⟨x, y, e.symm⟩

/-- **C106** is violated: without `Received` headers none of the rules holds: the message could not have come from anywhere, but it
is taken to have been gated. -/
theorem C106_none_violated (froms : List Str) (m : Mailing) (h : m.rcvd = []) :
    (∀ whowhere ip, forgedEudora froms m whowhere ip = false) ∧
    (∀ resent xrcvd rdns known bulk, forgedYahoo froms m resent xrcvd rdns known bulk = false) ∧
    (∀ xorig xmailer juno mailCom untd mailer webmail,
      forgedJuno froms m xorig xmailer juno mailCom untd mailer webmail = false) := by
  have hs := C106_exact_partial froms m
  refine ⟨fun w i => ?_, fun r x rd k b => ?_, fun xo xm j mc un ma we => ?_⟩
  · rw [← Bool.not_eq_true]; intro hf; exact ((hs.1 w i).mp hf).2.1 h
  · rw [← Bool.not_eq_true]; intro hf; exact ((hs.2.1 r x rd k b).mp hf).2.1 h
  · rw [← Bool.not_eq_true]; intro hf; exact ((hs.2.2 xo xm j mc un ma we).mp hf).2.1 h

/-- **C106** (partial).  A message of the provider that is written as its servers write it is not taken to be forged. -/
theorem C106_own_partial (froms : List Str) (m : Mailing) :
    (∀ whowhere, whowhere m.rcvd = true → forgedEudora froms m whowhere true = false) ∧
    (∀ xrcvd rdns known bulk, known m.rcvd = true → forgedYahoo froms m false xrcvd rdns known bulk = false) ∧
    (∀ xrcvd rdns known bulk l, froms = [l ++ c!"@reply.yahoo.com"] → bulk m.rcvd = true →
      forgedYahoo froms m false xrcvd rdns known bulk = false) ∧
    (∀ xorig xmailer juno mailCom untd mailer webmail, xorig ≠ [] → juno m.rcvd = true → (∃ a b, xmailer = a ++ c!"Juno " ++ b) →
      forgedJuno froms m xorig xmailer juno mailCom untd mailer webmail = false) := by
  refine ⟨fun w h => ?_, fun x rd k b h => ?_, fun x rd k b l hl h => ?_, fun xo xm j mc un ma we h1 h2 h3 => ?_⟩
  · simp [forgedEudora, h]
  · simp [forgedYahoo, h]
  · subst hl
    have e : domainOf [l ++ c!"@reply.yahoo.com"].flatten = c!"reply.yahoo.com" := by
      rw [List.flatten_singleton]
      exact domainOf_plain l c!"reply.yahoo.com" (by decide)
    unfold forgedYahoo
    simp only [e]
    simp [h]
  · obtain ⟨a, b, rfl⟩ := h3
    have : hasSub c!"Juno " (a ++ c!"Juno " ++ b) = true := (hasSub_iff _ _).mpr ⟨a, b, rfl⟩
    unfold forgedJuno
    rw [if_pos h1, h2, this]
    simp

-- messages of the providers, forged or not
example :
    forgedEudora [c!"a@eudoramail.com"] ⟨c!"from x by y;", false, false⟩ (hasSub c!"whowhere.com;") true = true ∧
    forgedEudora [c!"a@eudoramail.com"] ⟨c!"from x by mail.whowhere.com;", false, false⟩ (hasSub c!"whowhere.com;") true = false ∧
    forgedYahoo [c!"yahoo.com.fan@a.example"] ⟨c!"from x by y", false, false⟩ false [] [none, some c!"x.example"]
      (fun _ => false) (fun _ => false) = true ∧
    forgedYahoo [c!"a@yahoo.com"] ⟨c!"from x by y", false, false⟩ false [] [some c!"yahoo.com.spam.example"]
      (fun _ => false) (fun _ => false) = false ∧
    forgedJuno [c!"a@juno.com"] ⟨c!"from webmail.juno.com by y", false, false⟩ [] c!"Juno 5.0" (fun _ => true) (fun _ => false)
      (fun _ => false) (fun _ => false) (fun _ => false) = true := by decide +kernel

end Verif.Props
