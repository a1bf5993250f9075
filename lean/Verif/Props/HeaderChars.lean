import Verif.Spec.HeaderChars
import Verif.Lemmas.Headers
import Verif.Lemmas.Py

/-!
# C81: a rule about characters in headers
-/

namespace Verif.Props
open Verif Py Mail HeaderChars

theorem illegal_eq (text : Str) : text.length - (text.filter isAscii).length = nonAscii text := by
  unfold nonAscii
  induction text with
  | nil => rfl
  | cons c cs ih =>
    have hle := List.length_filter_le isAscii cs
    by_cases hc : c.toNat < 128
    · rw [List.filter_cons_of_pos (by simp [isAscii, hc]), List.countP_cons_of_neg (by simp [hc])]
      simp only [List.length_cons]; omega
    · rw [List.filter_cons_of_neg (by simp [isAscii, hc]), List.countP_cons_of_pos (by simp; omega)]
      simp only [List.length_cons]; omega

theorem withoutSubject_get (raw : Headers Str) (n : Str) :
    Dict.get? (withoutSubject raw) n =
      if lower n = c!"subject" ∨ lower n = c!"from" then none else Dict.get? raw n := by
  have key : ∀ (ks : List Str) (h : Headers Str), Dict.get? (ks.foldl (fun (h : Headers Str) k =>
      if lower k = c!"subject" ∨ lower k = c!"from" then Dict.del h k else h) h) n =
      if n ∈ ks ∧ (lower n = c!"subject" ∨ lower n = c!"from") then none else Dict.get? h n := by
    intro ks
    induction ks with
    | nil => simp
    | cons k ks ih =>
      intro h
      rw [List.foldl_cons, ih]
      by_cases hn : lower n = c!"subject" ∨ lower n = c!"from"
      · by_cases hm : n ∈ ks
        · simp [hm, hn]
        · by_cases hk : n = k
          · subst hk
            simp [hn, Dict.get?_del]
          · simp only [hm, hk, List.mem_cons, false_and, or_self, if_false]
            split
            · rw [Dict.get?_del, if_neg (Ne.symm hk)]
            · rfl
      · simp only [hn, and_false, if_false]
        split
        · rename_i hk
          rw [Dict.get?_del, if_neg]
          intro he; subst he; exact hn hk
        · rfl
  unfold withoutSubject
  rw [key]
  by_cases hn : lower n = c!"subject" ∨ lower n = c!"from"
  · by_cases hm : n ∈ Dict.keys raw
    · simp [hm, hn]
    · simp only [hm, false_and, if_false, hn, if_true]
      exact (Dict.get?_eq_none_iff _ _).2 hm
  · simp [hn]

theorem withoutSubject_eq (raw : Headers Str) :
    withoutSubject raw = raw.filter fun p => !decide (lower p.1 ∈ [c!"subject", c!"from"]) := by
  have key : ∀ (ks : List Str) (h : Headers Str), ks.foldl (fun (h : Headers Str) k =>
      if lower k = c!"subject" ∨ lower k = c!"from" then Dict.del h k else h) h =
      h.filter fun p => !decide (p.1 ∈ ks ∧ lower p.1 ∈ [c!"subject", c!"from"]) := by
    intro ks
    induction ks with
    | nil => intro h; simp; exact (List.filter_eq_self.2 (by simp)).symm
    | cons k ks ih =>
      intro h
      rw [List.foldl_cons, ih]
      split
      · rename_i hk
        unfold Dict.del
        rw [List.filter_filter]
        apply List.filter_congr
        intro p _
        by_cases hp : p.1 = k
        · simp [hp, hk]
        · simp [hp]
      · rename_i hk
        apply List.filter_congr
        intro p _
        by_cases hp : p.1 = k
        · subst hp; simp at hk; simp [hk]
        · simp [hp]
  unfold withoutSubject
  rw [key]
  apply List.filter_congr
  intro p hp
  have : p.1 ∈ Dict.keys raw := List.mem_map_of_mem hp
  simp [this]

theorem illegalCount_other (header text : Str) (h : lower header ≠ c!"subject") : illegalCount header text = nonAscii text := by
  unfold illegalCount
  simp only [h, and_false, if_false, illegal_eq]

theorem tooMany_iff (k n : Nat) (ratio : Rat) (count : Int) (hn : 0 < n) :
    (decide (ratio ≤ (k : Rat) / (n : Rat)) && decide (count ≤ (k : Int))) = true ↔ TooMany k n ratio count := by
  unfold TooMany
  have h0 : (0 : Rat) < (n : Rat) := by exact_mod_cast hn
  have h1 : ratio ≤ (k : Rat) / (n : Rat) ↔ ratio * (n : Rat) ≤ (k : Rat) := by
    rw [← Rat.not_lt, ← Rat.not_lt, Rat.div_lt_iff h0]
  rw [Bool.and_eq_true, decide_eq_true_eq, decide_eq_true_eq, h1]
  simp [hn]

/-- **C81** (partial).  For a header other than `Subject`, the rule holds exactly if enough of the characters of its
values are not ASCII, and the message stays as it is. -/
theorem C81_result_partial (header : Str) (ratio : Rat) (count : Int) (m : Msg) (h1 : header ≠ c!"ALL")
    (h2 : lower header ≠ c!"subject") :
    ((checkIllegal header (some ratio) (some count) m).1 = true ↔
      TooMany (nonAscii (getRaw m header).flatten) (getRaw m header).flatten.length ratio count) ∧
    (checkIllegal header (some ratio) (some count) m).2 = m := by
  unfold checkIllegal
  simp only [if_neg h1]
  by_cases ht : (getRaw m header).flatten = []
  · rw [if_neg (by simp [ht])]
    simp [ht, TooMany]
  · rw [if_pos ht, illegalCount_other _ _ h2]
    exact ⟨tooMany_iff _ _ _ _ (List.length_pos_iff.2 ht), rfl⟩

/-- **C81** (partial).  For `Subject` one character is exempt, if exactly one of the cent, pound and registered
signs occurs. -/
theorem C81_subject_partial (header : Str) (ratio : Rat) (count : Int) (m : Msg) (h2 : lower header = c!"subject") :
    ((checkIllegal header (some ratio) (some count) m).1 = true ↔
      TooMany (nonAscii (getRaw m header).flatten -
          (if ((['¢', '£', '®'] : Str).filter fun c => decide (c ∈ (getRaw m header).flatten)).length = 1 then 1 else 0))
        (getRaw m header).flatten.length ratio count) ∧
    (checkIllegal header (some ratio) (some count) m).2 = m := by
  have h1 : header ≠ c!"ALL" := fun h => by rw [h] at h2; exact absurd h2 (by decide)
  unfold checkIllegal
  simp only [if_neg h1]
  by_cases ht : (getRaw m header).flatten = []
  · rw [if_neg (by simp [ht])]
    simp [ht, TooMany]
  · rw [if_pos ht]
    refine ⟨?_, rfl⟩
    have hc : illegalCount header (getRaw m header).flatten = nonAscii (getRaw m header).flatten -
          (if ((['¢', '£', '®'] : Str).filter fun c => decide (c ∈ (getRaw m header).flatten)).length = 1 then 1 else 0) := by
      unfold illegalCount
      simp only [illegal_eq, h2, and_true]
      have hs : signs (getRaw m header).flatten =
        ((['¢', '£', '®'] : Str).filter fun c => decide (c ∈ (getRaw m header).flatten)).length := rfl
      rw [hs]
      split
      · split <;> rfl
      · omega
    rw [← hc]
    exact tooMany_iff _ _ _ _ (List.length_pos_iff.2 ht)

/-- **C81**.  A rule with bounds that are no numbers never holds and changes nothing. -/
theorem C81_bounds (header : Str) (ratio : Option Rat) (count : Option Int) (m : Msg) (h : ratio = none ∨ count = none) :
    checkIllegal header ratio count m = (false, m) := by
  unfold checkIllegal
  rcases h with h | h
  · subst h; rfl
  · subst h; cases ratio <;> rfl

/-- **C81** (partial).  What `ALL` does to the message: the other headers, and everything already decoded, stay. -/
theorem C81_others_partial (ratio : Rat) (count : Int) (m : Msg) (n : Str) (h1 : lower n ≠ c!"subject") (h2 : lower n ≠ c!"from") :
    getRaw (checkIllegal c!"ALL" (some ratio) (some count) m).2 n = getRaw m n ∧
    (checkIllegal c!"ALL" (some ratio) (some count) m).2.headers = m.headers := by
  have hm : (checkIllegal c!"ALL" (some ratio) (some count) m).2 = { m with raw := withoutSubject m.raw } := by
    unfold checkIllegal
    simp only [if_pos]
    split <;> rfl
  rw [hm]
  refine ⟨?_, rfl⟩
  unfold getRaw Headers.find
  rw [withoutSubject_get, lower_idem, if_neg (by simp [h1, h2])]

/-- **C81** (partial).  A rule with `ALL` holds exactly if enough of the characters of the values of all headers but
`Subject` and `From` are not ASCII; asking again gives the same answer and changes nothing more. -/
theorem C81_all_partial (ratio : Rat) (count : Int) (m : Msg) :
    let text := ((m.raw.filter fun p => !decide (lower p.1 ∈ [c!"subject", c!"from"])).map fun p => p.2.flatten).flatten
    ((checkIllegal c!"ALL" (some ratio) (some count) m).1 = true ↔ TooMany (nonAscii text) text.length ratio count) ∧
    checkIllegal c!"ALL" (some ratio) (some count) (checkIllegal c!"ALL" (some ratio) (some count) m).2 =
      checkIllegal c!"ALL" (some ratio) (some count) m := by
  intro text
  have hm : ∀ m : Msg, (checkIllegal c!"ALL" (some ratio) (some count) m).2 = { m with raw := withoutSubject m.raw } := by
    intro m
    unfold checkIllegal
    simp only [if_pos]
    split <;> rfl
  have ht : ((Dict.values (withoutSubject m.raw)).map List.flatten).flatten = text := by
    unfold Dict.values
    rw [withoutSubject_eq, List.map_map]
    rfl
  have hi : withoutSubject (withoutSubject m.raw) = withoutSubject m.raw := by
    rw [withoutSubject_eq (withoutSubject m.raw), withoutSubject_eq m.raw, List.filter_filter]
    simp
  constructor
  · unfold checkIllegal
    simp only [if_pos, ht]
    by_cases h0 : text = []
    · rw [if_neg (by simp [h0])]
      simp [h0, TooMany]
    · rw [if_pos h0, illegalCount_other _ _ (by decide)]
      exact tooMany_iff _ _ _ _ (List.length_pos_iff.2 h0)
  · rw [hm]
    unfold checkIllegal
    simp only [if_pos, hi]

/-- **C81** is violated: a rule with `ALL` takes the subject and the sender away from the message. -/
theorem C81_removes_violated (ratio : Rat) (count : Int) (m : Msg) :
    getRaw (checkIllegal c!"ALL" (some ratio) (some count) m).2 c!"Subject" = [] ∧
    getRaw (checkIllegal c!"ALL" (some ratio) (some count) m).2 c!"From" = [] := by
  have hm : (checkIllegal c!"ALL" (some ratio) (some count) m).2 = { m with raw := withoutSubject m.raw } := by
    unfold checkIllegal
    simp only [if_pos]
    split <;> rfl
  rw [hm]
  unfold getRaw Headers.find
  constructor
  · rw [withoutSubject_get, if_pos (by decide)]; rfl
  · rw [withoutSubject_get, if_pos (by decide)]; rfl

/-- **C81** is violated: after a rule with `ALL`, the same rule about the subject holds of no message. -/
theorem C81_order_violated (ratio ratio' : Rat) (count count' : Int) (m : Msg) (header : Str)
    (h : header = c!"Subject" ∨ header = c!"From") :
    (checkIllegal header (some ratio') (some count') (checkIllegal c!"ALL" (some ratio) (some count) m).2).1 = false := by
  have hg : getRaw (checkIllegal c!"ALL" (some ratio) (some count) m).2 header = [] := by
    rcases h with rfl | rfl
    · exact (C81_removes_violated ratio count m).1
    · exact (C81_removes_violated ratio count m).2
  have h1 : header ≠ c!"ALL" := by rcases h with rfl | rfl <;> decide
  generalize (checkIllegal c!"ALL" (some ratio) (some count) m).2 = m' at hg
  unfold checkIllegal
  simp only [if_neg h1, hg, List.flatten_nil, ne_eq, not_true, if_false]

/-- **C81** is violated: control characters are not taken for illegal, whatever ASCII characters a header has. -/
theorem C81_control_violated (header : Str) (ratio : Rat) (count : Int) (m : Msg) (h1 : header ≠ c!"ALL")
    (ha : ∀ v ∈ getRaw m header, ∀ c ∈ v, c.toNat < 128) (hc : 0 < count) :
    (checkIllegal header (some ratio) (some count) m).1 = false := by
  have hz : nonAscii (getRaw m header).flatten = 0 := by
    unfold nonAscii
    rw [List.countP_eq_zero]
    intro c hc
    obtain ⟨v, hv, hcv⟩ := List.mem_flatten.1 hc
    have := ha v hv c hcv
    simp; omega
  cases hr : (checkIllegal header (some ratio) (some count) m).1
  · rfl
  · exfalso
    by_cases h2 : lower header = c!"subject"
    · have := (C81_subject_partial header ratio count m h2).1.1 hr
      rw [hz] at this
      have := this.2.2
      simp at this; omega
    · have := (C81_result_partial header ratio count m h1 h2).1.1 hr
      rw [hz] at this
      have := this.2.2
      simp at this; omega

example : let m := Msg.ofHeaders [(c!"Subject", c!"café"), (c!"X", c!"a\u0007")] []
    (checkIllegal c!"Subject" (some (1/10)) (some 1) m).1 = true ∧ (checkIllegal c!"X" (some 0) (some 1) m).1 = false ∧
    getRaw m c!"Subject" = [c!"café"] ∧ getRaw (checkIllegal c!"ALL" (some 0) (some 1) m).2 c!"Subject" = [] := by
  decide +kernel
example : illegalCount c!"Subject" c!"££" = 1 ∧ illegalCount c!"Subject" c!"£¢" = 2 := by decide +kernel

end Verif.Props
