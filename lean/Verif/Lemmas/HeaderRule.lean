import Verif.Lemmas.Headers
import Verif.Lemmas.Regex
import Verif.Lemmas.ParserLines

namespace Verif
open Py Mail Spec

variable {R : Type}

theorem anyValue_some (L : ReLib R) (p : Pat R) (ts : List Str) :
    anyValue L p (ts.map some) = some (ts.any (p.test L)) := by
  induction ts with
  | nil => rfl
  | cons t ts ih =>
    simp only [List.map_cons, anyValue, ih, List.any_cons]
    by_cases h : p.test L t = true <;> simp [h]

theorem no_infix_of_not_mem {c d : Char} {s : Str} (h : d ∉ s) : ¬ [c, d] <:+: s :=
  fun hi => h (hi.subset (by simp))

/-- A two-character text in a concatenation. -/
theorem infix2_append {c d : Char} {a b : Str} (h : [c, d] <:+: a ++ b) :
    [c, d] <:+: a ∨ [c, d] <:+: b ∨ (a.getLast? = some c ∧ b.head? = some d) := by
  induction a with
  | nil => exact Or.inr (Or.inl (by simpa using h))
  | cons x xs ih =>
    rw [List.cons_append, List.infix_cons_iff] at h
    rcases h with h | h
    · cases xs with
      | nil =>
        cases b with
        | nil => simp at h
        | cons y ys =>
          simp only [List.nil_append, List.cons_prefix_cons, List.nil_prefix, and_true] at h
          exact Or.inr (Or.inr ⟨by simp [h.1], by simp [h.2]⟩)
      | cons y ys =>
        simp only [List.cons_append, List.cons_prefix_cons, List.nil_prefix, and_true] at h
        exact Or.inl ⟨[], ys, by simp [h.1, h.2]⟩
    · rcases ih h with h | h | ⟨h1, h2⟩
      · exact Or.inl (List.infix_cons h)
      · exact Or.inr (Or.inl h)
      · refine Or.inr (Or.inr ⟨?_, h2⟩)
        cases xs with
        | nil => simp at h1
        | cons y ys => rw [List.getLast?_cons_cons]; exact h1

/-- Reading a header rule: the part before the operator and the pattern. -/
theorem headerRule_split (L : ReLib R) (neg : Bool) (before pat : Str) (h1 : '~' ∉ before)
    (h2 : neg = true → ¬ c!"=~" <:+: pat) :
    headerRule L (before ++ opText neg ++ pat) =
      match perl2re L pat neg with
      | .error e => .error e
      | .ok p =>
        if strip before = c!"ALL" then .ok (some (.all p))
        else if strip before = c!"ToCc" then .ok (some (.multi [c!"To", c!"Cc"] p))
        else if strip before = c!"MESSAGEID" then
          .ok (some (.multi [c!"Message-Id", c!"Resent-Message-Id", c!"X-Message-Id"] p))
        else match rsplit1 ':' (strip before) with
          | some (h', mod) =>
            if mod = c!"raw" then .ok (some (.pattern .raw (strip h') p))
            else if mod = c!"addr" then .ok (some (.pattern .addr (strip h') p))
            else if mod = c!"name" then .ok (some (.pattern .name (strip h') p))
            else .ok none
          | none => .ok (some (.pattern .decoded (strip (strip before)) p)) := by
  cases neg with
  | false =>
    have e : before ++ opText false ++ pat = before ++ '=' :: '~' :: pat := by simp [opText]
    have hs : split1 c!"=~" (before ++ '=' :: '~' :: pat) = some (before, pat) :=
      split1_two _ (no_infix_of_not_mem (by simpa using h1))
    have hh : hasSub c!"=~" (before ++ '=' :: '~' :: pat) = true := by
      rw [hasSub_iff]; exact ⟨before, pat, by simp⟩
    rw [e]
    unfold headerRule
    simp only [hh, if_true, hs]
    rfl
  | true =>
    have e : before ++ opText true ++ pat = before ++ '!' :: '~' :: pat := by simp [opText]
    have hs : split1 c!"!~" (before ++ '!' :: '~' :: pat) = some (before, pat) :=
      split1_two _ (no_infix_of_not_mem (by simpa using h1))
    have hh : hasSub c!"!~" (before ++ '!' :: '~' :: pat) = true := by
      rw [hasSub_iff]; exact ⟨before, pat, by simp⟩
    have hn : hasSub c!"=~" (before ++ '!' :: '~' :: pat) = false := by
      cases hb : hasSub c!"=~" (before ++ '!' :: '~' :: pat) with
      | false => rfl
      | true =>
        exfalso
        rw [hasSub_iff] at hb
        have e2 : before ++ '!' :: '~' :: pat = (before ++ ['!']) ++ (['~'] ++ pat) := by simp
        rw [e2] at hb
        rcases infix2_append hb with h | h | h
        · exact no_infix_of_not_mem (by simpa using h1) h
        · rcases infix2_append h with h | h | h
          · have := h.length_le; simp at this
          · exact h2 rfl h
          · simp at h
        · simp at h
    rw [e]
    unfold headerRule
    simp only [hh, hn, Bool.false_eq_true, if_false, if_true, hs]
    rfl

theorem plainName_strip {n sp1 sp2 : Str} (h : PlainName n) (h1 : Blank sp1) (h2 : Blank sp2) :
    strip (sp1 ++ n ++ sp2) = n := by
  obtain ⟨hne, hc⟩ := h
  apply strip_around h1 h2
  · cases n with
    | nil => exact absurd rfl hne
    | cons c cs => exact ⟨c, cs, rfl, (hc c (by simp)).1⟩
  · rcases List.eq_nil_or_concat n with rfl | ⟨cs, c, rfl⟩
    · exact absurd rfl hne
    · exact ⟨cs, c, by simp, (hc c (by simp)).1⟩

theorem rstripBy_keep {q : Char → Bool} (a : Str) {c : Char} (s : Str) (h : q c = false) :
    rstripBy q (a ++ c :: s) = a ++ c :: rstripBy q s := by
  have e : a ++ c :: s = (a ++ [c]) ++ s := by simp
  by_cases hs : ∃ x ∈ s, q x = false
  · rw [e, Parser.rstripBy_append q _ _ hs]; simp
  · have hs : ∀ x ∈ s, q x = true := by
      intro x hx
      cases hq : q x with
      | true => rfl
      | false => exact absurd ⟨x, hx, hq⟩ hs
    rw [e, Parser.rstripBy_append_ws q _ _ hs, Parser.rstripBy_eq_nil q s hs, rstripBy_last _ h]

theorem perl2re_rstrip (L : ReLib R) (pat : Str) (neg : Bool) :
    perl2re L (rstripBy isSpace pat) neg = perl2re L pat neg := by
  obtain ⟨w, e, hw⟩ := Parser.rstripBy_split isSpace pat
  have : strip (rstripBy isSpace pat) = strip pat := by
    conv => rhs; rw [e]
    rw [Parser.strip_append_ws _ _ hw]
  unfold perl2re
  rw [this]

/-- Reading a MIME header rule. -/
theorem mimeHeaderRule_split (L : ReLib R) (neg : Bool) (sp c : Str) (x : Char) (xs pat : Str)
    (hsp : Blank sp) (hc : c = x :: xs) (hx : isSpace x = false) (h1 : '~' ∉ c)
    (h2 : neg = true → ¬ c!"=~" <:+: pat) :
    mimeHeaderRule L (sp ++ c ++ opText neg ++ pat) =
      match perl2re L pat neg with
      | .error e => .error e
      | .ok p =>
        match rsplit1 ':' (strip c) with
          | some (h', mod) =>
            if mod = c!"raw" then .ok (some (.mime true (strip h') p)) else .ok none
          | none => .ok (some (.mime false (strip (strip c)) p)) := by
  have hstrip : ∀ o, strip (sp ++ c ++ [o, '~'] ++ pat) = c ++ [o, '~'] ++ rstripBy isSpace pat := by
    intro o
    unfold strip stripBy lstripBy
    have e1 : sp ++ c ++ [o, '~'] ++ pat = sp ++ (c ++ [o, '~'] ++ pat) := by simp
    rw [e1, dropWhile_all _ hsp]
    have e2 : (c ++ [o, '~'] ++ pat).dropWhile isSpace = c ++ [o, '~'] ++ pat := by
      rw [hc]; exact dropWhile_head _ hx
    rw [e2]
    have e3 : c ++ [o, '~'] ++ pat = (c ++ [o]) ++ '~' :: pat := by simp
    rw [e3, rstripBy_keep _ _ (by decide)]
    simp
  have hpre : rstripBy isSpace pat <:+: pat := by
    obtain ⟨w, e, _⟩ := Parser.rstripBy_split isSpace pat
    exact ⟨[], w, by simpa using e.symm⟩
  rw [← perl2re_rstrip]
  cases neg with
  | false =>
    have e : c ++ c!"=~" ++ rstripBy isSpace pat = c ++ '=' :: '~' :: rstripBy isSpace pat := by simp
    have hs : split1 c!"=~" (c ++ '=' :: '~' :: rstripBy isSpace pat) = some (c, rstripBy isSpace pat) :=
      split1_two _ (no_infix_of_not_mem (by simpa using h1))
    have hh : hasSub c!"=~" (c ++ '=' :: '~' :: rstripBy isSpace pat) = true := by
      rw [hasSub_iff]; exact ⟨c, rstripBy isSpace pat, by simp⟩
    unfold mimeHeaderRule opText
    simp only [Bool.false_eq_true, if_false, hstrip, e, hh, if_true, hs]
    rfl
  | true =>
    have e : c ++ c!"!~" ++ rstripBy isSpace pat = c ++ '!' :: '~' :: rstripBy isSpace pat := by simp
    have hs : split1 c!"!~" (c ++ '!' :: '~' :: rstripBy isSpace pat) = some (c, rstripBy isSpace pat) :=
      split1_two _ (no_infix_of_not_mem (by simpa using h1))
    have hh : hasSub c!"!~" (c ++ '!' :: '~' :: rstripBy isSpace pat) = true := by
      rw [hasSub_iff]; exact ⟨c, rstripBy isSpace pat, by simp⟩
    have hn : hasSub c!"=~" (c ++ '!' :: '~' :: rstripBy isSpace pat) = false := by
      cases hb : hasSub c!"=~" (c ++ '!' :: '~' :: rstripBy isSpace pat) with
      | false => rfl
      | true =>
        exfalso
        rw [hasSub_iff] at hb
        have e2 : c ++ '!' :: '~' :: rstripBy isSpace pat = (c ++ ['!']) ++ (['~'] ++ rstripBy isSpace pat) := by simp
        rw [e2] at hb
        rcases infix2_append hb with h | h | h
        · exact no_infix_of_not_mem (by simpa using h1) h
        · rcases infix2_append h with h | h | h
          · have := h.length_le; simp at this
          · exact h2 rfl (h.trans hpre)
          · simp at h
        · simp at h
    unfold mimeHeaderRule opText
    simp only [if_true, hstrip, e, hh, hn, Bool.false_eq_true, if_false, hs]
    rfl

end Verif
