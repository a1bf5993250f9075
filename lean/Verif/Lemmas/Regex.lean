import Verif.Lemmas.Strip
import Verif.Spec.Header

namespace Verif
open Py Spec

theorem flagsOf_eq (s : Str) : flagsOf s = wantFlags s := by
  have gen : ∀ (s : Str) (f : ReFlags), s.foldl addFlag f =
      { i := f.i || decide ('i' ∈ s), s := f.s || decide ('s' ∈ s), m := f.m || decide ('m' ∈ s),
        x := f.x || decide ('x' ∈ s) } := by
    intro s
    induction s with
    | nil => intro f; simp
    | cons c cs ih =>
      intro f
      rw [List.foldl_cons, ih]
      unfold addFlag
      by_cases h1 : c = 'i'
      · subst h1; simp
      by_cases h2 : c = 's'
      · subst h2; simp
      by_cases h3 : c = 'm'
      · subst h3; simp
      by_cases h4 : c = 'x'
      · subst h4; simp
      simp [h1, h2, h3, h4, Ne.symm h1, Ne.symm h2, Ne.symm h3, Ne.symm h4]
  unfold flagsOf wantFlags
  rw [gen]
  simp

theorem convExt_id (t : Str) (h : ¬ c!"(?" <:+: t) : convExt 0 t = t := by
  induction t with
  | nil => rfl
  | cons c cs ih =>
    have h1 := ih (fun hi => h (List.infix_cons hi))
    unfold convExt
    split
    · rename_i e; cases e
    · omega
    · rename_i e1 e2 e
      simp only [List.cons.injEq] at e
      obtain ⟨rfl, rfl⟩ := e
      exact absurd ⟨[], _, rfl⟩ h
    · rename_i e
      simp only [List.cons.injEq] at e
      obtain ⟨rfl, rfl⟩ := e
      rw [h1]

theorem convWord_id (t : Str) (h1 : ¬ c!"\\b?" <:+: t) (h2 : ¬ c!"\\B?" <:+: t) : convWord t = t := by
  induction t with
  | nil => rfl
  | cons c cs ih =>
    have ih := ih (fun hi => h1 (List.infix_cons hi)) (fun hi => h2 (List.infix_cons hi))
    unfold convWord
    split
    · rename_i e; cases e
    · rename_i b ds e
      simp only [List.cons.injEq] at e
      obtain ⟨rfl, rfl⟩ := e
      split
      · rename_i hc
        exfalso
        obtain ⟨hb, hh⟩ := hc
        cases ds with
        | nil => simp at hh
        | cons x xs =>
          simp at hh; subst hh
          rcases hb with rfl | rfl
          · exact h1 ⟨[], xs, rfl⟩
          · exact h2 ⟨[], xs, rfl⟩
      · rw [ih]
    · rename_i e
      simp only [List.cons.injEq] at e
      obtain ⟨rfl, rfl⟩ := e
      rw [ih]

theorem convAtomic_id (t : Str) (h : ¬ c!"(?" <:+: t) : convAtomic t = t := by
  induction t with
  | nil => rfl
  | cons c cs ih =>
    have h1 := ih (fun hi => h (List.infix_cons hi))
    unfold convAtomic
    split
    · rename_i e; cases e
    · rename_i e
      simp only [List.cons.injEq] at e
      obtain ⟨rfl, rfl⟩ := e
      exact absurd ⟨[], _, rfl⟩ h
    · rename_i e
      simp only [List.cons.injEq] at e
      obtain ⟨rfl, rfl⟩ := e
      rw [h1]

theorem delims_get {d r : Char} (h : Delimiters d r) : Dict.get? delims d = some r := by
  unfold Delimiters at h
  simp only [List.mem_cons, Prod.mk.injEq, List.not_mem_nil, or_false] at h
  rcases h with ⟨rfl, rfl⟩ | ⟨rfl, rfl⟩ | ⟨rfl, rfl⟩ | ⟨rfl, rfl⟩ | ⟨rfl, rfl⟩ | ⟨rfl, rfl⟩ |
    ⟨rfl, rfl⟩ | ⟨rfl, rfl⟩ | ⟨rfl, rfl⟩ <;> decide

theorem get_delims {d r : Char} (h : Dict.get? delims d = some r) : Delimiters d r := by
  unfold Delimiters
  exact Dict.mem_of_get? _ h

theorem delims_plain {d r : Char} (h : Delimiters d r) :
    isSpace d = false ∧ isSpace r = false ∧ d ∉ c!"mgs" := by
  unfold Delimiters at h
  simp only [List.mem_cons, Prod.mk.injEq, List.not_mem_nil, or_false] at h
  rcases h with ⟨rfl, rfl⟩ | ⟨rfl, rfl⟩ | ⟨rfl, rfl⟩ | ⟨rfl, rfl⟩ | ⟨rfl, rfl⟩ | ⟨rfl, rfl⟩ |
    ⟨rfl, rfl⟩ | ⟨rfl, rfl⟩ | ⟨rfl, rfl⟩ <;> decide

theorem mgs_plain {c : Char} (h : c ∈ c!"mgs") : isSpace c = false := by
  simp only [List.mem_cons, List.not_mem_nil, or_false] at h
  rcases h with rfl | rfl | rfl <;> decide

/-- What is left of a written pattern after the surroundings are removed. -/
theorem written_body {d r : Char} {lead pre flags trail : Str} (text : Str)
    (h : WellWritten d r lead pre flags trail) :
    lstripChars c!"mgs" (strip (Written d r lead pre text flags trail)) = d :: (text ++ r :: flags) := by
  obtain ⟨hd, hl, hp, _, hf, ht⟩ := h
  obtain ⟨hd1, hr1, hd2⟩ := delims_plain hd
  have e : Written d r lead pre text flags trail =
      lead ++ (pre ++ d :: (text ++ r :: flags)) ++ trail := by
    simp [Written]
  rw [e, strip_around hl ht]
  · unfold lstripChars lstripBy
    rw [dropWhile_all _ (fun c hc => by simpa using hp c hc),
      dropWhile_head _ (by simpa using hd2)]
  · cases pre with
    | nil => exact ⟨d, _, rfl, hd1⟩
    | cons c cs => exact ⟨c, _, rfl, mgs_plain (hp c (by simp))⟩
  · rcases List.eq_nil_or_concat flags with rfl | ⟨fs, f, rfl⟩
    · exact ⟨pre ++ d :: text, r, by simp, hr1⟩
    · exact ⟨pre ++ d :: (text ++ r :: fs), f, by simp, hf f (by simp)⟩

/-! ### The rewritten Perl constructs -/

theorem not_infix_tail {x : Char} {p xs : Str} (h : ¬ p <:+: x :: xs) : ¬ p <:+: xs :=
  fun hi => h (List.infix_cons hi)

/-- Text without `(?` before a character other than `?` is copied. -/
theorem convExt_pass (a : Str) (c : Char) (s : Str) (hc : c ≠ '?') (h : ¬ c!"(?" <:+: a) :
    convExt 0 (a ++ c :: s) = a ++ convExt 0 (c :: s) := by
  induction a with
  | nil => rfl
  | cons x xs ih =>
    have ih := ih (not_infix_tail h)
    rw [List.cons_append, List.cons_append, convExt, ih]
    intro cs hx
    cases xs with
    | nil =>
      simp only [List.nil_append, List.cons.injEq] at *
      intro e; exact hc e.1
    | cons y ys =>
      simp only [List.cons_append, List.cons.injEq] at *
      intro e
      exact h ⟨[], ys, by simp [hx, e.1]⟩

theorem convAtomic_pass (a : Str) (c : Char) (s : Str) (hc : c ≠ '?') (h : ¬ c!"(?" <:+: a) :
    convAtomic (a ++ c :: s) = a ++ convAtomic (c :: s) := by
  induction a with
  | nil => rfl
  | cons x xs ih =>
    have ih := ih (not_infix_tail h)
    rw [List.cons_append, List.cons_append, convAtomic, ih]
    intro cs hx
    cases xs with
    | nil =>
      simp only [List.nil_append, List.cons.injEq] at *
      intro e; exact hc e.1
    | cons y ys =>
      simp only [List.cons_append, List.cons.injEq] at *
      intro e
      exact h ⟨[], ys, by simp [hx, e.1]⟩

theorem convWord_other (x : Char) (xs : Str)
    (h : x = '\\' → ∀ b cs, xs = b :: cs → ¬((b = 'b' ∨ b = 'B') ∧ cs.head? = some '?')) :
    convWord (x :: xs) = x :: convWord xs := by
  cases xs with
  | nil =>
    by_cases hx : x = '\\'
    · subst hx; rfl
    · simp [convWord]
  | cons y ys =>
    by_cases hx : x = '\\'
    · subst hx
      rw [convWord, if_neg (h rfl y ys rfl)]
    · rw [convWord]; intro b cs e; exact absurd e hx

theorem convWord_pass (a : Str) (c : Char) (s : Str) (hc : c ≠ '?') (hb : c ≠ 'b') (hB : c ≠ 'B')
    (h1 : ¬ c!"\\b?" <:+: a) (h2 : ¬ c!"\\B?" <:+: a) :
    convWord (a ++ c :: s) = a ++ convWord (c :: s) := by
  induction a with
  | nil => rfl
  | cons x xs ih =>
    have ih := ih (not_infix_tail h1) (not_infix_tail h2)
    rw [List.cons_append, List.cons_append, convWord_other, ih]
    rintro rfl b cs e ⟨hbb, hq⟩
    cases xs with
    | nil =>
      simp only [List.nil_append, List.cons.injEq] at e
      rcases hbb with hbb | hbb
      · exact hb (e.1.trans hbb)
      · exact hB (e.1.trans hbb)
    | cons y ys =>
      simp only [List.cons_append, List.cons.injEq] at e
      obtain ⟨rfl, rfl⟩ := e
      cases ys with
      | nil => simp at hq; exact hc hq
      | cons z zs =>
        simp at hq
        subst hq
        rcases hbb with rfl | rfl
        · exact h1 ⟨[], zs, rfl⟩
        · exact h2 ⟨[], zs, rfl⟩

theorem convExt_plain (c : Char) (s : Str) (h : c ≠ '(') : convExt 0 (c :: s) = c :: convExt 0 s := by
  rw [convExt]; intro cs e; exact absurd e h

theorem convAtomic_plain (c : Char) (s : Str) (h : c ≠ '(') : convAtomic (c :: s) = c :: convAtomic s := by
  rw [convAtomic]; intro cs e; exact absurd e h

theorem convWord_plain (c : Char) (s : Str) (h : c ≠ '\\') : convWord (c :: s) = c :: convWord s :=
  convWord_other _ _ (fun e => absurd e h)

theorem takeWhile_run {p : Char → Bool} {e : Str} (s : Str) (h : ∀ c ∈ e, p c = true) (hc : p ':' = false) :
    (e ++ ':' :: s).takeWhile p = e := by
  induction e with
  | nil => simp [List.takeWhile_cons, hc]
  | cons x xs ih =>
    rw [List.cons_append, List.takeWhile_cons_of_pos (h x (by simp)),
      ih (fun c hc => h c (List.mem_cons_of_mem _ hc))]

theorem convExt_skip (e : Str) (s : Str) : convExt e.length (e ++ s) = convExt 0 s := by
  induction e with
  | nil => rfl
  | cons x xs ih => rw [List.length_cons, List.cons_append, convExt, ih]

theorem extLen_run {e : Str} (s : Str) (h : ∀ c ∈ e, c ∈ c!"adlupimsx-") :
    extLen (e ++ ':' :: s) = e.length := by
  unfold extLen
  have : (e ++ ':' :: s).takeWhile (fun c => c!"adlupimsx-".contains c) = e :=
    takeWhile_run s (fun c hc => by simpa using h c hc) (by decide)
  simp only [this]
  simp

theorem extLen_caret {e : Str} (s : Str) (h : ∀ c ∈ e, c ∈ c!"?^alupimsx") :
    extLen ('^' :: e ++ ':' :: s) = ('^' :: e).length := by
  have h1 : ('^' :: e ++ ':' :: s).takeWhile (fun c => c!"adlupimsx-".contains c) = [] := by
    simp [List.takeWhile_cons]
  have h2 : (e ++ ':' :: s).takeWhile (fun c => c!"?^alupimsx".contains c) = e :=
    takeWhile_run s (fun c hc => by simpa using h c hc) (by decide)
  unfold extLen
  rw [h1]
  simp only [List.cons_append, h2]
  simp

end Verif
