import Verif.Lemmas.Regex

/-!
# C17: Perl patterns
-/

namespace Verif.Props
open Verif Py Mail Spec

variable {R : Type}

/-- A library in which every text compiles to itself with its flags. -/
def textLib : ReLib (Str × ReFlags) where
  compile := fun t f => if t = c!"*" then none else some (t, f)
  search := fun r t => hasSub r.1 t

theorem perl2re_written (L : ReLib R) {d r : Char} {lead pre flags trail : Str} (text : Str) (neg : Bool)
    (h : WellWritten d r lead pre flags trail) (hhead : text.head? ≠ some d)
    (hempty : text = [] → r ≠ d) :
    perl2re L (Written d r lead pre text flags trail) neg =
      compiled L (convAtomic (convWord (convExt 0 text))) (wantFlags flags) neg := by
  have hb := written_body text h
  obtain ⟨hd, _, _, hr, _, _⟩ := h
  unfold perl2re
  rw [hb]
  simp only [delims_get hd]
  have e : lstripChars [d] (d :: (text ++ r :: flags)) = text ++ r :: flags := by
    unfold lstripChars lstripBy
    rw [List.dropWhile_cons_of_pos (by simp)]
    cases text with
    | nil =>
      have := hempty rfl
      rw [List.nil_append, dropWhile_head]
      simpa using this
    | cons x xs =>
      simp at hhead
      rw [List.cons_append, dropWhile_head]
      simpa using hhead
  rw [e, rsplit1_append _ hr]
  simp only [flagsOf_eq, compiled]
  cases L.compile (convAtomic (convWord (convExt 0 text))) (wantFlags flags) <;> rfl

/-- **C17** (partial).  A pattern written with any delimiters, prefix letters, flags and
surrounding white space is compiled from exactly the text between the delimiters with exactly the
flags asked for.

Missing from the full statement: texts that start with the opening delimiter
(`C17_nested_violated`) and the empty text between equal delimiters (`C17_empty_violated`); texts
with Perl constructs that Python lacks are treated by the theorems `C17_local_flags`,
`C17_atomic` and `C17_optional_boundary`. -/
theorem C17_text_partial (L : ReLib R) {d r : Char} {lead pre flags trail : Str} (text : Str) (neg : Bool)
    (h : WellWritten d r lead pre flags trail) (hp : NoPerlisms text)
    (hhead : text.head? ≠ some d) (hempty : text = [] → r ≠ d) :
    perl2re L (Written d r lead pre text flags trail) neg =
      compiled L text (wantFlags flags) neg := by
  rw [perl2re_written L text neg h hhead hempty, convExt_id _ hp.1, convWord_id _ hp.2.1 hp.2.2,
    convAtomic_id _ hp.1]

example : WellWritten '{' '}' c!" " c!"m" c!"ix" c!"\t" ∧ NoPerlisms c!"a/\\d+}" ∧
    perl2re textLib c!" m{a/\\d+}}ix\t" true =
      .ok { re := (c!"a/\\d+}", ⟨true, false, false, true⟩), neg := true } := by
  refine ⟨?_, ?_, by decide⟩
  · unfold WellWritten Delimiters Blank; decide
  · unfold NoPerlisms; decide

/-- **C17** is violated: opening delimiters at the beginning of the text are dropped, so that the pattern is compiled without them. -/
theorem C17_nested_violated (L : ReLib R) {d r : Char} {lead pre flags trail : Str} (text : Str) (neg : Bool)
    (h : WellWritten d r lead pre flags trail) :
    perl2re L (Written d r lead pre (d :: text) flags trail) neg = perl2re L (Written d r lead pre text flags trail) neg := by
  unfold perl2re
  rw [written_body (d :: text) h, written_body text h]
  have e : lstripChars [d] (d :: (d :: text ++ r :: flags)) = lstripChars [d] (d :: (text ++ r :: flags)) := by
    unfold lstripChars lstripBy
    rw [List.dropWhile_cons_of_pos (by simp), List.cons_append]
  simp only [e]

/-- **C17** is violated: the empty pattern between equal delimiters, like `//`, is rejected, whether or not the empty text compiles. -/
theorem C17_empty_violated (L : ReLib R) {d : Char} {lead pre flags trail : Str} (neg : Bool) (h : WellWritten d d lead pre flags trail) :
    perl2re L (Written d d lead pre [] flags trail) neg = .error .invalidRegex := by
  unfold perl2re
  rw [written_body [] h]
  simp only [delims_get h.1, List.nil_append]
  have hr := h.2.2.2.1
  have e : lstripChars [d] (d :: d :: flags) = flags := by
    unfold lstripChars lstripBy
    rw [List.dropWhile_cons_of_pos (by simp), List.dropWhile_cons_of_pos (by simp)]
    cases flags with
    | nil => rfl
    | cons x xs =>
      rw [dropWhile_head]
      simp only [List.mem_cons, not_or] at hr
      simpa using fun e : x = d => hr.1 e.symm
  rw [e, rsplit1_none hr]

example :
    ∃ (d r : Char) (text : Str), WellWritten d r [] c!"m" [] [] ∧ NoPerlisms text ∧
      perl2re textLib (Written d r [] c!"m" text [] []) false ≠
        compiled textLib text (wantFlags []) false := by
  refine ⟨'<', '>', c!"<br>", ?_, ?_, by decide⟩
  · unfold WellWritten Delimiters Blank; decide
  · unfold NoPerlisms; decide

example :
    perl2re textLib (Written '/' '/' [] [] [] [] []) false = .error .invalidRegex ∧
      compiled textLib [] (wantFlags []) false ≠ .error .invalidRegex := by decide

/-- Local flags `(?i:…)` and `(?^i:…)` are dropped, the group is kept (documented). -/
theorem C17_local_flags (L : ReLib R) {d r : Char} {lead pre flags trail : Str} (a e b : Str) (neg : Bool)
    (h : WellWritten d r lead pre flags trail) (ha : NoPerlisms a) (hb : NoPerlisms b)
    (he : (∀ c ∈ e, c ∈ c!"adlupimsx-") ∨ ∃ e', e = '^' :: e' ∧ ∀ c ∈ e', c ∈ c!"?^alupimsx")
    (hhead : (a ++ ['(']).head? ≠ some d) :
    perl2re L (Written d r lead pre (a ++ c!"(?" ++ e ++ c!":" ++ b) flags trail) neg =
      compiled L (a ++ c!"(?:" ++ b) (wantFlags flags) neg := by
  have hh : (a ++ c!"(?" ++ e ++ c!":" ++ b).head? ≠ some d := by
    cases a <;> simpa using hhead
  rw [perl2re_written L _ neg h hh (by cases a <;> simp)]
  have e1 : a ++ c!"(?" ++ e ++ c!":" ++ b = a ++ '(' :: ('?' :: (e ++ ':' :: b)) := by simp
  have elen : extLen (e ++ ':' :: b) = e.length := by
    rcases he with he | ⟨e', rfl, he⟩
    · exact extLen_run b he
    · exact extLen_caret b he
  rw [e1, convExt_pass a '(' _ (by decide) ha.1, convExt, elen, convExt_skip,
    convExt_plain _ _ (by decide), convExt_id b hb.1,
    convWord_pass a '(' _ (by decide) (by decide) (by decide) ha.2.1 ha.2.2,
    convWord_plain _ _ (by decide), convWord_plain _ _ (by decide), convWord_plain _ _ (by decide),
    convWord_id b hb.2.1 hb.2.2, convAtomic_pass a '(' _ (by decide) ha.1]
  have e2 : convAtomic ('(' :: '?' :: ':' :: b) = '(' :: '?' :: ':' :: b := by
    rw [convAtomic, convAtomic_plain _ _ (by decide), convAtomic_plain _ _ (by decide),
      convAtomic_id b hb.1]
    intro cs _ e
    simp at e
  rw [e2]
  simp

example : NoPerlisms c!"x " ∧ perl2re textLib c!"/x (?i-s:test)y/" false =
    .ok { re := (c!"x (?:test)y", ⟨false, false, false, false⟩), neg := false } := by
  refine ⟨?_, by decide⟩
  unfold NoPerlisms; decide

example : perl2re textLib c!"/x (?^i:test)y/" false =
    .ok { re := (c!"x (?:test)y", ⟨false, false, false, false⟩), neg := false } := by decide

/-- Independent groups `(?>…)` become ordinary ones (documented). -/
theorem C17_atomic (L : ReLib R) {d r : Char} {lead pre flags trail : Str} (a b : Str) (neg : Bool)
    (h : WellWritten d r lead pre flags trail) (ha : NoPerlisms a) (hb : NoPerlisms b)
    (hhead : (a ++ ['(']).head? ≠ some d) :
    perl2re L (Written d r lead pre (a ++ c!"(?>" ++ b) flags trail) neg =
      compiled L (a ++ c!"(?:" ++ b) (wantFlags flags) neg := by
  have hh : (a ++ c!"(?>" ++ b).head? ≠ some d := by
    cases a <;> simpa using hhead
  rw [perl2re_written L _ neg h hh (by cases a <;> simp)]
  have e1 : a ++ c!"(?>" ++ b = a ++ '(' :: ('?' :: '>' :: b) := by simp
  have e0 : extLen ('>' :: b) = 0 := by
    unfold extLen
    simp [List.takeWhile_cons]
  rw [e1, convExt_pass a '(' _ (by decide) ha.1, convExt, e0,
    convExt_plain _ _ (by decide), convExt_id b hb.1,
    convWord_pass a '(' _ (by decide) (by decide) (by decide) ha.2.1 ha.2.2,
    convWord_plain _ _ (by decide), convWord_plain _ _ (by decide), convWord_plain _ _ (by decide),
    convWord_id b hb.2.1 hb.2.2, convAtomic_pass a '(' _ (by decide) ha.1, convAtomic,
    convAtomic_id b hb.1]
  simp

example : perl2re textLib c!"/a(?>b)/" false =
    .ok { re := (c!"a(?:b)", ⟨false, false, false, false⟩), neg := false } := by decide

/-- An optional word boundary `\b?` or `\B?`, which Python rejects, is put in a group. -/
theorem C17_optional_boundary (L : ReLib R) {d r : Char} {lead pre flags trail : Str} (a b : Str)
    (w : Char) (hw : w = 'b' ∨ w = 'B') (neg : Bool)
    (h : WellWritten d r lead pre flags trail) (ha : NoPerlisms a) (hb : NoPerlisms b)
    (hhead : (a ++ ['\\']).head? ≠ some d) :
    perl2re L (Written d r lead pre (a ++ ['\\', w, '?'] ++ b) flags trail) neg =
      compiled L (a ++ ['(', '\\', w, ')', '?'] ++ b) (wantFlags flags) neg := by
  have hh : (a ++ ['\\', w, '?'] ++ b).head? ≠ some d := by
    cases a <;> simpa using hhead
  have hw1 : w ≠ '(' := by rcases hw with rfl | rfl <;> decide
  have hw2 : w ≠ '\\' := by rcases hw with rfl | rfl <;> decide
  rw [perl2re_written L _ neg h hh (by cases a <;> simp)]
  have e1 : a ++ ['\\', w, '?'] ++ b = a ++ '\\' :: (w :: '?' :: b) := by simp
  rw [e1, convExt_pass a '\\' _ (by decide) ha.1, convExt_plain _ _ (by decide),
    convExt_plain _ _ hw1, convExt_plain _ _ (by decide), convExt_id b hb.1,
    convWord_pass a '\\' _ (by decide) (by decide) (by decide) ha.2.1 ha.2.2, convWord,
    if_pos ⟨hw, rfl⟩, convWord_plain _ _ (by decide), convWord_id b hb.2.1 hb.2.2,
    convAtomic_pass a '(' _ (by decide) ha.1]
  have e2 : convAtomic ('(' :: '\\' :: w :: ')' :: '?' :: b) = '(' :: '\\' :: w :: ')' :: '?' :: b := by
    rw [convAtomic, convAtomic_plain _ _ (by decide), convAtomic_plain _ _ hw1,
      convAtomic_plain _ _ (by decide), convAtomic_plain _ _ (by decide), convAtomic_id b hb.1]
    intro cs _ e
    simp at e
  rw [e2]
  simp

example : perl2re textLib c!"/a\\b?c/" false =
    .ok { re := (c!"a(\\b)?c", ⟨false, false, false, false⟩), neg := false } := by decide

/-- **C17** (partial).  A pattern whose first character, after white space and the letters
`m`, `g`, `s`, is no opening delimiter, or whose closing delimiter does not follow, is rejected
with an invalid-regex error.  Missing: the blank pattern (`C17_blank_violated`). -/
theorem C17_malformed_partial (L : ReLib R) (lead pre rest : Str) (c : Char) (neg : Bool)
    (hl : Blank lead) (hp : ∀ x ∈ pre, x ∈ c!"mgs") (hc : c ∉ c!"mgs") (hs : isSpace c = false)
    (h : (∀ r, ¬ Delimiters c r) ∨ (∃ r, Delimiters c r ∧ r ∉ rest)) :
    perl2re L (lead ++ pre ++ c :: rest) neg = .error .invalidRegex := by
  -- the text that is looked at is `c` followed by a piece of `rest`
  have e : ∃ rest', (∀ x ∈ rest', x ∈ rest) ∧
      lstripChars c!"mgs" (strip (lead ++ pre ++ c :: rest)) = c :: rest' := by
    have e1 : (lead ++ pre ++ c :: rest).dropWhile isSpace = pre ++ c :: rest := by
      rw [List.append_assoc, dropWhile_all _ hl]
      cases pre with
      | nil => exact dropWhile_head _ hs
      | cons x xs => exact dropWhile_head _ (mgs_plain (hp x (by simp)))
    have e2 : ∃ rest', (∀ x ∈ rest', x ∈ rest) ∧
        rstripBy isSpace (pre ++ c :: rest) = pre ++ c :: rest' := by
      have : rstripBy isSpace ((pre ++ [c]) ++ rest) = (pre ++ [c]) ++ rstripBy isSpace rest := by
        unfold rstripBy
        rw [List.reverse_append]
        generalize rest.reverse = l
        induction l with
        | nil => simp [List.dropWhile_cons, hs]
        | cons x xs ih =>
          rw [List.cons_append, List.dropWhile_cons, List.dropWhile_cons]
          split
          · exact ih
          · simp
      refine ⟨rstripBy isSpace rest, ?_, ?_⟩
      · intro x hx
        unfold rstripBy at hx
        have := (List.dropWhile_sublist isSpace (l := rest.reverse)).subset (List.mem_reverse.1 hx)
        simpa using this
      · simpa using this
    obtain ⟨rest', h1, h2⟩ := e2
    refine ⟨rest', h1, ?_⟩
    unfold strip stripBy lstripBy
    rw [e1, h2]
    unfold lstripChars lstripBy
    rw [dropWhile_all _ (fun x hx => by simpa using hp x hx), dropWhile_head _ (by simpa using hc)]
  obtain ⟨rest', h1, h2⟩ := e
  unfold perl2re
  rw [h2]
  rcases h with h | ⟨r, hd, hr⟩
  · have : Dict.get? delims c = none := by
      cases hg : Dict.get? delims c with
      | none => rfl
      | some r => exact absurd (get_delims hg) (h r)
    simp only [this]
  · simp only [delims_get hd]
    have : r ∉ lstripChars [c] (c :: rest') := by
      unfold lstripChars lstripBy
      rw [List.dropWhile_cons_of_pos (by simp)]
      intro hm
      exact hr (h1 r ((List.dropWhile_sublist _).subset hm))
    rw [rsplit1_none this]

example : perl2re textLib c!" mabc/" false = .error .invalidRegex ∧
    perl2re textLib c!"m{abc" true = .error .invalidRegex ∧
    perl2re textLib c!"/*/" true = .error .invalidRegex := by decide

/-- A text that Python's `re` rejects is rejected with an invalid-regex error. -/
theorem C17_uncompilable (L : ReLib R) {d r : Char} {lead pre flags trail : Str} (text : Str) (neg : Bool)
    (h : WellWritten d r lead pre flags trail) (hp : NoPerlisms text)
    (hhead : text.head? ≠ some d) (hempty : text = [] → r ≠ d)
    (hc : L.compile text (wantFlags flags) = none) :
    perl2re L (Written d r lead pre text flags trail) neg = .error .invalidRegex := by
  rw [C17_text_partial L text neg h hp hhead hempty, compiled, hc]

/-- **C17** is violated: a blank pattern, or one of only `m`, `g` and `s`, raises `IndexError`, not an invalid-regex error: the caller does
not handle it. -/
theorem C17_blank_violated (L : ReLib R) (pattern : Str) (neg : Bool) (h : ∀ c ∈ strip pattern, c ∈ c!"mgs") :
    perl2re L pattern neg = .error .other := by
  unfold perl2re
  have : lstripChars c!"mgs" (strip pattern) = [] := by
    unfold lstripChars lstripBy
    generalize strip pattern = s at h
    induction s with
    | nil => rfl
    | cons c s ih =>
      rw [List.dropWhile_cons_of_pos (by simpa using h c (by simp)), ih (fun x hx => h x (by simp [hx]))]
  rw [this]

example :
    perl2re textLib c!" m " false = .error .other ∧ perl2re textLib [] false = .error .other := by
  decide

/-- **C17**.  With `!~` the same patterns are accepted as with `=~`; with `=~` an accepted pattern matches exactly the texts in
which the compiled expression is found, and with `!~` exactly the others. -/
theorem C17_negation (L : ReLib R) (pattern : Str) :
    (∀ e, perl2re L pattern true = .error e ↔ perl2re L pattern false = .error e) ∧
    ∀ p q, perl2re L pattern false = .ok p → perl2re L pattern true = .ok q →
      ∀ text, p.test L text = L.search p.re text ∧ q.test L text = !L.search p.re text := by
  have key : ∀ neg, perl2re L pattern neg =
      (perl2re L pattern false).map (fun p => { p with neg := neg }) := by
    intro neg
    unfold perl2re
    split
    · rfl
    · split
      · rfl
      · split
        · rfl
        · split <;> rfl
  have hneg : ∀ p, perl2re L pattern false = .ok p → p.neg = false := by
    intro p hp
    unfold perl2re at hp
    split at hp
    · cases hp
    · split at hp
      · cases hp
      · split at hp
        · cases hp
        · split at hp
          · cases hp
          · cases hp; rfl
  constructor
  · intro e
    rw [key true]
    cases perl2re L pattern false <;> simp [Except.map]
  · intro p q hp hq text
    rw [key true, hp] at hq
    simp only [Except.map, Except.ok.injEq] at hq
    subst hq
    simp [Pat.test, hneg p hp]

example : ∃ p q, perl2re textLib c!"/ab/" false = .ok p ∧ perl2re textLib c!"/ab/" true = .ok q ∧
    p.test textLib c!"xaby" = true ∧ q.test textLib c!"xaby" = false ∧
    q.test textLib c!"xay" = true := ⟨_, _, rfl, rfl, by decide, by decide, by decide⟩

end Verif.Props
