import Verif.Spec.Locales
import Verif.Lemmas.Py

/-!
# C80: charsets and locales
-/

namespace Verif.Props
open Verif Py Locales

theorem clean_bare (cs : Str) : clean cs = bare cs := by
  unfold clean bare upper
  apply List.filter_congr
  intro c _
  rw [Bool.eq_iff_iff]
  simp only [Char.isUpper, Char.isDigit, Bool.or_eq_true, Bool.and_eq_true, decide_eq_true_eq]
  exact Iff.rfl

theorem bare_chars (cs : Str) : ∀ c ∈ bare cs, c.isUpper = true ∨ c.isDigit = true := by
  intro c hc
  have := (List.mem_filter.1 hc).2
  simpa using this

theorem alwaysOk_iff (cs : Str) : alwaysOk cs = true ↔ Universal cs ∨ c!"USC" <+: cs := by
  unfold alwaysOk Universal
  simp only [Bool.or_eq_true, decide_eq_true_eq, startsWith, List.isPrefixOf_iff_prefix, List.mem_cons, List.not_mem_nil,
    or_false, exists_eq_or_imp, exists_eq_left]
  constructor
  · rintro ((((((((((h | h) | h) | h) | h) | h) | h) | h) | h) | h) | h) <;> simp [h]
  · rintro (((h | h | h) | (h | h | h | h | h | h | h)) | h) <;> simp [h]

theorem unusual_iff (name l : Str) (h : '_' ∉ name) :
    name ∈ (Dict.get? unusual l).getD [] ↔ name ∈ charsetsOf l := by
  have hp : ∀ a b : List Str, (∀ x, x ∈ a ↔ x ∈ b ∨ x = c!"SHIFT_JIS") → (name ∈ a ↔ name ∈ b) := by
    intro a b hab
    rw [hab]
    constructor
    · rintro (h1 | h1)
      · exact h1
      · subst h1; simp at h
    · exact Or.inl
  have hq : ∀ a b : List Str, a.Perm b → (name ∈ a ↔ name ∈ b) := fun a b h => h.mem_iff
  unfold unusual charsetsOf
  simp only [Dict.get?]
  by_cases h1 : c!"ja" = l
  · subst h1
    rw [if_pos rfl, if_pos rfl]
    apply hp
    intro x
    have : [c!"EUCJP", c!"JISX020119760", c!"JISX020819830", c!"JISX020819900", c!"JISX020819970", c!"JISX021219900",
      c!"JISX021320001", c!"JISX021320002", c!"SHIFT_JIS", c!"SHIFTJIS", c!"ISO2022JP", c!"SJIS", c!"JIS7", c!"JISX0201",
      c!"JISX0208", c!"JISX0212"].Perm ([c!"EUCJP", c!"ISO2022JP", c!"JIS7", c!"JISX0201", c!"JISX020119760", c!"JISX0208",
      c!"JISX020819830", c!"JISX020819900", c!"JISX020819970", c!"JISX0212", c!"JISX021219900", c!"JISX021320001",
      c!"JISX021320002", c!"SHIFTJIS", c!"SJIS"] ++ [c!"SHIFT_JIS"]) := by decide
    rw [Option.getD_some, this.mem_iff, List.mem_append, List.mem_singleton]
  rw [if_neg h1, if_neg (Ne.symm h1)]
  by_cases h2 : c!"ko" = l
  · subst h2; simp
  rw [if_neg h2, if_neg (Ne.symm h2)]
  by_cases h3 : l ∈ [c!"be", c!"bg", c!"ka", c!"ru", c!"tg", c!"uk"]
  · rw [if_pos h3]
    have hc : cyrillic.Perm [c!"CP1251", c!"CP866", c!"GEORGIANPS", c!"ISOIR111", c!"KOI8R", c!"KOI8T", c!"KOI8U", c!"PT154"] := by
      decide
    refine Iff.trans ?_ hc.mem_iff
    simp only [List.mem_cons, List.not_mem_nil, or_false] at h3
    rcases h3 with rfl | rfl | rfl | rfl | rfl | rfl <;> simp
  rw [if_neg h3]
  simp only [List.mem_cons, List.not_mem_nil, or_false, not_or] at h3
  rw [if_neg (Ne.symm h3.2.2.2.1), if_neg (Ne.symm h3.2.2.1), if_neg (Ne.symm h3.2.2.2.2.1), if_neg (Ne.symm h3.1),
    if_neg (Ne.symm h3.2.2.2.2.2), if_neg (Ne.symm h3.2.1)]
  by_cases h4 : c!"th" = l
  · subst h4; simp
  rw [if_neg h4, if_neg (Ne.symm h4)]
  by_cases h5 : c!"zh" = l
  · subst h5
    rw [if_pos rfl, if_pos rfl, Option.getD_some]
    exact hq _ _ (by decide)
  · rw [if_neg h5, if_neg (Ne.symm h5)]
    simp

theorem inLocales_iff (name : Str) (h : '_' ∉ name) (ls : List Str) :
    inLocales name ls = true ↔ ∃ l ∈ ls, name ∈ charsetsOf (l.take 2) := by
  induction ls with
  | nil => simp [inLocales]
  | cons l ls ih =>
    unfold inLocales
    have hl : name ∈ (Dict.get? unusual ((if l = c!"C" then c!"en" else l).take 2)).getD [] ↔
        name ∈ charsetsOf (l.take 2) := by
      rw [unusual_iff _ _ h]
      by_cases hc : l = c!"C"
      · subst hc; simp [charsetsOf]
      · rw [if_neg hc]
    simp only
    by_cases hm : name ∈ charsetsOf (l.take 2)
    · have hm' := hl.2 hm
      rw [if_pos ⟨fun he => by rw [he] at hm'; simp at hm', hm'⟩]
      simp [hm]
    · rw [if_neg (fun hh => hm (hl.1 hh.2))]
      refine ih.trans ?_
      simp [hm]

/-- **C80** (partial).  Exactly the universal charsets and those of a listed locale are accepted, and those whose
name begins with `USC`. -/
theorem C80_exact_partial (cs : Str) (locales : List Str) :
    charsetOk (some cs) locales = true ↔ Acceptable cs locales ∨ c!"USC" <+: bare cs := by
  have hu : '_' ∉ bare cs := fun h => by rcases bare_chars cs _ h with h | h <;> exact absurd h (by decide)
  unfold charsetOk Acceptable
  simp only [Option.getD_some, clean_bare]
  by_cases ha : alwaysOk (bare cs) = true
  · rw [if_pos ha]
    rcases (alwaysOk_iff _).1 ha with h | h
    · simp [h]
    · simp [h]
  · rw [if_neg ha, inLocales_iff _ hu]
    have : ¬ (Universal (bare cs) ∨ c!"USC" <+: bare cs) := fun h => ha ((alwaysOk_iff _).2 h)
    simp only [not_or] at this
    simp [this.1, this.2]

/-- **C80**.  Upper and lower case and punctuation in the name of a charset do not matter. -/
theorem C80_spelling (a b : Str) (h : bare a = bare b) (locales : List Str) :
    charsetOk (some a) locales = charsetOk (some b) locales := by
  unfold charsetOk
  simp only [Option.getD_some, clean_bare, h]

/-- **C80**.  With more locales, more is accepted. -/
theorem C80_more (cs : Option Str) (ls ms : List Str) (h : ∀ l ∈ ls, l ∈ ms) (hc : charsetOk cs ls = true) :
    charsetOk cs ms = true := by
  have hu : '_' ∉ bare (cs.getD []) := fun h => by rcases bare_chars _ _ h with h | h <;> exact absurd h (by decide)
  unfold charsetOk at *
  simp only [clean_bare] at *
  split
  · rfl
  · rename_i ha
    rw [if_neg ha, inLocales_iff _ hu] at hc
    rw [inLocales_iff _ hu]
    obtain ⟨l, hl, hm⟩ := hc
    exact ⟨l, h l hl, hm⟩

/-- **C80** is violated: the Unicode charsets `UCS-2` and `UCS-4` are accepted in no locale, because of a typing
error. -/
theorem C80_ucs_violated (cs : Str) (h : c!"UCS" <+: bare cs) (locales : List Str) : charsetOk (some cs) locales = false := by
  cases hh : charsetOk (some cs) locales
  · rfl
  · exfalso
    obtain ⟨r, hr⟩ := h
    rcases (C80_exact_partial _ _).1 hh with (h | ⟨l, _, h⟩) | ⟨t, h⟩
    · rcases h with h | ⟨p, hp, t, ht⟩
      · rw [← hr] at h; simp at h
      · rw [← hr] at ht
        simp only [List.mem_cons, List.not_mem_nil, or_false] at hp
        rcases hp with rfl | rfl | rfl | rfl | rfl | rfl | rfl <;> simp at ht
    · rw [← hr] at h
      have key : ∀ x ∈ charsetsOf (l.take 2), x.head? ≠ some 'U' := by
        unfold charsetsOf
        split
        · decide
        · split
          · decide
          · split
            · decide
            · split
              · decide
              · split
                · decide
                · simp
      exact key _ h rfl
    · rw [← hr] at h; simp at h

/-- **C80** is violated: text without a charset, plain ASCII that is, is accepted in no locale. -/
theorem C80_plain_violated (locales : List Str) : charsetOk none locales = false := by
  have hu : '_' ∉ bare ((none : Option Str).getD []) := by decide
  unfold charsetOk
  simp only [clean_bare]
  rw [if_neg (by decide)]
  cases hh : inLocales (bare ((none : Option Str).getD [])) locales
  · rfl
  · obtain ⟨l, _, hm⟩ := (inLocales_iff _ hu _).1 hh
    have : ∀ l : Str, [] ∉ charsetsOf l := by
      intro l
      unfold charsetsOf
      split
      · decide
      · split
        · decide
        · split
          · decide
          · split
            · decide
            · split
              · decide
              · simp
    exact absurd hm (this _)

/-- **C80** (partial).  The header rule holds exactly if locales are configured and a `Subject` or `From` header that
can be decoded has a part with an unacceptable charset. -/
theorem C80_header_partial (ok : Str) (headers : List (Option (List (Option Str)))) :
    farawayHeaders ok headers = true ↔
      ok ≠ [] ∧ lower ok ≠ c!"all" ∧ ∃ parts, some parts ∈ headers ∧ ∃ cs ∈ parts, charsetOk cs (splitWs ok) = false := by
  unfold farawayHeaders
  split
  · rename_i h
    simp only [Bool.false_eq_true, false_iff]
    rintro ⟨h1, h2, _⟩
    rcases h with h | h
    · exact h1 h
    · exact h2 h
  · rename_i h
    simp only [not_or] at h
    rw [List.any_eq_true]
    constructor
    · rintro ⟨x, hx, hh⟩
      cases x with
      | none => simp at hh
      | some parts =>
        obtain ⟨cs, hcs, h'⟩ := List.any_eq_true.1 hh
        exact ⟨h.1, h.2, parts, hx, cs, hcs, by simpa using h'⟩
    · rintro ⟨_, _, parts, hp, cs, hcs, h'⟩
      exact ⟨some parts, hp, List.any_eq_true.2 ⟨cs, hcs, by simp [h']⟩⟩

/-- **C80** is violated: with locales configured, the rule holds of every message whose subject has plain ASCII
text in it. -/
theorem C80_header_violated (ok : Str) (h1 : ok ≠ []) (h2 : lower ok ≠ c!"all") (headers : List (Option (List (Option Str))))
    (parts : List (Option Str)) (hp : some parts ∈ headers) (hn : none ∈ parts) : farawayHeaders ok headers = true :=
  (C80_header_partial ok headers).2 ⟨h1, h2, parts, hp, none, hn, C80_plain_violated _⟩

/-- **C80** (partial).  The rule about parts holds exactly if `all` is not among the locales and some part has a
charset that begins with a letter and is not acceptable. -/
theorem C80_mime_partial (ok : Str) (charsets : List (Option Str)) :
    farawayMime ok charsets = true ↔
      c!"all" ∉ splitWs ok ∧ ∃ cs, some cs ∈ charsets ∧ (∃ c r, cs = c :: r ∧ c.isAlpha = true) ∧
        charsetOk (some cs) (splitWs ok) = false := by
  have key : ∀ (l : List (Option Str)) (b : Bool), l.foldl (updateFaraway ok) b = true ↔ b = true ∨
      (c!"all" ∉ splitWs ok ∧ ∃ cs, some cs ∈ l ∧ (∃ c r, cs = c :: r ∧ c.isAlpha = true) ∧
        charsetOk (some cs) (splitWs ok) = false) := by
    intro l
    induction l with
    | nil => simp
    | cons x xs ih =>
      intro b
      rw [List.foldl_cons]
      refine (ih _).trans ?_
      have hstep : updateFaraway ok b x = true ↔ b = true ∨ (c!"all" ∉ splitWs ok ∧ ∃ cs, some cs = x ∧
          (∃ c r, cs = c :: r ∧ c.isAlpha = true) ∧ charsetOk (some cs) (splitWs ok) = false) := by
        unfold updateFaraway
        split
        · rename_i c cs
          by_cases hl : startsWithLetter (c :: cs) = true
          · rw [if_pos hl]
            by_cases hb : b = true
            · simp [hb]
            · rw [if_neg hb]
              by_cases ha : c!"all" ∈ splitWs ok
              · rw [if_pos ha]; simp [ha]
              · rw [if_neg ha]
                simp only [Bool.not_eq_true']
                constructor
                · intro h; exact Or.inr ⟨ha, _, rfl, ⟨c, cs, rfl, hl⟩, h⟩
                · rintro (h | ⟨_, cs', h1, _, h2⟩)
                  · exact absurd h hb
                  injection h1 with h1
                  rw [← h1]; exact h2
          · rw [if_neg hl]
            constructor
            · exact Or.inl
            · rintro (h | ⟨_, cs', h1, ⟨d, r, h2, h3⟩, _⟩)
              · exact h
              · injection h1 with h1
                rw [h1] at h2
                injection h2 with h2 _
                subst h2
                exact absurd h3 hl
        · rename_i hx
          constructor
          · exact Or.inl
          · rintro (h | ⟨_, cs', h1, ⟨d, r, h2, h3⟩, _⟩)
            · exact h
            · exact absurd (h1.symm.trans (by rw [h2])) (hx d r)
      rw [hstep]
      constructor
      · rintro ((h | ⟨h1, cs, h2, h3⟩) | ⟨h1, cs, h2, h3⟩)
        · exact Or.inl h
        · exact Or.inr ⟨h1, cs, by simp [h2], h3⟩
        · exact Or.inr ⟨h1, cs, by simp [h2], h3⟩
      · rintro (h | ⟨h1, cs, h2, h3⟩)
        · exact Or.inl (Or.inl h)
        · rcases List.mem_cons.1 h2 with h2 | h2
          · exact Or.inl (Or.inr ⟨h1, cs, h2, h3⟩)
          · exact Or.inr ⟨h1, cs, h2, h3⟩
  unfold farawayMime
  refine (key charsets false).trans ?_
  simp

/-- **C80** is violated: without `ok_locales` the rule about headers never holds, but the one about parts takes
every charset that is not universal for far away. -/
theorem C80_unset_violated (charsets : List (Option Str)) (headers : List (Option (List (Option Str)))) (cs : Str)
    (hm : some cs ∈ charsets) (hl : ∃ c r, cs = c :: r ∧ c.isAlpha = true) (hu : ¬ Universal (bare cs))
    (hs : ¬ c!"USC" <+: bare cs) : farawayHeaders [] headers = false ∧ farawayMime [] charsets = true := by
  constructor
  · unfold farawayHeaders; rw [if_pos (Or.inl rfl)]
  · refine (C80_mime_partial _ _).2 ⟨by decide, cs, hm, hl, ?_⟩
    cases hh : charsetOk (some cs) (splitWs [])
    · rfl
    · rcases (C80_exact_partial _ _).1 hh with (h | ⟨l, h, _⟩) | h
      · exact absurd h hu
      · have : splitWs [] = [] := rfl
        rw [this] at h; simp at h
      · exact absurd h hs

example : charsetOk (some c!"koi8-r") [c!"en_US", c!"ru_RU"] = true ∧ charsetOk (some c!"koi8-r") [c!"en"] = false ∧
    charsetOk (some c!"Shift_JIS") [c!"ja"] = true ∧ charsetOk (some c!"utf-8") [] = true ∧
    charsetOk (some c!"UCS-2") [c!"en", c!"ja"] = false := by decide +kernel
example : farawayHeaders c!"en" [some [none]] = true ∧ farawayHeaders c!"en" [some [some c!"utf-8"]] = false := by
  decide +kernel
example : farawayMime [] [some c!"koi8-r"] = true ∧ farawayMime c!"all" [some c!"koi8-r"] = false := by decide +kernel

end Verif.Props
