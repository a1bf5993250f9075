import Verif.Lemmas.Py

/-! Lemmas about stripping and splitting strings. -/

namespace Verif.Py
open Verif

theorem dropWhile_all {p : Char → Bool} {a : Str} (b : Str) (h : ∀ c ∈ a, p c = true) :
    (a ++ b).dropWhile p = b.dropWhile p := by
  induction a with
  | nil => rfl
  | cons c cs ih =>
    rw [List.cons_append, List.dropWhile_cons_of_pos (h c (by simp))]
    exact ih (fun x hx => h x (List.mem_cons_of_mem _ hx))

theorem dropWhile_head {p : Char → Bool} {c : Char} (cs : Str) (h : p c = false) :
    (c :: cs).dropWhile p = c :: cs := by
  rw [List.dropWhile_cons_of_neg (by simp [h])]

theorem rstripBy_all {p : Char → Bool} (a : Str) {b : Str} (h : ∀ c ∈ b, p c = true) :
    rstripBy p (a ++ b) = rstripBy p a := by
  unfold rstripBy
  rw [List.reverse_append, dropWhile_all _ (fun c hc => h c (List.mem_reverse.1 hc))]

theorem rstripBy_last {p : Char → Bool} (a : Str) {c : Char} (h : p c = false) :
    rstripBy p (a ++ [c]) = a ++ [c] := by
  unfold rstripBy
  rw [List.reverse_append]
  simp [List.dropWhile_cons, h]

/-- Stripping white space around a text with non-blank ends. -/
theorem strip_around {lead core trail : Str} (hl : ∀ c ∈ lead, isSpace c = true)
    (ht : ∀ c ∈ trail, isSpace c = true) (hc1 : ∃ c cs, core = c :: cs ∧ isSpace c = false)
    (hc2 : ∃ cs c, core = cs ++ [c] ∧ isSpace c = false) :
    strip (lead ++ core ++ trail) = core := by
  unfold strip stripBy lstripBy
  rw [List.append_assoc, dropWhile_all _ hl]
  obtain ⟨c, cs, rfl, h⟩ := hc1
  rw [List.cons_append, dropWhile_head _ h, ← List.cons_append, rstripBy_all _ ht]
  obtain ⟨ds, d, e, h'⟩ := hc2
  rw [e, rstripBy_last _ h']

theorem strip_self {core : Str} (hc1 : ∃ c cs, core = c :: cs ∧ isSpace c = false)
    (hc2 : ∃ cs c, core = cs ++ [c] ∧ isSpace c = false) : strip core = core := by
  simpa using strip_around (lead := []) (trail := []) (by simp) (by simp) hc1 hc2

theorem strip_blank {s : Str} (h : ∀ c ∈ s, isSpace c = true) : strip s = [] := by
  unfold strip stripBy lstripBy
  have : s.dropWhile isSpace = [] := by
    have := dropWhile_all (p := isSpace) [] h
    simpa using this
  rw [this]; rfl

theorem rsplit1_append {c : Char} (a : Str) {b : Str} (h : c ∉ b) :
    rsplit1 c (a ++ c :: b) = some (a, b) := by
  unfold rsplit1
  have : (a ++ c :: b).reverse = b.reverse ++ c :: a.reverse := by simp
  rw [this, split1_char_append _ (by simpa using h)]
  simp

theorem rsplit1_none {c : Char} {s : Str} (h : c ∉ s) : rsplit1 c s = none := by
  unfold rsplit1
  have : split1 [c] s.reverse = none := by
    rw [split1_none_iff]
    intro hi
    have := hi.subset (List.mem_singleton.2 rfl)
    exact h (List.mem_reverse.1 this)
  rw [this]

theorem rsplit1_mem {c : Char} {s a b : Str} (h : rsplit1 c s = some (a, b)) : s = a ++ c :: b ∧ c ∉ b := by
  unfold rsplit1 at h
  cases hs : split1 [c] s.reverse with
  | none => simp [hs] at h
  | some p =>
    obtain ⟨x, y⟩ := p
    simp only [hs, Option.some.injEq, Prod.mk.injEq] at h
    obtain ⟨rfl, rfl⟩ := h
    have e := split1_spec hs
    have f := split1_char_first hs
    constructor
    · have := congrArg List.reverse e
      simpa using this
    · simpa using f

/-- The first occurrence of a two-character separator, when its first character does not occur
before it. -/
theorem split1_two {c d : Char} {a : Str} (b : Str) (h : ¬ [c, d] <:+: a ++ [c]) :
    split1 [c, d] (a ++ c :: d :: b) = some (a, b) := by
  induction a with
  | nil => simp [split1]
  | cons x xs ih =>
    have h1 : ¬ [c, d] <:+: xs ++ [c] := fun hi => h (by
      rw [List.cons_append]; exact List.infix_cons hi)
    have h2 : [c, d].isPrefixOf (x :: (xs ++ c :: d :: b)) = false := by
      cases hp : [c, d].isPrefixOf (x :: (xs ++ c :: d :: b)) with
      | false => rfl
      | true =>
        exfalso
        apply h
        have hp := List.isPrefixOf_iff_prefix.1 hp
        cases xs with
        | nil =>
          simp only [List.nil_append, List.cons_prefix_cons, List.nil_prefix, and_true] at hp
          obtain ⟨rfl, rfl⟩ := hp
          exact ⟨[], [], by simp⟩
        | cons y ys =>
          simp only [List.cons_append, List.cons_prefix_cons, List.nil_prefix, and_true] at hp
          obtain ⟨rfl, rfl⟩ := hp
          exact ⟨[], ys ++ [c], by simp⟩
    simp only [List.cons_append, split1, h2]
    simp [ih h1]

end Verif.Py
