import Verif.Lemmas.Decimal

/-!
# The built-in functions of Python used by the model, described independently
-/

namespace Verif.Props
open Verif Py Spec

/-- The white space of Unicode, as `str.isspace` has it. -/
def whiteSpace : List Nat :=
  [9, 10, 11, 12, 13, 28, 29, 30, 31, 32, 0x85, 0xA0, 0x1680, 0x2000, 0x2001, 0x2002, 0x2003, 0x2004, 0x2005, 0x2006, 0x2007,
   0x2008, 0x2009, 0x200A, 0x2028, 0x2029, 0x202F, 0x205F, 0x3000]

/-- `str.isspace` of one character. -/
theorem builtin_isSpace (c : Char) : isSpace c = true ↔ c.toNat ∈ whiteSpace := by
  unfold isSpace whiteSpace
  simp only [Bool.or_eq_true, Bool.and_eq_true, decide_eq_true_eq, beq_iff_eq, List.mem_cons, List.not_mem_nil, or_false]
  omega

theorem digitsAux_spec (s : Str) : ∀ a, (∀ c ∈ s, '0' ≤ c ∧ c ≤ '9') →
    digitsAux a s = some (s.foldl (fun v c => 10 * v + (c.toNat - '0'.toNat)) a) := by
  induction s with
  | nil => intro a _; rfl
  | cons c s ih =>
    intro a h
    have hc : c.isDigit = true := by
      have := h c (by simp)
      simp only [Char.isDigit, Bool.and_eq_true, decide_eq_true_eq]
      exact this
    simp only [digitsAux, hc, if_true, List.foldl_cons]
    rw [ih _ (fun d hd => h d (by simp [hd]))]
    rw [show a * 10 + (c.toNat - 48) = 10 * a + (c.toNat - '0'.toNat) by rw [Nat.mul_comm]; rfl]

/-- A run of digits and the number it means. -/
def DigitsOf (d : Str) (n : Nat) : Prop :=
  d ≠ [] ∧ (∀ c ∈ d, '0' ≤ c ∧ c ≤ '9') ∧ d.foldl (fun v c => 10 * v + (c.toNat - '0'.toNat)) 0 = n

theorem digitsAux_some {s : Str} : ∀ {a n : Nat}, digitsAux a s = some n → ∀ c ∈ s, '0' ≤ c ∧ c ≤ '9' := by
  induction s with
  | nil => intro a n _ c hc; simp at hc
  | cons d s ih =>
    intro a n h c hc
    unfold digitsAux at h
    split at h
    · rename_i hd
      rcases List.mem_cons.1 hc with rfl | hc
      · simp only [Char.isDigit, Bool.and_eq_true, decide_eq_true_eq] at hd
        exact hd
      · exact ih h c hc
    · cases h

theorem digitsOf_iff {d : Str} {n : Nat} (hd : d ≠ []) : DigitsOf d n ↔ digitsAux 0 d = some n := by
  constructor
  · rintro ⟨_, h1, h2⟩
    rw [digitsAux_spec d 0 h1, h2]
  · intro h
    have h1 := digitsAux_some h
    rw [digitsAux_spec d 0 h1] at h
    exact ⟨hd, h1, Option.some.inj h⟩

/-- `int` of a text: without the white space around it, it is digits with or without a sign. -/
theorem builtin_int (s : Str) (n : Int) :
    int? s = some n ↔ ∃ d v, DigitsOf d v ∧
      (strip s = d ∧ n = v ∨ strip s = '+' :: d ∧ n = v ∨ strip s = '-' :: d ∧ n = -(v : Int)) := by
  have sign : ∀ c : Char, c = '+' ∨ c = '-' → ∀ d v, ¬ DigitsOf (c :: d) v := by
    intro c hc d v h
    have := h.2.1 c (by simp)
    rcases hc with rfl | rfl <;> revert this <;> decide
  have key : ∀ (d : Str), d ≠ [] → (∀ c ∈ d.head?, c ≠ '+' ∧ c ≠ '-') →
      (((digitsAux 0 d).map (fun n => (n : Int)) = some n) ↔ ∃ d' v, DigitsOf d' v ∧
        (d = d' ∧ n = v ∨ d = '+' :: d' ∧ n = v ∨ d = '-' :: d' ∧ n = -(v : Int))) := by
    intro d hd hh
    constructor
    · intro h
      cases hv : digitsAux 0 d with
      | none => rw [hv] at h; cases h
      | some v =>
        rw [hv] at h
        replace h := Option.some.inj h
        exact ⟨d, v, (digitsOf_iff hd).2 hv, .inl ⟨rfl, h.symm⟩⟩
    · rintro ⟨d', v, h, ⟨rfl, rfl⟩ | ⟨rfl, rfl⟩ | ⟨rfl, rfl⟩⟩
      · rw [(digitsOf_iff hd).1 h]; rfl
      · exact absurd rfl (hh '+' (by simp)).1
      · exact absurd rfl (hh '-' (by simp)).2
  unfold int?
  generalize strip s = t
  split
  · constructor
    · intro h; cases h
    · rintro ⟨d, v, h, ⟨hd, _⟩ | ⟨hd, _⟩ | ⟨hd, _⟩⟩
      · exact absurd hd.symm h.1
      · cases hd
      · cases hd
  · rename_i c cs
    constructor
    · intro h
      cases hv : digitsAux 0 (c :: cs) with
      | none => rw [hv] at h; cases h
      | some v =>
        rw [hv] at h
        replace h := Option.some.inj h
        exact ⟨c :: cs, v, (digitsOf_iff (by simp)).2 hv, .inr (.inr ⟨rfl, h.symm⟩)⟩
    · rintro ⟨d, v, h, ⟨hd, _⟩ | ⟨hd, _⟩ | ⟨hd, hn⟩⟩
      · subst hd; exact absurd h (sign _ (.inr rfl) _ _)
      · injection hd with h1 _; exact absurd h1 (by decide)
      · injection hd with _ hd
        subst hd
        rw [(digitsOf_iff (by simp)).1 h, hn]; rfl
  · rename_i c cs
    constructor
    · intro h
      cases hv : digitsAux 0 (c :: cs) with
      | none => rw [hv] at h; cases h
      | some v =>
        rw [hv] at h
        replace h := Option.some.inj h
        exact ⟨c :: cs, v, (digitsOf_iff (by simp)).2 hv, .inr (.inl ⟨rfl, h.symm⟩)⟩
    · rintro ⟨d, v, h, ⟨hd, _⟩ | ⟨hd, hn⟩ | ⟨hd, _⟩⟩
      · subst hd; exact absurd h (sign _ (.inl rfl) _ _)
      · injection hd with _ hd
        subst hd
        rw [(digitsOf_iff (by simp)).1 h, hn]; rfl
      · injection hd with h1 _; exact absurd h1 (by decide)
  · rename_i c cs h1 h2
    by_cases hs : c = '+' ∨ c = '-'
    · have hcs : cs = [] := by
        cases cs with
        | nil => rfl
        | cons e es =>
          rcases hs with rfl | rfl
          · exact (h2 e es rfl rfl).elim
          · exact (h1 e es rfl rfl).elim
      subst hcs
      have hn : (digitsAux 0 [c]).map (fun n => (n : Int)) = none := by
        rcases hs with rfl | rfl <;> rfl
      rw [hn]
      constructor
      · intro h; cases h
      · rintro ⟨d, v, h, ⟨hd, _⟩ | ⟨hd, _⟩ | ⟨hd, _⟩⟩
        · subst hd; exact absurd h (sign _ hs _ _)
        · injection hd with _ hd; exact absurd hd.symm h.1
        · injection hd with _ hd; exact absurd hd.symm h.1
    · exact key (c :: cs) (by simp) (by
        intro e he
        simp only [List.head?_cons, Option.mem_some_iff] at he
        subst he
        simpa [not_or] using hs)

example : int? c!" +42 " = some 42 ∧ int? c!"-7" = some (-7) ∧ int? c!"--7" = none ∧ int? c!"+" = none := by decide

end Verif.Props
