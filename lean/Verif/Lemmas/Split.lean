import Verif.Lemmas.Strip

/-! Splitting at white space. -/

namespace Verif.Py
open Verif

/-- A word: not empty, no white space. -/
def Word (w : Str) : Prop := w ≠ [] ∧ ∀ c ∈ w, isSpace c = false

theorem splitByLoop_acc {r : Char → Char → Bool} (l : Str) (a : Char) (g : Str) (gs : List Str) :
    List.splitBy.loop r l a g gs = gs.reverse ++ List.splitBy.loop r l a g [] := by
  induction l generalizing a g gs with
  | nil => simp [List.splitBy.loop]
  | cons b l ih =>
    simp only [List.splitBy.loop]
    split
    · rw [ih]
    · rw [ih, ih (gs := [_])]; simp

theorem splitByLoop_run {r : Char → Char → Bool} (w : Str) (a c : Char) (rest g : Str) (gs : List Str)
    (h : ∀ x ∈ a :: w, ∀ y ∈ a :: w, r x y = true) (hc : ∀ x ∈ a :: w, r x c = false) :
    List.splitBy.loop r (w ++ c :: rest) a g gs = List.splitBy.loop r rest c [] ((g.reverse ++ a :: w) :: gs) := by
  induction w generalizing a g with
  | nil => simp [List.splitBy.loop, hc a (by simp)]
  | cons x w ih =>
    rw [List.cons_append, List.splitBy.loop, h a (by simp) x (by simp)]
    simp only
    rw [ih]
    · simp
    · intro y hy z hz; exact h y (List.mem_cons_of_mem _ hy) z (List.mem_cons_of_mem _ hz)
    · intro y hy; exact hc y (List.mem_cons_of_mem _ hy)

theorem splitByLoop_end {r : Char → Char → Bool} (w : Str) (a : Char) (g : Str) (gs : List Str)
    (h : ∀ x ∈ a :: w, ∀ y ∈ a :: w, r x y = true) :
    List.splitBy.loop r w a g gs = ((g.reverse ++ a :: w) :: gs).reverse := by
  induction w generalizing a g with
  | nil => simp [List.splitBy.loop]
  | cons x w ih =>
    rw [List.splitBy.loop, h a (by simp) x (by simp)]
    simp only
    rw [ih]
    · simp
    · intro y hy z hz; exact h y (List.mem_cons_of_mem _ hy) z (List.mem_cons_of_mem _ hz)

theorem splitWs_word (w : Str) (h : Word w) : splitWs w = [w] := by
  obtain ⟨h0, h1⟩ := h
  cases w with
  | nil => exact absurd rfl h0
  | cons a w =>
    unfold splitWs
    show (List.splitBy.loop (fun a b => isSpace a == isSpace b) w a [] []).filter _ = _
    rw [splitByLoop_end w a [] [] (fun x hx y hy => by rw [h1 x hx, h1 y hy]; rfl)]
    simp [h1 a (by simp)]

theorem splitWs_cons (w rest : Str) (h : Word w) (hr : ∃ c cs, rest = c :: cs ∧ isSpace c = false) :
    splitWs (w ++ ' ' :: rest) = w :: splitWs rest := by
  obtain ⟨h0, h1⟩ := h
  obtain ⟨c, cs, rfl, hc⟩ := hr
  cases w with
  | nil => exact absurd rfl h0
  | cons a w =>
    have hsp : isSpace ' ' = true := by decide
    unfold splitWs
    show (List.splitBy.loop _ (w ++ ' ' :: c :: cs) a [] []).filter _ = _
    rw [splitByLoop_run w a ' ' (c :: cs) [] [] (fun x hx y hy => by rw [h1 x hx, h1 y hy]; rfl)
      (fun x hx => by rw [h1 x hx, hsp]; rfl)]
    have := splitByLoop_run (r := fun a b => isSpace a == isSpace b) [] ' ' c cs [] [a :: w]
      (fun x hx y hy => by cases List.mem_singleton.mp hx; cases List.mem_singleton.mp hy; rfl)
      (fun x hx => by cases List.mem_singleton.mp hx; rw [hsp, hc]; rfl)
    simp only [List.nil_append, List.reverse_nil] at this ⊢
    rw [this, splitByLoop_acc]
    simp only [List.reverse_cons, List.reverse_nil, List.nil_append, List.cons_append, List.filter_cons, hsp,
      h1 a (by simp), Bool.not_false, if_true, Bool.not_true, Bool.false_eq_true, if_false]
    rfl

theorem join_head (ws : List Str) (h0 : ws ≠ []) (h : ∀ w ∈ ws, Word w) :
    ∃ c cs, join c!" " ws = c :: cs ∧ isSpace c = false := by
  cases ws with
  | nil => exact absurd rfl h0
  | cons w ws =>
    obtain ⟨hw, hw'⟩ := h w (by simp)
    cases w with
    | nil => exact absurd rfl hw
    | cons c w =>
      cases ws with
      | nil => exact ⟨c, w, rfl, hw' c (by simp)⟩
      | cons w2 ws => exact ⟨c, w ++ c!" " ++ join c!" " (w2 :: ws), rfl, hw' c (by simp)⟩

/-- Words joined by spaces are split again. -/
theorem splitWs_join (ws : List Str) (h : ∀ w ∈ ws, Word w) : splitWs (join c!" " ws) = ws := by
  induction ws with
  | nil => rfl
  | cons w ws ih =>
    cases ws with
    | nil => exact splitWs_word w (h w (by simp))
    | cons w2 ws =>
      have h2 : ∀ x ∈ w2 :: ws, Word x := fun x hx => h x (List.mem_cons_of_mem _ hx)
      rw [join, List.append_assoc, List.singleton_append, splitWs_cons w _ (h w (by simp)) (join_head _ (by simp) h2),
        ih h2]

theorem takeWhile_word' (w rest : Str) (h : ∀ c ∈ w, isSpace c = false) :
    (w ++ ' ' :: rest).takeWhile (fun c => !isSpace c) = w ∧
    (w ++ ' ' :: rest).dropWhile (fun c => !isSpace c) = ' ' :: rest := by
  induction w with
  | nil => simp [show isSpace ' ' = true by decide]
  | cons c w ih =>
    have := ih fun x hx => h x (List.mem_cons_of_mem _ hx)
    simp [h c (by simp), this]

/-- `split(None, 1)` gives the first word and the rest. -/
theorem splitNone_join (w : Str) (ws : List Str) (h0 : ws ≠ []) (h : ∀ x ∈ w :: ws, Word x) :
    splitNone 1 (join c!" " (w :: ws)) = [w, join c!" " ws] := by
  obtain ⟨hw, hw'⟩ := h w (by simp)
  obtain ⟨c, cs, hj, hc⟩ := join_head ws h0 (fun x hx => h x (List.mem_cons_of_mem _ hx))
  have e : join c!" " (w :: ws) = w ++ ' ' :: join c!" " ws := by
    cases ws with
    | nil => exact absurd rfl h0
    | cons w2 ws => simp [join]
  rw [e]
  cases w with
  | nil => exact absurd rfl hw
  | cons a w =>
    have ha := hw' a (by simp)
    obtain ⟨t1, t2⟩ := takeWhile_word' (a :: w) (join c!" " ws) hw'
    rw [splitNone]
    simp only [List.cons_append, List.dropWhile_cons, ha, Bool.false_eq_true, if_false, List.isEmpty_cons]
    simp only [List.cons_append, List.dropWhile_cons, ha, Bool.not_false, if_true, List.takeWhile_cons] at t1 t2 ⊢
    rw [t1, t2, splitNone]
    simp only [List.dropWhile_cons, show isSpace ' ' = true by decide, if_true]
    rw [hj]
    simp [hc]

theorem splitNone_word (w : Str) (h : Word w) : splitNone 1 w = [w] := by
  obtain ⟨h0, h1⟩ := h
  cases w with
  | nil => exact absurd rfl h0
  | cons a w =>
    have ha := h1 a (by simp)
    have hall : ∀ (w : Str), (∀ c ∈ w, isSpace c = false) →
        w.takeWhile (fun c => !isSpace c) = w ∧ w.dropWhile (fun c => !isSpace c) = [] := by
      intro w
      induction w with
      | nil => intro _; exact ⟨rfl, rfl⟩
      | cons c w ih =>
        intro h
        have := ih fun x hx => h x (List.mem_cons_of_mem _ hx)
        simp [h c (by simp), this]
    obtain ⟨t1, t2⟩ := hall (a :: w) h1
    rw [splitNone]
    simp only [List.dropWhile_cons, ha, Bool.false_eq_true, if_false, List.isEmpty_cons]
    rw [t1]
    simp only [List.dropWhile_cons, ha, Bool.not_false, if_true] at t2 ⊢
    rw [t2]
    rfl

/-- `split()` as a reader of one character after the other. -/
def readWs (cur : Str) : Str → List Str
  | [] => if cur = [] then [] else [cur]
  | c :: s => if isSpace c then (if cur = [] then [] else [cur]) ++ readWs [] s else readWs (cur ++ [c]) s

theorem splitLoop_read (l : Str) : ∀ (a : Char) (g : Str), (∀ x ∈ g, isSpace x = isSpace a) →
    (List.splitBy.loop (fun a b => isSpace a == isSpace b) l a g []).filter
      (fun w => match w with | [] => false | c :: _ => !isSpace c) =
      readWs (if isSpace a then [] else g.reverse ++ [a]) l := by
  have run : ∀ (a : Char) (g : Str), (∀ x ∈ g, isSpace x = isSpace a) →
      [g.reverse ++ [a]].filter (fun w => match w with | [] => false | c :: _ => !isSpace c) =
        if isSpace a then [] else [g.reverse ++ [a]] := by
    intro a g h
    have hh : ∃ c cs, g.reverse ++ [a] = c :: cs ∧ isSpace c = isSpace a := by
      cases hg : g.reverse with
      | nil => exact ⟨a, [], rfl, rfl⟩
      | cons c cs => exact ⟨c, cs ++ [a], rfl, h c (List.mem_reverse.mp (by rw [hg]; simp))⟩
    obtain ⟨c, cs, e, hc⟩ := hh
    rw [e]
    cases ha : isSpace a <;> simp [hc, ha]
  induction l with
  | nil =>
    intro a g h
    simp only [List.splitBy.loop, List.reverse_cons, List.reverse_nil, List.nil_append, run a g h, readWs]
    cases isSpace a <;> simp
  | cons b l ih =>
    intro a g h
    simp only [List.splitBy.loop]
    by_cases hab : isSpace a = isSpace b
    · rw [show (isSpace a == isSpace b) = true by simp [hab]]
      simp only
      rw [ih b (a :: g) (fun x hx => by
        rcases List.mem_cons.mp hx with rfl | hx
        · exact hab
        · exact (h x hx).trans hab), readWs]
      cases hb : isSpace b <;> simp [hab, hb]
    · rw [show (isSpace a == isSpace b) = false by simp [hab]]
      simp only
      rw [splitByLoop_acc, List.filter_append, ih b [] (by simp), List.reverse_cons, List.reverse_nil, List.nil_append,
        List.reverse_cons, run a g h, readWs]
      cases hb : isSpace b with
      | true =>
        have ha : isSpace a = false := by cases h : isSpace a <;> simp_all
        simp [ha]
      | false =>
        have ha : isSpace a = true := by cases h : isSpace a <;> simp_all
        simp [ha]

theorem splitWs_read (s : Str) : splitWs s = readWs [] s := by
  cases s with
  | nil => rfl
  | cons a l =>
    have := splitLoop_read l a [] (by simp)
    unfold splitWs
    refine Eq.trans this ?_
    rw [readWs]
    cases isSpace a <;> simp

theorem readWs_ne (s : Str) : ∀ cur, cur ≠ [] ∨ (∃ c ∈ s, isSpace c = false) → readWs cur s ≠ [] := by
  induction s with
  | nil =>
    intro cur h
    rcases h with h | ⟨c, hc, _⟩
    · simp [readWs, h]
    · cases hc
  | cons a l ih =>
    intro cur h
    rw [readWs]
    cases ha : isSpace a with
    | true =>
      simp only [if_true]
      by_cases hc : cur = []
      · rcases h with h | ⟨c, hc', hs⟩
        · exact absurd hc h
        · rcases List.mem_cons.mp hc' with rfl | hc'
          · rw [ha] at hs; cases hs
          · simp only [hc, if_true, List.nil_append]; exact ih [] (Or.inr ⟨c, hc', hs⟩)
      · simp [hc]
    | false => simp only [Bool.false_eq_true, if_false]; exact ih _ (Or.inl (by simp))

theorem readWs_run (a : Str) : ∀ cur rest, (∀ c ∈ a, isSpace c = false) → readWs cur (a ++ rest) = readWs (cur ++ a) rest := by
  induction a with
  | nil => intro cur rest _; simp
  | cons c a ih =>
    intro cur rest h
    rw [List.cons_append, readWs, h c (by simp), if_neg (by simp), ih _ _ fun x hx => h x (List.mem_cons_of_mem _ hx)]
    simp

/-- A text that neither begins nor ends with white space is one word exactly if there is no white space in it. -/
theorem splitWs_one (s : Str) (h0 : s ≠ []) (h1 : ∀ c, s.head? = some c → isSpace c = false)
    (h2 : ∀ c, s.getLast? = some c → isSpace c = false) :
    (splitWs s).length = 1 ↔ ∀ c ∈ s, isSpace c = false := by
  constructor
  · intro h c hc
    refine Classical.byContradiction fun hs => ?_
    -- the first white space
    have hex : ∃ a x b, s = a ++ x :: b ∧ (∀ y ∈ a, isSpace y = false) ∧ isSpace x = true := by
      have : ∀ (s : Str), (∃ c ∈ s, isSpace c = true) → ∃ a x b, s = a ++ x :: b ∧ (∀ y ∈ a, isSpace y = false) ∧ isSpace x = true := by
        intro s
        induction s with
        | nil => rintro ⟨c, hc, _⟩; cases hc
        | cons y ys ih =>
          rintro ⟨c, hc, hs⟩
          cases hy : isSpace y with
          | true => exact ⟨[], y, ys, rfl, by simp, hy⟩
          | false =>
            rcases List.mem_cons.mp hc with rfl | hc
            · rw [hy] at hs; cases hs
            · obtain ⟨a, x, b, e, ha, hx⟩ := ih ⟨c, hc, hs⟩
              exact ⟨y :: a, x, b, by rw [e]; rfl, by
                intro z hz
                rcases List.mem_cons.mp hz with rfl | hz
                · exact hy
                · exact ha z hz, hx⟩
      exact this s ⟨c, hc, by simpa using hs⟩
    obtain ⟨a, x, b, e, ha, hx⟩ := hex
    have ha0 : a ≠ [] := by
      rintro rfl
      have := h1 x (by rw [e]; rfl)
      rw [hx] at this; cases this
    have hb : ∃ c ∈ b, isSpace c = false := by
      cases hl : b.getLast? with
      | none =>
        have : b = [] := List.getLast?_eq_none_iff.mp hl
        subst this
        have := h2 x (by rw [e]; simp)
        rw [hx] at this; cases this
      | some z =>
        refine ⟨z, List.mem_of_getLast? hl, h2 z ?_⟩
        rw [e, List.getLast?_append, List.getLast?_cons, hl]; rfl
    have hr := readWs_ne b [] (Or.inr hb)
    rw [splitWs_read, e, readWs_run a [] _ ha, List.nil_append, readWs, hx] at h
    simp only [if_true, ha0, if_false, List.length_append, List.length_singleton] at h
    exact hr (List.length_eq_zero_iff.mp (by omega))
  · intro h
    rw [splitWs_word s ⟨h0, h⟩]; rfl

end Verif.Py
