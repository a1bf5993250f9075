import Verif.Model.Py

/-!
# Lines of words
-/

namespace Verif.Words
open Verif Py

/-- No white space. -/
def Solid (w : Str) : Prop := ∀ c ∈ w, isSpace c = false

/-- The run of characters of a class before a character that is not of it is determined. -/
theorem run_cut {p : Char → Bool} {x y u v : Str} {c d : Char} (hx : ∀ c ∈ x, p c = true) (hy : ∀ c ∈ y, p c = true)
    (hc : p c = false) (hd : p d = false) (e : x ++ c :: u = y ++ d :: v) : x = y ∧ c = d ∧ u = v := by
  induction x generalizing y with
  | nil =>
    cases y with
    | nil => simp at e; simp [e]
    | cons k ks =>
      simp at e
      have := hy k (by simp)
      rw [← e.1, hc] at this
      simp at this
  | cons h hs ih =>
    cases y with
    | nil =>
      simp at e
      have := hx h (by simp)
      rw [e.1, hd] at this
      simp at this
    | cons k ks =>
      simp at e
      obtain ⟨h1, h2⟩ := ih (fun c hc => hx c (List.mem_cons_of_mem _ hc)) (fun c hc => hy c (List.mem_cons_of_mem _ hc)) e.2
      exact ⟨by rw [e.1, h1], h2⟩

theorem solid_cut {x y u v : Str} {c d : Char} (hx : Solid x) (hy : Solid y) (hc : isSpace c = true) (hd : isSpace d = true)
    (e : x ++ c :: u = y ++ d :: v) : x = y ∧ c = d ∧ u = v :=
  run_cut (p := fun c => !isSpace c) (by simpa [Solid] using hx) (by simpa [Solid] using hy) (by simp [hc]) (by simp [hd]) e

theorem join_cons {ws : List Str} (h : ws ≠ []) (w : Str) : join [' '] (w :: ws) = w ++ ' ' :: join [' '] ws := by
  cases ws with
  | nil => exact absurd rfl h
  | cons v vs => simp [join]

/-- A white-space character of a line stands between two of its words. -/
theorem cut_space : ∀ {ws : List Str} {u v : Str} {x : Char}, (∀ w ∈ ws, Solid w) → join [' '] ws = u ++ x :: v → isSpace x = true →
    ∃ A B, ws = A ++ B ∧ A ≠ [] ∧ B ≠ [] ∧ u = join [' '] A ∧ v = join [' '] B ∧ x = ' ' := by
  intro ws
  induction ws with
  | nil => intro u v x _ h; simp [join] at h
  | cons w ws ih =>
    intro u v x hw h hx
    have hws : Solid w := hw w (by simp)
    cases ws with
    | nil =>
      simp only [join] at h
      have := hws x (by rw [h]; simp)
      rw [hx] at this
      simp at this
    | cons w' ws' =>
      rw [join_cons (by simp)] at h
      have stop : u = w → x = ' ' → v = join [' '] (w' :: ws') →
          ∃ A B, w :: w' :: ws' = A ++ B ∧ A ≠ [] ∧ B ≠ [] ∧ u = join [' '] A ∧ v = join [' '] B ∧ x = ' ' :=
        fun h1 h2 h3 => ⟨[w], w' :: ws', rfl, by simp, by simp, by simp [h1, join], h3, h2⟩
      rcases List.append_eq_append_iff.mp h with ⟨a, h1, h2⟩ | ⟨a, h1, h2⟩
      · cases a with
        | nil =>
          simp at h2
          exact stop (by simpa using h1) h2.1.symm h2.2.symm
        | cons c cs =>
          simp at h2
          obtain ⟨rfl, h2⟩ := h2
          obtain ⟨A, B, e1, e2, e3, e4, e5, e6⟩ := ih (fun y hy => hw y (List.mem_cons_of_mem _ hy)) h2 hx
          refine ⟨w :: A, B, by simp [e1], by simp, e3, ?_, e5, e6⟩
          rw [join_cons e2, h1, e4]
      · cases a with
        | nil =>
          simp at h2
          exact stop (by simpa using h1.symm) h2.1 h2.2
        | cons c cs =>
          simp at h2
          have := hws x (by rw [h1, h2.1]; simp)
          rw [hx] at this
          simp at this

/-- A line without white space is one word. -/
theorem solid_join {ws : List Str} (h : ws ≠ []) (hs : Solid (join [' '] ws)) : ∃ w, ws = [w] := by
  match ws, h, hs with
  | [w], _, _ => exact ⟨w, rfl⟩
  | w :: w' :: ws, _, hs =>
    rw [join_cons (by simp)] at hs
    have := hs ' ' (by simp)
    simp [isSpace] at this

theorem suffix_solid {P : List Str} {x u s : Str} (h : join [' '] (P ++ [x]) = u ++ s) (hs : Solid s) : ∃ p, x = p ++ s := by
  induction P generalizing u with
  | nil => exact ⟨u, by simpa [join] using h⟩
  | cons w P ih =>
    rw [List.cons_append, join_cons (by simp)] at h
    rcases List.append_eq_append_iff.mp h with ⟨a, h1, h2⟩ | ⟨a, h1, h2⟩
    · cases a with
      | nil =>
        simp at h2
        have := hs ' ' (by rw [← h2]; simp)
        simp [isSpace] at this
      | cons c cs =>
        simp at h2
        exact ih h2.2
    · have := hs ' ' (by rw [h2]; simp)
      simp [isSpace] at this

theorem prefix_solid {S : List Str} {y v t : Str} (h : join [' '] (y :: S) = t ++ v) (ht : Solid t) : ∃ q, y = t ++ q := by
  cases S with
  | nil => exact ⟨v, by simpa [join] using h⟩
  | cons z S =>
    rw [join_cons (by simp)] at h
    rcases List.append_eq_append_iff.mp h with ⟨a, h1, h2⟩ | ⟨a, h1, h2⟩
    · cases a with
      | nil => exact ⟨[], by simpa using h1.symm⟩
      | cons c cs =>
        simp at h2
        have := ht ' ' (by rw [h1, ← h2.1]; simp)
        simp [isSpace] at this
    · exact ⟨a, h1⟩

/-- Two texts with white space between them lie in words that follow each other. -/
theorem adjacent {ws : List Str} {u s t v : Str} {x : Char} (hw : ∀ w ∈ ws, Solid w) (hs : Solid s) (ht : Solid t) (hx : isSpace x = true)
    (h : join [' '] ws = (u ++ s) ++ x :: (t ++ v)) : ∃ p q, (p ++ s, t ++ q) ∈ ws.zip ws.tail := by
  obtain ⟨A, B, rfl, hA, hB, e1, e2, _⟩ := cut_space hw h hx
  obtain ⟨P, a, rfl⟩ : ∃ P a, A = P ++ [a] := ⟨_, _, (List.dropLast_concat_getLast hA).symm⟩
  cases B with
  | nil => exact absurd rfl hB
  | cons y S =>
    obtain ⟨p, rfl⟩ := suffix_solid e1.symm hs
    obtain ⟨q, rfl⟩ := prefix_solid e2.symm ht
    refine ⟨p, q, ?_⟩
    clear e1 e2 h hw hA hB
    induction P with
    | nil => simp
    | cons z P ih =>
      cases P with
      | nil => simp
      | cons z' P =>
        simp only [List.cons_append, List.append_assoc, List.nil_append, List.tail_cons] at ih ⊢
        rw [List.zip_cons_cons]
        exact List.mem_cons_of_mem _ ih

/-- A text without white space lies in a word. -/
theorem in_word {ws : List Str} {u s v : Str} (hs : Solid s) (hn : s ≠ []) (h : join [' '] ws = u ++ s ++ v) :
    ∃ p q, p ++ s ++ q ∈ ws := by
  induction ws generalizing u with
  | nil => simp [join, hn] at h
  | cons w ws ih =>
    cases ws with
    | nil =>
      refine ⟨u, v, ?_⟩
      simp only [join] at h
      simp [h]
    | cons w' ws' =>
      rw [join_cons (by simp)] at h
      rcases List.append_eq_append_iff.mp h with ⟨a, h1, h2⟩ | ⟨a, h1, h2⟩
      · -- `w` ends within `u ++ s`
        rcases List.append_eq_append_iff.mp h1 with ⟨b, h3, h4⟩ | ⟨b, h3, h4⟩
        · cases a with
          | nil => exact ⟨u, [], by simp [h1]⟩
          | cons c cs =>
            simp at h2
            have : ' ' ∈ s := by rw [h4, ← h2.1]; simp
            have := hs ' ' this
            simp [isSpace] at this
        · cases b with
          | nil =>
            simp at h4
            subst h4
            cases hss : a with
            | nil => exact absurd hss hn
            | cons c cs =>
              rw [hss] at h2
              simp at h2
              have := hs ' ' (by rw [hss, ← h2.1]; simp)
              simp [isSpace] at this
          | cons c cs =>
            rw [h4] at h2
            simp at h2
            obtain ⟨p, q, hpq⟩ := ih (u := cs) (by simpa using h2.2)
            exact ⟨p, q, List.mem_cons_of_mem _ hpq⟩
      · refine ⟨u, a, ?_⟩
        simp [h1]

/-- The first word of a line. -/
theorem first_word {ws : List Str} {w v : Str} {x : Char} (hw : ∀ w ∈ ws, Solid w) (hs : Solid w) (hx : isSpace x = true)
    (h : join [' '] ws = w ++ x :: v) : ∃ S, S ≠ [] ∧ ws = w :: S ∧ v = join [' '] S := by
  obtain ⟨A, B, rfl, hA, hB, e1, e2, _⟩ := cut_space hw h hx
  obtain ⟨a, rfl⟩ := solid_join hA (by rw [← e1]; exact hs)
  simp only [join] at e1
  exact ⟨B, hB, by simp [e1], e2⟩

theorem zip_tail_mem (P S : List Str) (x y : Str) : (x, y) ∈ (P ++ x :: y :: S).zip (P ++ x :: y :: S).tail := by
  induction P with
  | nil => simp
  | cons z P ih =>
    cases P with
    | nil => simp
    | cons z' P =>
      simp only [List.cons_append, List.tail_cons] at ih ⊢
      rw [List.zip_cons_cons]
      exact List.mem_cons_of_mem _ ih

/-- A text between two white-space characters is a word, and not the first one. -/
theorem whole_word {ws : List Str} {u s v : Str} {x y : Char} (hw : ∀ w ∈ ws, Solid w) (hs : Solid s) (hx : isSpace x = true)
    (hy : isSpace y = true) (h : join [' '] ws = u ++ x :: (s ++ y :: v)) :
    ∃ P S, P ≠ [] ∧ S ≠ [] ∧ ws = P ++ s :: S ∧ u = join [' '] P ∧ v = join [' '] S := by
  obtain ⟨A, B, rfl, hA, hB, e1, e2, _⟩ := cut_space hw h hx
  obtain ⟨S, hS, rfl, e3⟩ := first_word (fun w hw' => hw w (List.mem_append_right _ hw')) hs hy e2.symm
  exact ⟨A, S, hA, hS, rfl, e1, e3⟩

end Verif.Words
