import Verif.Lemmas.Ipv6Re

/-!
# Matches between characters that no match takes
-/

namespace Verif.Re
open Verif Py

/-- The expression takes no character with which `A` begins, and looks back at `B` as it does at `B'`. -/
def Near (A B B' : Str) : Re → Prop
  | .eps => True
  | .chr p => headIn p A = false
  | .star _ p => headIn p A = false
  | .seq a b => Near A B B' a ∧ Near A B B' b
  | .alt a b => Near A B B' a ∧ Near A B B' b
  | .nbehind p => headIn p B = headIn p B'
  | _ => False

/-- The same result, in a text with `A` after it and `B` before it in place of `B'`. -/
inductive Sim (A B B' : Str) : Option St → Option St → Prop
  | none : Sim A B B' none none
  | some (b a : Str) (g : List (Nat × Str)) : Sim A B B' (some ⟨b ++ B, a ++ A, g⟩) (some ⟨b ++ B', a, g⟩)

theorem starGo_sim {A B B' : Str} {gr : Bool} {p : Char → Bool} {g : List (Nat × Str)} {k k' : St → Option St}
    (hp : headIn p A = false) (hk : ∀ b a, Sim A B B' (k ⟨b ++ B, a ++ A, g⟩) (k' ⟨b ++ B', a, g⟩)) :
    ∀ a b, Sim A B B' (starGo gr p g k (b ++ B) (a ++ A)) (starGo gr p g k' (b ++ B') a) := by
  intro a
  induction a with
  | nil =>
    intro b
    have h0 := hk b []
    cases A with
    | nil => simpa [starGo] using h0
    | cons z y =>
      simp only [headIn] at hp
      simpa [starGo, hp] using h0
  | cons c cs ih =>
    intro b
    have h0 := hk b (c :: cs)
    have h1 := ih (c :: b)
    rw [List.cons_append] at h0 h1
    simp only [List.cons_append] at h1
    rw [List.cons_append, starGo, starGo]
    by_cases hc : p c
    · simp only [hc, if_true]
      cases gr
      · simp only [Bool.false_eq_true, if_false]
        generalize k ⟨b ++ B, c :: (cs ++ A), g⟩ = x at h0
        generalize k' ⟨b ++ B', c :: cs, g⟩ = y at h0
        cases h0 with
        | none => exact h1
        | some b' a' g' => exact .some b' a' g'
      · simp only [if_true]
        generalize starGo true p g k (c :: (b ++ B)) (cs ++ A) = x at h1
        generalize starGo true p g k' (c :: (b ++ B')) cs = y at h1
        cases h1 with
        | none => exact h0
        | some b' a' g' => exact .some b' a' g'
    · simpa [hc] using h0

theorem m_sim {A B B' : Str} : ∀ {r : Re}, Near A B B' r → ∀ {b a : Str} {g : List (Nat × Str)} {k k' : St → Option St},
    (∀ b a g, Sim A B B' (k ⟨b ++ B, a ++ A, g⟩) (k' ⟨b ++ B', a, g⟩)) → Sim A B B' (m r ⟨b ++ B, a ++ A, g⟩ k) (m r ⟨b ++ B', a, g⟩ k') := by
  intro r
  induction r with
  | eps => intro _ b a g k k' hk; simpa [m] using hk b a g
  | chr p =>
    intro hn b a g k k' hk
    simp only [Near] at hn
    rw [m, m]
    cases a with
    | nil =>
      cases A with
      | nil => exact .none
      | cons z y =>
        simp only [headIn] at hn
        simp only [List.nil_append, hn]
        exact .none
    | cons c cs =>
      simp only [List.cons_append]
      by_cases hc : p c
      · simp only [hc, if_true]
        exact hk (c :: b) cs g
      · simp only [hc]
        exact .none
  | seq x y ihx ihy =>
    intro hn b a g k k' hk
    rw [m, m]
    exact ihx hn.1 (fun b a g => ihy hn.2 hk)
  | alt x y ihx ihy =>
    intro hn b a g k k' hk
    rw [m, m]
    have h1 := ihx (b := b) (a := a) (g := g) hn.1 hk
    have h2 := ihy (b := b) (a := a) (g := g) hn.2 hk
    generalize m x ⟨b ++ B, a ++ A, g⟩ k = u at h1
    generalize m x ⟨b ++ B', a, g⟩ k' = v at h1
    cases h1 with
    | none => exact h2
    | some b' a' g' => exact .some b' a' g'
  | star gr p =>
    intro hn b a g k k' hk
    rw [m, m]
    exact starGo_sim hn (fun b a => hk b a g) a b
  | group n r ih => intro hn; exact hn.elim
  | bol => intro hn; exact hn.elim
  | eol => intro hn; exact hn.elim
  | wordb => intro hn; exact hn.elim
  | nbehind p =>
    intro hn b a g k k' hk
    have e : headIn p (b ++ B) = headIn p (b ++ B') := by
      cases b with
      | nil => exact hn
      | cons c cs => rfl
    simp only [m, e]
    by_cases h : headIn p (b ++ B') = true
    · simp only [h, if_true]; exact .none
    · simp only [h]; exact hk b a g
  | nahead p => intro hn; exact hn.elim

/-- What is found before a character that no match takes does not depend on it and on what follows. -/
theorem findGo_near {r : Re} {A B B' : Str} (h : Near A B B' r) : ∀ (x : Str) (n : Nat) (b : Str), n ≤ x.length →
    findGo r n (b ++ B) (x ++ A) = findGo r n (b ++ B') x ++ findGo r 0 (x.reverse ++ (b ++ B)) A := by
  intro x
  induction x with
  | nil =>
    intro n b hn
    obtain rfl : n = 0 := by simpa using hn
    simp [findGo]
  | cons c cs ih =>
    intro n b hn
    have step : ∀ n, n ≤ cs.length →
        findGo r n (c :: (b ++ B)) (cs ++ A) = findGo r n (c :: (b ++ B')) cs ++ findGo r 0 ((c :: cs).reverse ++ (b ++ B)) A := by
      intro n hn
      have := ih n (c :: b) hn
      simpa using this
    cases n with
    | succ n =>
      rw [List.cons_append, findGo, findGo]
      exact step n (by simpa using hn)
    | zero =>
      have hs := m_sim (b := b) (a := c :: cs) (g := []) (k := some) (k' := some) h (fun b a g => .some b a g)
      have ht : ∀ t, m r ⟨b ++ B', c :: cs, []⟩ some = some t → ∃ w, c :: cs = w ++ t.after := fun t e =>
        (m_some_takes e).imp fun w h => h.1
      rw [List.cons_append, findGo, findGo]
      rw [List.cons_append] at hs
      generalize m r ⟨b ++ B, c :: (cs ++ A), []⟩ some = u at hs
      generalize m r ⟨b ++ B', c :: cs, []⟩ some = v at hs ht
      cases hs with
      | none => exact step 0 (by simp)
      | some b' a' g' =>
        obtain ⟨w, hw⟩ := ht _ rfl
        simp only at hw
        have e1 : (c :: (cs ++ A)).length - (a' ++ A).length = (c :: cs).length - a'.length := by
          simp only [List.length_cons, List.length_append]; omega
        have e2 : (c :: (cs ++ A)).take ((c :: cs).length - a'.length) = (c :: cs).take ((c :: cs).length - a'.length) := by
          rw [← List.cons_append, List.take_append_of_le_length (by omega)]
        simp only [e1, e2]
        rw [step _ (by simp only [List.length_cons]; omega)]
        rfl

end Verif.Re
