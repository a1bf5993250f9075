import Verif.Lemmas.Re

/-!
# Groups

`Gets r b w a gs`: the expression reads `w` and sets the groups `gs`, the last one first.
-/

namespace Verif.Re
open Verif Py

/-- The expression reads the text `w`, where `b` (reversed) is before and `a` after it, and sets the groups `gs`. -/
def Gets : Re → Str → Str → Str → List (Nat × Str) → Prop
  | .seq x y, b, w, a, gs => ∃ u v gu gv, w = u ++ v ∧ Gets x b u (v ++ a) gu ∧ Gets y (u.reverse ++ b) v a gv ∧ gs = gv ++ gu
  | .alt x y, b, w, a, gs => Gets x b w a gs ∨ Gets y b w a gs
  | .group n r, b, w, a, gs => ∃ g, Gets r b w a g ∧ gs = (n, w) :: g
  | r, b, w, a, gs => Reads r b w a ∧ gs = []

theorem Ways.gets {r : Re} {s t : St} (h : Ways r s t) :
    ∃ w gs, s.after = w ++ t.after ∧ t.before = w.reverse ++ s.before ∧ Gets r s.before w t.after gs ∧ t.groups = gs ++ s.groups := by
  induction h with
  | eps s => exact ⟨[], [], rfl, rfl, ⟨rfl, rfl⟩, rfl⟩
  | @chr p c b a g hp => exact ⟨[c], [], rfl, rfl, ⟨⟨c, rfl, hp⟩, rfl⟩, rfl⟩
  | seq _ _ iha ihb =>
    obtain ⟨v, gu, h1, h2, h3, h3'⟩ := iha
    obtain ⟨w, gv, h4, h5, h6, h6'⟩ := ihb
    refine ⟨v ++ w, gv ++ gu, by simp [h1, h4], by simp [h2, h5], ⟨v, w, gu, gv, rfl, ?_, ?_, rfl⟩, by simp [h6', h3']⟩
    · rw [← h4]; exact h3
    · rw [← h2]; exact h6
  | altL _ ih =>
    obtain ⟨w, gs, h1, h2, h3, h4⟩ := ih
    exact ⟨w, gs, h1, h2, .inl h3, h4⟩
  | altR _ ih =>
    obtain ⟨w, gs, h1, h2, h3, h4⟩ := ih
    exact ⟨w, gs, h1, h2, .inr h3, h4⟩
  | @star g p b w a gs hw => exact ⟨w, [], rfl, rfl, ⟨hw, rfl⟩, rfl⟩
  | @group n r s t _ ih =>
    obtain ⟨w, gs, h1, h2, h3, h4⟩ := ih
    refine ⟨w, (n, w) :: gs, h1, h2, ⟨gs, h3, rfl⟩, ?_⟩
    simp [h4, h1]
  | bol h => exact ⟨[], [], rfl, rfl, ⟨⟨rfl, h⟩, rfl⟩, rfl⟩
  | eol h => exact ⟨[], [], rfl, rfl, ⟨⟨rfl, h⟩, rfl⟩, rfl⟩
  | wordb h => exact ⟨[], [], rfl, rfl, ⟨⟨rfl, h⟩, rfl⟩, rfl⟩
  | nbehind h => exact ⟨[], [], rfl, rfl, ⟨⟨rfl, h⟩, rfl⟩, rfl⟩
  | nahead h => exact ⟨[], [], rfl, rfl, ⟨⟨rfl, h⟩, rfl⟩, rfl⟩

theorem Gets.reads : ∀ {r : Re} {b w a : Str} {gs : List (Nat × Str)}, Gets r b w a gs → Reads r b w a := by
  intro r
  induction r with
  | seq x y ihx ihy => rintro b w a gs ⟨u, v, gu, gv, rfl, h1, h2, _⟩; exact ⟨u, v, rfl, ihx h1, ihy h2⟩
  | alt x y ihx ihy =>
    rintro b w a gs (h | h)
    · exact .inl (ihx h)
    · exact .inr (ihy h)
  | group n r ih => rintro b w a gs ⟨g, h, _⟩; exact ih h
  | eps => rintro b w a gs ⟨h, _⟩; exact h
  | chr p => rintro b w a gs ⟨h, _⟩; exact h
  | star g p => rintro b w a gs ⟨h, _⟩; exact h
  | bol => rintro b w a gs ⟨h, _⟩; exact h
  | eol => rintro b w a gs ⟨h, _⟩; exact h
  | wordb => rintro b w a gs ⟨h, _⟩; exact h
  | nbehind p => rintro b w a gs ⟨h, _⟩; exact h
  | nahead p => rintro b w a gs ⟨h, _⟩; exact h

theorem gets_noGroup : ∀ {r : Re}, NoGroup r → ∀ {b w a : Str} {gs : List (Nat × Str)}, Gets r b w a gs ↔ Reads r b w a ∧ gs = [] := by
  intro r hn b w a gs
  constructor
  · intro h
    refine ⟨h.reads, ?_⟩
    revert b w a gs
    induction r with
    | seq x y ihx ihy =>
      rintro b w a gs ⟨u, v, gu, gv, rfl, h1, h2, rfl⟩
      rw [ihx hn.1 h1, ihy hn.2 h2]; rfl
    | alt x y ihx ihy =>
      rintro b w a gs (h | h)
      · exact ihx hn.1 h
      · exact ihy hn.2 h
    | group n r ih => exact hn.elim
    | eps => rintro b w a gs ⟨_, h⟩; exact h
    | chr p => rintro b w a gs ⟨_, h⟩; exact h
    | star g p => rintro b w a gs ⟨_, h⟩; exact h
    | bol => rintro b w a gs ⟨_, h⟩; exact h
    | eol => rintro b w a gs ⟨_, h⟩; exact h
    | wordb => rintro b w a gs ⟨_, h⟩; exact h
    | nbehind p => rintro b w a gs ⟨_, h⟩; exact h
    | nahead p => rintro b w a gs ⟨_, h⟩; exact h
  · rintro ⟨h, rfl⟩
    revert b w a
    induction r with
    | seq x y ihx ihy =>
      rintro b w a ⟨u, v, rfl, h1, h2⟩
      exact ⟨u, v, [], [], rfl, ihx hn.1 h1, ihy hn.2 h2, rfl⟩
    | alt x y ihx ihy =>
      rintro b w a (h | h)
      · exact .inl (ihx hn.1 h)
      · exact .inr (ihy hn.2 h)
    | group n r ih => exact hn.elim
    | eps => intro b w a h; exact ⟨h, rfl⟩
    | chr p => intro b w a h; exact ⟨h, rfl⟩
    | star g p => intro b w a h; exact ⟨h, rfl⟩
    | bol => intro b w a h; exact ⟨h, rfl⟩
    | eol => intro b w a h; exact ⟨h, rfl⟩
    | wordb => intro b w a h; exact ⟨h, rfl⟩
    | nbehind p => intro b w a h; exact ⟨h, rfl⟩
    | nahead p => intro b w a h; exact ⟨h, rfl⟩

/-- What the matcher finds is one of the readings. -/
theorem m_gets {r : Re} {b a : Str} {g : List (Nat × Str)} {t : St} (h : m r ⟨b, a, g⟩ some = some t) :
    ∃ w gs, a = w ++ t.after ∧ Gets r b w t.after gs ∧ t.groups = gs ++ g := by
  obtain ⟨t', hw, e⟩ := m_sound _ _ _ _ h
  simp at e
  subst e
  obtain ⟨w, gs, h1, _, h3, h4⟩ := hw.gets
  exact ⟨w, gs, h1, h3, h4⟩

theorem gets_bolSeq {r : Re} {b w a : Str} {gs : List (Nat × Str)} : Gets (.seq .bol r) b w a gs ↔ b = [] ∧ Gets r b w a gs := by
  constructor
  · rintro ⟨u, v, gu, gv, rfl, ⟨⟨rfl, hb⟩, rfl⟩, h, rfl⟩
    exact ⟨hb, by simpa using h⟩
  · rintro ⟨rfl, h⟩
    exact ⟨[], w, [], gs, rfl, ⟨⟨rfl, rfl⟩, rfl⟩, h, by simp⟩

theorem gets_seqN {x r : Re} (hn : NoGroup x) {b w a : Str} {gs : List (Nat × Str)} :
    Gets (.seq x r) b w a gs ↔ ∃ u v, w = u ++ v ∧ Reads x b u (v ++ a) ∧ Gets r (u.reverse ++ b) v a gs := by
  constructor
  · rintro ⟨u, v, gu, gv, rfl, hu, h, rfl⟩
    obtain ⟨hu', rfl⟩ := (gets_noGroup hn).1 hu
    exact ⟨u, v, rfl, hu', by simpa using h⟩
  · rintro ⟨u, v, rfl, hu, h⟩
    exact ⟨u, v, [], gs, rfl, (gets_noGroup hn).2 ⟨hu, rfl⟩, h, by simp⟩

theorem gets_groupSeq {n : Nat} {x r : Re} (hn : NoGroup x) {b w a : Str} {gs : List (Nat × Str)} :
    Gets (.seq (.group n x) r) b w a gs ↔
      ∃ u v g, w = u ++ v ∧ Reads x b u (v ++ a) ∧ Gets r (u.reverse ++ b) v a g ∧ gs = g ++ [(n, u)] := by
  constructor
  · rintro ⟨u, v, gu, gv, rfl, ⟨g, hu, rfl⟩, h, rfl⟩
    obtain ⟨hu', rfl⟩ := (gets_noGroup hn).1 hu
    exact ⟨u, v, gv, rfl, hu', h, rfl⟩
  · rintro ⟨u, v, g, rfl, hu, h, rfl⟩
    exact ⟨u, v, [(n, u)], g, rfl, ⟨[], (gets_noGroup hn).2 ⟨hu, rfl⟩, rfl⟩, h, rfl⟩

/-! ### Which reading is chosen -/

theorem star_greedy_some (p : Char → Bool) (gs : List (Nat × Str)) (k : St → Option St) (x : St) (a b : Str) :
    starGo true p gs k b a = some x ↔ ∃ w a', a = w ++ a' ∧ (∀ c ∈ w, p c = true) ∧ k ⟨w.reverse ++ b, a', gs⟩ = some x ∧
      ∀ u v, a' = u ++ v → u ≠ [] → (∀ c ∈ u, p c = true) → k ⟨u.reverse ++ (w.reverse ++ b), v, gs⟩ = none := by
  constructor
  · revert b
    induction a with
    | nil =>
      intro b h
      refine ⟨[], [], rfl, by simp, h, ?_⟩
      intro u v e hu
      have : u = [] := by
        cases u with
        | nil => rfl
        | cons c u => simp at e
      exact absurd this hu
    | cons c cs ih =>
      intro b h
      unfold starGo at h
      by_cases hp : p c = true
      · rw [if_pos hp, if_pos rfl] at h
        cases hs : starGo true p gs k (c :: b) cs with
        | some y =>
          rw [hs] at h
          simp at h
          subst h
          obtain ⟨w, a', rfl, hw, hk, hl⟩ := ih (c :: b) hs
          refine ⟨c :: w, a', rfl, ?_, by simpa using hk, ?_⟩
          · intro d hd
            rcases List.mem_cons.1 hd with rfl | hd
            · exact hp
            · exact hw d hd
          · intro u v e hu hpu
            have := hl u v e hu hpu
            simpa using this
        | none =>
          rw [hs] at h
          simp only at h
          refine ⟨[], c :: cs, rfl, by simp, h, ?_⟩
          intro u v e hu hpu
          cases u with
          | nil => exact absurd rfl hu
          | cons d u =>
            simp at e
            obtain ⟨rfl, rfl⟩ := e
            cases hk : k ⟨(c :: u).reverse ++ (([] : Str).reverse ++ b), v, gs⟩ with
            | none => rfl
            | some y =>
              have := starGo_complete true p gs k u (c :: b) v (fun d hd => hpu d (List.mem_cons_of_mem _ hd)) (by
                have e : (c :: u).reverse ++ (([] : Str).reverse ++ b) = u.reverse ++ c :: b := by simp
                rw [← e, hk]; rfl)
              rw [hs] at this
              simp at this
      · rw [if_neg hp] at h
        refine ⟨[], c :: cs, rfl, by simp, h, ?_⟩
        intro u v e hu hpu
        cases u with
        | nil => exact absurd rfl hu
        | cons d u =>
          simp at e
          obtain ⟨rfl, rfl⟩ := e
          exact absurd (hpu c (by simp)) hp
  · rintro ⟨w, a', rfl, hw, hk, hl⟩
    exact star_last p gs k x a' w b hw hl hk

theorem star_lazy_some (p : Char → Bool) (gs : List (Nat × Str)) (k : St → Option St) (x : St) (a b : Str) :
    starGo false p gs k b a = some x ↔ ∃ w a', a = w ++ a' ∧ (∀ c ∈ w, p c = true) ∧ k ⟨w.reverse ++ b, a', gs⟩ = some x ∧
      ∀ u v, w = u ++ v → v ≠ [] → k ⟨u.reverse ++ b, v ++ a', gs⟩ = none := by
  constructor
  · revert b
    induction a with
    | nil =>
      intro b h
      exact ⟨[], [], rfl, by simp, h, by intro u v e hv; simp at e; exact absurd e.2 hv⟩
    | cons c cs ih =>
      intro b h
      unfold starGo at h
      by_cases hp : p c = true
      · rw [if_pos hp, if_neg (by simp)] at h
        cases hs : k ⟨b, c :: cs, gs⟩ with
        | some y =>
          rw [hs] at h
          simp at h
          subst h
          exact ⟨[], c :: cs, rfl, by simp, hs, by intro u v e hv; simp at e; exact absurd e.2 hv⟩
        | none =>
          rw [hs] at h
          simp only at h
          obtain ⟨w, a', rfl, hw, hk, hl⟩ := ih (c :: b) h
          refine ⟨c :: w, a', rfl, ?_, by simpa using hk, ?_⟩
          · intro d hd
            rcases List.mem_cons.1 hd with rfl | hd
            · exact hp
            · exact hw d hd
          · intro u v e hv
            cases u with
            | nil =>
              simp at e
              subst e
              simpa using hs
            | cons d u =>
              simp at e
              obtain ⟨rfl, rfl⟩ := e
              have := hl u v rfl hv
              simpa using this
      · rw [if_neg hp] at h
        exact ⟨[], c :: cs, rfl, by simp, h, by intro u v e hv; simp at e; exact absurd e.2 hv⟩
  · rintro ⟨w, a', rfl, hw, hk, hl⟩
    exact star_first p gs k x a' w b hw hl hk

/-- A part without groups that can be read in one way only. -/
theorem m_step {r : Re} (hn : NoGroup r) {b a : Str} {g : List (Nat × Str)} {k : St → Option St} {t : St}
    (hd : ∀ u v u' v', a = u ++ v → a = u' ++ v' → Reads r b u v → Reads r b u' v' → u = u') :
    m r ⟨b, a, g⟩ k = some t ↔ ∃ u v, a = u ++ v ∧ Reads r b u v ∧ k ⟨u.reverse ++ b, v, g⟩ = some t := by
  constructor
  · intro h
    obtain ⟨t', hw, hk⟩ := m_sound _ _ _ _ h
    obtain ⟨u, h1, h2, h3⟩ := hw.reads
    have h4 := hw.groups hn
    refine ⟨u, t'.after, h1, h3, ?_⟩
    rw [← hk]
    congr 1
    obtain ⟨x, y, z⟩ := t'
    simp at h2 h4
    simp [h2, h4]
  · rintro ⟨u, v, rfl, hr, hk⟩
    rw [m_unique k (hr.ways_noGroup g hn)]
    · exact hk
    · intro t' hw
      obtain ⟨u', h1, h2, h3⟩ := hw.reads
      have h4 := hw.groups hn
      have := hd u v u' t'.after rfl h1 hr h3
      subst this
      obtain ⟨x, y, z⟩ := t'
      simp at h1 h2 h4
      simp [h1, h2, h4]

theorem m_lit_some {s b a : Str} {g : List (Nat × Str)} {k : St → Option St} {t : St} :
    m (lit s) ⟨b, a, g⟩ k = some t ↔ ∃ v, a = s ++ v ∧ k ⟨s.reverse ++ b, v, g⟩ = some t := by
  rw [m_step (NoGroup.lit s) (fun u v u' v' _ _ h h' => by rw [Reads.lit.1 h, Reads.lit.1 h'])]
  constructor
  · rintro ⟨u, v, rfl, h, hk⟩
    rw [Reads.lit] at h
    subst h
    exact ⟨v, rfl, hk⟩
  · rintro ⟨v, rfl, hk⟩
    exact ⟨s, v, rfl, Reads.lit.2 rfl, hk⟩

theorem NoGroup.ilit : ∀ s : Str, NoGroup (Re.ilit s)
  | [] => trivial
  | _ :: cs => ⟨trivial, NoGroup.ilit cs⟩

theorem m_ilit_some {s b a : Str} {g : List (Nat × Str)} {k : St → Option St} {t : St} :
    m (ilit s) ⟨b, a, g⟩ k = some t ↔ ∃ u v, a = u ++ v ∧ u.map Char.toLower = s.map Char.toLower ∧ k ⟨u.reverse ++ b, v, g⟩ = some t := by
  rw [m_step (NoGroup.ilit s)]
  · simp only [Reads.ilit]
  · intro u v u' v' e e' h h'
    rw [Reads.ilit] at h h'
    have hl := congrArg List.length h
    have hl' := congrArg List.length h'
    simp at hl hl'
    rw [e] at e'
    exact (List.append_inj e' (by omega)).1

theorem m_chr_some {p : Char → Bool} {b a : Str} {g : List (Nat × Str)} {k : St → Option St} {t : St} :
    m (.chr p) ⟨b, a, g⟩ k = some t ↔ ∃ c v, a = c :: v ∧ p c = true ∧ k ⟨c :: b, v, g⟩ = some t := by
  cases a with
  | nil => simp [m]
  | cons c v =>
    by_cases h : p c = true
    · simp only [m, h, if_true]
      constructor
      · intro hk; exact ⟨c, v, rfl, h, hk⟩
      · rintro ⟨c', v', e, _, hk⟩
        injection e with e1 e2
        rw [e1, e2]; exact hk
    · simp only [m, h]
      constructor
      · intro hk; simp at hk
      · rintro ⟨c', v', e, hp, hk⟩
        injection e with e1 e2
        rw [e1] at h
        exact absurd hp h

theorem m_alt_some {x y : Re} {s : St} {k : St → Option St} {t : St} :
    m (.alt x y) s k = some t ↔ m x s k = some t ∨ m x s k = none ∧ m y s k = some t := by
  rw [m]
  cases m x s k with
  | none => simp
  | some z => simp

end Verif.Re
