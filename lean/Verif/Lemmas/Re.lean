import Verif.Model.Re

/-!
# What it means that an expression matches

`Ways r s t`: the expression can lead from `s` to `t`.  The matcher finds a way if there is one (`m_complete`), and what it finds is
one (`m_sound`).
-/

namespace Verif.Re
open Verif Py

/-- The expression can lead from `s` to `t`. -/
inductive Ways : Re → St → St → Prop where
  | eps (s) : Ways .eps s s
  | chr {p c b a g} (h : p c = true) : Ways (.chr p) ⟨b, c :: a, g⟩ ⟨c :: b, a, g⟩
  | seq {a b s t u} (h : Ways a s t) (k : Ways b t u) : Ways (.seq a b) s u
  | altL {a b s t} (h : Ways a s t) : Ways (.alt a b) s t
  | altR {a b s t} (h : Ways b s t) : Ways (.alt a b) s t
  | star {g p b w a gs} (h : ∀ c ∈ w, p c = true) : Ways (.star g p) ⟨b, w ++ a, gs⟩ ⟨w.reverse ++ b, a, gs⟩
  | group {n r s t} (h : Ways r s t) :
    Ways (.group n r) s { t with groups := (n, s.after.take (s.after.length - t.after.length)) :: t.groups }
  | bol {s} (h : s.before = []) : Ways .bol s s
  | eol {s} (h : s.after = [] ∨ s.after = ['\n']) : Ways .eol s s
  | wordb {s} (h : wordAt s.before ≠ wordAt s.after) : Ways .wordb s s
  | nbehind {p s} (h : headIn p s.before = false) : Ways (.nbehind p) s s
  | nahead {p s} (h : headIn p s.after = false) : Ways (.nahead p) s s

theorem starGo_sound (g : Bool) (p : Char → Bool) (gs : List (Nat × Str)) (k : St → Option St) (x : St) : ∀ (a b : Str),
    starGo g p gs k b a = some x → ∃ w a', a = w ++ a' ∧ (∀ c ∈ w, p c = true) ∧ k ⟨w.reverse ++ b, a', gs⟩ = some x := by
  intro a
  induction a with
  | nil =>
    intro b h
    exact ⟨[], [], rfl, by simp, h⟩
  | cons c cs ih =>
    intro b h
    have stop : k ⟨b, c :: cs, gs⟩ = some x →
        ∃ w a', c :: cs = w ++ a' ∧ (∀ c ∈ w, p c = true) ∧ k ⟨w.reverse ++ b, a', gs⟩ = some x :=
      fun h => ⟨[], c :: cs, rfl, by simp, h⟩
    have go : p c = true → starGo g p gs k (c :: b) cs = some x →
        ∃ w a', c :: cs = w ++ a' ∧ (∀ c ∈ w, p c = true) ∧ k ⟨w.reverse ++ b, a', gs⟩ = some x := by
      intro hp h
      obtain ⟨w, a', e, hw, hk⟩ := ih _ h
      refine ⟨c :: w, a', by simp [e], ?_, by simpa using hk⟩
      intro d hd
      rcases List.mem_cons.mp hd with rfl | hd
      · exact hp
      · exact hw d hd
    unfold starGo at h
    by_cases hp : p c = true
    · rw [if_pos hp] at h
      cases g with
      | true =>
        rw [if_pos rfl] at h
        cases hs : starGo true p gs k (c :: b) cs with
        | some r =>
          rw [hs] at h
          exact go hp (hs.trans h)
        | none =>
          rw [hs] at h
          exact stop h
      | false =>
        rw [if_neg (by simp)] at h
        cases hs : k ⟨b, c :: cs, gs⟩ with
        | some r =>
          rw [hs] at h
          exact stop (hs.trans h)
        | none =>
          rw [hs] at h
          exact go hp h
    · rw [if_neg hp] at h
      exact stop h

theorem starGo_complete (g : Bool) (p : Char → Bool) (gs : List (Nat × Str)) (k : St → Option St) : ∀ (w b a : Str),
    (∀ c ∈ w, p c = true) → (k ⟨w.reverse ++ b, a, gs⟩).isSome → (starGo g p gs k b (w ++ a)).isSome := by
  intro w
  induction w with
  | nil =>
    intro b a _ hk
    simp at hk ⊢
    cases a with
    | nil => exact hk
    | cons c cs =>
      unfold starGo
      cases hkk : k ⟨b, c :: cs, gs⟩ with
      | none => simp [hkk] at hk
      | some y =>
        by_cases hp : p c = true
        · rw [if_pos hp]
          cases g <;> simp
          cases starGo true p gs k (c :: b) cs <;> simp
        · rw [if_neg hp]; simp
  | cons c cs ih =>
    intro b a hw hk
    have := ih (c :: b) a (fun d hd => hw d (List.mem_cons_of_mem _ hd)) (by simpa using hk)
    rw [List.cons_append]
    unfold starGo
    rw [if_pos (hw c (by simp))]
    cases hs : starGo g p gs k (c :: b) (cs ++ a) with
    | none => simp [hs] at this
    | some y =>
      cases g <;> simp [hs]
      cases k ⟨b, c :: (cs ++ a), gs⟩ <;> simp

theorem m_sound : ∀ (r : Re) (s : St) (k : St → Option St) (x : St), m r s k = some x → ∃ t, Ways r s t ∧ k t = some x := by
  intro r
  induction r with
  | eps => intro s k x h; exact ⟨s, .eps s, h⟩
  | chr p =>
    intro s k x h
    obtain ⟨b, a, g⟩ := s
    cases a with
    | nil => simp [m] at h
    | cons c cs =>
      simp only [m] at h
      by_cases hp : p c = true
      · rw [if_pos hp] at h; exact ⟨_, .chr hp, h⟩
      · rw [if_neg hp] at h; simp at h
  | seq a b iha ihb =>
    intro s k x h
    obtain ⟨t, h1, h2⟩ := iha s _ x h
    obtain ⟨u, h3, h4⟩ := ihb t k x h2
    exact ⟨u, .seq h1 h3, h4⟩
  | alt a b iha ihb =>
    intro s k x h
    simp only [m] at h
    cases ha : m a s k with
    | some y =>
      rw [ha] at h
      obtain ⟨t, h1, h2⟩ := iha s k y ha
      exact ⟨t, .altL h1, h2.trans h⟩
    | none =>
      rw [ha] at h
      obtain ⟨t, h1, h2⟩ := ihb s k x h
      exact ⟨t, .altR h1, h2⟩
  | star g p =>
    intro s k x h
    obtain ⟨b, a, gs⟩ := s
    obtain ⟨w, a', e, hw, hk⟩ := starGo_sound g p gs k x a b h
    subst e
    exact ⟨_, .star hw, hk⟩
  | group n r ih =>
    intro s k x h
    obtain ⟨t, h1, h2⟩ := ih s _ x h
    exact ⟨_, .group h1, h2⟩
  | bol =>
    intro s k x h
    simp only [m] at h
    by_cases hb : s.before = []
    · rw [if_pos hb] at h; exact ⟨s, .bol hb, h⟩
    · rw [if_neg hb] at h; simp at h
  | eol =>
    intro s k x h
    simp only [m] at h
    by_cases hb : s.after = [] ∨ s.after = ['\n']
    · rw [if_pos hb] at h; exact ⟨s, .eol hb, h⟩
    · rw [if_neg hb] at h; simp at h
  | wordb =>
    intro s k x h
    simp only [m] at h
    by_cases hb : (wordAt s.before != wordAt s.after) = true
    · rw [if_pos hb] at h; exact ⟨s, .wordb (by simpa using hb), h⟩
    · rw [if_neg hb] at h; simp at h
  | nbehind p =>
    intro s k x h
    simp only [m] at h
    by_cases hb : headIn p s.before = true
    · rw [if_pos hb] at h; simp at h
    · rw [if_neg hb] at h; exact ⟨s, .nbehind (by simpa using hb), h⟩
  | nahead p =>
    intro s k x h
    simp only [m] at h
    by_cases hb : headIn p s.after = true
    · rw [if_pos hb] at h; simp at h
    · rw [if_neg hb] at h; exact ⟨s, .nahead (by simpa using hb), h⟩

theorem m_complete {r : Re} {s t : St} (h : Ways r s t) : ∀ k : St → Option St, (k t).isSome → (m r s k).isSome := by
  induction h with
  | eps s => intro k hk; exact hk
  | chr hp => intro k hk; simpa [m, hp] using hk
  | seq _ _ iha ihb => intro k hk; exact iha _ (ihb k hk)
  | @altL a b s t _ ih =>
    intro k hk
    have := ih k hk
    simp only [m]
    cases ha : m a s k with
    | none => simp [ha] at this
    | some y => simp
  | @altR a b s t _ ih =>
    intro k hk
    simp only [m]
    cases ha : m a s k with
    | none => exact ih k hk
    | some y => simp
  | star hw => intro k hk; exact starGo_complete _ _ _ k _ _ _ hw hk
  | group _ ih => intro k hk; exact ih _ hk
  | bol hb => intro k hk; simpa [m, hb] using hk
  | eol hb => intro k hk; simp only [m]; rw [if_pos hb]; exact hk
  | wordb hb => intro k hk; simp only [m]; rw [if_pos (by simpa using hb)]; exact hk
  | nbehind hb => intro k hk; simp only [m]; rw [if_neg (by simp [hb])]; exact hk
  | nahead hb => intro k hk; simp only [m]; rw [if_neg (by simp [hb])]; exact hk

/-- A match takes some characters off the text. -/
theorem Ways.takes {r : Re} {s t : St} (h : Ways r s t) : ∃ w, s.after = w ++ t.after ∧ t.before = w.reverse ++ s.before := by
  induction h with
  | eps s => exact ⟨[], rfl, rfl⟩
  | @chr p c b a g hp => exact ⟨[c], rfl, rfl⟩
  | seq _ _ iha ihb =>
    obtain ⟨v, h1, h2⟩ := iha
    obtain ⟨w, h3, h4⟩ := ihb
    exact ⟨v ++ w, by simp [h1, h3], by simp [h2, h4]⟩
  | altL _ ih => exact ih
  | altR _ ih => exact ih
  | @star g p b w a gs hw => exact ⟨w, rfl, rfl⟩
  | group _ ih => exact ih
  | bol _ => exact ⟨[], rfl, rfl⟩
  | eol _ => exact ⟨[], rfl, rfl⟩
  | wordb _ => exact ⟨[], rfl, rfl⟩
  | nbehind _ => exact ⟨[], rfl, rfl⟩
  | nahead _ => exact ⟨[], rfl, rfl⟩

/-- The expression takes only characters of a set. -/
def Only (q : Char → Prop) : Re → Prop
  | .chr p => ∀ c, p c = true → q c
  | .star _ p => ∀ c, p c = true → q c
  | .seq a b => Only q a ∧ Only q b
  | .alt a b => Only q a ∧ Only q b
  | .group _ r => Only q r
  | _ => True

theorem Ways.only {q : Char → Prop} {r : Re} {s t : St} (h : Ways r s t) :
    Only q r → ∀ w, s.after = w ++ t.after → ∀ c ∈ w, q c := by
  induction h with
  | eps s => intro _ w hw; have : w = [] := by simpa using hw
             simp [this]
  | @chr p c b a g hp =>
    intro ho w hw
    have : w = [c] := by
      have : [c] ++ a = w ++ a := hw
      exact (List.append_cancel_right this).symm
    simpa [this] using ho c hp
  | @seq a b s t u h k iha ihb =>
    intro ho w hw
    obtain ⟨v1, h1, _⟩ := h.takes
    obtain ⟨v2, h2, _⟩ := k.takes
    have : v1 ++ v2 = w := by
      apply List.append_cancel_right (bs := u.after)
      rw [← hw, h1, h2, List.append_assoc]
    subst this
    intro c hc
    rcases List.mem_append.mp hc with hc | hc
    · exact iha ho.1 v1 h1 c hc
    · exact ihb ho.2 v2 h2 c hc
  | altL _ ih => intro ho; exact ih ho.1
  | altR _ ih => intro ho; exact ih ho.2
  | @star g p b v a gs hv =>
    intro ho w hw
    have : v = w := List.append_cancel_right hw
    subst this
    exact fun c hc => ho c (hv c hc)
  | group _ ih => intro ho; exact ih ho
  | bol _ => intro _ w hw; have : w = [] := by simpa using hw
             simp [this]
  | eol _ => intro _ w hw; have : w = [] := by simpa using hw
             simp [this]
  | wordb _ => intro _ w hw; have : w = [] := by simpa using hw
               simp [this]
  | nbehind _ => intro _ w hw; have : w = [] := by simpa using hw
                 simp [this]
  | nahead _ => intro _ w hw; have : w = [] := by simpa using hw
                simp [this]

/-- Every match of the expression takes a character of a set. -/
def Must (q : Char → Prop) : Re → Prop
  | .chr p => ∀ c, p c = true → q c
  | .seq a b => Must q a ∨ Must q b
  | .alt a b => Must q a ∧ Must q b
  | .group _ r => Must q r
  | _ => False

theorem Ways.must {q : Char → Prop} {r : Re} {s t : St} (h : Ways r s t) :
    Must q r → ∀ w, s.after = w ++ t.after → ∃ c ∈ w, q c := by
  induction h with
  | @chr p c b a g hp =>
    intro ho w hw
    have : w = [c] := by
      have : [c] ++ a = w ++ a := hw
      exact (List.append_cancel_right this).symm
    simpa [this] using ho c hp
  | @seq a b s t u h k iha ihb =>
    intro ho w hw
    obtain ⟨v1, h1, _⟩ := h.takes
    obtain ⟨v2, h2, _⟩ := k.takes
    have : v1 ++ v2 = w := by
      apply List.append_cancel_right (bs := u.after)
      rw [← hw, h1, h2, List.append_assoc]
    subst this
    rcases ho with ho | ho
    · obtain ⟨c, hc, hq⟩ := iha ho v1 h1
      exact ⟨c, List.mem_append_left _ hc, hq⟩
    · obtain ⟨c, hc, hq⟩ := ihb ho v2 h2
      exact ⟨c, List.mem_append_right _ hc, hq⟩
  | altL _ ih => intro ho; exact ih ho.1
  | altR _ ih => intro ho; exact ih ho.2
  | group _ ih => intro ho; exact ih ho
  | eps _ => intro ho; exact ho.elim
  | star _ => intro ho; exact ho.elim
  | bol _ => intro ho; exact ho.elim
  | eol _ => intro ho; exact ho.elim
  | wordb _ => intro ho; exact ho.elim
  | nbehind _ => intro ho; exact ho.elim
  | nahead _ => intro ho; exact ho.elim

/-- The expression reads the text `w` where `b` (reversed) is before and `a` after it. -/
def Reads : Re → Str → Str → Str → Prop
  | .eps, _, w, _ => w = []
  | .chr p, _, w, _ => ∃ c, w = [c] ∧ p c = true
  | .seq x y, b, w, a => ∃ u v, w = u ++ v ∧ Reads x b u (v ++ a) ∧ Reads y (u.reverse ++ b) v a
  | .alt x y, b, w, a => Reads x b w a ∨ Reads y b w a
  | .star _ p, _, w, _ => ∀ c ∈ w, p c = true
  | .group _ r, b, w, a => Reads r b w a
  | .bol, b, w, _ => w = [] ∧ b = []
  | .eol, _, w, a => w = [] ∧ (a = [] ∨ a = ['\n'])
  | .wordb, b, w, a => w = [] ∧ wordAt b ≠ wordAt a
  | .nbehind p, b, w, _ => w = [] ∧ headIn p b = false
  | .nahead p, _, w, a => w = [] ∧ headIn p a = false

theorem Ways.reads {r : Re} {s t : St} (h : Ways r s t) :
    ∃ w, s.after = w ++ t.after ∧ t.before = w.reverse ++ s.before ∧ Reads r s.before w t.after := by
  induction h with
  | eps s => exact ⟨[], rfl, rfl, rfl⟩
  | @chr p c b a g hp => exact ⟨[c], rfl, rfl, c, rfl, hp⟩
  | seq _ _ iha ihb =>
    obtain ⟨v, h1, h2, h3⟩ := iha
    obtain ⟨w, h4, h5, h6⟩ := ihb
    refine ⟨v ++ w, by simp [h1, h4], by simp [h2, h5], v, w, rfl, ?_, ?_⟩
    · rw [← h4]; exact h3
    · rw [← h2]; exact h6
  | altL _ ih =>
    obtain ⟨w, h1, h2, h3⟩ := ih
    exact ⟨w, h1, h2, .inl h3⟩
  | altR _ ih =>
    obtain ⟨w, h1, h2, h3⟩ := ih
    exact ⟨w, h1, h2, .inr h3⟩
  | @star g p b w a gs hw => exact ⟨w, rfl, rfl, hw⟩
  | group _ ih => exact ih
  | bol h => exact ⟨[], rfl, rfl, rfl, h⟩
  | eol h => exact ⟨[], rfl, rfl, rfl, h⟩
  | wordb h => exact ⟨[], rfl, rfl, rfl, h⟩
  | nbehind h => exact ⟨[], rfl, rfl, rfl, h⟩
  | nahead h => exact ⟨[], rfl, rfl, rfl, h⟩

theorem Reads.ways : ∀ {r : Re} {b w a : Str} (g : List (Nat × Str)), Reads r b w a →
    ∃ g', Ways r ⟨b, w ++ a, g⟩ ⟨w.reverse ++ b, a, g'⟩ := by
  intro r
  induction r with
  | eps => intro b w a g h; simp only [Reads] at h; subst h; exact ⟨g, .eps _⟩
  | chr p => intro b w a g h; obtain ⟨c, rfl, hp⟩ := h; exact ⟨g, .chr hp⟩
  | seq x y ihx ihy =>
    intro b w a g h
    obtain ⟨u, v, rfl, h1, h2⟩ := h
    obtain ⟨g1, w1⟩ := ihx g h1
    obtain ⟨g2, w2⟩ := ihy g1 h2
    refine ⟨g2, ?_⟩
    have := Ways.seq w1 w2
    simpa using this
  | alt x y ihx ihy =>
    intro b w a g h
    rcases h with h | h
    · obtain ⟨g1, w1⟩ := ihx g h; exact ⟨g1, .altL w1⟩
    · obtain ⟨g1, w1⟩ := ihy g h; exact ⟨g1, .altR w1⟩
  | star gr p => intro b w a g h; exact ⟨g, .star h⟩
  | group n r ih =>
    intro b w a g h
    obtain ⟨g1, w1⟩ := ih g h
    exact ⟨_, .group w1⟩
  | bol => intro b w a g h; obtain ⟨rfl, h⟩ := h; exact ⟨g, .bol h⟩
  | eol => intro b w a g h; obtain ⟨rfl, h⟩ := h; exact ⟨g, .eol h⟩
  | wordb => intro b w a g h; obtain ⟨rfl, h⟩ := h; exact ⟨g, .wordb h⟩
  | nbehind p => intro b w a g h; obtain ⟨rfl, h⟩ := h; exact ⟨g, .nbehind h⟩
  | nahead p => intro b w a g h; obtain ⟨rfl, h⟩ := h; exact ⟨g, .nahead h⟩

/-- No groups in the expression. -/
def NoGroup : Re → Prop
  | .group _ _ => False
  | .seq a b => NoGroup a ∧ NoGroup b
  | .alt a b => NoGroup a ∧ NoGroup b
  | _ => True

theorem Ways.groups {r : Re} {s t : St} (h : Ways r s t) : NoGroup r → t.groups = s.groups := by
  induction h with
  | seq _ _ iha ihb => intro hn; rw [ihb hn.2, iha hn.1]
  | altL _ ih => intro hn; exact ih hn.1
  | altR _ ih => intro hn; exact ih hn.2
  | group _ _ => intro hn; exact hn.elim
  | eps _ => intro _; rfl
  | chr _ => intro _; rfl
  | star _ => intro _; rfl
  | bol _ => intro _; rfl
  | eol _ => intro _; rfl
  | wordb _ => intro _; rfl
  | nbehind _ => intro _; rfl
  | nahead _ => intro _; rfl

theorem Reads.ways_noGroup {r : Re} {b w a : Str} (g : List (Nat × Str)) (hn : NoGroup r) (h : Reads r b w a) :
    Ways r ⟨b, w ++ a, g⟩ ⟨w.reverse ++ b, a, g⟩ := by
  obtain ⟨g', h⟩ := h.ways g
  have : g' = g := h.groups hn
  rw [this] at h
  exact h

/-- If there is only one way, the matcher goes it. -/
theorem m_unique {r : Re} {s t : St} (k : St → Option St) (h : Ways r s t) (hu : ∀ t', Ways r s t' → t' = t) : m r s k = k t := by
  cases hk : k t with
  | some x =>
    have := m_complete h k (by simp [hk])
    cases hm : m r s k with
    | none => simp [hm] at this
    | some y =>
      obtain ⟨t', w, e⟩ := m_sound r s k y hm
      rw [hu t' w, hk] at e
      exact e.symm
  | none =>
    cases hm : m r s k with
    | none => rfl
    | some y =>
      obtain ⟨t', w, e⟩ := m_sound r s k y hm
      rw [hu t' w, hk] at e
      simp at e

theorem m_none {r : Re} {s : St} (k : St → Option St) (h : ∀ t, ¬ Ways r s t) : m r s k = none := by
  cases hm : m r s k with
  | none => rfl
  | some y =>
    obtain ⟨t, w, _⟩ := m_sound r s k y hm
    exact (h t w).elim

/-- A match exists if and only if the text has a beginning that the expression reads. -/
theorem m_isSome (r : Re) (s : St) : (m r s some).isSome ↔ ∃ w a, s.after = w ++ a ∧ Reads r s.before w a := by
  constructor
  · intro h
    cases hm : m r s some with
    | none => simp [hm] at h
    | some x =>
      obtain ⟨t, w, _⟩ := m_sound r s some x hm
      obtain ⟨v, h1, _, h3⟩ := w.reads
      exact ⟨v, _, h1, h3⟩
  · rintro ⟨w, a, e, h⟩
    obtain ⟨b, af, g⟩ := s
    simp only at e h
    subst e
    obtain ⟨g', hw⟩ := h.ways g
    exact m_complete hw some rfl

theorem searchFrom_isSome (r : Re) : ∀ (a b : Str),
    (searchFrom r b a).isSome ↔ ∃ u w z, a = u ++ w ++ z ∧ Reads r (u.reverse ++ b) w z := by
  intro a
  induction a with
  | nil =>
    intro b
    unfold searchFrom
    rw [m_isSome]
    constructor
    · rintro ⟨w, z, e, h⟩
      exact ⟨[], w, z, by simpa using e, h⟩
    · rintro ⟨u, w, z, e, h⟩
      simp at e
      obtain ⟨rfl, rfl, rfl⟩ := e
      exact ⟨[], [], rfl, h⟩
  | cons c cs ih =>
    intro b
    unfold searchFrom
    cases hm : m r ⟨b, c :: cs, []⟩ some with
    | some t =>
      have := (m_isSome r ⟨b, c :: cs, []⟩).mp (by simp [hm])
      obtain ⟨w, z, e, h⟩ := this
      simp only [Option.isSome_some, true_iff]
      exact ⟨[], w, z, by simpa using e, h⟩
    | none =>
      simp only
      rw [ih]
      constructor
      · rintro ⟨u, w, z, e, h⟩
        exact ⟨c :: u, w, z, by simp [e], by simpa using h⟩
      · rintro ⟨u, w, z, e, h⟩
        cases u with
        | nil =>
          have := (m_isSome r ⟨b, c :: cs, []⟩).mpr ⟨w, z, by simpa using e, by simpa using h⟩
          simp [hm] at this
        | cons d us =>
          simp at e
          obtain ⟨rfl, e⟩ := e
          exact ⟨us, w, z, by simp [e], by simpa using h⟩

/-- `re.search` succeeds if and only if the expression reads some part of the text. -/
theorem search_isSome (r : Re) (text : Str) :
    (search r text).isSome ↔ ∃ u w z, text = u ++ w ++ z ∧ Reads r u.reverse w z := by
  unfold search
  rw [searchFrom_isSome]
  simp

/-- `re.match` succeeds if and only if the expression reads a beginning of the text. -/
theorem matchRe_isSome (r : Re) (text : Str) : (matchRe r text).isSome ↔ ∃ w z, text = w ++ z ∧ Reads r [] w z := by
  unfold matchRe
  rw [m_isSome]

/-- `p*` goes as far as it can, if the rest agrees. -/
theorem star_greedy (p : Char → Bool) (gs : List (Nat × Str)) (k : St → Option St) (x : St) : ∀ (w b a : Str),
    (∀ c ∈ w, p c = true) → headIn p a = false → k ⟨w.reverse ++ b, a, gs⟩ = some x → starGo true p gs k b (w ++ a) = some x := by
  intro w
  induction w with
  | nil =>
    intro b a _ ha hk
    cases a with
    | nil => exact hk
    | cons c cs =>
      simp only [List.nil_append]
      unfold starGo
      have : ¬ p c = true := by simpa [headIn] using ha
      rw [if_neg this]
      exact hk
  | cons c cs ih =>
    intro b a hw ha hk
    rw [List.cons_append]
    unfold starGo
    rw [if_pos (hw c (by simp)), if_pos rfl, ih (c :: b) a (fun d hd => hw d (List.mem_cons_of_mem _ hd)) ha (by simpa using hk)]

/-- `p*` ends at the last place from which the rest agrees. -/
theorem star_last (p : Char → Bool) (gs : List (Nat × Str)) (k : St → Option St) (x : St) (a : Str) : ∀ (w b : Str),
    (∀ c ∈ w, p c = true) → (∀ u v, a = u ++ v → u ≠ [] → (∀ c ∈ u, p c = true) → k ⟨u.reverse ++ (w.reverse ++ b), v, gs⟩ = none) →
    k ⟨w.reverse ++ b, a, gs⟩ = some x → starGo true p gs k b (w ++ a) = some x := by
  intro w
  induction w with
  | nil =>
    intro b _ hn hk
    simp only [List.nil_append, List.reverse_nil] at hk hn ⊢
    have stop : ∀ (a : Str) (b : Str), (∀ u v, a = u ++ v → (∀ c ∈ u, p c = true) → k ⟨u.reverse ++ b, v, gs⟩ = none) →
        starGo true p gs k b a = none := by
      intro a
      induction a with
      | nil => intro b h; exact h [] [] rfl (by simp)
      | cons c cs ih =>
        intro b h
        unfold starGo
        have h0 : k ⟨b, c :: cs, gs⟩ = none := h [] (c :: cs) rfl (by simp)
        by_cases hp : p c = true
        · rw [if_pos hp, if_pos rfl, ih (c :: b)]
          · exact h0
          · intro u v e hu
            have := h (c :: u) v (by simp [e]) (fun d hd => by
              rcases List.mem_cons.mp hd with rfl | hd
              · exact hp
              · exact hu d hd)
            simpa using this
        · rw [if_neg hp]
          exact h0
    cases a with
    | nil => exact hk
    | cons c cs =>
      unfold starGo
      by_cases hp : p c = true
      · rw [if_pos hp, if_pos rfl, stop cs (c :: b)]
        · exact hk
        · intro u v e hu
          have := hn (c :: u) v (by simp [e]) (by simp) (fun d hd => by
            rcases List.mem_cons.mp hd with rfl | hd
            · exact hp
            · exact hu d hd)
          simpa using this
      · rw [if_neg hp]
        exact hk
  | cons c cs ih =>
    intro b hw hn hk
    rw [List.cons_append]
    unfold starGo
    rw [if_pos (hw c (by simp)), if_pos rfl, ih (c :: b) (fun d hd => hw d (List.mem_cons_of_mem _ hd)) (by simpa using hn) (by simpa using hk)]

/-- `p*?` ends at the first place from which the rest agrees. -/
theorem star_first (p : Char → Bool) (gs : List (Nat × Str)) (k : St → Option St) (x : St) (a : Str) : ∀ (w b : Str),
    (∀ c ∈ w, p c = true) → (∀ u v, w = u ++ v → v ≠ [] → k ⟨u.reverse ++ b, v ++ a, gs⟩ = none) →
    k ⟨w.reverse ++ b, a, gs⟩ = some x → starGo false p gs k b (w ++ a) = some x := by
  intro w
  induction w with
  | nil =>
    intro b _ _ hk
    simp only [List.nil_append, List.reverse_nil] at hk ⊢
    cases a with
    | nil => exact hk
    | cons c cs =>
      unfold starGo
      by_cases hp : p c = true
      · rw [if_pos hp, if_neg (by simp), hk]
      · rw [if_neg hp, hk]
  | cons c cs ih =>
    intro b hw hn hk
    rw [List.cons_append]
    unfold starGo
    have h0 : k ⟨b, c :: (cs ++ a), gs⟩ = none := hn [] (c :: cs) rfl (by simp)
    rw [if_pos (hw c (by simp)), if_neg (by simp), h0]
    refine ih (c :: b) (fun d hd => hw d (List.mem_cons_of_mem _ hd)) ?_ (by simpa using hk)
    intro u v e hv
    have := hn (c :: u) v (by simp [e]) hv
    simpa using this

theorem m_lit : ∀ (s b a : Str) (g : List (Nat × Str)) (k : St → Option St),
    m (lit s) ⟨b, s ++ a, g⟩ k = k ⟨s.reverse ++ b, a, g⟩ := by
  intro s
  induction s with
  | nil => intro b a g k; rfl
  | cons c cs ih =>
    intro b a g k
    simp [lit, m, ih]

/-- `p+` goes as far as it can, if the rest agrees. -/
theorem plus_greedy {p : Char → Bool} {gs : List (Nat × Str)} {k : St → Option St} {x : St} {w b a : Str} (hn : w ≠ [])
    (hw : ∀ c ∈ w, p c = true) (ha : headIn p a = false) (hk : k ⟨w.reverse ++ b, a, gs⟩ = some x) :
    m (plus p) ⟨b, w ++ a, gs⟩ k = some x := by
  cases w with
  | nil => exact absurd rfl hn
  | cons c cs =>
    simp only [plus, m, List.cons_append]
    rw [if_pos (hw c (by simp))]
    exact star_greedy p gs k x cs (c :: b) a (fun d hd => hw d (List.mem_cons_of_mem _ hd)) ha (by simpa using hk)

/-- The same for a group. -/
theorem word_greedy {p : Char → Bool} {n : Nat} {gs : List (Nat × Str)} {k : St → Option St} {x : St} {w b a : Str} (hn : w ≠ [])
    (hw : ∀ c ∈ w, p c = true) (ha : headIn p a = false) (hk : k ⟨w.reverse ++ b, a, (n, w) :: gs⟩ = some x) :
    m (.group n (plus p)) ⟨b, w ++ a, gs⟩ k = some x := by
  simp only [m]
  apply plus_greedy hn hw ha
  simpa using hk

theorem m_seq {a b : Re} {s : St} {k : St → Option St} : m (.seq a b) s k = m a s (fun t => m b t k) := by rw [m]

theorem m_bol {a : Str} {g : List (Nat × Str)} {k : St → Option St} : m .bol ⟨[], a, g⟩ k = k ⟨[], a, g⟩ := by simp [m]

theorem m_chr {p : Char → Bool} {c : Char} {b a : Str} {g : List (Nat × Str)} {k : St → Option St} (h : p c = true) :
    m (.chr p) ⟨b, c :: a, g⟩ k = k ⟨c :: b, a, g⟩ := by simp [m, h]

theorem m_lit1 {c : Char} {b a : Str} {g : List (Nat × Str)} {k : St → Option St} : m (lit [c]) ⟨b, c :: a, g⟩ k = k ⟨c :: b, a, g⟩ :=
  m_lit [c] b a g k

theorem m_altL {a b : Re} {s : St} {k : St → Option St} {x : St} (h : m a s k = some x) : m (.alt a b) s k = some x := by
  simp [m, h]

theorem m_opt {r : Re} {s : St} {k : St → Option St} {x : St} (h : m r s k = some x) : m (opt r) s k = some x := by
  simp [opt, m, h]

/-! ### Reading written expressions -/

theorem Reads.lit : ∀ {s b w a : Str}, Reads (lit s) b w a ↔ w = s := by
  intro s
  induction s with
  | nil => intro b w a; rfl
  | cons c cs ih =>
    intro b w a
    simp only [Re.lit, Reads, ih]
    constructor
    · rintro ⟨u, v, rfl, ⟨d, rfl, hd⟩, rfl⟩
      simpa using hd
    · rintro rfl
      exact ⟨[c], cs, rfl, ⟨c, rfl, by simp⟩, rfl⟩

theorem Reads.ilit : ∀ {s b w a : Str}, Reads (ilit s) b w a ↔ w.map Char.toLower = s.map Char.toLower := by
  intro s
  induction s with
  | nil => intro b w a; simp [Re.ilit, Reads]
  | cons c cs ih =>
    intro b w a
    simp only [Re.ilit, Reads, ih]
    constructor
    · rintro ⟨u, v, rfl, ⟨d, rfl, hd⟩, h⟩
      simpa [h] using hd
    · intro h
      cases w with
      | nil => simp at h
      | cons d ds =>
        simp at h
        exact ⟨[d], ds, rfl, ⟨d, rfl, by simpa using h.1⟩, by simpa using h.2⟩

theorem Reads.plus {p : Char → Bool} {b w a : Str} : Reads (plus p) b w a ↔ w ≠ [] ∧ ∀ c ∈ w, p c = true := by
  simp only [Re.plus, Reads]
  constructor
  · rintro ⟨u, v, rfl, ⟨c, rfl, hc⟩, hv⟩
    refine ⟨by simp, ?_⟩
    intro d hd
    rcases List.mem_cons.mp hd with rfl | hd
    · exact hc
    · exact hv d hd
  · rintro ⟨hn, hw⟩
    cases w with
    | nil => simp at hn
    | cons c cs => exact ⟨[c], cs, rfl, ⟨c, rfl, hw c (by simp)⟩, fun d hd => hw d (List.mem_cons_of_mem _ hd)⟩

theorem Reads.opt {r : Re} {b w a : Str} : Reads (opt r) b w a ↔ Reads r b w a ∨ w = [] := Iff.rfl

theorem Reads.seq {x y : Re} {b w a : Str} :
    Reads (.seq x y) b w a ↔ ∃ u v, w = u ++ v ∧ Reads x b u (v ++ a) ∧ Reads y (u.reverse ++ b) v a := Iff.rfl

theorem Reads.alt {x y : Re} {b w a : Str} : Reads (.alt x y) b w a ↔ Reads x b w a ∨ Reads y b w a := Iff.rfl

theorem Reads.chr {p : Char → Bool} {b w a : Str} : Reads (.chr p) b w a ↔ ∃ c, w = [c] ∧ p c = true := Iff.rfl

theorem Reads.star {g : Bool} {p : Char → Bool} {b w a : Str} : Reads (.star g p) b w a ↔ ∀ c ∈ w, p c = true := Iff.rfl

theorem Reads.group {n : Nat} {r : Re} {b w a : Str} : Reads (.group n r) b w a ↔ Reads r b w a := Iff.rfl

theorem Reads.only {q : Char → Prop} {r : Re} {b w a : Str} (h : Reads r b w a) (ho : Only q r) : ∀ c ∈ w, q c := by
  obtain ⟨g, hw⟩ := h.ways []
  exact hw.only ho w rfl

theorem Reads.must {q : Char → Prop} {r : Re} {b w a : Str} (h : Reads r b w a) (ho : Must q r) : ∃ c ∈ w, q c := by
  obtain ⟨g, hw⟩ := h.ways []
  exact hw.must ho w rfl

theorem Only.lit {q : Char → Prop} : ∀ {s : Str}, (∀ c ∈ s, q c) → Only q (lit s) := by
  intro s
  induction s with
  | nil => intro _; trivial
  | cons c cs ih =>
    intro h
    refine ⟨?_, ih (fun d hd => h d (List.mem_cons_of_mem _ hd))⟩
    intro d hd
    simp at hd
    subst hd
    exact h d (by simp)

theorem Only.seqs {q : Char → Prop} : ∀ {l : List Re}, (∀ r ∈ l, Only q r) → Only q (seqs l)
  | [], _ => trivial
  | [r], h => h r (by simp)
  | r :: r' :: l, h => ⟨h r (by simp), Only.seqs (l := r' :: l) (fun x hx => h x (List.mem_cons_of_mem _ hx))⟩

theorem Only.alts {q : Char → Prop} : ∀ {l : List Re}, (∀ r ∈ l, Only q r) → Only q (alts l)
  | [], _ => fun _ h => by simp at h
  | [r], h => h r (by simp)
  | r :: r' :: l, h => ⟨h r (by simp), Only.alts (l := r' :: l) (fun x hx => h x (List.mem_cons_of_mem _ hx))⟩

theorem Only.times {q : Char → Prop} {r : Re} (h : Only q r) : ∀ n, Only q (times r n)
  | 0 => trivial
  | n + 1 => ⟨h, Only.times h n⟩

theorem Only.upTo {q : Char → Prop} {r : Re} (h : Only q r) : ∀ n, Only q (upTo r n)
  | 0 => trivial
  | n + 1 => ⟨⟨h, Only.upTo h n⟩, trivial⟩

theorem Only.rep {q : Char → Prop} {r : Re} (h : Only q r) (lo hi : Nat) : Only q (rep r lo hi) := ⟨Only.times h lo, Only.upTo h _⟩

theorem Only.mono {q q' : Char → Prop} (hq : ∀ c, q c → q' c) : ∀ {r : Re}, Only q r → Only q' r := by
  intro r
  induction r with
  | chr p => intro h c hc; exact hq c (h c hc)
  | star g p => intro h c hc; exact hq c (h c hc)
  | seq a b iha ihb => intro h; exact ⟨iha h.1, ihb h.2⟩
  | alt a b iha ihb => intro h; exact ⟨iha h.1, ihb h.2⟩
  | group n r ih => intro h; exact ih h
  | _ => intro _; trivial

theorem Must.lit {q : Char → Prop} : ∀ {s : Str}, (∃ c ∈ s, q c) → Must q (lit s) := by
  intro s
  induction s with
  | nil => intro h; simp at h
  | cons c cs ih =>
    rintro ⟨d, hd, h⟩
    rcases List.mem_cons.mp hd with rfl | hd
    · exact .inl (fun e he => by simp at he; subst he; exact h)
    · exact .inr (ih ⟨d, hd, h⟩)

theorem Must.seqs {q : Char → Prop} : ∀ {l : List Re}, (∃ r ∈ l, Must q r) → Must q (seqs l)
  | [], h => by simp at h
  | [r], ⟨x, hx, h⟩ => by
    simp at hx
    subst hx
    exact h
  | r :: r' :: l, ⟨x, hx, h⟩ => by
    rcases List.mem_cons.mp hx with rfl | hx
    · exact .inl h
    · exact .inr (Must.seqs (l := r' :: l) ⟨x, hx, h⟩)

theorem Must.alts {q : Char → Prop} : ∀ {l : List Re}, (∀ r ∈ l, Must q r) → Must q (alts l)
  | [], _ => fun _ h => by simp at h
  | [r], h => h r (by simp)
  | r :: r' :: l, h => ⟨h r (by simp), Must.alts (l := r' :: l) (fun x hx => h x (List.mem_cons_of_mem _ hx))⟩

theorem Must.times {q : Char → Prop} {r : Re} (h : Must q r) (n : Nat) : Must q (times r (n + 1)) := .inl h

theorem Must.rep {q : Char → Prop} {r : Re} (h : Must q r) (n hi : Nat) : Must q (rep r (n + 1) hi) := .inl (.inl h)

theorem Must.mono {q q' : Char → Prop} (hq : ∀ c, q c → q' c) : ∀ {r : Re}, Must q r → Must q' r := by
  intro r
  induction r with
  | chr p => intro h c hc; exact hq c (h c hc)
  | seq a b iha ihb => intro h; exact h.imp iha ihb
  | alt a b iha ihb => intro h; exact ⟨iha h.1, ihb h.2⟩
  | group n r ih => intro h; exact ih h
  | _ => intro h; exact h.elim

theorem NoGroup.lit : ∀ s : Str, NoGroup (lit s)
  | [] => trivial
  | _ :: cs => ⟨trivial, NoGroup.lit cs⟩

theorem NoGroup.seqs : ∀ {l : List Re}, (∀ r ∈ l, NoGroup r) → NoGroup (seqs l)
  | [], _ => trivial
  | [r], h => h r (by simp)
  | r :: r' :: l, h => ⟨h r (by simp), NoGroup.seqs (l := r' :: l) (fun x hx => h x (List.mem_cons_of_mem _ hx))⟩

theorem NoGroup.alts : ∀ {l : List Re}, (∀ r ∈ l, NoGroup r) → NoGroup (alts l)
  | [], _ => trivial
  | [r], h => h r (by simp)
  | r :: r' :: l, h => ⟨h r (by simp), NoGroup.alts (l := r' :: l) (fun x hx => h x (List.mem_cons_of_mem _ hx))⟩

theorem NoGroup.times {r : Re} (h : NoGroup r) : ∀ n, NoGroup (times r n)
  | 0 => trivial
  | n + 1 => ⟨h, NoGroup.times h n⟩

theorem NoGroup.upTo {r : Re} (h : NoGroup r) : ∀ n, NoGroup (upTo r n)
  | 0 => trivial
  | n + 1 => ⟨⟨h, NoGroup.upTo h n⟩, trivial⟩

theorem NoGroup.rep {r : Re} (h : NoGroup r) (lo hi : Nat) : NoGroup (rep r lo hi) := ⟨NoGroup.times h lo, NoGroup.upTo h _⟩

/-! ### `findall` -/

theorem m_some_takes {r : Re} {b a : Str} {g : List (Nat × Str)} {t : St} (h : m r ⟨b, a, g⟩ some = some t) :
    ∃ w, a = w ++ t.after ∧ a.take (a.length - t.after.length) = w ∧ Reads r b w t.after := by
  obtain ⟨t', hw, e⟩ := m_sound _ _ _ _ h
  simp at e
  subst e
  obtain ⟨w, h1, _, h3⟩ := hw.reads
  refine ⟨w, h1, ?_, h3⟩
  simp only at h1
  have : a.length - t'.after.length = w.length := by simp [h1]
  rw [this, h1]
  simp

/-- A character that no match takes separates the matches before it from those after it. -/
theorem findGo_split {r : Re} {z : Char} {q : Char → Prop} (ho : Only (fun c => c ≠ z) r) (hm : Must q r) (y : Str) :
    ∀ (x : Str) (n : Nat) (b : Str), n ≤ x.length →
      ∃ l, findGo r n b (x ++ z :: y) = l ++ findGo r 0 (z :: (x.reverse ++ b)) y := by
  intro x
  induction x with
  | nil =>
    intro n b hn
    have : n = 0 := by simpa using hn
    subst this
    refine ⟨[], ?_⟩
    simp only [List.nil_append]
    rw [findGo]
    cases hmm : m r ⟨b, z :: y, []⟩ some with
    | none => rfl
    | some t =>
      obtain ⟨w, h1, _, h3⟩ := m_some_takes hmm
      cases w with
      | nil =>
        obtain ⟨c, hc, _⟩ := h3.must hm
        simp at hc
      | cons c cs =>
        simp at h1
        exact absurd h1.1.symm (h3.only ho c (by simp))
  | cons c cs ih =>
    intro n b hn
    cases n with
    | succ n =>
      obtain ⟨l, hl⟩ := ih n (c :: b) (by simpa using hn)
      refine ⟨l, ?_⟩
      rw [List.cons_append, findGo, hl]
      simp
    | zero =>
      rw [List.cons_append, findGo]
      cases hmm : m r ⟨b, c :: (cs ++ z :: y), []⟩ some with
      | none =>
        obtain ⟨l, hl⟩ := ih 0 (c :: b) (by simp)
        refine ⟨l, ?_⟩
        simp only [hl]
        simp
      | some t =>
        obtain ⟨w, h1, h2, h3⟩ := m_some_takes hmm
        have hlen : w.length ≤ (c :: cs).length := by
          have hw : ∀ d ∈ w, d ≠ z := h3.only ho
          apply Classical.byContradiction
          intro hgt
          have : z ∈ w := by
            have h1' : (c :: cs) ++ z :: y = w ++ t.after := by simpa using h1
            have hp : (c :: cs) ++ [z] <+: w := by
              apply List.prefix_of_prefix_length_le (l₃ := (c :: cs) ++ z :: y)
              · exact ⟨y, by simp⟩
              · exact ⟨t.after, h1'.symm⟩
              · simp at hgt ⊢; omega
            exact hp.subset (by simp)
          exact hw z this rfl
        have hn : (c :: (cs ++ z :: y)).length - t.after.length = w.length := by rw [h1]; simp
        obtain ⟨l, hl⟩ := ih (w.length - 1) (c :: b) (by simp at hlen ⊢; omega)
        refine ⟨w :: l, ?_⟩
        simp only [hn, hl]
        rw [hn] at h2
        simp [h2]

/-- A match at the beginning. -/
theorem findGo_match {r : Re} {b w a : Str} (hw : w ≠ []) (h : m r ⟨b, w ++ a, []⟩ some = some ⟨w.reverse ++ b, a, []⟩) :
    findGo r 0 b (w ++ a) = w :: findGo r 0 (w.reverse ++ b) a := by
  have skip : ∀ (w b a : Str), findGo r w.length b (w ++ a) = findGo r 0 (w.reverse ++ b) a := by
    intro w
    induction w with
    | nil => intro b a; rfl
    | cons c cs ih =>
      intro b a
      rw [List.cons_append, List.length_cons, findGo, ih]
      simp
  cases w with
  | nil => exact absurd rfl hw
  | cons c cs =>
    rw [List.cons_append] at h
    rw [List.cons_append, findGo, h]
    have hn : (c :: (cs ++ a)).length - a.length = cs.length + 1 := by simp; omega
    simp only [hn, Nat.add_sub_cancel, skip]
    simp

/-- No match where a character that every match takes does not occur. -/
theorem findGo_none {r : Re} {q : Char → Prop} (hm : Must q r) : ∀ (a b : Str), (∀ c ∈ a, ¬ q c) → findGo r 0 b a = [] := by
  intro a
  induction a with
  | nil => intro b _; rw [findGo]
  | cons c cs ih =>
    intro b h
    rw [findGo]
    cases hmm : m r ⟨b, c :: cs, []⟩ some with
    | none => exact ih _ (fun d hd => h d (List.mem_cons_of_mem _ hd))
    | some t =>
      obtain ⟨w, h1, _, h3⟩ := m_some_takes hmm
      obtain ⟨d, hd, hq⟩ := h3.must hm
      exact absurd hq (h d (by rw [h1]; exact List.mem_append_left _ hd))

end Verif.Re
