import Verif.Lemmas.Address

/-!
# Which text a group gets

`Finds n R Q`: where `R` matches at the beginning of `a`, the group `n` gets the longest `v` such that `Q a v`.
-/

namespace Verif.ReceivedRe
open Verif Py Re Spec Received
open Verif.Spec.Fields (Leftmost Rightmost Perhaps Unopened)

/-- The expression does not set the group. -/
def Avoid (n : Nat) : Re → Prop
  | .seq x y => Avoid n x ∧ Avoid n y
  | .alt x y => Avoid n x ∧ Avoid n y
  | .group k r => k ≠ n ∧ Avoid n r
  | _ => True

theorem avoid_noGroup {n : Nat} : ∀ {r : Re}, NoGroup r → Avoid n r := by
  intro r
  induction r with
  | seq x y ihx ihy => intro h; exact ⟨ihx h.1, ihy h.2⟩
  | alt x y ihx ihy => intro h; exact ⟨ihx h.1, ihy h.2⟩
  | group k r ih => intro h; exact h.elim
  | eps => intro _; trivial
  | chr p => intro _; trivial
  | star g p => intro _; trivial
  | bol => intro _; trivial
  | eol => intro _; trivial
  | wordb => intro _; trivial
  | nbehind p => intro _; trivial
  | nahead p => intro _; trivial

theorem ways_avoid {n : Nat} {r : Re} {s t : St} (h : Ways r s t) : Avoid n r → t.get n = s.get n := by
  induction h with
  | seq _ _ iha ihb => intro hn; rw [ihb hn.2, iha hn.1]
  | altL _ ih => intro hn; exact ih hn.1
  | altR _ ih => intro hn; exact ih hn.2
  | @group k r s t _ ih =>
    intro hn
    rw [← ih hn.2]
    simp [St.get, Dict.get?, hn.1]
  | eps _ => intro _; rfl
  | chr _ => intro _; rfl
  | star _ => intro _; rfl
  | bol _ => intro _; rfl
  | eol _ => intro _; rfl
  | wordb _ => intro _; rfl
  | nbehind _ => intro _; rfl
  | nahead _ => intro _; rfl

theorem m_avoid {n : Nat} {r : Re} {s t : St} (h : m r s some = some t) (hn : Avoid n r) : t.get n = s.get n := by
  obtain ⟨t', hw, e⟩ := m_sound _ _ _ _ h
  simp at e
  subst e
  exact ways_avoid hw hn

theorem field_some {r : Re} {n : Nat} {h v : Str} : field r n h = some v ↔ ∃ t, matchRe r h = some t ∧ t.get n = some v := by
  unfold field
  cases matchRe r h with
  | none => simp
  | some t => simp

theorem blanks_append {x y : Str} : Blanks (x ++ y) ↔ Blanks x ∧ Blanks y := by
  constructor
  · intro h
    exact ⟨fun c hc => h c (List.mem_append_left _ hc), fun c hc => h c (List.mem_append_right _ hc)⟩
  · rintro ⟨h1, h2⟩ c hc
    rcases List.mem_append.1 hc with hc | hc
    · exact h1 c hc
    · exact h2 c hc

theorem blanks_cons {c : Char} {y : Str} : Blanks (c :: y) ↔ (isSpace c = true → c = ' ') ∧ Blanks y := by
  constructor
  · intro h
    exact ⟨h c (by simp), fun d hd => h d (List.mem_cons_of_mem _ hd)⟩
  · rintro ⟨h1, h2⟩ d hd
    rcases List.mem_cons.1 hd with rfl | hd
    · exact h1
    · exact h2 d hd

theorem blanks_dot {x : Str} (h : Blanks x) : ∀ c ∈ x, dot c = true := by
  intro c hc
  unfold dot
  cases hn : (c != '\n') with
  | true => rfl
  | false =>
    simp at hn
    subst hn
    exact absurd (h _ hc (by decide)) (by decide)

/-- What the group gets. -/
structure Finds (n : Nat) (R : Re) (Q : Str → Str → Prop) : Prop where
  sound : ∀ {b a g t}, Blanks a → m R ⟨b, a, g⟩ some = some t → ∃ v, t.get n = some v ∧ Q a v ∧ ∀ v', Q a v' → v'.length ≤ v.length
  complete : ∀ {b a g v}, Blanks a → Q a v → (m R ⟨b, a, g⟩ some).isSome = true
  inj : ∀ {a v v'}, Blanks a → Q a v → Q a v' → v.length = v'.length → v = v'

theorem Finds.congr {n : Nat} {R : Re} {Q Q' : Str → Str → Prop} (h : Finds n R Q) (e : ∀ a v, Q a v ↔ Q' a v) : Finds n R Q' := by
  have : Q = Q' := funext fun a => funext fun v => propext (e a v)
  rwa [← this]

/-- A part before, which can be read in one way only. -/
theorem Finds.step {n : Nat} {X R : Re} {Q : Str → Str → Prop} {D : Str → Prop} (h : Finds n R Q) (hn : NoGroup X)
    (hD : ∀ b u v, Blanks (u ++ v) → (Reads X b u v ↔ D u)) (hu : ∀ u v u' v', u ++ v = u' ++ v' → Blanks (u ++ v) → D u → D u' → u = u') :
    Finds n (.seq X R) (fun a v => ∃ u a', a = u ++ a' ∧ D u ∧ Q a' v) := by
  have ms : ∀ {b a g t}, Blanks a → (m (.seq X R) ⟨b, a, g⟩ some = some t ↔ ∃ u v, a = u ++ v ∧ Reads X b u v ∧ m R ⟨u.reverse ++ b, v, g⟩ some = some t) := by
    intro b a g t hb
    rw [m_seq, m_step hn]
    intro u v u' v' e e' h1 h2
    subst e
    exact hu u v u' v' e' hb ((hD _ _ _ hb).1 h1) ((hD b u' v' (e' ▸ hb)).1 h2)
  constructor
  · intro b a g t hb hm
    obtain ⟨u, v, rfl, h1, h2⟩ := (ms hb).1 hm
    have hb' := (blanks_append.1 hb).2
    obtain ⟨x, hx, hq, hl⟩ := h.sound hb' h2
    refine ⟨x, hx, ⟨u, v, rfl, (hD _ _ _ hb).1 h1, hq⟩, ?_⟩
    rintro x' ⟨u', v', e, hd', hq'⟩
    have := hu u v u' v' e hb ((hD _ _ _ hb).1 h1) hd'
    subst this
    rw [List.append_cancel_left e] at hl
    exact hl x' hq'
  · rintro b a g v hb ⟨u, a', rfl, hd, hq⟩
    have := h.complete (b := u.reverse ++ b) (g := g) (blanks_append.1 hb).2 hq
    cases hm : m R ⟨u.reverse ++ b, a', g⟩ some with
    | none => rw [hm] at this; simp at this
    | some t => rw [(ms hb).2 ⟨u, a', rfl, (hD _ _ _ hb).2 hd, hm⟩]; rfl
  · rintro a v v' hb ⟨u, a', rfl, hd, hq⟩ ⟨u', a'', e, hd', hq'⟩ hl
    have := hu u a' u' a'' e hb hd hd'
    subst this
    rw [← List.append_cancel_left e] at hq'
    exact h.inj (blanks_append.1 hb).2 hq hq' hl

/-- A part before, as a group of its own, which can be read in one way only. -/
theorem Finds.groupStep {n k : Nat} {X R : Re} {Q : Str → Str → Prop} {D : Str → Prop} (h : Finds n R Q) (hn : NoGroup X)
    (hD : ∀ b u v, Blanks (u ++ v) → (Reads X b u v ↔ D u)) (hu : ∀ u v u' v', u ++ v = u' ++ v' → Blanks (u ++ v) → D u → D u' → u = u') :
    Finds n (.seq (.group k X) R) (fun a v => ∃ u a', a = u ++ a' ∧ D u ∧ Q a' v) := by
  have h0 := h.step hn hD hu
  constructor
  · intro b a g t hb hm
    rw [m_seq, m, m_step hn] at hm
    · obtain ⟨u, v, rfl, h1, h2⟩ := hm
      have hb' := (blanks_append.1 hb).2
      obtain ⟨x, hx, hq, hl⟩ := h.sound hb' h2
      refine ⟨x, hx, ⟨u, v, rfl, (hD _ _ _ hb).1 h1, hq⟩, ?_⟩
      rintro x' ⟨u', v', e, hd', hq'⟩
      have := hu u v u' v' e hb ((hD _ _ _ hb).1 h1) hd'
      subst this
      rw [List.append_cancel_left e] at hl
      exact hl x' hq'
    · intro u v u' v' e e' h1 h2
      subst e
      exact hu u v u' v' e' hb ((hD _ _ _ hb).1 h1) ((hD b u' v' (e' ▸ hb)).1 h2)
  · intro b a g v hb hq
    have := h0.complete (b := b) (g := g) hb hq
    rw [m_isSome] at this ⊢
    exact this
  · exact h0.inj

theorem Finds.lit {n : Nat} {R : Re} {Q : Str → Str → Prop} (h : Finds n R Q) (s : Str) :
    Finds n (.seq (Re.lit s) R) (fun a v => ∃ a', a = s ++ a' ∧ Q a' v) := by
  refine (h.step (D := fun u => u = s) (NoGroup.lit s) (fun _ _ _ _ => Reads.lit) (fun u v u' v' _ _ h1 h2 => h1.trans h2.symm)).congr ?_
  intro a v
  constructor
  · rintro ⟨_, a', rfl, rfl, hq⟩; exact ⟨a', rfl, hq⟩
  · rintro ⟨a', rfl, hq⟩; exact ⟨s, a', rfl, rfl, hq⟩

theorem same_length_prefix {D : Str → Prop} {k : Nat} (hD : ∀ u, D u → u.length = k) (u v u' v' : Str) (e : u ++ v = u' ++ v') (_ : Blanks (u ++ v))
    (h1 : D u) (h2 : D u') : u = u' := (List.append_inj e (by rw [hD u h1, hD u' h2])).1

/-- The longest run of characters of a class, after which the rest matches. -/
theorem plus_some {p : Char → Bool} {b a : Str} {g : List (Nat × Str)} {k : St → Option St} {t : St} :
    m (plus p) ⟨b, a, g⟩ k = some t ↔ ∃ v a', a = v ++ a' ∧ v ≠ [] ∧ (∀ c ∈ v, p c = true) ∧ k ⟨v.reverse ++ b, a', g⟩ = some t ∧
      ∀ u z, a' = u ++ z → u ≠ [] → (∀ c ∈ u, p c = true) → k ⟨u.reverse ++ (v.reverse ++ b), z, g⟩ = none := by
  unfold plus
  rw [m_seq, m_chr_some]
  constructor
  · rintro ⟨c, a1, rfl, hc, h⟩
    rw [m] at h
    obtain ⟨w, a', e, hw, hk, hl⟩ := (star_greedy_some _ _ _ _ _ _).1 h
    simp only at e
    subst e
    refine ⟨c :: w, a', rfl, by simp, ?_, by simpa using hk, ?_⟩
    · intro d hd
      rcases List.mem_cons.1 hd with rfl | hd
      · exact hc
      · exact hw d hd
    · intro u z e hu hp
      have := hl u z e hu hp
      simpa using this
  · rintro ⟨v, a', rfl, h0, hv, hk, hl⟩
    cases v with
    | nil => exact absurd rfl h0
    | cons c w =>
      refine ⟨c, w ++ a', rfl, hv c (by simp), ?_⟩
      rw [m]
      refine (star_greedy_some _ _ _ _ _ _).2 ⟨w, a', rfl, fun d hd => hv d (List.mem_cons_of_mem _ hd), by simpa using hk, ?_⟩
      intro u z e hu hp
      have := hl u z e hu hp
      simpa using this

theorem starG_some {p : Char → Bool} {b a : Str} {g : List (Nat × Str)} {k : St → Option St} {t : St} :
    m (.star true p) ⟨b, a, g⟩ k = some t ↔ ∃ v a', a = v ++ a' ∧ (∀ c ∈ v, p c = true) ∧ k ⟨v.reverse ++ b, a', g⟩ = some t ∧
      ∀ u z, a' = u ++ z → u ≠ [] → (∀ c ∈ u, p c = true) → k ⟨u.reverse ++ (v.reverse ++ b), z, g⟩ = none := by
  rw [m]
  exact star_greedy_some _ _ _ _ _ _

/-- A run of characters of a class as a group, and then something else. -/
theorem finds_run {n : Nat} {p : Char → Bool} {G T : Re} {ok : Str → Prop} {E : Str → Str → Prop}
    (hG : ∀ {b a g k t}, m G ⟨b, a, g⟩ k = some t ↔ ∃ v a', a = v ++ a' ∧ ok v ∧ k ⟨v.reverse ++ b, a', g⟩ = some t ∧
      ∀ u z, a' = u ++ z → u ≠ [] → (∀ c ∈ u, p c = true) → k ⟨u.reverse ++ (v.reverse ++ b), z, g⟩ = none)
    (hok : ∀ v, ok v → ∀ c ∈ v, p c = true) (hR : ∀ b v a, Reads G b v a ↔ ok v)
    (hT : ∀ b v a, ok v → Blanks (v ++ a) → ((∃ u y, a = u ++ y ∧ Reads T (v.reverse ++ b) u y) ↔ E v a)) (hn : Avoid n T) :
    Finds n (.seq (.group n G) T) (fun a v => ok v ∧ ∃ a', a = v ++ a' ∧ E v a') := by
  constructor
  · intro b a g t hb hm
    rw [m_seq, m] at hm
    obtain ⟨v, a', rfl, hv, hk, hl⟩ := hG.1 hm
    simp only [List.length_append] at hk hl
    rw [show v.length + a'.length - a'.length = v.length by omega] at hk
    rw [List.take_left'] at hk
    · refine ⟨v, ?_, ⟨hv, a', rfl, ?_⟩, ?_⟩
      · rw [m_avoid hk hn]; simp [St.get, Dict.get?]
      · have := (m_isSome T _).1 (by rw [hk]; rfl)
        exact (hT b v a' hv hb).1 this
      · rintro v' ⟨hv', a'', e, he⟩
        apply Classical.byContradiction
        intro hlt
        have hlt : v.length < v'.length := by omega
        obtain ⟨u, rfl⟩ : v <+: v' := List.prefix_of_prefix_length_le (List.prefix_append _ _) (by rw [e]; exact List.prefix_append _ _) (by omega)
        have e' : a' = u ++ a'' := by
          rw [List.append_assoc] at e
          exact List.append_cancel_left e
        have hu : u ≠ [] := by rintro rfl; simp at hlt
        have := hl u a'' e' hu (fun c hc => hok _ hv' c (List.mem_append_right _ hc))
        have hs := (hT b (v ++ u) a'' hv' (by rw [e] at hb; exact hb)).2 he
        have hs := (m_isSome T ⟨(v ++ u).reverse ++ b, a'', (n, (v ++ a').take (v.length + a'.length - a''.length)) :: g⟩).2 hs
        simp only [List.reverse_append, List.append_assoc] at hs
        rw [this] at hs
        simp at hs
    · rfl
  · rintro b a g v hb ⟨hv, a', rfl, he⟩
    have hs := (hT b v a' hv hb).2 he
    obtain ⟨u, y, rfl, hr⟩ := hs
    rw [m_isSome]
    exact ⟨v ++ u, y, by simp, v, u, rfl, (hR _ _ _).2 hv, hr⟩
  · rintro a v v' hb ⟨_, a', rfl, _⟩ ⟨_, a'', e, _⟩ hl
    exact (List.append_inj e hl).1

theorem finds_word {n : Nat} {T : Re} {E : Str → Str → Prop}
    (hT : ∀ b v a, Skip.Word v → Blanks (v ++ a) → ((∃ u y, a = u ++ y ∧ Reads T (v.reverse ++ b) u y) ↔ E v a)) (hn : Avoid n T) :
    Finds n (.seq (word n) T) (fun a v => Skip.Word v ∧ ∃ a', a = v ++ a' ∧ E v a') := by
  refine finds_run (p := nonSpace) (G := plus nonSpace) ?_ ?_ ?_ hT hn
  · intro b a g k t
    rw [plus_some]
    have hw : ∀ v, (v ≠ [] ∧ ∀ c ∈ v, nonSpace c = true) ↔ Skip.Word v := by simp [Skip.Word, nonSpace]
    constructor
    · rintro ⟨v, a', e, h1, h2, h3⟩; exact ⟨v, a', e, (hw v).1 ⟨h1, h2⟩, h3⟩
    · rintro ⟨v, a', e, h1, h3⟩; exact ⟨v, a', e, ((hw v).2 h1).1, ((hw v).2 h1).2, h3⟩
  · intro v hv c hc; simp [nonSpace, hv.2 c hc]
  · intro b v a; exact reads_words

/-- The first place from which the rest matches. -/
theorem lazy_field {n : Nat} {R : Re} {Q : Str → Str → Prop} (h : Finds n R Q) {s v : Str} (hs : Blanks s) :
    field (.seq dotsLazy R) n s = some v ↔ Leftmost (fun pre v => ∃ a, s = pre ++ a ∧ Q a v) v := by
  have sound : ∀ {t}, matchRe (.seq dotsLazy R) s = some t → ∃ v, t.get n = some v ∧ Leftmost (fun pre v => ∃ a, s = pre ++ a ∧ Q a v) v := by
    intro t ht
    unfold matchRe at ht
    rw [m_seq, dotsLazy, m] at ht
    obtain ⟨pre, a, e, _, hk, hl⟩ := (star_lazy_some _ _ _ _ _ _).1 ht
    simp only at e
    subst e
    obtain ⟨v, hv, hq, hlen⟩ := h.sound (blanks_append.1 hs).2 hk
    refine ⟨v, hv, pre, ⟨a, rfl, hq⟩, ?_⟩
    rintro pre' v' ⟨a', e, hq'⟩
    by_cases hlt : pre.length < pre'.length
    · exact .inl hlt
    right
    obtain ⟨z, rfl⟩ : pre' <+: pre := List.prefix_of_prefix_length_le (by rw [e]; exact List.prefix_append _ _) (List.prefix_append _ _) (by omega)
    rw [List.append_assoc] at e
    have e' := List.append_cancel_left e
    by_cases hz : z = []
    · subst hz
      simp at e'
      rw [e'] at hlen
      exact ⟨by simp, hlen v' hq'⟩
    · exfalso
      have hn := hl pre' z rfl hz
      have := h.complete (b := pre'.reverse ++ []) (g := []) (by rw [List.append_assoc, blanks_append] at hs; exact hs.2) (e' ▸ hq')
      rw [hn] at this
      simp at this
  rw [field_some]
  constructor
  · rintro ⟨t, ht, hv⟩
    obtain ⟨v', hv', hL⟩ := sound ht
    rw [hv] at hv'
    simp at hv'
    rw [hv']
    exact hL
  · rintro ⟨pre, ⟨a, e, hq⟩, hmin⟩
    have hb : Blanks a := (blanks_append.1 (e ▸ hs)).2
    have hpre : Blanks pre := (blanks_append.1 (e ▸ hs)).1
    have hc := h.complete (b := pre.reverse ++ []) (g := []) hb hq
    obtain ⟨w, z, e1, hr⟩ := (m_isSome _ _).1 hc
    simp only at e1 hr
    have hs' : (matchRe (.seq dotsLazy R) s).isSome = true := by
      rw [matchRe_isSome]
      refine ⟨pre ++ w, z, by rw [e, e1]; simp, pre, w, rfl, blanks_dot hpre, ?_⟩
      simpa using hr
    cases ht : matchRe (.seq dotsLazy R) s with
    | none => rw [ht] at hs'; simp at hs'
    | some t =>
      refine ⟨t, rfl, ?_⟩
      obtain ⟨v', hv', pre', ⟨a', e2, hq'⟩, hmin'⟩ := sound ht
      rw [hv']
      have h1 := hmin pre' v' ⟨a', e2, hq'⟩
      have h2 := hmin' pre v ⟨a, e, hq⟩
      have hl : pre.length = pre'.length := by omega
      have hll : v.length = v'.length := by omega
      rw [e] at e2
      obtain ⟨rfl, rfl⟩ := List.append_inj e2 hl
      rw [h.inj hb hq hq' hll]

/-- The last place from which the rest matches. -/
theorem greedy_field {n : Nat} {R : Re} {Q : Str → Str → Prop} (h : Finds n R Q) {s v : Str} (hs : Blanks s) :
    field (.seq dots R) n s = some v ↔ Rightmost (fun pre v => ∃ a, s = pre ++ a ∧ Q a v) v := by
  have sound : ∀ {t}, matchRe (.seq dots R) s = some t → ∃ v, t.get n = some v ∧ Rightmost (fun pre v => ∃ a, s = pre ++ a ∧ Q a v) v := by
    intro t ht
    unfold matchRe at ht
    rw [m_seq, dots, m] at ht
    obtain ⟨pre, a, e, _, hk, hl⟩ := (star_greedy_some _ _ _ _ _ _).1 ht
    simp only at e
    subst e
    obtain ⟨v, hv, hq, hlen⟩ := h.sound (blanks_append.1 hs).2 hk
    refine ⟨v, hv, pre, ⟨a, rfl, hq⟩, ?_⟩
    rintro pre' v' ⟨a', e, hq'⟩
    by_cases hlt : pre'.length < pre.length
    · exact .inl hlt
    right
    obtain ⟨z, rfl⟩ : pre <+: pre' := List.prefix_of_prefix_length_le (List.prefix_append _ _) (by rw [e]; exact List.prefix_append _ _) (by omega)
    rw [List.append_assoc] at e
    have e' := List.append_cancel_left e
    by_cases hz : z = []
    · subst hz
      simp at e'
      rw [e'] at hlen
      exact ⟨by simp, hlen v' hq'⟩
    · exfalso
      have hb := (blanks_append.1 hs).2
      rw [e', blanks_append] at hb
      have hn := hl z a' e' hz (blanks_dot hb.1)
      have := h.complete (b := z.reverse ++ (pre.reverse ++ [])) (g := []) hb.2 hq'
      simp only at hn
      rw [hn] at this
      simp at this
  rw [field_some]
  constructor
  · rintro ⟨t, ht, hv⟩
    obtain ⟨v', hv', hL⟩ := sound ht
    rw [hv] at hv'
    simp at hv'
    rw [hv']
    exact hL
  · rintro ⟨pre, ⟨a, e, hq⟩, hmin⟩
    have hb : Blanks a := (blanks_append.1 (e ▸ hs)).2
    have hpre : Blanks pre := (blanks_append.1 (e ▸ hs)).1
    have hc := h.complete (b := pre.reverse ++ []) (g := []) hb hq
    obtain ⟨w, z, e1, hr⟩ := (m_isSome _ _).1 hc
    simp only at e1 hr
    have hs' : (matchRe (.seq dots R) s).isSome = true := by
      rw [matchRe_isSome]
      refine ⟨pre ++ w, z, by rw [e, e1]; simp, pre, w, rfl, blanks_dot hpre, ?_⟩
      simpa using hr
    cases ht : matchRe (.seq dots R) s with
    | none => rw [ht] at hs'; simp at hs'
    | some t =>
      refine ⟨t, rfl, ?_⟩
      obtain ⟨v', hv', pre', ⟨a', e2, hq'⟩, hmin'⟩ := sound ht
      rw [hv']
      have h1 := hmin pre' v' ⟨a', e2, hq'⟩
      have h2 := hmin' pre v ⟨a, e, hq⟩
      have hl : pre.length = pre'.length := by omega
      have hll : v.length = v'.length := by omega
      rw [e] at e2
      obtain ⟨rfl, rfl⟩ := List.append_inj e2 hl
      rw [h.inj hb hq hq' hll]

/-- Where the match has to begin at the beginning, and what is found is the only possibility. -/
theorem bol_field {n : Nat} {R : Re} {Q : Str → Str → Prop} (h : Finds n R Q) {s v : Str} (hs : Blanks s) (hu : ∀ v v', Q s v → Q s v' → v = v') :
    field (.seq .bol R) n s = some v ↔ Q s v := by
  have e : ∀ t, matchRe (.seq .bol R) s = some t ↔ m R ⟨[], s, []⟩ some = some t := by
    intro t; unfold matchRe; rw [m_seq, m_bol]
  rw [field_some]
  constructor
  · rintro ⟨t, ht, hv⟩
    obtain ⟨v', hv', hq, _⟩ := h.sound hs ((e t).1 ht)
    rw [hv] at hv'
    simp at hv'
    rw [hv']
    exact hq
  · intro hq
    have := h.complete (b := []) (g := []) hs hq
    cases hm : m R ⟨[], s, []⟩ some with
    | none => rw [hm] at this; simp at this
    | some t =>
      obtain ⟨v', hv', hq', _⟩ := h.sound hs hm
      exact ⟨t, (e t).2 hm, by rw [hv', hu v v' hq hq']⟩

/-- The same after a bracket that may stand before it. -/
theorem open_field {n : Nat} {R : Re} {Q : Str → Str → Prop} (h : Finds n R Q) {s v : Str} (hs : Blanks s)
    (hu : ∀ s v v', Q s v → Q s v' → v = v') :
    field (.seq .bol (.seq (opt (lit c!"(")) R)) n s = some v ↔ (∃ a, s = c!"(" ++ a ∧ Q a v) ∨ (∀ a, s = c!"(" ++ a → ∀ u, ¬ Q a u) ∧ Q s v := by
  have e : ∀ t, matchRe (.seq .bol (.seq (opt (lit c!"(")) R)) s = some t ↔
      (∃ a, s = c!"(" ++ a ∧ m R ⟨['('], a, []⟩ some = some t) ∨ (∀ a, s = c!"(" ++ a → m R ⟨['('], a, []⟩ some = none) ∧ m R ⟨[], s, []⟩ some = some t := by
    intro t
    unfold matchRe
    rw [m_seq, m_bol, m_seq, opt, m_alt_some, m_lit_some]
    have hn : m (lit c!"(") ⟨[], s, []⟩ (fun t => m R t some) = none ↔ ∀ a, s = c!"(" ++ a → m R ⟨['('], a, []⟩ some = none := by
      rw [Option.eq_none_iff_forall_ne_some]
      constructor
      · intro hx a ea
        rw [Option.eq_none_iff_forall_ne_some]
        intro t' ht'
        exact hx t' (m_lit_some.2 ⟨a, ea, ht'⟩)
      · intro hx t' ht'
        obtain ⟨a, ea, ht'⟩ := m_lit_some.1 ht'
        have := hx a ea
        simp at ht'
        rw [this] at ht'
        simp at ht'
    rw [hn]
    rfl
  have some_of : ∀ {b a u}, Blanks a → Q a u → ∃ t, m R ⟨b, a, []⟩ some = some t ∧ t.get n = some u := by
    intro b a u hb hq
    have := h.complete (b := b) (g := []) hb hq
    cases hm : m R ⟨b, a, []⟩ some with
    | none => rw [hm] at this; simp at this
    | some t =>
      obtain ⟨v', hv', hq', _⟩ := h.sound hb hm
      exact ⟨t, rfl, by rw [hv', hu _ u v' hq hq']⟩
  have none_iff : ∀ {b a}, Blanks a → (m R ⟨b, a, []⟩ some = none ↔ ∀ u, ¬ Q a u) := by
    intro b a hb
    constructor
    · intro hm u hq
      obtain ⟨t, ht, _⟩ := some_of (b := b) hb hq
      rw [hm] at ht; simp at ht
    · intro hq
      cases hm : m R ⟨b, a, []⟩ some with
      | none => rfl
      | some t =>
        obtain ⟨v', _, hq', _⟩ := h.sound hb hm
        exact absurd hq' (hq v')
  have sub : ∀ {a}, s = c!"(" ++ a → Blanks a := fun ea => by rw [ea] at hs; exact (blanks_append.1 hs).2
  rw [field_some]
  constructor
  · rintro ⟨t, ht, hv⟩
    rcases (e t).1 ht with ⟨a, ea, hm⟩ | ⟨hx, hm⟩
    · obtain ⟨v', hv', hq, _⟩ := h.sound (sub ea) hm
      rw [hv] at hv'
      simp at hv'
      subst hv'
      exact .inl ⟨a, ea, hq⟩
    · obtain ⟨v', hv', hq, _⟩ := h.sound hs hm
      rw [hv] at hv'
      simp at hv'
      subst hv'
      exact .inr ⟨fun a ea => (none_iff (sub ea)).1 (hx a ea), hq⟩
  · rintro (⟨a, ea, hq⟩ | ⟨hx, hq⟩)
    · obtain ⟨t, ht, hg⟩ := some_of (b := ['(']) (sub ea) hq
      exact ⟨t, (e t).2 (.inl ⟨a, ea, ht⟩), hg⟩
    · obtain ⟨t, ht, hg⟩ := some_of (b := []) hs hq
      exact ⟨t, (e t).2 (.inr ⟨fun a ea => (none_iff (sub ea)).2 (hx a ea), ht⟩), hg⟩

/-- The group is set whenever the expression matches. -/
def Sets (n : Nat) : Re → Prop
  | .seq x y => Sets n x ∨ Sets n y
  | .alt x y => Sets n x ∧ Sets n y
  | .group k r => k = n ∨ Sets n r
  | _ => False

theorem ways_keeps {n : Nat} {r : Re} {s t : St} (h : Ways r s t) : (s.get n).isSome = true → (t.get n).isSome = true := by
  induction h with
  | seq _ _ iha ihb => intro hn; exact ihb (iha hn)
  | altL _ ih => exact ih
  | altR _ ih => exact ih
  | @group k r s t _ ih =>
    intro hn
    by_cases e : k = n
    · simp [St.get, Dict.get?, e]
    · have := ih hn
      simpa [St.get, Dict.get?, e] using this
  | eps _ => exact id
  | chr _ => exact id
  | star _ => exact id
  | bol _ => exact id
  | eol _ => exact id
  | wordb _ => exact id
  | nbehind _ => exact id
  | nahead _ => exact id

theorem ways_sets {n : Nat} {r : Re} {s t : St} (h : Ways r s t) : Sets n r → (t.get n).isSome = true := by
  induction h with
  | seq _ hb iha ihb =>
    rintro (hn | hn)
    · exact ways_keeps hb (iha hn)
    · exact ihb hn
  | altL _ ih => intro hn; exact ih hn.1
  | altR _ ih => intro hn; exact ih hn.2
  | @group k r s t _ ih =>
    intro hn
    by_cases e : k = n
    · simp [St.get, Dict.get?, e]
    · rcases hn with hn | hn
      · exact absurd hn e
      · have := ih hn
        simpa [St.get, Dict.get?, e] using this
  | eps _ => intro hn; exact hn.elim
  | chr _ => intro hn; exact hn.elim
  | star _ => intro hn; exact hn.elim
  | bol _ => intro hn; exact hn.elim
  | eol _ => intro hn; exact hn.elim
  | wordb _ => intro hn; exact hn.elim
  | nbehind _ => intro hn; exact hn.elim
  | nahead _ => intro hn; exact hn.elim

theorem isMatch_iff {r : Re} {n : Nat} {h : Str} (hs : Sets n r) : isMatch r h = true ↔ ∃ v, field r n h = some v := by
  constructor
  · intro hm
    unfold isMatch at hm
    cases ht : matchRe r h with
    | none => rw [ht] at hm; simp at hm
    | some t =>
      unfold matchRe at ht
      obtain ⟨t', hw, e⟩ := m_sound _ _ _ _ ht
      simp at e
      subst e
      have := ways_sets hw hs
      cases hg : t'.get n with
      | none => rw [hg] at this; simp at this
      | some v => exact ⟨v, field_some.2 ⟨t', ht, hg⟩⟩
  · rintro ⟨v, hv⟩
    obtain ⟨t, ht, _⟩ := field_some.1 hv
    simp [isMatch, ht]

end Verif.ReceivedRe
