import Verif.Spec.Forgery
import Verif.Lemmas.Re
import Verif.Lemmas.Py
import Verif.Props.Dkim
import Verif.Props.Services

/-!
# C136 to C140: rules about forged headers
-/

namespace Verif.Props
open Verif Py Re Forgery

/-! ## Reading -/

theorem reads_chars {p : Char → Bool} : ∀ {n : Nat} {b w a : Str}, Reads (chars n p) b w a ↔ w.length = n ∧ ∀ c ∈ w, p c = true := by
  intro n
  induction n with
  | zero =>
    intro b w a
    unfold chars times
    constructor
    · intro h; rw [show w = [] from h]; simp
    · rintro ⟨h, _⟩; exact List.length_eq_zero_iff.mp h
  | succ n ih =>
    intro b w a
    unfold chars times
    rw [Reads.seq]
    constructor
    · rintro ⟨u, v, rfl, ⟨c, rfl, hc⟩, h⟩
      obtain ⟨h1, h2⟩ := ih.mp h
      refine ⟨by simp [h1], ?_⟩
      intro x hx
      rcases List.mem_cons.mp hx with rfl | hx
      · exact hc
      · exact h2 x hx
    · rintro ⟨h1, h2⟩
      cases w with
      | nil => simp at h1
      | cons c w =>
        exact ⟨[c], w, rfl, ⟨c, rfl, h2 c (by simp)⟩, ih.mpr ⟨by simpa using h1, fun x hx => h2 x (List.mem_cons_of_mem _ hx)⟩⟩

theorem reads_seqs_cons {r x : Re} {l : List Re} {b w a : Str} :
    Reads (seqs (r :: x :: l)) b w a ↔ ∃ u v, w = u ++ v ∧ Reads r b u (v ++ a) ∧ Reads (seqs (x :: l)) (u.reverse ++ b) v a := by
  show Reads (.seq r (seqs (x :: l))) b w a ↔ _
  rw [Reads.seq]

theorem reads_seqs_one {r : Re} {b w a : Str} : Reads (seqs [r]) b w a ↔ Reads r b w a := Iff.rfl

theorem reads_dotted : ∀ {s b w a : Str}, Reads (dotted s) b w a ↔ Like s w := by
  intro s
  induction s with
  | nil => intro b w a; exact Iff.rfl
  | cons c s ih =>
    intro b w a
    unfold dotted Like
    rw [Reads.seq]
    constructor
    · rintro ⟨u, v, rfl, ⟨d, rfl, hd⟩, h⟩
      refine ⟨d, v, rfl, ?_, ih.mp h⟩
      by_cases hc : c = '.'
      · subst hc
        right
        exact ⟨rfl, by simpa [dot] using hd⟩
      · left
        simpa [hc] using hd
    · rintro ⟨d, ds, rfl, hd, h⟩
      refine ⟨[d], ds, rfl, ⟨d, rfl, ?_⟩, ih.mpr h⟩
      rcases hd with rfl | ⟨rfl, hd⟩
      · by_cases hc : d = '.'
        · subst hc; rfl
        · simp [hc]
      · simpa [dot] using hd

theorem ways_seq {a b : Re} {s t : St} (h : Ways (.seq a b) s t) : ∃ u, Ways a s u ∧ Ways b u t := by
  cases h with
  | seq h k => exact ⟨_, h, k⟩

theorem ways_seqs {r x : Re} {l : List Re} {s t : St} (h : Ways (seqs (r :: x :: l)) s t) : ∃ u, Ways r s u ∧ Ways (seqs (x :: l)) u t :=
  ways_seq h

/-- An expression without groups. -/
theorem ways_read {r : Re} {s t : St} (h : Ways r s t) (hn : NoGroup r) :
    ∃ w, s.after = w ++ t.after ∧ t.before = w.reverse ++ s.before ∧ Reads r s.before w t.after ∧ t.groups = s.groups := by
  obtain ⟨w, h1, h2, h3⟩ := h.reads
  exact ⟨w, h1, h2, h3, h.groups hn⟩

/-- A group remembers what it has read. -/
theorem ways_group {n : Nat} {r : Re} {s t : St} (h : Ways (.group n r) s t) (hn : NoGroup r) :
    ∃ w, s.after = w ++ t.after ∧ t.before = w.reverse ++ s.before ∧ Reads r s.before w t.after ∧ t.groups = (n, w) :: s.groups := by
  cases h with
  | group h =>
    obtain ⟨w, h1, h2, h3, h4⟩ := ways_read h hn
    refine ⟨w, h1, h2, h3, ?_⟩
    simp only
    rw [h4, h1]
    simp

theorem NoGroup.chars (n : Nat) (p : Char → Bool) : NoGroup (chars n p) := NoGroup.times (r := .chr p) trivial n

theorem NoGroup.ilit : ∀ s : Str, NoGroup (ilit s)
  | [] => trivial
  | _ :: s => ⟨trivial, NoGroup.ilit s⟩

theorem NoGroup.plus (p : Char → Bool) : NoGroup (plus p) := ⟨trivial, trivial⟩

/-- A word ends where white space begins. -/
theorem word_unique {u u' v v' : Str} {s s' : Char} (h : u ++ s :: v = u' ++ s' :: v') (hu : ∀ c ∈ u, isSpace c = false)
    (hu' : ∀ c ∈ u', isSpace c = false) (hs : isSpace s = true) (hs' : isSpace s' = true) : u = u' ∧ v = v' := by
  induction u generalizing u' with
  | nil =>
    cases u' with
    | nil => simp at h; exact ⟨rfl, h.2⟩
    | cons c u' =>
      simp at h
      have := hu' c (by simp)
      rw [← h.1, hs] at this
      cases this
  | cons c u ih =>
    cases u' with
    | nil =>
      simp at h
      have := hu c (by simp)
      rw [h.1, hs'] at this
      cases this
    | cons d u' =>
      simp at h
      obtain ⟨h1, h2⟩ := ih h.2 (fun x hx => hu x (List.mem_cons_of_mem _ hx)) (fun x hx => hu' x (List.mem_cons_of_mem _ hx))
      exact ⟨by rw [h.1, h1], h2⟩

/-! ## C136 -/

theorem relay_iff (h : Str) : (search relayRe h).isSome ↔ RelayName h := by
  rw [search_isSome]
  unfold relayRe RelayName Has
  constructor
  · rintro ⟨u, w, z, rfl, hr⟩
    rw [reads_seqs_cons] at hr
    obtain ⟨p, v, rfl, hp, hr⟩ := hr
    rw [reads_seqs_cons] at hr
    obtain ⟨_, v, rfl, ⟨x, rfl, hx⟩, hr⟩ := hr
    rw [reads_seqs_cons] at hr
    obtain ⟨_, v, rfl, ⟨y, rfl, hy⟩, hr⟩ := hr
    rw [reads_seqs_cons] at hr
    obtain ⟨_, v, rfl, ⟨d, rfl, hd⟩, hr⟩ := hr
    rw [reads_seqs_cons] at hr
    obtain ⟨_, v, rfl, ⟨e, rfl, he⟩, hr⟩ := hr
    rw [reads_seqs_one, Reads.lit] at hr
    subst hr
    rw [Reads.ilit] at hp
    exact ⟨p, x, y, d, e, hp, hx, hy, hd, he, u, z, by simp⟩
  · rintro ⟨p, x, y, d, e, hp, hx, hy, hd, he, u, z, rfl⟩
    refine ⟨u, p ++ [x, y, d, e, '.'], z, rfl, ?_⟩
    refine reads_seqs_cons.mpr ⟨p, [x, y, d, e, '.'], rfl, Reads.ilit.mpr hp, ?_⟩
    refine reads_seqs_cons.mpr ⟨[x], [y, d, e, '.'], rfl, ⟨x, rfl, hx⟩, ?_⟩
    refine reads_seqs_cons.mpr ⟨[y], [d, e, '.'], rfl, ⟨y, rfl, hy⟩, ?_⟩
    refine reads_seqs_cons.mpr ⟨[d], [e, '.'], rfl, ⟨d, rfl, hd⟩, ?_⟩
    refine reads_seqs_cons.mpr ⟨[e], ['.'], rfl, ⟨e, rfl, he⟩, ?_⟩
    exact reads_seqs_one.mpr (Reads.lit.mpr rfl)

theorem version_iff (h : Str) : (search versionRe h).isSome ↔ AolVersion h := by
  rw [search_isSome]
  unfold versionRe AolVersion Has Number
  constructor
  · rintro ⟨u, w, z, rfl, hr⟩
    rw [reads_seqs_cons] at hr
    obtain ⟨l, v, rfl, hl, hr⟩ := hr
    rw [Reads.lit] at hl
    subst hl
    rw [reads_seqs_cons] at hr
    obtain ⟨a, v, rfl, ha, hr⟩ := hr
    rw [reads_seqs_cons] at hr
    obtain ⟨l, v, rfl, hl, hr⟩ := hr
    rw [Reads.lit] at hl
    subst hl
    rw [reads_seqs_cons] at hr
    obtain ⟨b, v, rfl, hb, hr⟩ := hr
    rw [reads_seqs_cons] at hr
    obtain ⟨l, v, rfl, hl, hr⟩ := hr
    rw [Reads.lit] at hl
    subst hl
    rw [reads_seqs_cons] at hr
    obtain ⟨c, v, rfl, hc, hr⟩ := hr
    rw [reads_seqs_one, Reads.lit] at hr
    subst hr
    exact ⟨a, b, c, Reads.plus.mp ha, Reads.plus.mp hb, Reads.plus.mp hc, u, z, by simp⟩
  · rintro ⟨a, b, c, ha, hb, hc, u, z, rfl⟩
    refine ⟨u, c!"/AOL-" ++ a ++ c!"." ++ b ++ c!"." ++ c ++ c!")", z, rfl, ?_⟩
    refine reads_seqs_cons.mpr ⟨c!"/AOL-", a ++ (c!"." ++ (b ++ (c!"." ++ (c ++ c!")")))), by simp, Reads.lit.mpr rfl, ?_⟩
    refine reads_seqs_cons.mpr ⟨a, _, rfl, Reads.plus.mpr ha, ?_⟩
    refine reads_seqs_cons.mpr ⟨c!".", _, rfl, Reads.lit.mpr rfl, ?_⟩
    refine reads_seqs_cons.mpr ⟨b, _, rfl, Reads.plus.mpr hb, ?_⟩
    refine reads_seqs_cons.mpr ⟨c!".", _, rfl, Reads.lit.mpr rfl, ?_⟩
    refine reads_seqs_cons.mpr ⟨c, _, rfl, Reads.plus.mpr hc, ?_⟩
    exact reads_seqs_one.mpr (Reads.lit.mpr rfl)

theorem search_lit (s h : Str) : (search (lit s) h).isSome ↔ Has s h := by
  rw [search_isSome]
  constructor
  · rintro ⟨u, w, z, rfl, hr⟩
    rw [Reads.lit] at hr
    subst hr
    exact ⟨u, z, rfl⟩
  · rintro ⟨u, z, rfl⟩
    exact ⟨u, s, z, rfl, Reads.lit.mpr rfl⟩

theorem relayId_iff (h : Str) : (search relayIdRe h).isSome ↔ AolId h := by
  rw [search_isSome]
  unfold relayIdRe AolId Has
  constructor
  · rintro ⟨u, w, z, rfl, hr⟩
    rw [reads_seqs_cons] at hr
    obtain ⟨l, v, rfl, hl, hr⟩ := hr
    rw [Reads.lit] at hl
    subst hl
    rw [reads_seqs_one] at hr
    rcases hr with hr | hr | hr
    · rw [Reads.lit] at hr; subst hr; exact Or.inl ⟨u, z, by simp⟩
    · rw [Reads.lit] at hr; subst hr; exact Or.inr (Or.inl ⟨u, z, by simp⟩)
    · rw [show v = c!"MAILIN" from Reads.lit.mp hr]; exact Or.inr (Or.inr ⟨u, z, by simp⟩)
  · rintro (⟨u, z, rfl⟩ | ⟨u, z, rfl⟩ | ⟨u, z, rfl⟩)
    · exact ⟨u, _, z, rfl, reads_seqs_cons.mpr ⟨c!"ESMTP id ", c!"RELAY", rfl, Reads.lit.mpr rfl, Or.inl (Reads.lit.mpr rfl)⟩⟩
    · exact ⟨u, _, z, rfl, reads_seqs_cons.mpr ⟨c!"ESMTP id ", c!"MAILRELAY", rfl, Reads.lit.mpr rfl,
        Or.inr (Or.inl (Reads.lit.mpr rfl))⟩⟩
    · exact ⟨u, _, z, rfl, reads_seqs_cons.mpr ⟨c!"ESMTP id ", c!"MAILIN", rfl, Reads.lit.mpr rfl,
        Or.inr (Or.inr (Reads.lit.mpr rfl))⟩⟩

/-- With headers that can all be decoded, the rule holds exactly if one of them has the name of a relay of AOL and neither its mark
nor one of its numbers. -/
theorem C136_aol_partial (hs : List Str) :
    fakeAol (hs.map some) = some true ↔ ∃ h ∈ hs, RelayName h ∧ ¬ AolVersion h ∧ ¬ AolId h := by
  induction hs with
  | nil => simp [fakeAol]
  | cons h hs ih =>
    simp only [List.map_cons, fakeAol]
    have next : ¬ (RelayName h ∧ ¬ AolVersion h ∧ ¬ AolId h) →
        ((∃ x ∈ hs, RelayName x ∧ ¬ AolVersion x ∧ ¬ AolId x) ↔ ∃ x ∈ h :: hs, RelayName x ∧ ¬ AolVersion x ∧ ¬ AolId x) := by
      intro hn
      constructor
      · rintro ⟨x, hx, hh⟩; exact ⟨x, List.mem_cons_of_mem _ hx, hh⟩
      · rintro ⟨x, hx, hh⟩
        rcases List.mem_cons.mp hx with rfl | hx
        · exact absurd hh hn
        · exact ⟨x, hx, hh⟩
    by_cases h1 : (search relayRe h).isNone = true
    · rw [if_pos h1, ih, next]
      rintro ⟨hr, _⟩
      rw [← relay_iff] at hr
      cases hs : search relayRe h with
      | none => rw [hs] at hr; cases hr
      | some t => rw [hs] at h1; cases h1
    · rw [if_neg h1]
      by_cases h2 : (search versionRe h).isSome = true
      · rw [if_pos h2, ih, next]
        exact fun hh => hh.2.1 ((version_iff h).mp h2)
      · rw [if_neg h2]
        by_cases h3 : (search relayIdRe h).isSome = true
        · rw [if_pos h3, ih, next]
          exact fun hh => hh.2.2 ((relayId_iff h).mp h3)
        · rw [if_neg h3]
          simp only [true_iff]
          refine ⟨h, by simp, (relay_iff h).mp ?_, fun hh => h2 ((version_iff h).mpr hh), fun hh => h3 ((relayId_iff h).mpr hh)⟩
          cases hs : search relayRe h with
          | none => rw [hs] at h1; exact absurd rfl h1
          | some t => rfl

/-- A header that cannot be decoded hides those after it. -/
theorem C136_undecodable_violated (hs : List Str) (rest : List (Option Str)) (h : ∀ x ∈ hs, ¬ RelayName x) :
    fakeAol (hs.map some ++ none :: rest) = none := by
  induction hs with
  | nil => rfl
  | cons x hs ih =>
    simp only [List.map_cons, List.cons_append, fakeAol]
    rw [if_pos, ih (fun y hy => h y (List.mem_cons_of_mem _ hy))]
    cases hx : search relayRe x with
    | none => rfl
    | some t => exact absurd ((relay_iff x).mp (by rw [hx]; rfl)) (h x (by simp))

theorem gateway_reads {h1 h2 h : Str} {rest : Str} (hg : Gateway h1 h2 h) : Reads gw05Re [] h rest := by
  obtain ⟨f, s1, s2, b, s3, s4, w, s5, e, stamp, hf, hs1, h1w, hs2, hb, hs3, h2w, hs4, hw, hs5, he, hst, rfl⟩ := hg
  obtain ⟨g1, d3, g2, n, g3, m3, g4, y, g5, hh, mm, ss, g6, sg, z, k1, k2, k3, k4, k5, k6, k7, k8, k9, k10, k11, k12, k13, k14, k15, rfl⟩ := hst
  unfold gw05Re
  have plusS : ∀ {g : Str}, Gap g → ∀ b a, Reads (plus isSpace) b g a := fun hg _ _ => Reads.plus.mpr hg
  have plusD : ∀ {g : Str}, Number g → ∀ b a, Reads (plus digit) b g a := fun hg _ _ => Reads.plus.mpr hg
  have wordN : ∀ {g : Str}, Solid g → ∀ b a, Reads (plus nonSpace) b g a := fun hg _ _ =>
    Reads.plus.mpr ⟨hg.1, fun c hc => by simp [nonSpace, hg.2 c hc]⟩
  have three : ∀ {g : Str}, Solid g ∧ g.length = 3 → ∀ b a, Reads (chars 3 nonSpace) b g a := fun hg _ _ =>
    reads_chars.mpr ⟨hg.2, fun c hc => by simp [nonSpace, hg.1.2 c hc]⟩
  have digs : ∀ {g : Str} {k : Nat}, Number g ∧ g.length = k → ∀ b a, Reads (chars k digit) b g a := fun hg _ _ =>
    reads_chars.mpr ⟨hg.2, hg.1.2⟩
  refine reads_seqs_cons.mpr ⟨f, _, rfl, Reads.ilit.mpr hf, ?_⟩
  refine reads_seqs_cons.mpr ⟨[s1], _, rfl, ⟨s1, rfl, hs1⟩, ?_⟩
  refine reads_seqs_cons.mpr ⟨h1, _, rfl, wordN h1w _ _, ?_⟩
  refine reads_seqs_cons.mpr ⟨[s2], _, rfl, ⟨s2, rfl, hs2⟩, ?_⟩
  refine reads_seqs_cons.mpr ⟨b, _, rfl, Reads.ilit.mpr hb, ?_⟩
  refine reads_seqs_cons.mpr ⟨[s3], _, rfl, ⟨s3, rfl, hs3⟩, ?_⟩
  refine reads_seqs_cons.mpr ⟨h2, _, rfl, wordN h2w _ _, ?_⟩
  refine reads_seqs_cons.mpr ⟨[s4], _, rfl, ⟨s4, rfl, hs4⟩, ?_⟩
  refine reads_seqs_cons.mpr ⟨w, _, rfl, Reads.ilit.mpr hw, ?_⟩
  refine reads_seqs_cons.mpr ⟨[s5], _, rfl, ⟨s5, rfl, hs5⟩, ?_⟩
  refine reads_seqs_cons.mpr ⟨e, _, rfl, Reads.ilit.mpr he, ?_⟩
  refine reads_seqs_cons.mpr ⟨g1, _, rfl, plusS k1 _ _, ?_⟩
  refine reads_seqs_cons.mpr ⟨d3, _, rfl, three k2 _ _, ?_⟩
  refine reads_seqs_cons.mpr ⟨c!",", _, rfl, Reads.lit.mpr rfl, ?_⟩
  refine reads_seqs_cons.mpr ⟨g2, _, rfl, plusS k3 _ _, ?_⟩
  refine reads_seqs_cons.mpr ⟨n, _, rfl, plusD k4 _ _, ?_⟩
  refine reads_seqs_cons.mpr ⟨g3, _, rfl, plusS k5 _ _, ?_⟩
  refine reads_seqs_cons.mpr ⟨m3, _, rfl, three k6 _ _, ?_⟩
  refine reads_seqs_cons.mpr ⟨g4, _, rfl, plusS k7 _ _, ?_⟩
  refine reads_seqs_cons.mpr ⟨y, _, rfl, digs k8 _ _, ?_⟩
  refine reads_seqs_cons.mpr ⟨g5, _, rfl, plusS k9 _ _, ?_⟩
  refine reads_seqs_cons.mpr ⟨hh, _, rfl, digs k10 _ _, ?_⟩
  refine reads_seqs_cons.mpr ⟨c!":", _, rfl, Reads.lit.mpr rfl, ?_⟩
  refine reads_seqs_cons.mpr ⟨mm, _, rfl, digs k11 _ _, ?_⟩
  refine reads_seqs_cons.mpr ⟨c!":", _, rfl, Reads.lit.mpr rfl, ?_⟩
  refine reads_seqs_cons.mpr ⟨ss, _, rfl, digs k12 _ _, ?_⟩
  refine reads_seqs_cons.mpr ⟨g6, _, rfl, plusS k13 _ _, ?_⟩
  refine reads_seqs_cons.mpr ⟨sg, z, rfl, fun c hc => by rcases k14 c hc with rfl | rfl <;> rfl, ?_⟩
  exact reads_seqs_one.mpr (digs k15 _ _)

theorem gateway_of_match {h : Str} {t : St} (hm : matchRe gw05Re h = some t) :
    ∃ h1 h2 line rest, h = line ++ rest ∧ Gateway h1 h2 line ∧ t.get 1 = some h1 ∧ t.get 2 = some h2 := by
  obtain ⟨t', hw, ht⟩ := m_sound gw05Re ⟨[], h, []⟩ some t hm
  cases ht
  unfold gw05Re at hw
  obtain ⟨t1, q0, hw⟩ := ways_seqs hw
  obtain ⟨f, a0, b0, r0, v0⟩ := ways_read q0 (NoGroup.ilit _)
  obtain ⟨t2, q1, hw⟩ := ways_seqs hw
  obtain ⟨s1, a1, b1, r1, v1⟩ := ways_read q1 trivial
  obtain ⟨t3, q2, hw⟩ := ways_seqs hw
  obtain ⟨h1, a2, b2, r2, v2⟩ := ways_group q2 (NoGroup.plus _)
  obtain ⟨t4, q3, hw⟩ := ways_seqs hw
  obtain ⟨s2, a3, b3, r3, v3⟩ := ways_read q3 trivial
  obtain ⟨t5, q4, hw⟩ := ways_seqs hw
  obtain ⟨b, a4, b4, r4, v4⟩ := ways_read q4 (NoGroup.ilit _)
  obtain ⟨t6, q5, hw⟩ := ways_seqs hw
  obtain ⟨s3, a5, b5, r5, v5⟩ := ways_read q5 trivial
  obtain ⟨t7, q6, hw⟩ := ways_seqs hw
  obtain ⟨h2, a6, b6, r6, v6⟩ := ways_group q6 (NoGroup.plus _)
  obtain ⟨t8, q7, hw⟩ := ways_seqs hw
  obtain ⟨s4, a7, b7, r7, v7⟩ := ways_read q7 trivial
  obtain ⟨t9, q8, hw⟩ := ways_seqs hw
  obtain ⟨w, a8, b8, r8, v8⟩ := ways_read q8 (NoGroup.ilit _)
  obtain ⟨t10, q9, hw⟩ := ways_seqs hw
  obtain ⟨s5, a9, b9, r9, v9⟩ := ways_read q9 trivial
  obtain ⟨t11, q10, hw⟩ := ways_seqs hw
  obtain ⟨e, a10, b10, r10, v10⟩ := ways_read q10 (NoGroup.ilit _)
  obtain ⟨t12, q11, hw⟩ := ways_seqs hw
  obtain ⟨g1, a11, b11, r11, v11⟩ := ways_read q11 (NoGroup.plus _)
  obtain ⟨t13, q12, hw⟩ := ways_seqs hw
  obtain ⟨d3, a12, b12, r12, v12⟩ := ways_read q12 (NoGroup.chars _ _)
  obtain ⟨t14, q13, hw⟩ := ways_seqs hw
  obtain ⟨c1, a13, b13, r13, v13⟩ := ways_read q13 (NoGroup.lit _)
  obtain ⟨t15, q14, hw⟩ := ways_seqs hw
  obtain ⟨g2, a14, b14, r14, v14⟩ := ways_read q14 (NoGroup.plus _)
  obtain ⟨t16, q15, hw⟩ := ways_seqs hw
  obtain ⟨n, a15, b15, r15, v15⟩ := ways_read q15 (NoGroup.plus _)
  obtain ⟨t17, q16, hw⟩ := ways_seqs hw
  obtain ⟨g3, a16, b16, r16, v16⟩ := ways_read q16 (NoGroup.plus _)
  obtain ⟨t18, q17, hw⟩ := ways_seqs hw
  obtain ⟨m3, a17, b17, r17, v17⟩ := ways_read q17 (NoGroup.chars _ _)
  obtain ⟨t19, q18, hw⟩ := ways_seqs hw
  obtain ⟨g4, a18, b18, r18, v18⟩ := ways_read q18 (NoGroup.plus _)
  obtain ⟨t20, q19, hw⟩ := ways_seqs hw
  obtain ⟨y, a19, b19, r19, v19⟩ := ways_read q19 (NoGroup.chars _ _)
  obtain ⟨t21, q20, hw⟩ := ways_seqs hw
  obtain ⟨g5, a20, b20, r20, v20⟩ := ways_read q20 (NoGroup.plus _)
  obtain ⟨t22, q21, hw⟩ := ways_seqs hw
  obtain ⟨hh, a21, b21, r21, v21⟩ := ways_read q21 (NoGroup.chars _ _)
  obtain ⟨t23, q22, hw⟩ := ways_seqs hw
  obtain ⟨c2, a22, b22, r22, v22⟩ := ways_read q22 (NoGroup.lit _)
  obtain ⟨t24, q23, hw⟩ := ways_seqs hw
  obtain ⟨mm, a23, b23, r23, v23⟩ := ways_read q23 (NoGroup.chars _ _)
  obtain ⟨t25, q24, hw⟩ := ways_seqs hw
  obtain ⟨c3, a24, b24, r24, v24⟩ := ways_read q24 (NoGroup.lit _)
  obtain ⟨t26, q25, hw⟩ := ways_seqs hw
  obtain ⟨ss, a25, b25, r25, v25⟩ := ways_read q25 (NoGroup.chars _ _)
  obtain ⟨t27, q26, hw⟩ := ways_seqs hw
  obtain ⟨g6, a26, b26, r26, v26⟩ := ways_read q26 (NoGroup.plus _)
  obtain ⟨t28, q27, hw⟩ := ways_seqs hw
  obtain ⟨sg, a27, b27, r27, v27⟩ := ways_read q27 trivial
  obtain ⟨z, a28, b28, r28, v28⟩ := ways_read (show Ways (chars 4 digit) t28 t from hw) (NoGroup.chars _ _)
  have solid : ∀ {g : Str} {b a : Str}, Reads (plus nonSpace) b g a → Solid g := fun hr =>
    ⟨(Reads.plus.mp hr).1, fun c hc => by simpa [nonSpace] using (Reads.plus.mp hr).2 c hc⟩
  have three : ∀ {g : Str} {b a : Str}, Reads (chars 3 nonSpace) b g a → Solid g ∧ g.length = 3 := fun hr => by
    obtain ⟨k1, k2⟩ := reads_chars.mp hr
    exact ⟨⟨(fun e => by rw [e] at k1; cases k1), fun c hc => by simpa [nonSpace] using k2 c hc⟩, k1⟩
  have digs : ∀ {g : Str} {k : Nat} {b a : Str}, Reads (chars (k + 1) digit) b g a → Number g ∧ g.length = k + 1 := fun hr => by
    obtain ⟨k1, k2⟩ := reads_chars.mp hr
    exact ⟨⟨(fun e => by rw [e] at k1; cases k1), k2⟩, k1⟩
  obtain ⟨s1, rfl, hs1⟩ := r1
  obtain ⟨s2, rfl, hs2⟩ := r3
  obtain ⟨s3, rfl, hs3⟩ := r5
  obtain ⟨s4, rfl, hs4⟩ := r7
  obtain ⟨s5, rfl, hs5⟩ := r9
  have hc1 : c1 = c!"," := Reads.lit.mp r13
  have hc2 : c2 = c!":" := Reads.lit.mp r22
  have hc3 : c3 = c!":" := Reads.lit.mp r24
  subst hc1 hc2 hc3
  refine ⟨h1, h2, _, t.after, ?_, ⟨f, s1, s2, b, s3, s4, w, s5, e, _, Reads.ilit.mp r0, hs1, solid r2, hs2, Reads.ilit.mp r4, hs3,
    solid r6, hs4, Reads.ilit.mp r8, hs5, Reads.ilit.mp r10,
    ⟨g1, d3, g2, n, g3, m3, g4, y, g5, hh, mm, ss, g6, sg, z, Reads.plus.mp r11, three r12, Reads.plus.mp r14, Reads.plus.mp r15,
      Reads.plus.mp r16, three r17, Reads.plus.mp r18, digs r19, Reads.plus.mp r20, digs r21, digs r23,
      digs r25, Reads.plus.mp r26, fun c hc => by simpa using r27 c hc, digs r28, rfl⟩, rfl⟩, ?_, ?_⟩
  · simp only at a0
    rw [a0, a1, a2, a3, a4, a5, a6, a7, a8, a9, a10, a11, a12, a13, a14, a15, a16, a17, a18, a19, a20, a21, a22, a23, a24, a25, a26, a27, a28]
    simp only [List.append_assoc]
  · unfold St.get
    rw [v28, v27, v26, v25, v24, v23, v22, v21, v20, v19, v18, v17, v16, v15, v14, v13, v12, v11, v10, v9, v8, v7, v6, v5, v4, v3, v2, v1, v0]
    rfl
  · unfold St.get
    rw [v28, v27, v26, v25, v24, v23, v22, v21, v20, v19, v18, v17, v16, v15, v14, v13, v12, v11, v10, v9, v8, v7, v6, v5, v4, v3, v2, v1, v0]
    rfl

/-- The two names are in the line only once. -/
theorem gateway_unique {h1 h2 h1' h2' line line' rest rest' : Str} (hg : Gateway h1 h2 line) (hg' : Gateway h1' h2' line')
    (e : line ++ rest = line' ++ rest') : h1 = h1' ∧ h2 = h2' := by
  obtain ⟨f, s1, s2, b, s3, s4, w, s5, e1, stamp, hf, hs1, k1, hs2, hb, hs3, k2, hs4, hw, hs5, he, hst, rfl⟩ := hg
  obtain ⟨f', s1', s2', b', s3', s4', w', s5', e1', stamp', hf', hs1', k1', hs2', hb', hs3', k2', hs4', hw', hs5', he', hst', rfl⟩ := hg'
  have len : ∀ {a b c : Str}, lower a = c → lower b = c → a.length = b.length := by
    intro a b c ha hb
    have h1 := congrArg List.length ha
    have h2 := congrArg List.length hb
    simp only [lower, List.length_map] at h1 h2
    omega
  simp only [List.append_assoc, List.singleton_append, List.cons_append] at e
  obtain ⟨_, e⟩ := List.append_inj e (len hf hf')
  simp only [List.nil_append] at e
  injection e with _ e
  obtain ⟨r1, e⟩ := word_unique e k1.2 k1'.2 hs2 hs2'
  obtain ⟨_, e⟩ := List.append_inj e (len hb hb')
  injection e with _ e
  obtain ⟨r2, _⟩ := word_unique e k2.2 k2'.2 hs4 hs4'
  exact ⟨r1, r2⟩

/-- With headers that can all be decoded, the rule holds exactly if one of them begins with `from h1 by h2 with ESMTP;` and a time,
where `h2` is not just a dot. -/
theorem C136_gateway_partial (hs : List Str) :
    gw05 (hs.map some) = some true ↔ ∃ h ∈ hs, ∃ h1 h2 line rest, h = line ++ rest ∧ Gateway h1 h2 line ∧ h2 ≠ c!"." := by
  induction hs with
  | nil => simp [gw05]
  | cons h hs ih =>
    simp only [List.map_cons, gw05]
    have next : (¬ ∃ h1 h2 line rest, h = line ++ rest ∧ Gateway h1 h2 line ∧ h2 ≠ c!".") →
        ((∃ x ∈ hs, ∃ h1 h2 line rest, x = line ++ rest ∧ Gateway h1 h2 line ∧ h2 ≠ c!".") ↔
          ∃ x ∈ h :: hs, ∃ h1 h2 line rest, x = line ++ rest ∧ Gateway h1 h2 line ∧ h2 ≠ c!".") := by
      intro hn
      constructor
      · rintro ⟨x, hx, hh⟩; exact ⟨x, List.mem_cons_of_mem _ hx, hh⟩
      · rintro ⟨x, hx, hh⟩
        rcases List.mem_cons.mp hx with rfl | hx
        · exact absurd hh hn
        · exact ⟨x, hx, hh⟩
    cases hm : matchRe gw05Re h with
    | none =>
      simp only
      rw [ih, next]
      rintro ⟨h1, h2, line, rest, rfl, hg, _⟩
      have := (matchRe_isSome gw05Re (line ++ rest)).mpr ⟨line, rest, rfl, gateway_reads hg⟩
      rw [hm] at this
      cases this
    | some t =>
      obtain ⟨h1, h2, line, rest, e, hg, g1, g2⟩ := gateway_of_match hm
      simp only [g1, g2, Option.getD_some]
      have k1 : h1 ≠ [] := by obtain ⟨_, _, _, _, _, _, _, _, _, _, _, _, k, _⟩ := hg; exact k.1
      have k2 : h2 ≠ [] := by obtain ⟨_, _, _, _, _, _, _, _, _, _, _, _, _, _, _, _, k, _⟩ := hg; exact k.1
      by_cases hd : h2 = c!"."
      · rw [if_neg (fun hh => hh.2.2 hd), ih, next]
        rintro ⟨h1', h2', line', rest', e', hg', hd'⟩
        exact hd' ((gateway_unique hg hg' (e ▸ e')).2 ▸ hd)
      · rw [if_pos ⟨k1, k2, hd⟩]
        simp only [true_iff]
        exact ⟨h, by simp, h1, h2, line, rest, e, hg, hd⟩

/-- Here too a header that cannot be decoded hides those after it. -/
theorem C136_hidden_violated (hs : List Str) (rest : List (Option Str))
    (h : ∀ x ∈ hs, ¬ ∃ h1 h2 line rest, x = line ++ rest ∧ Gateway h1 h2 line) : gw05 (hs.map some ++ none :: rest) = none := by
  induction hs with
  | nil => rfl
  | cons x hs ih =>
    simp only [List.map_cons, List.cons_append, gw05]
    cases hx : matchRe gw05Re x with
    | none => exact ih (fun y hy => h y (List.mem_cons_of_mem _ hy))
    | some t =>
      obtain ⟨h1, h2, line, rest', e, hg, _⟩ := gateway_of_match hx
      exact absurd ⟨h1, h2, line, rest', e, hg⟩ (h x (by simp))

example : fakeAol [some c!"from x by y", some c!"from x by rly-xa01.mx.aol.com with SMTP"] = some true ∧
    fakeAol [some c!"from x by rly-xa01.mx.aol.com (v77/AOL-8.13.2) with SMTP"] = some false ∧
    fakeAol [none, some c!"from x by rly-xa01.mx.aol.com with SMTP"] = none := by
  decide +kernel

example : gw05 [some c!"from a by b with ESMTP; Thu, 12 Jan 2017 10:11:12 +0200"] = some true ∧
    gw05 [some c!"from a by b with SMTP; Thu, 12 Jan 2017 10:11:12 +0200"] = some false := by
  decide +kernel

/-! ## C137 -/

theorem template_iff (line : Str) : (search templateRe line).isSome ↔ Template line := by
  rw [search_isSome]
  unfold templateRe Template Has
  constructor
  · rintro ⟨u, w, z, rfl, hr⟩
    obtain ⟨p, v, rfl, hp, hr⟩ := reads_seqs_cons.mp hr
    obtain ⟨_, v, rfl, ⟨x, rfl, hx⟩, hr⟩ := reads_seqs_cons.mp hr
    obtain ⟨y, rfl, hy⟩ := reads_seqs_one.mp hr
    rw [Reads.lit] at hp
    subst hp
    exact ⟨x, y, hx, by simpa [or_assoc] using hy, u, z, rfl⟩
  · rintro ⟨x, y, hx, hy, u, z, rfl⟩
    exact ⟨u, ['%', x, y], z, rfl, reads_seqs_cons.mpr ⟨['%'], [x, y], rfl, Reads.lit.mpr rfl,
      reads_seqs_cons.mpr ⟨[x], [y], rfl, ⟨x, rfl, hx⟩, reads_seqs_one.mpr ⟨y, rfl, by simpa [or_assoc] using hy⟩⟩⟩⟩

theorem reads_alts {l : List Str} (hl : l ≠ []) {b w a : Str} : Reads (alts (l.map lit)) b w a ↔ w ∈ l := by
  induction l with
  | nil => exact absurd rfl hl
  | cons x l ih =>
    cases l with
    | nil => simp only [List.map_cons, List.map_nil, alts, List.mem_singleton]; exact Reads.lit
    | cons y l =>
      simp only [List.map_cons, alts]
      rw [Reads.alt, Reads.lit, List.mem_cons]
      exact or_congr Iff.rfl (ih (by simp))

theorem lower_append_colon {line n rest : Str} (h : lower line = n ++ ':' :: rest) :
    ∃ n' rest', line = n' ++ ':' :: rest' ∧ lower n' = n := by
  unfold lower at h
  obtain ⟨x, y, rfl, hx, hy⟩ := List.map_eq_append_iff.mp h
  cases y with
  | nil => cases hy
  | cons c y =>
    simp only [List.map_cons, List.cons.injEq] at hy
    refine ⟨x, y, ?_, hx⟩
    have : c = ':' := by
      have h1 := hy.1
      unfold Char.toLower at h1
      split at h1
      · rename_i hu
        exfalso
        have := congrArg (fun c : Char => c.val.toNat) h1
        simp only [UInt32.le_iff_toNat_le] at hu
        simp at this hu
        omega
      · exact h1
    rw [this]

theorem exempt_excluded : ∀ name ∈ [c!"x-vms-to", c!"x-uidl", c!"x-face", c!"to", c!"cc", c!"from", c!"subject", c!"references",
    c!"in-reply-to", c!"message-id", c!"x-message-id", c!"resent-message-id", c!"x-original-message-id"], name ∈ excluded := by
  decide +kernel

theorem excluded_exempt : ∀ name ∈ excluded, name ∈ [c!"x-vms-to", c!"x-uidl", c!"x-face", c!"to", c!"cc", c!"from", c!"subject",
    c!"references", c!"in-reply-to", c!"message-id", c!"x-message-id", c!"resent-message-id", c!"x-original-message-id"] := by
  decide +kernel

theorem exempt_iff (line : Str) : (search excludedRe (lower line)).isSome ↔ Exempt line := by
  rw [search_isSome]
  unfold excludedRe Exempt
  constructor
  · rintro ⟨u, w, z, e, hr⟩
    obtain ⟨_, v, rfl, ⟨rfl, hu⟩, hr⟩ := reads_seqs_cons.mp hr
    obtain ⟨n, v, rfl, hn, hr⟩ := reads_seqs_cons.mp hr
    rw [reads_alts (by decide)] at hn
    rw [reads_seqs_one, Reads.lit] at hr
    subst hr
    have hu : u = [] := by simpa using hu
    subst hu
    obtain ⟨n', rest, e, hn'⟩ := lower_append_colon (n := n) (rest := z) (by simpa using e)
    refine ⟨n, ?_, n', rest, e, hn'⟩
    exact excluded_exempt n hn
  · rintro ⟨name, hname, n, rest, rfl, hn⟩
    refine ⟨[], name ++ [':'], lower rest, by rw [← hn]; simp [lower], ?_⟩
    refine reads_seqs_cons.mpr ⟨[], _, rfl, ⟨rfl, rfl⟩, reads_seqs_cons.mpr ⟨name, [':'], rfl, ?_, reads_seqs_one.mpr (Reads.lit.mpr rfl)⟩⟩
    rw [reads_alts (by decide)]
    exact exempt_excluded name hname

/-- The rule holds exactly if a line of the message has a placeholder and does not begin with the name of a header that may have
anything in it. -/
theorem C137_lines_partial (lines : List Str) (hl : lines ≠ []) (hn : ∀ l ∈ lines, '\n' ∉ l) :
    unresolved (join c!"\n" lines) = true ↔ ∃ l ∈ lines, Template l ∧ ¬ Exempt l := by
  unfold unresolved
  rw [splitChar_join '\n' lines hl hn, List.any_eq_true]
  refine exists_congr fun l => and_congr_right fun _ => ?_
  rw [Bool.and_eq_true, template_iff, ← exempt_iff]
  cases search excludedRe (lower l) <;> simp

/-- What is in the body counts too. -/
theorem C137_body_violated (head body : List Str) (l : Str) (hl : l ∈ body) (ht : Template l) (he : ¬ Exempt l)
    (hn : ∀ x ∈ head ++ [] :: body, '\n' ∉ x) : unresolved (join c!"\n" (head ++ [] :: body)) = true :=
  (C137_lines_partial _ (by simp) hn).mpr ⟨l, by simp [hl], ht, he⟩

/-- A header that may have anything in it may not have it after its first line. -/
theorem C137_folded_violated (before after : List Str) (subject more : Str) (ht : Template more)
    (hn : ∀ x ∈ before ++ [c!"Subject: " ++ subject, ' ' :: more] ++ after, '\n' ∉ x) :
    unresolved (join c!"\n" (before ++ [c!"Subject: " ++ subject, ' ' :: more] ++ after)) = true := by
  refine (C137_lines_partial _ (by simp) hn).mpr ⟨' ' :: more, by simp, ?_, ?_⟩
  · obtain ⟨x, y, hx, hy, a, b, rfl⟩ := ht
    exact ⟨x, y, hx, hy, ' ' :: a, b, rfl⟩
  · rintro ⟨name, hname, n, rest, e, hl⟩
    cases n with
    | nil => cases e
    | cons c n =>
      injection e with e1 e2
      subst e1 hl
      revert hname
      simp [lower]

example : unresolved c!"From: a\nSubject: %RND\nX-Id: %RND_A\n\nhello" = true ∧ unresolved c!"From: a\nSubject: %RND_A\n\nhello" = false := by
  decide +kernel

example : Template c!"X-Id: %RND_A" ∧ ¬ Exempt c!"X-Id: %RND_A" ∧ Exempt c!"SUBJECT: %RND_A" := by
  rw [← template_iff, ← exempt_iff, ← exempt_iff]
  decide +kernel

/-! ## C138 -/

theorem searchFrom_skip {c : Char} {r : Re} {t : St} : ∀ (pre b z : Str), c ∉ pre →
    m (.seq (lit [c]) r) ⟨pre.reverse ++ b, c :: z, []⟩ some = some t →
    searchFrom (.seq (lit [c]) r) b (pre ++ c :: z) = some t := by
  intro pre
  induction pre with
  | nil =>
    intro b z _ h
    simp only [List.nil_append, List.reverse_nil] at h ⊢
    unfold searchFrom
    rw [h]
  | cons x pre ih =>
    intro b z hn h
    have hx : (x == c) = false := by
      simp only [List.mem_cons, not_or] at hn
      simpa using fun e => hn.1 e.symm
    simp only [List.cons_append]
    unfold searchFrom
    have : m (.seq (lit [c]) r) ⟨b, x :: (pre ++ c :: z), []⟩ some = none := by
      simp [m, lit, hx]
    rw [this]
    refine ih (x :: b) z (fun hm => hn (List.mem_cons_of_mem _ hm)) ?_
    simpa using h

theorem searchFrom_ways {r : Re} {t : St} : ∀ (a b : Str), searchFrom r b a = some t →
    ∃ u z, a = u ++ z ∧ Ways r ⟨u.reverse ++ b, z, []⟩ t := by
  intro a
  induction a with
  | nil =>
    intro b h
    unfold searchFrom at h
    obtain ⟨t', hw, ht⟩ := m_sound _ _ _ _ h
    cases ht
    exact ⟨[], [], rfl, hw⟩
  | cons c a ih =>
    intro b h
    unfold searchFrom at h
    split at h
    · rename_i t' hm
      obtain ⟨t'', hw, ht⟩ := m_sound _ _ _ _ hm
      cases ht
      cases h
      exact ⟨[], c :: a, rfl, hw⟩
    · obtain ⟨u, z, rfl, hw⟩ := ih _ h
      exact ⟨c :: u, z, rfl, by simpa using hw⟩

theorem search_ways {r : Re} {t : St} {text : Str} (h : search r text = some t) : ∃ u z, text = u ++ z ∧ Ways r ⟨u.reverse, z, []⟩ t := by
  obtain ⟨u, z, e, hw⟩ := searchFrom_ways _ _ h
  exact ⟨u, z, e, by simpa using hw⟩

/-- A text goes on to the first `c`. -/
theorem until_unique {c : Char} {u u' v v' : Str} (h : u ++ c :: v = u' ++ c :: v') (hu : c ∉ u) (hu' : c ∉ u') : u = u' ∧ v = v' := by
  induction u generalizing u' with
  | nil =>
    cases u' with
    | nil => simp at h; exact ⟨rfl, h⟩
    | cons d u' => simp at h; exact absurd (by rw [h.1]; simp) hu'
  | cons d u ih =>
    cases u' with
    | nil => simp at h; exact absurd (by rw [h.1]; simp) hu
    | cons e u' =>
      simp at h
      obtain ⟨h1, h2⟩ := ih h.2 (fun x => hu (List.mem_cons_of_mem _ x)) (fun x => hu' (List.mem_cons_of_mem _ x))
      exact ⟨by rw [h.1, h1], h2⟩

theorem ratware_ways {b a : Str} {t : St} (h : Ways ratwareRe ⟨b, a, []⟩ t) :
    ∃ caps g, caps.length = 28 ∧ (∀ c ∈ caps, c.isUpper = true) ∧ g ≠ [] ∧ '>' ∉ g ∧ a = c!"<" ++ caps ++ c!"." ++ g ++ c!">" ++ t.after ∧
      t.get 1 = some g := by
  unfold ratwareRe at h
  obtain ⟨t1, q0, h⟩ := ways_seqs h
  obtain ⟨w0, a0, b0, r0, v0⟩ := ways_read q0 (NoGroup.lit _)
  obtain ⟨t2, q1, h⟩ := ways_seqs h
  obtain ⟨caps, a1, b1, r1, v1⟩ := ways_read q1 (NoGroup.chars _ _)
  obtain ⟨t3, q2, h⟩ := ways_seqs h
  obtain ⟨w2, a2, b2, r2, v2⟩ := ways_read q2 (NoGroup.lit _)
  obtain ⟨t4, q3, h⟩ := ways_seqs h
  obtain ⟨g, a3, b3, r3, v3⟩ := ways_group q3 ⟨trivial, trivial⟩
  obtain ⟨w4, a4, b4, r4, v4⟩ := ways_read (show Ways (lit c!">") t4 t from h) (NoGroup.lit _)
  rw [Reads.lit] at r0 r2 r4
  subst r0 r2 r4
  obtain ⟨k1, k2⟩ := reads_chars.mp r1
  rw [Reads.seq] at r3
  obtain ⟨_, g', rfl, ⟨x, rfl, hx⟩, hg⟩ := r3
  refine ⟨caps, x :: g', k1, k2, by simp, ?_, ?_, ?_⟩
  · intro hm
    rcases List.mem_cons.mp hm with e | hm
    · rw [← e] at hx; cases hx
    · have := hg '>' hm; cases this
  · simp only at a0
    rw [a0, a1, a2, a3, a4]
    simp
  · unfold St.get
    rw [v4, v3, v2, v1, v0]
    rfl

theorem ratware_reads {caps g b a : Str} (h1 : caps.length = 28) (h2 : ∀ c ∈ caps, c.isUpper = true) (h3 : g ≠ []) (h4 : '>' ∉ g) :
    Reads ratwareRe b (c!"<" ++ (caps ++ (c!"." ++ (g ++ c!">")))) a := by
  unfold ratwareRe
  refine reads_seqs_cons.mpr ⟨c!"<", _, rfl, Reads.lit.mpr rfl, ?_⟩
  refine reads_seqs_cons.mpr ⟨caps, _, rfl, reads_chars.mpr ⟨h1, h2⟩, ?_⟩
  refine reads_seqs_cons.mpr ⟨c!".", _, rfl, Reads.lit.mpr rfl, ?_⟩
  refine reads_seqs_cons.mpr ⟨g, _, rfl, ?_, reads_seqs_one.mpr (Reads.lit.mpr rfl)⟩
  cases g with
  | nil => exact absurd rfl h3
  | cons x g =>
    refine Reads.seq.mpr ⟨[x], g, rfl, ⟨x, rfl, ?_⟩, fun c hc => ?_⟩
    · simpa using fun e => h4 (by rw [e]; simp)
    · simpa using fun e => h4 (by rw [← e]; simp [hc])

theorem plain_iff (s : Str) : plain s = true ↔ Plain s := by
  unfold plain Plain special
  simp only [List.all_eq_true, Bool.not_eq_true', List.contains_eq_mem, decide_eq_false_iff_not]

theorem named_iff (g f : Str) : (search (namedRe g) f).isSome ↔ QuotedSender g f := by
  rw [search_isSome]
  unfold namedRe QuotedSender Has
  constructor
  · rintro ⟨u, w, z, rfl, hr⟩
    obtain ⟨q1, v, rfl, h1, hr⟩ := reads_seqs_cons.mp hr
    obtain ⟨n, v, rfl, hn, hr⟩ := reads_seqs_cons.mp hr
    obtain ⟨q2, v, rfl, h2, hr⟩ := reads_seqs_cons.mp hr
    obtain ⟨s, v, rfl, hs, hr⟩ := reads_seqs_cons.mp hr
    obtain ⟨q3, v, rfl, h3, hr⟩ := reads_seqs_cons.mp hr
    obtain ⟨g', v, rfl, hg, hr⟩ := reads_seqs_cons.mp hr
    rw [reads_seqs_one, Reads.lit] at hr
    rw [Reads.lit] at h1 h2 h3
    rw [h1, h2, h3, hr]
    obtain ⟨k1, k2⟩ := Reads.plus.mp hn
    refine ⟨n, s, g', k1, fun hm => ?_, hs, reads_dotted.mp hg, u, z, by simp⟩
    have := k2 _ hm
    cases this
  · rintro ⟨n, s, g', hn, hq, hs, hg, u, z, rfl⟩
    refine ⟨u, c!"\"" ++ (n ++ (c!"\"" ++ (s ++ (c!"<" ++ (g' ++ c!">"))))), z, by simp, ?_⟩
    refine reads_seqs_cons.mpr ⟨_, _, rfl, Reads.lit.mpr rfl, ?_⟩
    refine reads_seqs_cons.mpr ⟨n, _, rfl, Reads.plus.mpr ⟨hn, fun c hc => ?_⟩, ?_⟩
    · simpa using fun e => hq (by rw [← e]; exact hc)
    refine reads_seqs_cons.mpr ⟨_, _, rfl, Reads.lit.mpr rfl, ?_⟩
    refine reads_seqs_cons.mpr ⟨s, _, rfl, hs, ?_⟩
    refine reads_seqs_cons.mpr ⟨_, _, rfl, Reads.lit.mpr rfl, ?_⟩
    exact reads_seqs_cons.mpr ⟨g', _, rfl, reads_dotted.mpr hg, reads_seqs_one.mpr (Reads.lit.mpr rfl)⟩

/-- With a Message-ID of 28 capitals, a dot and a text, the rule holds exactly if the sender has a name in quotes and that text as
address. -/
theorem C138_name_partial (E : Engine) (pre caps g post f : Str) (h0 : '<' ∉ pre) (h1 : caps.length = 28) (h2 : ∀ c ∈ caps, c.isUpper = true)
    (h3 : g ≠ []) (h4 : '>' ∉ g) (hp : Plain g) :
    ratwareName E (some (pre ++ c!"<" ++ caps ++ c!"." ++ g ++ c!">" ++ post)) (some f) = some true ↔ QuotedSender g f := by
  have e : pre ++ c!"<" ++ caps ++ c!"." ++ g ++ c!">" ++ post = pre ++ '<' :: (caps ++ '.' :: (g ++ '>' :: post)) := by simp
  have hs : (m ratwareRe ⟨pre.reverse, '<' :: (caps ++ '.' :: (g ++ '>' :: post)), []⟩ some).isSome := by
    rw [m_isSome]
    refine ⟨_, post, ?_, ratware_reads h1 h2 h3 h4⟩
    simp
  obtain ⟨t, ht⟩ := Option.isSome_iff_exists.mp hs
  have found : search ratwareRe (pre ++ c!"<" ++ caps ++ c!"." ++ g ++ c!">" ++ post) = some t := by
    rw [e]
    exact searchFrom_skip pre [] _ h0 (by rw [List.append_nil]; exact ht)
  obtain ⟨t', hw, htt⟩ := m_sound _ _ _ _ ht
  cases htt
  obtain ⟨caps', g', k1, k2, k3, k4, k5, k6⟩ := ratware_ways hw
  have k5 : '<' :: (caps ++ '.' :: (g ++ '>' :: post)) = '<' :: (caps' ++ '.' :: (g' ++ '>' :: t.after)) := by simpa using k5
  injection k5 with _ k5
  obtain ⟨_, k5⟩ := List.append_inj k5 (by omega)
  injection k5 with _ k5
  obtain ⟨rfl, _⟩ := until_unique k5 h4 k4
  unfold ratwareName
  have hb : (blank (some (pre ++ c!"<" ++ caps ++ c!"." ++ g ++ c!">" ++ post)) && blank (some f)) = false := by
    rw [e]
    cases pre <;> simp [blank]
  rw [hb]
  simp only [Bool.false_eq_true, if_false]
  rw [found]
  simp only [k6, Option.getD_some]
  unfold searchNamed
  rw [if_pos ((plain_iff g).mpr hp)]
  rw [Option.some.injEq, named_iff]

/-- With any other Message-ID it does not hold. -/
theorem C138_other (E : Engine) (mid : Str) (f : Option Str) (h : ∀ g, ¬ RatwareId g mid) : ratwareName E (some mid) f ≠ some true := by
  unfold ratwareName
  split
  · simp
  · simp only
    cases hs : search ratwareRe mid with
    | none => simp
    | some t =>
      obtain ⟨u, z, rfl, hw⟩ := search_ways hs
      obtain ⟨caps, g, k1, k2, k3, k4, k5, k6⟩ := ratware_ways hw
      exact absurd ⟨caps, k1, k2, k3, k4, u, t.after, by rw [k5]; simp⟩ (h g)

/-- A dot in the address of the Message-ID stands for any character: the address of another sender counts. -/
theorem C138_dots_violated (E : Engine) (caps a b name : Str) (x : Char) (h1 : caps.length = 28) (h2 : ∀ c ∈ caps, c.isUpper = true)
    (ha : Plain a) (hb : Plain b) (ha' : '>' ∉ a) (hb' : '>' ∉ b) (hx : x ≠ '\n') (hn : name ≠ []) (hq : '"' ∉ name) :
    ratwareName E (some (c!"<" ++ caps ++ c!"." ++ (a ++ c!"." ++ b) ++ c!">"))
      (some (c!"\"" ++ name ++ c!"\" <" ++ (a ++ [x] ++ b) ++ c!">")) = some true := by
  have like : ∀ s : Str, Like s s := by
    intro s
    induction s with
    | nil => rfl
    | cons c s ih => exact ⟨c, s, rfl, Or.inl rfl, ih⟩
  have mid : ∀ a : Str, Like (a ++ c!"." ++ b) (a ++ [x] ++ b) := by
    intro a
    induction a with
    | nil => exact ⟨x, b, rfl, Or.inr ⟨rfl, hx⟩, like b⟩
    | cons c a ih => exact ⟨c, _, rfl, Or.inl rfl, ih⟩
  have := (C138_name_partial E [] caps (a ++ c!"." ++ b) [] (c!"\"" ++ name ++ c!"\" <" ++ (a ++ [x] ++ b) ++ c!">") (by simp) h1 h2
    (by simp) (by simp [ha', hb']) ?_).mpr ⟨name, [' '], a ++ [x] ++ b, hn, hq, by simp; rfl, mid a, [], [], by simp⟩
  · simpa using this
  · intro c hc
    rcases List.mem_append.mp hc with hc | hc
    · rcases List.mem_append.mp hc with hc | hc
      · exact ha c hc
      · rw [List.mem_singleton.mp hc]; decide
    · exact hb c hc

theorem to_ways {b a : Str} {t : St} (h : Ways toRe ⟨b, a, []⟩ t) :
    b = [] ∧ ∃ user dom rest, user ≠ [] ∧ '@' ∉ user ∧ dom ≠ [] ∧ '\n' ∉ dom ∧ (rest = [] ∨ rest = ['\n']) ∧ a = user ++ c!"@" ++ dom ++ rest ∧
      t.get 1 = some user ∧ t.get 2 = some dom := by
  unfold toRe at h
  obtain ⟨t0, q, h⟩ := ways_seqs h
  cases q with
  | bol hb =>
    refine ⟨hb, ?_⟩
    obtain ⟨t1, q0, h⟩ := ways_seqs h
    obtain ⟨user, a0, b0, r0, v0⟩ := ways_group q0 (NoGroup.plus _)
    obtain ⟨t2, q1, h⟩ := ways_seqs h
    obtain ⟨w, a1, b1, r1, v1⟩ := ways_read q1 (NoGroup.lit _)
    obtain ⟨t3, q2, h⟩ := ways_seqs h
    obtain ⟨dom, a2, b2, r2, v2⟩ := ways_group q2 (NoGroup.plus _)
    rw [Reads.lit] at r1
    subst r1
    obtain ⟨k1, k2⟩ := Reads.plus.mp r0
    obtain ⟨k3, k4⟩ := Reads.plus.mp r2
    have h : Ways .eol t3 t := h
    cases h with
    | eol he =>
      refine ⟨user, dom, t.after, k1, (fun hm => by have := k2 _ hm; cases this), k3, (fun hm => by have := k4 _ hm; cases this), he, ?_, ?_, ?_⟩
      · simp only at a0
        rw [a0, a1, a2]
        simp
      · unfold St.get
        rw [v2, v1, v0]
        rfl
      · unfold St.get
        rw [v2]
        rfl

theorem to_find {user dom : Str} (h1 : user ≠ []) (h2 : '@' ∉ user) (h3 : dom ≠ []) (h4 : '\n' ∉ dom) :
    ∃ t, search toRe (user ++ c!"@" ++ dom) = some t ∧ t.get 1 = some user ∧ t.get 2 = some dom := by
  have hs : (search toRe (user ++ c!"@" ++ dom)).isSome := by
    rw [search_isSome]
    refine ⟨[], user ++ (c!"@" ++ (dom ++ [])), [], by simp, ?_⟩
    unfold toRe
    refine reads_seqs_cons.mpr ⟨[], _, rfl, ⟨rfl, rfl⟩, ?_⟩
    refine reads_seqs_cons.mpr ⟨user, _, rfl, Reads.plus.mpr ⟨h1, fun c hc => by simpa using fun e => h2 (by rw [← e]; exact hc)⟩, ?_⟩
    refine reads_seqs_cons.mpr ⟨c!"@", _, rfl, Reads.lit.mpr rfl, ?_⟩
    refine reads_seqs_cons.mpr ⟨dom, [], rfl, Reads.plus.mpr ⟨h3, fun c hc => by simpa [dot] using fun e => h4 (by rw [← e]; exact hc)⟩, ?_⟩
    exact reads_seqs_one.mpr ⟨rfl, Or.inl rfl⟩
  obtain ⟨t, ht⟩ := Option.isSome_iff_exists.mp hs
  refine ⟨t, ht, ?_⟩
  obtain ⟨u, z, e, hw⟩ := search_ways ht
  obtain ⟨hu, user', dom', rest, k1, k2, k3, k4, k5, k6, k7, k8⟩ := to_ways hw
  have hu : u = [] := by simpa using hu
  subst hu
  simp only [List.nil_append] at e
  rw [k6] at e
  have e : user ++ '@' :: dom = user' ++ '@' :: (dom' ++ rest) := by simpa using e
  obtain ⟨eu, e'⟩ := until_unique e h2 k2
  subst eu
  have hr : rest = [] := by
    rcases k5 with rfl | rfl
    · rfl
    · exact absurd (by rw [e']; simp) h4
  subst hr
  simp only [List.append_nil] at e'
  rw [e']
  exact ⟨k7, k8⟩

theorem lower_mem {x : Char} (hx : x = '.' ∨ x = ' ') (s : Str) : x ∈ lower s ↔ x ∈ s := by
  unfold lower
  rw [List.mem_map]
  constructor
  · rintro ⟨c, hc, h⟩
    have : c = x := by
      unfold Char.toLower at h
      split at h
      · rename_i hu
        exfalso
        have := congrArg (fun c : Char => c.val.toNat) h
        simp only [UInt32.le_iff_toNat_le] at hu
        rcases hx with rfl | rfl <;> simp at this hu <;> omega
      · exact h
    rw [← this]
    exact hc
  · intro h
    refine ⟨x, h, ?_⟩
    rcases hx with rfl | rfl <;> rfl

theorem first_of {c : Char} : ∀ {s : Str}, c ∈ s → ∃ a b, s = a ++ c :: b ∧ c ∉ a := by
  intro s
  induction s with
  | nil => intro h; cases h
  | cons x s ih =>
    intro h
    by_cases hx : x = c
    · subst hx; exact ⟨[], s, rfl, by simp⟩
    · rcases List.mem_cons.mp h with e | h
      · exact absurd e.symm hx
      · obtain ⟨a, b, rfl, ha⟩ := ih h
        exact ⟨x :: a, b, rfl, by simp [ha]; exact fun e => hx e.symm⟩

theorem valid_iff (tlds : List Str) (d : Str) : validDomain tlds d = true ↔ Registered tlds d := by
  unfold validDomain Registered
  simp only
  by_cases hs : ' ' ∈ d
  · rw [if_pos (by simpa using (lower_mem (Or.inr rfl) d).mpr hs)]
    simp [hs]
  · rw [if_neg (by simpa using fun h => hs ((lower_mem (Or.inr rfl) d).mp h))]
    by_cases hd : '.' ∈ d
    · obtain ⟨a, rest, rfl, ha⟩ := first_of hd
      have e : lower (a ++ '.' :: rest) = lower a ++ '.' :: lower rest := by simp [lower]
      rw [e, splitChar_append_any, dot_single '.' (fun h => ha ((lower_mem (Or.inl rfl) a).mp h))]
      obtain ⟨hn, hj⟩ := join_split '.' (lower rest)
      rw [if_neg]
      · simp only [List.singleton_append, List.drop_succ_cons, List.drop_zero, hj, List.contains_eq_mem, decide_eq_true_eq]
        constructor
        · intro h; exact ⟨hs, a, rest, ha, rfl, h⟩
        · rintro ⟨_, a', rest', ha', e, h⟩
          obtain ⟨_, rfl⟩ := until_unique e ha ha'
          exact h
      · cases hc : splitChar '.' (lower rest) with
        | nil => exact absurd hc hn
        | cons x xs => simp
    · rw [dot_single '.' (fun h => hd ((lower_mem (Or.inl rfl) d).mp h))]
      simp only [List.length_singleton, Nat.le_refl, if_true, Bool.false_eq_true, false_iff]
      rintro ⟨_, a, rest, _, rfl, _⟩
      exact hd (by simp)

theorem wordAt_iff (s : Str) : wordAt s = true ↔ ∃ c, s.head? = some c ∧ isWord c = true := by
  cases s with
  | nil => simp [wordAt, headIn]
  | cons c s => simp [wordAt, headIn]

theorem envelope_iff (dom user sender : Str) : (search (envelopeRe dom user) sender).isSome ↔ Mirrors user dom sender := by
  rw [search_isSome]
  unfold envelopeRe Mirrors Boundary
  constructor
  · rintro ⟨u, w, z, rfl, hr⟩
    obtain ⟨_, v, rfl, ⟨rfl, hb⟩, hr⟩ := reads_seqs_cons.mp hr
    obtain ⟨d, v, rfl, hd, hr⟩ := reads_seqs_cons.mp hr
    obtain ⟨_, v, rfl, ⟨x, rfl, hx⟩, hr⟩ := reads_seqs_cons.mp hr
    obtain ⟨us, v, rfl, hus, hr⟩ := reads_seqs_cons.mp hr
    rw [reads_seqs_one, Reads.lit] at hr
    subst hr
    refine ⟨u, d, x, us, z, reads_dotted.mp hd, by simpa [dot] using hx, reads_dotted.mp hus, by simp, ?_⟩
    intro h
    apply hb
    rw [Bool.eq_iff_iff, wordAt_iff, wordAt_iff]
    simpa using h
  · rintro ⟨a, d, x, us, b, hd, hx, hus, rfl, hb⟩
    refine ⟨a, d ++ ([x] ++ (us ++ c!"@")), b, by simp, ?_⟩
    refine reads_seqs_cons.mpr ⟨[], _, rfl, ⟨rfl, ?_⟩, ?_⟩
    · intro h
      apply hb
      rw [Bool.eq_iff_iff, wordAt_iff, wordAt_iff] at h
      simpa using h
    refine reads_seqs_cons.mpr ⟨d, _, rfl, reads_dotted.mpr hd, ?_⟩
    refine reads_seqs_cons.mpr ⟨[x], _, rfl, ⟨x, rfl, by simpa [dot] using hx⟩, ?_⟩
    exact reads_seqs_cons.mpr ⟨us, _, rfl, reads_dotted.mpr hus, reads_seqs_one.mpr (Reads.lit.mpr rfl)⟩

theorem srs_iff (s : Str) : (search srsRe s).isSome ↔ ∃ d rest, d.isDigit = true ∧ s = c!"SRS" ++ [d] ++ c!"=" ++ rest := by
  rw [search_isSome]
  unfold srsRe
  constructor
  · rintro ⟨u, w, z, rfl, hr⟩
    obtain ⟨_, v, rfl, ⟨rfl, hu⟩, hr⟩ := reads_seqs_cons.mp hr
    obtain ⟨p, v, rfl, hp, hr⟩ := reads_seqs_cons.mp hr
    obtain ⟨_, v, rfl, ⟨d, rfl, hd⟩, hr⟩ := reads_seqs_cons.mp hr
    rw [reads_seqs_one, Reads.lit] at hr
    rw [Reads.lit] at hp
    have hu : u = [] := by simpa using hu
    rw [hr, hp, hu]
    exact ⟨d, z, hd, by simp⟩
  · rintro ⟨d, rest, hd, rfl⟩
    refine ⟨[], c!"SRS" ++ ([d] ++ c!"="), rest, by simp, ?_⟩
    refine reads_seqs_cons.mpr ⟨[], _, rfl, ⟨rfl, rfl⟩, ?_⟩
    refine reads_seqs_cons.mpr ⟨_, _, rfl, Reads.lit.mpr rfl, ?_⟩
    exact reads_seqs_cons.mpr ⟨[d], _, rfl, ⟨d, rfl, hd⟩, reads_seqs_one.mpr (Reads.lit.mpr rfl)⟩

/-- With a recipient `user@domain` and nothing else, the rule holds exactly if the domain is one part before a known ending, the
sender has not been rewritten, and the sender repeats the recipient backwards. -/
theorem C138_envelope_partial (E : Engine) (tlds : List Str) (user dom sender : Str) (h1 : user ≠ []) (h2 : '@' ∉ user) (h3 : dom ≠ [])
    (h4 : '\n' ∉ dom) (hu : Plain user) (hd : Plain dom) :
    ratwareEnvelope E tlds (some (user ++ c!"@" ++ dom)) sender = some true ↔
      (¬ ∃ d rest, d.isDigit = true ∧ sender = c!"SRS" ++ [d] ++ c!"=" ++ rest) ∧ Registered tlds dom ∧ Mirrors user dom sender := by
  obtain ⟨t, ht, k1, k2⟩ := to_find h1 h2 h3 h4
  unfold ratwareEnvelope
  have hb : blank (some (user ++ c!"@" ++ dom)) = false := by cases user <;> simp [blank]
  rw [hb, Bool.false_or]
  by_cases hs : sender = []
  · subst hs
    simp only [List.isEmpty_nil, if_true, Option.some.injEq, Bool.false_eq_true, false_iff]
    rintro ⟨_, _, a, d, x, u, b, _, _, _, e, _⟩
    simp at e
  · rw [if_neg (by simpa using hs), ← srs_iff, ← valid_iff, ← envelope_iff]
    by_cases hr : (search srsRe sender).isSome = true
    · rw [if_pos hr]; simp [hr]
    · rw [if_neg hr]
      simp only [Option.getD_some]
      rw [ht]
      simp only [k1, k2, Option.getD_some]
      by_cases hv : validDomain tlds dom = true
      · rw [hv, (plain_iff dom).mpr hd, (plain_iff user).mpr hu]
        simp [hr]
      · rw [if_pos (by simpa using hv)]
        simp [hv]

/-- An address in angle brackets is never looked at. -/
theorem C138_brackets_violated (E : Engine) (tlds : List Str) (before dom sender : Str) (h2 : '@' ∉ before) (h3 : before ≠ []) (h4 : '\n' ∉ dom)
    (ht : ∀ x ∈ tlds, x.getLast? ≠ some '>') :
    ratwareEnvelope E tlds (some (before ++ c!"@" ++ (dom ++ c!">"))) sender = some false := by
  obtain ⟨t, hf, k1, k2⟩ := to_find h3 h2 (show dom ++ c!">" ≠ [] by simp) (by simp [h4])
  unfold ratwareEnvelope
  split
  · rfl
  · split
    · rfl
    · simp only [Option.getD_some]
      rw [hf]
      simp only [k1, k2, Option.getD_some]
      rw [if_pos]
      rw [Bool.not_eq_true', ← Bool.not_eq_true, valid_iff]
      rintro ⟨_, a, rest, _, e, hr⟩
      have e := congrArg List.getLast? e
      apply ht _ hr
      unfold lower
      rw [List.getLast?_map]
      cases rest with
      | nil => simp at e
      | cons x rest =>
        have : (x :: rest).getLast? = some '>' := by simpa using e.symm
        rw [this]
        rfl

/-- Nor are recipients in a domain of two parts or more before the known ending. -/
theorem C138_subdomain_violated (E : Engine) (tlds : List Str) (user a domain sender : Str) (h1 : user ≠ []) (h2 : '@' ∉ user) (h3 : '.' ∉ a)
    (h4 : '\n' ∉ a ++ '.' :: domain) (hd : lower domain ∉ tlds) :
    ratwareEnvelope E tlds (some (user ++ c!"@" ++ (a ++ '.' :: domain))) sender = some false := by
  obtain ⟨t, hf, k1, k2⟩ := to_find h1 h2 (show a ++ '.' :: domain ≠ [] by simp) h4
  unfold ratwareEnvelope
  split
  · rfl
  · split
    · rfl
    · simp only [Option.getD_some]
      rw [hf]
      simp only [k1, k2, Option.getD_some]
      rw [if_pos]
      rw [Bool.not_eq_true', ← Bool.not_eq_true, valid_iff]
      rintro ⟨_, a', rest, ha', e, hr⟩
      obtain ⟨rfl, rfl⟩ := until_unique e h3 ha'
      exact hd hr

example : ratwareName (fun _ _ => none) (some c!"<ABCDEFGHIJKLMNOPQRSTUVWXYZAB.joe@example.com>") (some c!"\"Joe\" <joe@example.com>") = some true ∧
    ratwareName (fun _ _ => none) (some c!"<ABCDEFGHIJKLMNOPQRSTUVWXYZAB.joe@example.com>") (some c!"\"Joe\" <jim@example.com>") = some false := by
  decide +kernel

example : ratwareEnvelope (fun _ _ => none) [c!"com"] (some c!"joe@example.com") c!"example.com.joe@spam.example" = some true ∧
    ratwareEnvelope (fun _ _ => none) [c!"com"] (some c!"joe@example.com") c!"SRS0=example.com.joe@spam.example" = some false ∧
    ratwareEnvelope (fun _ _ => none) [c!"com"] (some c!"Joe <joe@example.com>") c!"example.com.joe@spam.example" = some false := by
  decide +kernel

/-! ## C139 -/

theorem helo_iff (h : Str) : (search heloRe h).isSome ↔ ClaimsHotmail h := by
  rw [search_isSome]
  unfold heloRe ClaimsHotmail
  have pres : ∀ {b w a : Str}, Reads (alts [lit c!"from ", lit c!"HELO ", lit c!"helo="]) b w a ↔ w ∈ [c!"from ", c!"HELO ", c!"helo="] := by
    intro b w a
    exact reads_alts (l := [c!"from ", c!"HELO ", c!"helo="]) (by simp)
  have edge : ∀ b z : Str, wordAt (c!"hotmail.com".reverse ++ b) ≠ wordAt z ↔ ∀ c, z.head? = some c → isWord c = false := by
    intro b z
    have : wordAt (c!"hotmail.com".reverse ++ b) = true := rfl
    rw [this]
    cases z with
    | nil => simp [wordAt]
    | cons c z => simp [wordAt]
  constructor
  · rintro ⟨u, w, z, rfl, hr⟩
    obtain ⟨p, v, rfl, hp, hr⟩ := reads_seqs_cons.mp hr
    obtain ⟨n, v, rfl, hn, hr⟩ := reads_seqs_cons.mp hr
    obtain ⟨x, v, rfl, hx, hr⟩ := reads_seqs_cons.mp hr
    obtain ⟨rfl, hb⟩ := reads_seqs_one.mp hr
    rw [Reads.lit] at hx
    subst hx
    exact ⟨u, p, n, z, pres.mp hp, fun c hc => by simpa [nonSpace] using hn c hc, by simp, (edge _ z).mp hb⟩
  · rintro ⟨a, p, n, b, hp, hn, rfl, hb⟩
    refine ⟨a, p ++ (n ++ (c!"hotmail.com" ++ [])), b, by simp, ?_⟩
    refine reads_seqs_cons.mpr ⟨p, _, rfl, pres.mpr hp, ?_⟩
    refine reads_seqs_cons.mpr ⟨n, _, rfl, fun c hc => by simp [nonSpace, hn c hc], ?_⟩
    exact reads_seqs_cons.mpr ⟨_, _, rfl, Reads.lit.mpr rfl, reads_seqs_one.mpr ⟨rfl, (edge _ b).mpr hb⟩⟩

/-- What the two rules find, if the checks of groups and of removed headers come to an end. -/
theorem C139_hotmail_partial (hasIp genuine : Str → Bool) (m : Hotmail) (groups gated : Bool) (hg : m.groups = some groups)
    (hr : m.gated = some gated) : ∃ forged missing, hotmail hasIp genuine m = some (forged, missing) ∧
    (forged = true ↔ ∃ r, m.rcvd = some r ∧ ¬ Pickup r ∧ groups = false ∧ ¬ (∃ ip, m.ip = some ip ∧ ip ≠ [] ∧ hasIp ip = true ∧ genuine r = true) ∧
      gated = false ∧ ClaimsHotmail r) ∧
    (missing = true ↔ ∃ r, m.rcvd = some r ∧ r ≠ [] ∧ ¬ Pickup r ∧ groups = false ∧
      ¬ (∃ ip, m.ip = some ip ∧ ip ≠ [] ∧ hasIp ip = true ∧ genuine r = true) ∧
      gated = false ∧ ¬ ClaimsHotmail r ∧ ∃ f, m.from_ = some f ∧ Has c!"hotmail.com" f) := by
  obtain ⟨rcvd, from_, ip, gr, gt⟩ := m
  simp only at hg hr
  subst hg hr
  unfold hotmail
  cases rcvd with
  | none => exact ⟨false, false, rfl, by simp, by simp⟩
  | some r =>
    by_cases hb : r = []
    · subst hb
      refine ⟨false, false, rfl, ?_, by simp⟩
      simp only [Bool.false_eq_true, Option.some.injEq, exists_eq_left', false_iff]
      rintro ⟨_, _, _, _, a, p, n, b, _, _, e, _⟩
      simp at e
    · have hbl : blank (some r) = false := by cases r <;> simp_all [blank]
      simp only [hbl, Bool.false_eq_true, if_false, Option.getD_some]
      by_cases hp : Pickup r
      · rw [if_pos (show (search pickupRe r).isSome = true from (search_lit _ r).mpr hp)]
        exact ⟨false, false, rfl, by simp [hp], by simp [hp]⟩
      · rw [if_neg (show ¬ (search pickupRe r).isSome = true from fun h => hp ((search_lit _ r).mp h))]
        cases groups with
        | true => exact ⟨false, false, rfl, by simp, by simp⟩
        | false =>
          simp only
          have hip : (!blank ip && hasIp (ip.getD []) && genuine r) = true ↔ ∃ x, ip = some x ∧ x ≠ [] ∧ hasIp x = true ∧ genuine r = true := by
            cases ip with
            | none => simp [blank]
            | some x => cases x <;> simp [blank]
          by_cases hi : (!blank ip && hasIp (ip.getD []) && genuine r) = true
          · rw [if_pos hi]
            have := hip.mp hi
            refine ⟨false, false, rfl, ?_, ?_⟩
            · simp only [Bool.false_eq_true, false_iff]
              rintro ⟨_, e, _, _, h, _⟩
              cases e
              exact h this
            · simp only [Bool.false_eq_true, false_iff]
              rintro ⟨_, e, _, _, _, h, _⟩
              cases e
              exact h this
          · rw [if_neg hi]
            have hni := fun h => hi (hip.mpr h)
            cases gated with
            | true => exact ⟨false, false, rfl, by simp, by simp⟩
            | false =>
              simp only
              have hf : hasSub c!"hotmail.com" (from_.getD []) = true ↔ ∃ f, from_ = some f ∧ Has c!"hotmail.com" f := by
                rw [hasSub_iff]
                cases from_ with
                | none => simp
                | some f =>
                  simp only [Option.getD_some, Option.some.injEq, exists_eq_left']
                  constructor
                  · rintro ⟨a, b, e⟩; exact ⟨a, b, e.symm⟩
                  · rintro ⟨a, b, e⟩; exact ⟨a, b, e.symm⟩
              by_cases hc : ClaimsHotmail r
              · rw [if_pos ((helo_iff r).mpr hc)]
                exact ⟨true, false, rfl, by simp [hp, hc]; simpa using hni, by simp [hc]⟩
              · rw [if_neg (fun h => hc ((helo_iff r).mp h))]
                by_cases hh : hasSub c!"hotmail.com" (from_.getD []) = true
                · rw [if_pos hh]
                  refine ⟨false, true, rfl, by simp [hc], ?_⟩
                  simp only [true_iff]
                  exact ⟨r, rfl, hb, hp, trivial, hni, trivial, hc, hf.mp hh⟩
                · rw [if_neg hh]
                  refine ⟨false, false, rfl, by simp [hc], ?_⟩
                  simp only [Bool.false_eq_true, false_iff]
                  rintro ⟨_, _, _, _, _, _, _, _, h⟩
                  exact hh (hf.mpr h)

theorem group_iff (to : Str) : (search groupRe to).isSome ↔ GroupAddress to := by
  rw [search_isSome]
  unfold groupRe GroupAddress Has
  constructor
  · rintro ⟨u, w, z, rfl, hr⟩
    obtain ⟨p, v, rfl, hp, hr⟩ := reads_seqs_cons.mp hr
    obtain ⟨l, v, rfl, hl, hr⟩ := reads_seqs_cons.mp hr
    rw [reads_seqs_one, Reads.lit] at hr
    rw [Reads.lit] at hp
    rw [hr, hp]
    obtain ⟨k1, k2⟩ := Reads.plus.mp hl
    exact ⟨l, k1, fun c hc => by simpa [nonSpace] using k2 c hc, u, z, by simp⟩
  · rintro ⟨l, h1, h2, u, z, rfl⟩
    refine ⟨u, c!"<" ++ (l ++ c!"@groups.msn.com>"), z, by simp, ?_⟩
    refine reads_seqs_cons.mpr ⟨_, _, rfl, Reads.lit.mpr rfl, ?_⟩
    exact reads_seqs_cons.mpr ⟨l, _, rfl, Reads.plus.mpr ⟨h1, fun c hc => by simp [nonSpace, h2 c hc]⟩, reads_seqs_one.mpr (Reads.lit.mpr rfl)⟩

/-- A message to a group of MSN, with anything before the address, is never found to be forged. -/
theorem C139_evasion_violated (E : Engine) (hasIp genuine : Str → Bool) (m : Hotmail) (x : Char) (name list : Str) (mid : Option Str)
    (rcvd : List (Option Str)) (sender : Str) (hx : x ≠ '<') (hl : list ≠ []) (hs : ∀ c ∈ list, isSpace c = false)
    (hg : m.groups = msnGroups E (some (x :: name ++ c!"<" ++ list ++ c!"@groups.msn.com>")) mid rcvd sender) :
    ∀ forged missing, hotmail hasIp genuine m = some (forged, missing) → forged = false ∧ missing = false := by
  have hn : m.groups = none := by
    rw [hg]
    unfold msnGroups
    simp only
    rw [if_neg]
    · have : matchRe groupRe (x :: name ++ c!"<" ++ list ++ c!"@groups.msn.com>") = none := by
        cases hm : matchRe groupRe (x :: name ++ c!"<" ++ list ++ c!"@groups.msn.com>") with
        | none => rfl
        | some t =>
          obtain ⟨w, z, e, hr⟩ := (matchRe_isSome groupRe _).mp (by rw [hm]; rfl)
          unfold groupRe at hr
          obtain ⟨p, v, rfl, hp, hr⟩ := reads_seqs_cons.mp hr
          rw [Reads.lit] at hp
          rw [hp] at e
          injection e with e _
          exact absurd e hx
      rw [this]
    · have := (group_iff (x :: name ++ c!"<" ++ list ++ c!"@groups.msn.com>")).mpr ⟨list, hl, hs, x :: name, [], by simp⟩
      cases hm : search groupRe (x :: name ++ c!"<" ++ list ++ c!"@groups.msn.com>") with
      | none => rw [hm] at this; cases this
      | some t => simp
  intro forged missing h
  unfold hotmail at h
  split at h
  · cases h; exact ⟨rfl, rfl⟩
  · simp only at h
    split at h
    · cases h; exact ⟨rfl, rfl⟩
    · rw [hn] at h
      cases h

/-- A sender in a domain that only has `hotmail.com` in its name is taken for one of Hotmail. -/
theorem C139_substring_violated (hasIp genuine : Str → Bool) (m : Hotmail) (r user rest : Str) (hr : m.rcvd = some r) (hb : r ≠ [])
    (hp : ¬ Pickup r) (hc : ¬ ClaimsHotmail r) (hg : m.groups = some false) (ht : m.gated = some false) (hi : m.ip = none)
    (hf : m.from_ = some (user ++ c!"@not-hotmail.com." ++ rest)) : hotmail hasIp genuine m = some (false, true) := by
  obtain ⟨f, ms, e, h1, h2⟩ := C139_hotmail_partial hasIp genuine m false false hg ht
  have hf' : f = false := by
    cases f with
    | false => rfl
    | true =>
      obtain ⟨r', e', _, _, _, _, hc'⟩ := h1.mp rfl
      rw [hr] at e'
      cases e'
      exact absurd hc' hc
  have hm : ms = true := h2.mpr ⟨r, hr, hb, hp, rfl, by simp [hi], rfl, hc, _, hf, user ++ c!"@not-", c!"." ++ rest, by simp⟩
  rw [e, hf', hm]

theorem server_ways {b a : Str} {t : St} (h : Ways serverRe ⟨b, a, []⟩ t) :
    ∃ s d e, d.isDigit = true ∧ e.isDigit = true ∧ s = c!"p" ++ [d, e] ++ c!".groups.msn.com" ∧ a = c!"from mail pickup service by " ++ s ++ t.after ∧
      (∀ c, t.after.head? = some c → isWord c = false) ∧ t.get 1 = some s := by
  unfold serverRe at h
  obtain ⟨t1, q0, h⟩ := ways_seqs h
  obtain ⟨w0, a0, b0, r0, v0⟩ := ways_read q0 (NoGroup.lit _)
  obtain ⟨t2, q1, h⟩ := ways_seqs h
  obtain ⟨s, a1, b1, r1, v1⟩ := ways_group q1 ⟨NoGroup.lit _, trivial, trivial, NoGroup.lit _⟩
  have h : Ways .wordb t2 t := h
  cases h with
  | wordb hw =>
    rw [Reads.lit] at r0
    subst r0
    obtain ⟨p, v, rfl, hp, r1⟩ := reads_seqs_cons.mp r1
    obtain ⟨_, v, rfl, ⟨d, rfl, hd⟩, r1⟩ := reads_seqs_cons.mp r1
    obtain ⟨_, v, rfl, ⟨e, rfl, he⟩, r1⟩ := reads_seqs_cons.mp r1
    rw [reads_seqs_one, Reads.lit] at r1
    rw [Reads.lit] at hp
    subst r1 hp
    refine ⟨c!"p" ++ ([d] ++ ([e] ++ c!".groups.msn.com")), d, e, hd, he, by simp, ?_, ?_, ?_⟩
    · simp only at a0
      rw [a0, a1]
      simp
    · have hb : wordAt t.before = true := by rw [b1]; simp [wordAt, isWord]
      rw [hb] at hw
      intro c hc
      cases ha : t.after with
      | nil => rw [ha] at hc; cases hc
      | cons x y =>
        rw [ha] at hc hw
        injection hc with hc
        subst hc
        simpa [wordAt] using hw
    · unfold St.get
      rw [v1]
      rfl

theorem server_iff (h : Str) : (search serverRe h).isSome ↔ ∃ s, Server s h := by
  constructor
  · intro hs
    obtain ⟨t, ht⟩ := Option.isSome_iff_exists.mp hs
    obtain ⟨u, z, rfl, hw⟩ := search_ways ht
    obtain ⟨s, d, e, hd, he, h1, h2, h3, _⟩ := server_ways hw
    exact ⟨s, d, e, u, t.after, hd, he, h1, by rw [h2]; simp, h3⟩
  · rintro ⟨s, d, e, a, b, hd, he, rfl, rfl, hb⟩
    rw [search_isSome]
    refine ⟨a, c!"from mail pickup service by " ++ ((c!"p" ++ ([d] ++ ([e] ++ c!".groups.msn.com"))) ++ []), b, by simp, ?_⟩
    unfold serverRe
    refine reads_seqs_cons.mpr ⟨_, _, rfl, Reads.lit.mpr rfl, ?_⟩
    refine reads_seqs_cons.mpr ⟨_, [], rfl, ?_, reads_seqs_one.mpr ⟨rfl, ?_⟩⟩
    · refine reads_seqs_cons.mpr ⟨_, _, rfl, Reads.lit.mpr rfl, ?_⟩
      refine reads_seqs_cons.mpr ⟨[d], _, rfl, ⟨d, rfl, hd⟩, ?_⟩
      exact reads_seqs_cons.mpr ⟨[e], _, rfl, ⟨e, rfl, he⟩, reads_seqs_one.mpr (Reads.lit.mpr rfl)⟩
    · have : wordAt ((c!"p" ++ ([d] ++ ([e] ++ c!".groups.msn.com"))).reverse ++ (c!"from mail pickup service by ".reverse ++ a.reverse)) = true := by
        simp [wordAt, isWord]
      rw [this]
      cases b with
      | nil => simp [wordAt]
      | cons c b => simpa [wordAt] using hb c rfl

theorem findServer_some (rcvd : List Str) : ∃ s, findServer (rcvd.map some) = some s ∧
    ((s = [] ∧ ∀ h ∈ rcvd, ¬ ∃ s, Server s h) ∨ (s ≠ [] ∧ ∃ h ∈ rcvd, Server s h)) := by
  induction rcvd with
  | nil => exact ⟨[], rfl, Or.inl ⟨rfl, by simp⟩⟩
  | cons h rcvd ih =>
    simp only [List.map_cons, findServer]
    cases hs : search serverRe h with
    | none =>
      obtain ⟨s, e, hh⟩ := ih
      refine ⟨s, e, ?_⟩
      rcases hh with ⟨h1, h2⟩ | ⟨h1, x, hx, h2⟩
      · left
        refine ⟨h1, fun y hy => ?_⟩
        rcases List.mem_cons.mp hy with rfl | hy
        · intro hc
          have := (server_iff y).mpr hc
          rw [hs] at this
          cases this
        · exact h2 y hy
      · exact Or.inr ⟨h1, x, List.mem_cons_of_mem _ hx, h2⟩
    | some t =>
      obtain ⟨u, z, rfl, hw⟩ := search_ways hs
      obtain ⟨s, d, e, hd, he, h1, h2, h3, h4⟩ := server_ways hw
      refine ⟨s, by simp [h4], Or.inr ⟨by rw [h1]; simp, u ++ z, by simp, d, e, u, t.after, hd, he, h1, by rw [h2]; simp, h3⟩⟩

theorem group_match {list : Str} (hl : list ≠ []) (hs : ∀ c ∈ list, isSpace c = false) (ha : '@' ∉ list) :
    ∃ t, matchRe groupRe (c!"<" ++ list ++ c!"@groups.msn.com>") = some t ∧ t.get 1 = some list := by
  have h : (matchRe groupRe (c!"<" ++ list ++ c!"@groups.msn.com>")).isSome := by
    rw [matchRe_isSome]
    refine ⟨c!"<" ++ (list ++ c!"@groups.msn.com>"), [], by simp, ?_⟩
    refine reads_seqs_cons.mpr ⟨_, _, rfl, Reads.lit.mpr rfl, ?_⟩
    exact reads_seqs_cons.mpr ⟨list, _, rfl, Reads.plus.mpr ⟨hl, fun c hc => by simp [nonSpace, hs c hc]⟩, reads_seqs_one.mpr (Reads.lit.mpr rfl)⟩
  obtain ⟨t, ht⟩ := Option.isSome_iff_exists.mp h
  refine ⟨t, ht, ?_⟩
  obtain ⟨t', hw, htt⟩ := m_sound _ _ _ _ ht
  cases htt
  unfold groupRe at hw
  obtain ⟨t1, q0, hw⟩ := ways_seqs hw
  obtain ⟨w0, a0, b0, r0, v0⟩ := ways_read q0 (NoGroup.lit _)
  obtain ⟨t2, q1, hw⟩ := ways_seqs hw
  obtain ⟨l, a1, b1, r1, v1⟩ := ways_group q1 (NoGroup.plus _)
  obtain ⟨w2, a2, b2, r2, v2⟩ := ways_read (show Ways (lit c!"@groups.msn.com>") t2 t from hw) (NoGroup.lit _)
  rw [Reads.lit] at r0 r2
  subst r0 r2
  simp only at a0
  rw [a1, a2] at a0
  have e : list ++ '@' :: c!"groups.msn.com>" = l ++ '@' :: (c!"groups.msn.com>" ++ t.after) := by simpa using a0
  have hlen := congrArg List.length e
  have : list = l := by
    obtain ⟨k1, k2⟩ := Reads.plus.mp r1
    by_cases hal : '@' ∈ l
    · obtain ⟨x, y, rfl, hx⟩ := first_of hal
      rw [List.append_assoc, List.cons_append] at e
      obtain ⟨_, e'⟩ := until_unique e ha hx
      have : '@' ∈ c!"groups.msn.com>" := by rw [e']; simp
      simp at this
    · exact (until_unique e ha hal).1
  unfold St.get
  rw [v2, v1, this]
  rfl

/-- A message to a group of MSN is genuine exactly if it comes from a server of the groups, its Message-ID begins with the name of the
group, and its sender is the address of the group for returned mail. -/
theorem C139_groups_partial (E : Engine) (list mid sender : Str) (rcvd : List Str) (hl : list ≠ []) (hs : ∀ c ∈ list, isSpace c = false)
    (ha : '@' ∉ list) (hp : Plain list) (hn : list ≠ c!"notifications") :
    msnGroups E (some (c!"<" ++ list ++ c!"@groups.msn.com>")) (some mid) (rcvd.map some) sender = some true ↔
      (∃ h ∈ rcvd, ∃ s, Server s h) ∧ sender = list ++ c!"-bounce@groups.msn.com" ∧
      ∃ list' w rest, Like list list' ∧ Solid w ∧ mid = c!"<" ++ list' ++ c!"-" ++ w ++ c!"@groups.msn.com>" ++ rest := by
  obtain ⟨t, ht, hg⟩ := group_match hl hs ha
  obtain ⟨s, es, hh⟩ := findServer_some rcvd
  unfold msnGroups
  simp only
  have hsome := (group_iff (c!"<" ++ list ++ c!"@groups.msn.com>")).mpr ⟨list, hl, hs, [], [], by simp⟩
  rw [if_neg (by rw [Option.isNone_iff_eq_none]; intro h; rw [h] at hsome; cases hsome), ht]
  simp only [hg, Option.getD_some, es]
  rcases hh with ⟨rfl, hno⟩ | ⟨hne, hyes⟩
  · simp only [List.isEmpty_nil, if_true, Option.some.injEq, Bool.false_eq_true, false_iff]
    rintro ⟨⟨h, hm, hx⟩, _⟩
    exact hno h hm hx
  · rw [if_neg (by simpa using hne)]
    rw [if_neg hn, if_pos ((plain_iff list).mpr hp)]
    have key : (search (seqs [.bol, lit c!"<", dotted list, lit c!"-", plus nonSpace, lit c!"@groups.msn.com>"]) mid).isSome = true ↔
        ∃ list' w rest, Like list list' ∧ Solid w ∧ mid = c!"<" ++ list' ++ c!"-" ++ w ++ c!"@groups.msn.com>" ++ rest := by
      rw [search_isSome]
      constructor
      · rintro ⟨u, w, z, rfl, hr⟩
        obtain ⟨_, v, rfl, ⟨rfl, hu⟩, hr⟩ := reads_seqs_cons.mp hr
        obtain ⟨p, v, rfl, hp, hr⟩ := reads_seqs_cons.mp hr
        obtain ⟨l', v, rfl, hl', hr⟩ := reads_seqs_cons.mp hr
        obtain ⟨q, v, rfl, hq, hr⟩ := reads_seqs_cons.mp hr
        obtain ⟨w, v, rfl, hw, hr⟩ := reads_seqs_cons.mp hr
        rw [reads_seqs_one, Reads.lit] at hr
        rw [Reads.lit] at hp hq
        have hu : u = [] := by simpa using hu
        rw [hr, hp, hq, hu]
        obtain ⟨k1, k2⟩ := Reads.plus.mp hw
        exact ⟨l', w, z, reads_dotted.mp hl', ⟨k1, fun c hc => by simpa [nonSpace] using k2 c hc⟩, by simp⟩
      · rintro ⟨l', w, rest, h1, h2, rfl⟩
        refine ⟨[], c!"<" ++ (l' ++ (c!"-" ++ (w ++ c!"@groups.msn.com>"))), rest, by simp, ?_⟩
        refine reads_seqs_cons.mpr ⟨[], _, rfl, ⟨rfl, rfl⟩, ?_⟩
        refine reads_seqs_cons.mpr ⟨_, _, rfl, Reads.lit.mpr rfl, ?_⟩
        refine reads_seqs_cons.mpr ⟨l', _, rfl, reads_dotted.mpr h1, ?_⟩
        refine reads_seqs_cons.mpr ⟨_, _, rfl, Reads.lit.mpr rfl, ?_⟩
        exact reads_seqs_cons.mpr ⟨w, _, rfl, Reads.plus.mpr ⟨h2.1, fun c hc => by simp [nonSpace, h2.2 c hc]⟩,
          reads_seqs_one.mpr (Reads.lit.mpr rfl)⟩
    rw [← key]
    cases (search (seqs [.bol, lit c!"<", dotted list, lit c!"-", plus nonSpace, lit c!"@groups.msn.com>"]) mid).isSome with
    | false => simp
    | true =>
      obtain ⟨h, hm, hx⟩ := hyes
      simp only [Option.some.injEq, beq_iff_eq, and_true]
      exact ⟨fun e => ⟨⟨h, hm, s, hx⟩, e⟩, fun e => e.2⟩

/-- For the group of notifications, the name of the server is in the Message-ID instead. -/
theorem C139_notifications_partial (E : Engine) (mid sender s : Str) (rcvd : List Str) (hu : ∀ h ∈ rcvd, ∀ s', Server s' h → s' = s) :
    msnGroups E (some c!"<notifications@groups.msn.com>") (some mid) (rcvd.map some) sender = some true ↔
      (∃ h ∈ rcvd, Server s h) ∧ ∃ w s' rest, Solid w ∧ Like s s' ∧ mid = c!"<" ++ w ++ c!"@" ++ s' ++ rest := by
  have hs : ∀ c ∈ c!"notifications", isSpace c = false := by decide
  obtain ⟨t, ht, hg⟩ := group_match (list := c!"notifications") (by simp) hs (by simp)
  obtain ⟨s', es, hh⟩ := findServer_some rcvd
  unfold msnGroups
  simp only
  have hsome := (group_iff (c!"<" ++ c!"notifications" ++ c!"@groups.msn.com>")).mpr ⟨c!"notifications", by simp, hs, [], [], rfl⟩
  have e : c!"<notifications@groups.msn.com>" = c!"<" ++ c!"notifications" ++ c!"@groups.msn.com>" := rfl
  rw [e, if_neg (by rw [Option.isNone_iff_eq_none]; intro h; rw [h] at hsome; cases hsome), ht]
  simp only [hg, Option.getD_some, es]
  rcases hh with ⟨rfl, hno⟩ | ⟨hne, h, hm, hx⟩
  · simp only [List.isEmpty_nil, if_true, Option.some.injEq, Bool.false_eq_true, false_iff]
    rintro ⟨⟨h, hm, hx⟩, _⟩
    exact hno h hm ⟨s, hx⟩
  · have := hu h hm s' hx
    subst this
    rw [if_neg (by simpa using hne)]
    simp only [if_true, Option.some.injEq]
    rw [search_isSome]
    constructor
    · rintro ⟨u, w, z, rfl, hr⟩
      obtain ⟨_, v, rfl, ⟨rfl, hu⟩, hr⟩ := reads_seqs_cons.mp hr
      obtain ⟨p, v, rfl, hp, hr⟩ := reads_seqs_cons.mp hr
      obtain ⟨w, v, rfl, hw, hr⟩ := reads_seqs_cons.mp hr
      obtain ⟨q, v, rfl, hq, hr⟩ := reads_seqs_cons.mp hr
      rw [reads_seqs_one, reads_dotted] at hr
      rw [Reads.lit] at hp hq
      have hu : u = [] := by simpa using hu
      rw [hp, hq, hu]
      obtain ⟨k1, k2⟩ := Reads.plus.mp hw
      exact ⟨⟨h, hm, hx⟩, w, v, z, ⟨k1, fun c hc => by simpa [nonSpace] using k2 c hc⟩, hr, by simp⟩
    · rintro ⟨_, w, s'', rest, h1, h2, rfl⟩
      refine ⟨[], c!"<" ++ (w ++ (c!"@" ++ s'')), rest, by simp, ?_⟩
      refine reads_seqs_cons.mpr ⟨[], _, rfl, ⟨rfl, rfl⟩, ?_⟩
      refine reads_seqs_cons.mpr ⟨_, _, rfl, Reads.lit.mpr rfl, ?_⟩
      refine reads_seqs_cons.mpr ⟨w, _, rfl, Reads.plus.mpr ⟨h1.1, fun c hc => by simp [nonSpace, h1.2 c hc]⟩, ?_⟩
      exact reads_seqs_cons.mpr ⟨_, _, rfl, Reads.lit.mpr rfl, reads_seqs_one.mpr (reads_dotted.mpr h2)⟩

example : msnGroups (fun _ _ => none) (some c!"<list@groups.msn.com>") (some c!"<list-42@groups.msn.com>")
    [some c!"from x by y", some c!"from mail pickup service by p07.groups.msn.com with"] c!"list-bounce@groups.msn.com" = some true := by
  decide +kernel

example : hotmail (fun _ => false) (fun _ => false) ⟨some c!"from mail.hotmail.com (x) by y", none, none, some false, some false⟩ = some (true, false) ∧
    hotmail (fun _ => false) (fun _ => false) ⟨some c!"from x by y", some c!"a@hotmail.com", none, some false, some false⟩ = some (false, true) := by
  decide +kernel

/-! ## C140 -/

theorem ascii_all {P : Char → Prop} (h : ∀ n : Fin 128, P (Char.ofNat n.val)) {c : Char} (hc : c.toNat < 128) : P c := by
  have := h ⟨c.toNat, hc⟩
  simpa only [Char.ofNat_toNat] using this

theorem digit_ascii {c : Char} (h : c.isDigit = true) : c.toNat < 128 := by
  unfold Char.isDigit at h
  simp only [Bool.and_eq_true, decide_eq_true_eq, UInt32.le_iff_toNat_le] at h
  exact Nat.lt_of_le_of_lt h.2 (by decide)

theorem hexDigit_idx {c : Char} (h : c.isDigit = true ∨ c ∈ ['a', 'b', 'c', 'd', 'e', 'f']) : hexDigit c = c!"0123456789abcdef".idxOf c := by
  have hc : c.toNat < 128 := by
    rcases h with h | h
    · exact digit_ascii h
    · exact (show ∀ c ∈ ['a', 'b', 'c', 'd', 'e', 'f'], c.toNat < 128 by decide) c h
  revert h
  refine ascii_all (P := fun c => c.isDigit = true ∨ c ∈ ['a', 'b', 'c', 'd', 'e', 'f'] → hexDigit c = c!"0123456789abcdef".idxOf c) ?_ hc
  decide +kernel

theorem hexValue_hexOf (s : Str) (h : ∀ c ∈ s, c.isDigit = true ∨ c ∈ ['a', 'b', 'c', 'd', 'e', 'f']) : hexValue s = hexOf s := by
  have go : ∀ (s : Str) (n : Nat), (∀ c ∈ s, c.isDigit = true ∨ c ∈ ['a', 'b', 'c', 'd', 'e', 'f']) →
      s.foldl (fun n c => 16 * n + hexDigit c) n = n * 16 ^ s.length + hexOf s := by
    intro s
    induction s with
    | nil => intro n _; simp [hexOf]
    | cons c s ih =>
      intro n h
      simp only [List.foldl_cons, List.length_cons]
      rw [ih _ (fun x hx => h x (List.mem_cons_of_mem _ hx)), hexDigit_idx (h c (by simp))]
      show _ = n * 16 ^ (s.length + 1) + (c!"0123456789abcdef".idxOf c * 16 ^ s.length + hexOf s)
      rw [Nat.add_mul, Nat.pow_succ]
      simp only [Nat.mul_comm, Nat.mul_left_comm, Nat.mul_assoc, Nat.add_assoc]
  unfold hexValue
  rw [go s 0 h]
  simp

theorem near_iff (a : Nat) (b : Int) : near a b = true ↔ Near a b := by
  unfold near Near
  rw [decide_eq_true_eq]
  omega

theorem hex_iff (c : Char) : hex c = true ↔ c.isDigit = true ∨ c ∈ ['a', 'b', 'c', 'd', 'e', 'f'] := by
  by_cases hc : c.toNat < 128
  · exact ascii_all (P := fun c => hex c = true ↔ c.isDigit = true ∨ c ∈ ['a', 'b', 'c', 'd', 'e', 'f']) (by decide +kernel) hc
  · constructor
    · intro h
      unfold hex at h
      rw [Bool.or_eq_true, Bool.and_eq_true] at h
      rcases h with h | h
      · exact Or.inl h
      · exfalso
        have h2 : c ≤ 'f' := of_decide_eq_true h.2
        exact hc (Nat.lt_of_le_of_lt (UInt32.le_iff_toNat_le.1 (Char.le_def.1 h2)) (by decide))
    · rintro (h | h)
      · exact absurd (digit_ascii h) hc
      · exact absurd ((show ∀ c ∈ ['a', 'b', 'c', 'd', 'e', 'f'], c.toNat < 128 by decide) c h) hc

theorem outlook_ways {b a : Str} {t : St} (h : Ways outlookRe ⟨b, a, []⟩ t) : b = [] ∧ ∃ tok, OutlookId tok a ∧ t.get 1 = some tok := by
  unfold outlookRe at h
  obtain ⟨t0, q, h⟩ := ways_seqs h
  cases q with
  | bol hb =>
    refine ⟨hb, ?_⟩
    obtain ⟨t1, q0, h⟩ := ways_seqs h
    obtain ⟨w0, a0, b0, r0, v0⟩ := ways_read q0 (NoGroup.lit _)
    obtain ⟨t2, q1, h⟩ := ways_seqs h
    obtain ⟨x, a1, b1, r1, v1⟩ := ways_read q1 (NoGroup.chars _ _)
    obtain ⟨t3, q2, h⟩ := ways_seqs h
    obtain ⟨tok, a2, b2, r2, v2⟩ := ways_group q2 (NoGroup.chars _ _)
    obtain ⟨t4, q3, h⟩ := ways_seqs h
    obtain ⟨w3, a3, b3, r3, v3⟩ := ways_read q3 (NoGroup.lit _)
    obtain ⟨t5, q4, h⟩ := ways_seqs h
    obtain ⟨y, a4, b4, r4, v4⟩ := ways_read q4 (NoGroup.chars _ _)
    obtain ⟨t6, q5, h⟩ := ways_seqs h
    obtain ⟨w5, a5, b5, r5, v5⟩ := ways_read q5 (NoGroup.lit _)
    obtain ⟨t7, q6, h⟩ := ways_seqs h
    obtain ⟨z, a6, b6, r6, v6⟩ := ways_read q6 (NoGroup.chars _ _)
    obtain ⟨w7, a7, b7, r7, v7⟩ := ways_read (show Ways (lit c!"@") t7 t from h) (NoGroup.lit _)
    rw [Reads.lit] at r0 r3 r5 r7
    subst r0 r3 r5 r7
    obtain ⟨k1, k2⟩ := reads_chars.mp r1
    obtain ⟨k3, k4⟩ := reads_chars.mp r2
    obtain ⟨k5, k6⟩ := reads_chars.mp r4
    obtain ⟨k7, k8⟩ := reads_chars.mp r6
    refine ⟨tok, ⟨x, y, z, t.after, k1, k3, k5, k7, ?_, ?_⟩, ?_⟩
    · intro c hc
      rw [← hex_iff]
      simp only [List.mem_append] at hc
      rcases hc with ((hc | hc) | hc) | hc
      · exact k2 c hc
      · exact k4 c hc
      · exact k6 c hc
      · exact k8 c hc
    · simp only at a0
      rw [a0, a1, a2, a3, a4, a5, a6, a7]
      simp
    · unfold St.get
      rw [v7, v6, v5, v4, v3, v2, v1, v0]
      rfl

theorem outlook_unique {tok tok' id : Str} (h : OutlookId tok id) (h' : OutlookId tok' id) : tok = tok' := by
  obtain ⟨a, b, c, r, h1, h2, h3, h4, _, rfl⟩ := h
  obtain ⟨a', b', c', r', k1, k2, k3, k4, _, e⟩ := h'
  simp only [List.append_assoc] at e
  obtain ⟨_, e⟩ := List.append_inj e rfl
  obtain ⟨_, e⟩ := List.append_inj e (by omega)
  exact (List.append_inj e (by omega)).1

theorem outlook_find {tok id : Str} (h : OutlookId tok id) : ∃ t, search outlookRe id = some t ∧ t.get 1 = some tok := by
  have hs : (search outlookRe id).isSome := by
    obtain ⟨a, b, c, r, h1, h2, h3, h4, h5, rfl⟩ := h
    rw [search_isSome]
    have hh : ∀ x ∈ a ++ tok ++ b ++ c, hex x = true := fun x hx => (hex_iff x).mpr (h5 x hx)
    refine ⟨[], c!"<" ++ (a ++ (tok ++ (c!"$" ++ (b ++ (c!"$" ++ (c ++ c!"@")))))), r, by simp, ?_⟩
    unfold outlookRe
    refine reads_seqs_cons.mpr ⟨[], _, rfl, ⟨rfl, rfl⟩, ?_⟩
    refine reads_seqs_cons.mpr ⟨_, _, rfl, Reads.lit.mpr rfl, ?_⟩
    refine reads_seqs_cons.mpr ⟨a, _, rfl, reads_chars.mpr ⟨h1, fun x hx => hh x (by simp [hx])⟩, ?_⟩
    refine reads_seqs_cons.mpr ⟨tok, _, rfl, reads_chars.mpr ⟨h2, fun x hx => hh x (by simp [hx])⟩, ?_⟩
    refine reads_seqs_cons.mpr ⟨_, _, rfl, Reads.lit.mpr rfl, ?_⟩
    refine reads_seqs_cons.mpr ⟨b, _, rfl, reads_chars.mpr ⟨h3, fun x hx => hh x (by simp [hx])⟩, ?_⟩
    refine reads_seqs_cons.mpr ⟨_, _, rfl, Reads.lit.mpr rfl, ?_⟩
    exact reads_seqs_cons.mpr ⟨c, _, rfl, reads_chars.mpr ⟨h4, fun x hx => hh x (by simp [hx])⟩, reads_seqs_one.mpr (Reads.lit.mpr rfl)⟩
  obtain ⟨t, ht⟩ := Option.isSome_iff_exists.mp hs
  refine ⟨t, ht, ?_⟩
  obtain ⟨u, z, e, hw⟩ := search_ways ht
  obtain ⟨hu, tok', ho, hg⟩ := outlook_ways hw
  have hu : u = [] := by simpa using hu
  subst hu
  rw [e] at h
  rw [hg, outlook_unique h ho]

theorem stamp_reads {b w a : Str} : Reads stampRe b w a ↔ Dated w ∧ (a = [] ∨ a = ['\n']) := by
  unfold stampRe Dated
  constructor
  · intro hr
    obtain ⟨_, v, rfl, ⟨s, rfl, hs⟩, hr⟩ := reads_seqs_cons.mp hr
    obtain ⟨o, v, rfl, ho, hr⟩ := reads_seqs_cons.mp hr
    obtain ⟨n, v, rfl, hn, hr⟩ := reads_seqs_cons.mp hr
    obtain ⟨x1, v, rfl, h1, hr⟩ := reads_seqs_cons.mp hr
    obtain ⟨mo, v, rfl, hm, hr⟩ := reads_seqs_cons.mp hr
    obtain ⟨x2, v, rfl, h2, hr⟩ := reads_seqs_cons.mp hr
    obtain ⟨y, v, rfl, hy, hr⟩ := reads_seqs_cons.mp hr
    obtain ⟨x3, v, rfl, h3, hr⟩ := reads_seqs_cons.mp hr
    obtain ⟨hh, v, rfl, hhh, hr⟩ := reads_seqs_cons.mp hr
    obtain ⟨x4, v, rfl, h4, hr⟩ := reads_seqs_cons.mp hr
    obtain ⟨mm, v, rfl, hmm, hr⟩ := reads_seqs_cons.mp hr
    obtain ⟨x5, v, rfl, h5, hr⟩ := reads_seqs_cons.mp hr
    obtain ⟨ss, v, rfl, hss, hr⟩ := reads_seqs_cons.mp hr
    obtain ⟨x6, v, rfl, h6, hr⟩ := reads_seqs_cons.mp hr
    obtain ⟨z, v, rfl, hz, hr⟩ := reads_seqs_cons.mp hr
    obtain ⟨rest, v, rfl, hrest, hr⟩ := reads_seqs_cons.mp hr
    obtain ⟨rfl, he⟩ := reads_seqs_one.mp hr
    rw [Reads.lit] at h1 h2 h3 h4 h5 h6
    subst h1 h2 h3 h4 h5 h6
    obtain ⟨k1, k2⟩ := reads_chars.mp hm
    obtain ⟨k3, k4⟩ := Reads.plus.mp hz
    refine ⟨⟨s, o, n, mo, y, hh, mm, ss, z, rest, hs, ?_, Reads.plus.mp hn, ⟨?_, fun c hc => by simpa [nonSpace] using k2 c hc⟩, k1, Reads.plus.mp hy,
      Reads.plus.mp hhh, Reads.plus.mp hmm, Reads.plus.mp hss, ⟨k3, fun c hc => by simpa [nonSpace] using k4 c hc⟩, ?_, by simp⟩, by simpa using he⟩
    · rcases Reads.opt.mp ho with h | ⟨c, rfl, hc⟩
      · exact Or.inr (by obtain ⟨c, rfl, hc⟩ := h; exact ⟨c, rfl, by simpa [dot] using hc⟩)
      · exact Or.inl rfl
    · intro e; rw [e] at k1; cases k1
    · intro hm
      have := hrest _ hm
      cases this
  · rintro ⟨⟨s, o, n, mo, y, hh, mm, ss, z, rest, hs, ho, hn, hm, hm3, hy, hhh, hmm, hss, hz, hrest, rfl⟩, he⟩
    refine reads_seqs_cons.mpr ⟨[s], _, rfl, ⟨s, rfl, hs⟩, ?_⟩
    refine reads_seqs_cons.mpr ⟨o, _, rfl, Reads.opt.mpr ?_, ?_⟩
    · rcases ho with rfl | ⟨c, rfl, hc⟩
      · exact Or.inr rfl
      · exact Or.inl ⟨c, rfl, by simpa [dot] using hc⟩
    refine reads_seqs_cons.mpr ⟨n, _, rfl, Reads.plus.mpr hn, ?_⟩
    refine reads_seqs_cons.mpr ⟨_, _, rfl, Reads.lit.mpr rfl, ?_⟩
    refine reads_seqs_cons.mpr ⟨mo, _, rfl, reads_chars.mpr ⟨hm3, fun c hc => by simp [nonSpace, hm.2 c hc]⟩, ?_⟩
    refine reads_seqs_cons.mpr ⟨_, _, rfl, Reads.lit.mpr rfl, ?_⟩
    refine reads_seqs_cons.mpr ⟨y, _, rfl, Reads.plus.mpr hy, ?_⟩
    refine reads_seqs_cons.mpr ⟨_, _, rfl, Reads.lit.mpr rfl, ?_⟩
    refine reads_seqs_cons.mpr ⟨hh, _, rfl, Reads.plus.mpr hhh, ?_⟩
    refine reads_seqs_cons.mpr ⟨_, _, rfl, Reads.lit.mpr rfl, ?_⟩
    refine reads_seqs_cons.mpr ⟨mm, _, rfl, Reads.plus.mpr hmm, ?_⟩
    refine reads_seqs_cons.mpr ⟨_, _, rfl, Reads.lit.mpr rfl, ?_⟩
    refine reads_seqs_cons.mpr ⟨ss, _, rfl, Reads.plus.mpr hss, ?_⟩
    refine reads_seqs_cons.mpr ⟨_, _, rfl, Reads.lit.mpr rfl, ?_⟩
    refine reads_seqs_cons.mpr ⟨z, rest ++ [], by simp, Reads.plus.mpr ⟨hz.1, fun c hc => by simp [nonSpace, hz.2 c hc]⟩, ?_⟩
    refine reads_seqs_cons.mpr ⟨rest, [], rfl, fun c hc => by simpa [dot] using fun e => hrest (by rw [← e]; exact hc), ?_⟩
    exact reads_seqs_one.mpr ⟨rfl, he⟩

theorem stamp_ways {b a : Str} {t : St} (h : Ways stampRe ⟨b, a, []⟩ t) :
    ∃ w, Dated w ∧ a = w ++ t.after ∧ (t.after = [] ∨ t.after = ['\n']) ∧ t.get 0 = some w := by
  unfold stampRe at h
  obtain ⟨w, a0, b0, r0, v0⟩ := ways_group h ⟨trivial, ⟨trivial, trivial⟩, NoGroup.plus _, NoGroup.lit _, NoGroup.chars _ _, NoGroup.lit _,
    NoGroup.plus _, NoGroup.lit _, NoGroup.plus _, NoGroup.lit _, NoGroup.plus _, NoGroup.lit _, NoGroup.plus _, NoGroup.lit _,
    NoGroup.plus _, trivial, trivial⟩
  obtain ⟨h1, h2⟩ := stamp_reads.mp (show Reads stampRe b w t.after from r0)
  refine ⟨w, h1, a0, h2, ?_⟩
  unfold St.get
  rw [v0]
  rfl

/-- If the rule holds, the Message-ID is like those of Outlook, and the time in it is neither near the one in `Date` nor near the one
in the first `Received`. -/
theorem C140_outlook_partial (time : Str → Option Int) (expected : Int → Int) (mid date rcvd : Option Str)
    (h : outlook time expected mid date rcvd = some true) :
    ∃ id tok d t r, mid = some id ∧ OutlookId tok id ∧ date = some d ∧ time d = some t ∧ ¬ Near (hexOf tok) (expected t) ∧ rcvd = some r ∧
      (((¬ ∃ w, DateIn w r) ∧ ¬ Near (hexOf tok) (expected 0)) ∨ ∃ w t', DateIn w r ∧ time w = some t' ∧ ¬ Near (hexOf tok) (expected t')) := by
  unfold outlook at h
  split at h
  · cases h
  · cases hs : search outlookRe (mid.getD []) with
    | none => rw [hs] at h; cases h
    | some t =>
      obtain ⟨u, z, e, hw⟩ := search_ways hs
      obtain ⟨hu, tok, ho, hg⟩ := outlook_ways hw
      have hu : u = [] := by simpa using hu
      subst hu
      rw [hs] at h
      simp only [hg, Option.getD_some] at h
      cases mid with
      | none =>
        simp only [Option.getD_none, List.nil_append] at e
        obtain ⟨_, _, _, _, _, _, _, _, _, e'⟩ := ho
        rw [← e] at e'
        simp at e'
      | some id =>
        simp only [Option.getD_some, List.nil_append] at e
        subst e
        have hv : hexValue tok = hexOf tok := by
          obtain ⟨_, _, _, _, _, _, _, _, hh, _⟩ := ho
          exact hexValue_hexOf tok (fun c hc => hh c (by simp [hc]))
        rw [hv] at h
        cases hd : date.bind time with
        | none => rw [hd] at h; cases h
        | some d =>
          rw [hd] at h
          simp only at h
          split at h
          · cases h
          · rename_i hn
            rw [near_iff] at hn
            cases rcvd with
            | none => cases h
            | some r =>
              simp only at h
              obtain ⟨ds, rfl, hds⟩ := Option.bind_eq_some_iff.mp hd
              refine ⟨id, tok, ds, d, r, rfl, ho, rfl, hds, hn, rfl, ?_⟩
              cases hr : search stampRe r with
              | none =>
                rw [hr] at h
                left
                refine ⟨?_, fun hh => ?_⟩
                · rintro ⟨w, hw, a, b, e, hb⟩
                  have := (search_isSome stampRe r).mpr ⟨a, w, b, e, stamp_reads.mpr ⟨hw, hb⟩⟩
                  rw [hr] at this
                  cases this
                · rw [← near_iff] at hh
                  simp [hh] at h
              | some t' =>
                rw [hr] at h
                obtain ⟨u, z, rfl, hw⟩ := search_ways hr
                obtain ⟨w, k1, rfl, k3, k4⟩ := stamp_ways hw
                simp only [k4, Option.getD_some] at h
                cases ht : time w with
                | none => rw [ht] at h; cases h
                | some d' =>
                  rw [ht] at h
                  right
                  refine ⟨w, d', ⟨k1, u, t'.after, by simp, k3⟩, ht, fun hh => ?_⟩
                  rw [← near_iff] at hh
                  simp [hh] at h

/-- The rule holds if the Message-ID is like those of Outlook, and the time in it is neither near the one in `Date` nor near any in the
first `Received`. -/
theorem C140_found_partial (time : Str → Option Int) (expected : Int → Int) (id tok d r : Str) (t : Int) (ho : OutlookId tok id)
    (hd : time d = some t) (hn : ¬ Near (hexOf tok) (expected t)) (h0 : (¬ ∃ w, DateIn w r) → ¬ Near (hexOf tok) (expected 0))
    (hr : ∀ w, DateIn w r → ∃ t', time w = some t' ∧ ¬ Near (hexOf tok) (expected t')) :
    outlook time expected (some id) (some d) (some r) = some true := by
  obtain ⟨s, hs, hg⟩ := outlook_find ho
  unfold outlook
  have hb : blank (some id) = false := by
    obtain ⟨_, _, _, _, _, _, _, _, _, rfl⟩ := ho
    simp [blank]
  have hv : hexValue tok = hexOf tok := by
    obtain ⟨_, _, _, _, _, _, _, _, hh, _⟩ := ho
    exact hexValue_hexOf tok (fun c hc => hh c (by simp [hc]))
  simp only [hb, Bool.false_eq_true, if_false, Option.getD_some, hs, hg, Option.bind_some, hd, hv]
  rw [if_neg (fun h => hn ((near_iff _ _).mp h))]
  cases hx : search stampRe r with
  | none =>
    have : ¬ ∃ w, DateIn w r := by
      rintro ⟨w, hw, a, b, e, hb⟩
      have := (search_isSome stampRe r).mpr ⟨a, w, b, e, stamp_reads.mpr ⟨hw, hb⟩⟩
      rw [hx] at this
      cases this
    have := h0 this
    rw [← near_iff] at this
    simp only [Option.some.injEq, Bool.not_eq_true']
    simpa using this
  | some s' =>
    obtain ⟨u, z, rfl, hw⟩ := search_ways hx
    obtain ⟨w, k1, rfl, k3, k4⟩ := stamp_ways hw
    obtain ⟨t', ht, hf⟩ := hr w ⟨k1, u, s'.after, by simp, k3⟩
    rw [← near_iff] at hf
    simp only [k4, Option.getD_some, ht, Option.some.injEq, Bool.not_eq_true']
    simpa using hf

/-- Without a `Date` that can be read the rule never holds, however far the time in the Message-ID is from that of the receipt. -/
theorem C140_date_violated (time : Str → Option Int) (expected : Int → Int) (mid date rcvd : Option Str) (h : date.bind time = none) :
    outlook time expected mid date rcvd ≠ some true := by
  intro hh
  obtain ⟨_, _, d, t, _, _, _, rfl, ht, _⟩ := C140_outlook_partial time expected mid date rcvd hh
  rw [Option.bind_some, ht] at h
  cases h

theorem list_iff (h : Str) : (search listRe h).isSome ↔ ListAddress h := by
  rw [search_isSome]
  unfold listRe ListAddress
  have pres : ∀ {b w a : Str}, Reads (alts [.seq (lit c!"leave-") (plus nonSpace), .seq (plus nonSpace) (lit c!"-unsubscribe")]) b w a ↔
      ∃ l, Solid l ∧ (w = c!"leave-" ++ l ∨ w = l ++ c!"-unsubscribe") := by
    intro b w a
    constructor
    · rintro (⟨p, l, rfl, hp, hl⟩ | ⟨l, p, rfl, hl, hp⟩)
      · obtain ⟨k1, k2⟩ := Reads.plus.mp hl
        exact ⟨l, ⟨k1, fun c hc => by simpa [nonSpace] using k2 c hc⟩, Or.inl (by rw [Reads.lit.mp hp])⟩
      · obtain ⟨k1, k2⟩ := Reads.plus.mp hl
        exact ⟨l, ⟨k1, fun c hc => by simpa [nonSpace] using k2 c hc⟩, Or.inr (by rw [Reads.lit.mp hp])⟩
    · rintro ⟨l, hl, rfl | rfl⟩
      · exact Or.inl ⟨_, _, rfl, Reads.lit.mpr rfl, Reads.plus.mpr ⟨hl.1, fun c hc => by simp [nonSpace, hl.2 c hc]⟩⟩
      · exact Or.inr ⟨_, _, rfl, Reads.plus.mpr ⟨hl.1, fun c hc => by simp [nonSpace, hl.2 c hc]⟩, Reads.lit.mpr rfl⟩
  constructor
  · rintro ⟨u, w, z, rfl, hr⟩
    obtain ⟨p, v, rfl, hp, hr⟩ := reads_seqs_cons.mp hr
    obtain ⟨pre, v, rfl, hpre, hr⟩ := reads_seqs_cons.mp hr
    obtain ⟨q, v, rfl, hq, hr⟩ := reads_seqs_cons.mp hr
    obtain ⟨d, v, rfl, hd, hr⟩ := reads_seqs_cons.mp hr
    obtain ⟨s, v, rfl, hs, hr⟩ := reads_seqs_cons.mp hr
    obtain ⟨rfl, he⟩ := reads_seqs_one.mp hr
    rw [Reads.lit] at hp hq hs
    obtain ⟨l, hl, hpl⟩ := pres.mp hpre
    obtain ⟨k1, k2⟩ := Reads.plus.mp hd
    refine ⟨pre, l, d, u, z, by rw [hp, hq, hs]; simp, hl, ⟨k1, fun c hc => by simpa [nonSpace] using k2 c hc⟩, he, hpl⟩
  · rintro ⟨pre, l, d, a, b, rfl, hl, hd, he, hpl⟩
    refine ⟨a, c!"<mailto:" ++ (pre ++ (c!"@" ++ (d ++ (c!">" ++ [])))), b, by simp, ?_⟩
    refine reads_seqs_cons.mpr ⟨_, _, rfl, Reads.lit.mpr rfl, ?_⟩
    refine reads_seqs_cons.mpr ⟨pre, _, rfl, pres.mpr ⟨l, hl, hpl⟩, ?_⟩
    refine reads_seqs_cons.mpr ⟨_, _, rfl, Reads.lit.mpr rfl, ?_⟩
    refine reads_seqs_cons.mpr ⟨d, _, rfl, Reads.plus.mpr ⟨hd.1, fun c hc => by simp [nonSpace, hd.2 c hc]⟩, ?_⟩
    exact reads_seqs_cons.mpr ⟨_, _, rfl, Reads.lit.mpr rfl, reads_seqs_one.mpr ⟨rfl, he⟩⟩

/-- A Message-ID says nothing, exactly if the message is from a list, has had its headers removed, or has been through one of two
gateways. -/
theorem C140_usable (list rcvd : Option Str) (gated : Bool) :
    notUsable list rcvd (some gated) = some true ↔
      (∃ l, list = some l ∧ ListAddress l) ∨ gated = true ∨ ∃ r, rcvd = some r ∧ (Has c!"/CWT/DCE)" r ∨ Has c!"iPlanet Messaging Server" r) := by
  have hl : (!blank list && (search listRe (list.getD [])).isSome) = true ↔ ∃ l, list = some l ∧ ListAddress l := by
    cases list with
    | none => simp [blank]
    | some l =>
      rw [Bool.and_eq_true, Option.getD_some, list_iff]
      constructor
      · rintro ⟨_, h⟩; exact ⟨l, rfl, h⟩
      · rintro ⟨_, e, h⟩
        cases e
        refine ⟨?_, h⟩
        obtain ⟨pre, x, d, a, b, rfl, _⟩ := h
        cases a <;> simp [blank]
  unfold notUsable
  by_cases h : (!blank list && (search listRe (list.getD [])).isSome) = true
  · rw [if_pos h]
    simp [hl.mp h]
  · rw [if_neg h]
    have hn := fun x => h (hl.mpr x)
    cases gated with
    | true => simp
    | false =>
      cases rcvd with
      | none =>
        simp only [reduceCtorEq, false_iff]
        rintro (x | x | ⟨_, x, _⟩)
        · exact hn x
        · cases x
        · cases x
      | some r =>
        simp only
        by_cases h1 : (search (lit c!"/CWT/DCE)") r).isSome = true
        · rw [if_pos h1]
          simp only [true_iff]
          exact Or.inr (Or.inr ⟨r, rfl, Or.inl ((search_lit _ r).mp h1)⟩)
        · rw [if_neg h1, Option.some.injEq, search_lit]
          constructor
          · intro x; exact Or.inr (Or.inr ⟨r, rfl, Or.inr x⟩)
          · rintro (x | x | ⟨_, e, x | x⟩)
            · exact absurd x hn
            · cases x
            · cases e; exact absurd ((search_lit _ r).mpr x) h1
            · cases e; exact x

example : outlook (fun _ => some 1484208672) (fun t => (t * 23283064365387) / 10000000000000000 + 27111902) (some c!"<0000deadbeef$00000000$11111111@x>")
    (some c!"Thu, 12 Jan 2017 10:11:12 +0200") (some c!"from x by y; Thu, 12 Jan 2017 10:11:12 +0200") = some true := by
  decide +kernel

example : OutlookId c!"deadbeef" c!"<0000deadbeef$00000000$11111111@x>" :=
  ⟨c!"0000", c!"00000000", c!"11111111", c!"x>", rfl, rfl, rfl, rfl, by decide +kernel, rfl⟩

example : notUsable (some c!"<mailto:leave-me@lists.example>") none (some false) = some true ∧
    notUsable none (some c!"from x by y (iPlanet Messaging Server 5)") (some false) = some true ∧
    notUsable none (some c!"from x by y") (some false) = some false := by
  decide +kernel

end Verif.Props
