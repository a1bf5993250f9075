import Verif.Lemmas.Skip
import Verif.Props.Ipv6Re
import Verif.Props.ReceivedRe

/-!
# C150: the headers that are ignored
-/

namespace Verif.Props
open Verif Py Re Spec Received ReceivedRe
open Verif.Spec.Skip (Reading Boundary LocalHost Ignored)

theorem lower_same {c d : Char} (h : c.toLower = d) (hd : d.isLower = false) : c = d := by
  unfold Char.toLower at h
  split at h
  · rename_i hu
    exfalso
    subst h
    simp only [Char.isLower, Bool.and_eq_false_iff, decide_eq_false_iff_not, UInt32.le_iff_toNat_le] at hd hu
    simp at hd hu
    omega
  · exact h

theorem reading_same {s t : Str} (h : t.map Char.toLower = s) (hs : ∀ c ∈ s, c.isLower = false) : t = s := by
  induction t generalizing s with
  | nil => simpa using h
  | cons c t ih =>
    subst h
    simp only [List.map_cons]
    rw [← ih rfl (fun d hd => hs d (by simp only [List.map_cons]; exact List.mem_cons_of_mem _ hd)),
      ← lower_same (c := c) rfl (hs _ (by simp))]

/-- What stands before `ffff:`. -/
theorem head_reads {m : Str} (h : MappedHead m ∨ NarrowHead m) : ∃ P, m = P ++ c!"ffff:" ∧ (∀ c ∈ P, zc c) ∧ ∀ b a, Re.Reads zeroHead b P a := by
  have colon : ∀ {l : List Str}, l ≠ [] → join c!":" l ++ c!":" = after l := fun h => join_after _ h
  rcases h with h | h
  · cases h with
    | full zs h5 hz =>
      have h0 : zs ≠ [] := by rintro rfl; simp at h5
      refine ⟨after zs, ?_, after_zc hz, ?_⟩
      · rw [← colon h0]; simp
      · intro b a
        unfold zeroHead
        rw [reads_alts (by simp)]
        exact ⟨_, List.mem_cons_self .., (reads_timesVia reads_z4c _ _ _ _).2 ⟨zs, h5, fun x hx => zero_of (hz x hx), rfl⟩⟩
    | leading lo h4 hz =>
      refine ⟨c!"::" ++ after lo, ?_, ?_, ?_⟩
      · rw [join_snoc]; simp
      · intro c hc
        rcases List.mem_append.1 hc with h | h
        · exact .inr (by simpa using h)
        · exact after_zc hz c h
      · intro b a
        unfold zeroHead
        rw [reads_alts (by simp)]
        exact ⟨_, List.mem_cons_of_mem _ (List.mem_cons_self ..), _, _, rfl, Re.Reads.lit.2 rfl,
          (reads_repVia reads_z4c (by omega) _ _ _).2 ⟨lo, by omega, h4, fun x hx => zero_of (hz x hx), rfl⟩⟩
    | trailing hi h0 h4 hz =>
      refine ⟨after hi ++ c!":", ?_, ?_, ?_⟩
      · rw [← colon h0]; simp
      · intro c hc
        rcases List.mem_append.1 hc with h | h
        · exact after_zc hz c h
        · exact .inr (by simpa using h)
      · intro b a
        unfold zeroHead
        rw [reads_alts (by simp)]
        exact ⟨_, List.mem_cons_of_mem _ (List.mem_cons_of_mem _ (List.mem_cons_self ..)), _, _, rfl,
          (reads_repVia reads_z4c (by omega) _ _ _).2 ⟨hi, List.length_pos_iff.2 h0, h4, fun x hx => zero_of (hz x hx), rfl⟩, Re.Reads.lit.2 rfl⟩
    | second z lo h0 h3 hz =>
      have hzl : ∀ x ∈ lo, ZeroPart x := fun x hx => hz x (List.mem_cons_of_mem _ hx)
      refine ⟨z ++ c!"::" ++ after lo, ?_, ?_, ?_⟩
      · rw [join_snoc]; simp
      · intro c hc
        simp only [List.mem_append] at hc
        rcases hc with (h | h) | h
        · exact .inl ((hz z (by simp)).2.2 c h)
        · exact .inr (by simpa using h)
        · exact after_zc hzl c h
      · intro b a
        unfold zeroHead
        rw [reads_alts (by simp)]
        refine ⟨_, List.mem_cons_of_mem _ (List.mem_cons_of_mem _ (List.mem_cons_of_mem _ (List.mem_cons_self ..))), reads_seqs3.2 ⟨z, c!"::", after lo, rfl, ?_,
          Re.Reads.lit.2 rfl, ?_⟩⟩
        · exact (reads_z4 _ _ _).2 (zero_of (hz z (by simp)))
        · exact (reads_repVia reads_z4c (by omega) _ _ _).2 ⟨lo, List.length_pos_iff.2 h0, h3, fun x hx => zero_of (hzl x hx), rfl⟩
  · cases h with
    | two z1 z2 z h1 h2 h hs =>
      refine ⟨after [z1, z2] ++ (c!":" ++ z ++ c!":"), by simp [after], ?_, ?_⟩
      · intro c hc
        simp only [List.mem_append] at hc
        rcases hc with hc | (hc | hc) | hc
        · exact after_zc (by simpa using ⟨h1, h2⟩) c hc
        · exact .inr (by simpa using hc)
        · exact .inl (h.2.2 c hc)
        · exact .inr (by simpa using hc)
      · intro b a
        unfold zeroHead
        rw [reads_alts (by simp)]
        refine ⟨_, List.mem_cons_of_mem _ (List.mem_cons_of_mem _ (List.mem_cons_of_mem _ (List.mem_cons_of_mem _ (List.mem_cons_self ..)))), reads_seqs4.2 ⟨_, _, rfl, ?_,
          reads_seqs3.2 ⟨_, _, _, rfl, Re.Reads.lit.2 rfl, ?_, Re.Reads.lit.2 rfl⟩⟩⟩
        · exact (reads_timesVia reads_z4c _ _ _ _).2 ⟨[z1, z2], rfl, by simpa using ⟨zero_of h1, zero_of h2⟩, rfl⟩
        · obtain ⟨n, n1, n2, rfl⟩ := zero_of h
          exact (reads_zeros (by omega) _ _ _).2 ⟨n, n1, by simpa using hs, rfl⟩
    | three z1 z2 z3 h1 h2 h3 =>
      refine ⟨after [z1, z2, z3] ++ c!":0:", by simp [after], ?_, ?_⟩
      · intro c hc
        simp only [List.mem_append] at hc
        rcases hc with hc | hc
        · exact after_zc (by simpa using ⟨h1, h2, h3⟩) c hc
        · simp at hc; rcases hc with rfl | rfl | rfl <;> simp [zc]
      · intro b a
        unfold zeroHead
        rw [reads_alts (by simp)]
        refine ⟨_, List.mem_cons_of_mem _ (List.mem_cons_of_mem _ (List.mem_cons_of_mem _ (List.mem_cons_of_mem _ (List.mem_cons_of_mem _ (List.mem_cons_self ..))))), 
          reads_seqs2.2 ⟨_, _, rfl, ?_, Re.Reads.lit.2 rfl⟩⟩
        exact (reads_timesVia reads_z4c _ _ _ _).2 ⟨[z1, z2, z3], rfl, by simpa using ⟨zero_of h1, zero_of h2, zero_of h3⟩, rfl⟩

theorem of_zero {s : Str} (h : Zero s) : ZeroPart s := by
  obtain ⟨n, h1, h2, rfl⟩ := h
  exact ⟨by intro e; simp at e; omega, by simpa using h2, fun c hc => List.eq_of_mem_replicate hc⟩

theorem head_of_reads {b P a : Str} (hr : Re.Reads zeroHead b P a) : MappedHead (P ++ c!"ffff:") ∨ NarrowHead (P ++ c!"ffff:") := by
  have colon : ∀ {l : List Str}, l ≠ [] → join c!":" l ++ c!":" = after l := fun h => join_after _ h
  have zs : ∀ {l : List Str}, (∀ z ∈ l, Zero z) → ∀ z ∈ l, ZeroPart z := fun h z hz => of_zero (h z hz)
  unfold zeroHead at hr
  rw [reads_alts (by simp)] at hr
  obtain ⟨r, hm, hr⟩ := hr
  simp only [List.mem_cons, List.not_mem_nil, or_false] at hm
  rcases hm with rfl | rfl | rfl | rfl | rfl | rfl | rfl
  · obtain ⟨l, h1, h2, e⟩ := (reads_timesVia reads_z4c _ _ _ _).1 hr
    have h0 : l ≠ [] := by rintro rfl; simp at h1
    refine .inl ?_
    have := MappedHead.full l h1 (zs h2)
    rw [e]
    show MappedHead (after l ++ _)
    rw [← colon h0]
    simpa using this
  · obtain ⟨u, v, rfl, hu, hv⟩ := hr
    obtain ⟨l, h1, h1', h2, rfl⟩ := (reads_repVia reads_z4c (by omega) _ _ _).1 hv
    rw [Re.Reads.lit.1 hu]
    have := MappedHead.leading l h1' (zs h2)
    rw [join_snoc] at this
    exact .inl (by simpa [after] using this)
  · obtain ⟨u, v, rfl, hu, hv⟩ := hr
    obtain ⟨l, h1, h1', h2, rfl⟩ := (reads_repVia reads_z4c (by omega) _ _ _).1 hu
    rw [Re.Reads.lit.1 hv]
    have h0 : l ≠ [] := List.length_pos_iff.1 h1
    have := MappedHead.trailing l h0 h1' (zs h2)
    refine .inl ?_
    show MappedHead (after l ++ _ ++ _)
    rw [← colon h0]
    simpa using this
  · obtain ⟨u, v, t, rfl, hu, hv, ht⟩ := reads_seqs3.1 hr
    obtain ⟨l, h1, h1', h2, rfl⟩ := (reads_repVia reads_z4c (by omega) _ _ _).1 ht
    rw [Re.Reads.lit.1 hv]
    have := MappedHead.second u l (List.length_pos_iff.1 h1) h1' (by
      intro x hx
      rcases List.mem_cons.1 hx with rfl | hx
      · exact of_zero ((reads_z4 _ _ _).1 hu)
      · exact zs h2 x hx)
    rw [join_snoc] at this
    exact .inl (by simpa [after] using this)
  · obtain ⟨u, vts, rfl, hu, hvts⟩ := reads_seqs4.1 hr
    obtain ⟨v, t, s, rfl, hv, ht, hs⟩ := reads_seqs3.1 hvts
    obtain ⟨l, h1, h2, rfl⟩ := (reads_timesVia reads_z4c _ _ _ _).1 hu
    rw [Re.Reads.lit.1 hv, Re.Reads.lit.1 hs]
    obtain ⟨n, n1, n2, rfl⟩ := (reads_zeros (by omega) _ _ _).1 ht
    match l, h1 with
    | [z1, z2], _ =>
      have := NarrowHead.two z1 z2 (List.replicate n '0') (zs h2 z1 (by simp)) (zs h2 z2 (by simp)) (of_zero ⟨n, n1, by omega, rfl⟩) (by simpa using n2)
      exact .inr (by simpa using this)
  · obtain ⟨u, v, rfl, hu, hv⟩ := reads_seqs2.1 hr
    obtain ⟨l, h1, h2, rfl⟩ := (reads_timesVia reads_z4c _ _ _ _).1 hu
    rw [Re.Reads.lit.1 hv]
    match l, h1 with
    | [z1, z2, z3], _ =>
      have := NarrowHead.three z1 z2 z3 (zs h2 z1 (by simp)) (zs h2 z2 (by simp)) (zs h2 z3 (by simp))
      exact .inr (by simpa using this)
  · obtain ⟨u, v, rfl, hu, hv⟩ := hr
    obtain ⟨l, h1, h2, rfl⟩ := (reads_timesVia reads_z4c _ _ _ _).1 hu
    rw [Re.Reads.lit.1 hv]
    have h0 : l ≠ [] := by rintro rfl; simp at h1
    have := MappedHead.trailing l h0 (by omega) (zs h2)
    refine .inl ?_
    show MappedHead (after l ++ _ ++ _)
    rw [← colon h0]
    simpa using this

/-- The texts that `LOCALHOST` reads between `@` and `)`. -/
theorem localhost_iff {b w a : Str} : Re.Reads localhost ('@' :: b) w (')' :: a) ↔ LocalHost w := by
  unfold localhost
  rw [reads_alts (by simp)]
  constructor
  · rintro ⟨r, hm, hr⟩
    simp only [List.mem_cons, List.not_mem_nil, or_false] at hm
    rcases hm with rfl | rfl | rfl
    · obtain ⟨u, v, rfl, hu, hv⟩ := hr
      have hu' := Re.Reads.ilit.1 hu
      rcases hv with hv | rfl
      · exact .fullName (reading_append hu' (Re.Reads.ilit.1 hv))
      · rw [List.append_nil]; exact .name hu'
    · obtain ⟨_, _, rfl, ⟨rfl, _⟩, _, _, rfl, ⟨rfl, _⟩, _, _, rfl, h1, ⟨rfl, _⟩⟩ := hr
      rw [Re.Reads.lit.1 h1]
      exact .v4
    · obtain ⟨p, _, rfl, hp, v, _, rfl, hv, ⟨rfl, _⟩⟩ := hr
      have hp' : p = [] ∨ Reading c!"ipv6:" p := by
        rcases hp with hp | ⟨rfl, _⟩
        · exact .inr (Re.Reads.ilit.1 hp)
        · exact .inl rfl
      rcases hv with hv | hv
      · obtain ⟨x, y, rfl, hx, hy⟩ := hv
        rw [mapped_eq] at hx
        obtain ⟨P, t, rfl, hP, ht⟩ := hx
        rw [Re.Reads.lit.1 hy]
        have := LocalHost.mapped (m := P ++ c!"ffff:") (m' := P ++ t) hp' (head_of_reads hP) (reading_append (by
          have := hP.only only_zeroHead
          rw [List.map_congr_left (g := id) (fun c hc => by rcases this c hc with rfl | rfl <;> rfl)]; simp) (Re.Reads.ilit.1 ht))
        simpa using this
      · obtain ⟨f, hf, rfl, h1⟩ := loop6_reads.1 hv
        have := LocalHost.v6 hp' hf.1 (fun c hc => by
          have := hv.only only_loop6 c hc
          rcases this with rfl | rfl | rfl <;> rfl) h1
        simpa using this
  · intro h
    cases h with
    | name h => exact ⟨_, List.mem_cons_self .., w, [], by simp, Re.Reads.ilit.2 h, .inr rfl⟩
    | fullName h =>
      obtain ⟨u, v, rfl, hu, hv⟩ := reading_split (s := c!"localhost") (t := c!".localdomain") h
      exact ⟨_, List.mem_cons_self .., u, v, rfl, Re.Reads.ilit.2 hu, .inl (Re.Reads.ilit.2 hv)⟩
    | v4 =>
      exact ⟨_, List.mem_cons_of_mem _ (List.mem_cons_self ..), [], _, rfl, ⟨rfl, by simp [wordAt, isWord]⟩, [], _, rfl, ⟨rfl, by simp [headIn]⟩, c!"127.0.0.1", [], rfl,
        Re.Reads.lit.2 rfl, ⟨rfl, by simp [wordAt, isWord]⟩⟩
    | @v6 p f hp hf hl h1 =>
      refine ⟨_, List.mem_cons_of_mem _ (List.mem_cons_of_mem _ (List.mem_cons_self ..)), p, f.text, rfl, ?_, f.text, [], by simp, .inr ?_, ⟨rfl, by simp [headIn, ihexColon, hexColon, hex]⟩⟩
      · rcases hp with rfl | hp
        · exact .inr ⟨rfl, by simp [headIn, ihexColon, hexColon, hex]⟩
        · exact .inl (Re.Reads.ilit.2 hp)
      · exact loop6_reads.2 ⟨f, low_of hf hl, rfl, h1⟩
    | @mapped p m m' hp hm hm' =>
      obtain ⟨P, rfl, hz, hr⟩ := head_reads hm
      obtain ⟨P', t, rfl, hP', ht⟩ := reading_split hm'
      have e : P' = P := reading_same hP' (fun c hc => by rcases hz c hc with rfl | rfl <;> rfl)
      subst e
      refine ⟨_, List.mem_cons_of_mem _ (List.mem_cons_of_mem _ (List.mem_cons_self ..)), p, P' ++ t ++ c!"127.0.0.1", by simp, ?_, P' ++ t ++ c!"127.0.0.1", [], by simp,
        .inl ⟨P' ++ t, c!"127.0.0.1", rfl, ?_, Re.Reads.lit.2 rfl⟩, ⟨rfl, by simp [headIn, ihexColon, hexColon, hex]⟩⟩
      · rcases hp with rfl | hp
        · exact .inr ⟨rfl, by simp [headIn, ihexColon, hexColon, hex]⟩
        · exact .inl (Re.Reads.ilit.2 hp)
      · rw [mapped_eq]
        exact ⟨P', t, rfl, hr _ _, Re.Reads.ilit.2 ht⟩

theorem localUser_iff {h : Str} (hs : Blanks h) : (search localhostRe h).isSome = true ↔
    ∃ w u l x b rest, Skip.Word w ∧ Skip.Word u ∧ '@' ∉ u ∧ LocalHost l ∧ Reading c!" by " x ∧ Skip.Word b ∧
      h = w ++ c!" (" ++ u ++ c!"@" ++ l ++ c!")" ++ x ++ b ++ c!" (" ++ rest := by
  unfold localhostRe
  simp only [seqs, search_bol]
  constructor
  · rintro ⟨_, z, rfl, hr⟩
    simp only [reads_litSeq, reads_spSeq, reads_wordSeq] at hr
    obtain ⟨w, _, rfl, hw, c₁, _, rfl, h₁, _, rfl, u, _, rfl, hu, hr⟩ := hr
    rw [reads_litSeq] at hr
    obtain ⟨_, rfl, l, _, rfl, hl, hr⟩ := hr
    simp only [reads_litSeq, reads_spSeq, reads_ilitSeq, reads_wordSeq, Re.Reads.lit] at hr
    obtain ⟨_, rfl, c₂, _, rfl, h₂, x, _, rfl, hx, c₃, _, rfl, h₃, b, _, rfl, hb, c₄, _, rfl, h₄, rfl⟩ := hr
    obtain ⟨u0, hu⟩ := Re.Reads.plus.1 hu
    refine ⟨w, u, l, c₂ :: (x ++ [c₃]), b, z, hw, ⟨u0, fun c hc => ?_⟩, fun hc => ?_, localhost_iff.1 hl, ?_, hb, ?_⟩
    · have := hu c hc; simp at this; exact this.1
    · have := hu _ hc; simp at this
    · rw [hs c₂ (by simp) h₂, hs c₃ (by simp) h₃]
      exact reading_sp rfl (reading_append hx rfl)
    · rw [hs c₁ (by simp) h₁, hs c₄ (by simp) h₄]; simp
  · rintro ⟨w, u, l, x, b, rest, hw, hu, hat, hl, hx, hb, rfl⟩
    obtain ⟨x1, rfl, hx1⟩ := lower_lit hx
    obtain ⟨x, x2, rfl, hx', hx2⟩ := reading_split (s := c!"by") (t := c!" ") hx1
    obtain ⟨x3, rfl, hx3⟩ := lower_lit hx2
    obtain rfl : x3 = [] := by simpa using hx3
    refine ⟨w ++ ' ' :: (c!"(" ++ (u ++ (c!"@" ++ (l ++ (c!")" ++ ' ' :: (x ++ ' ' :: (b ++ ' ' :: c!"("))))))), rest, by simp, ?_⟩
    simp only [reads_litSeq, reads_spSeq, reads_wordSeq]
    refine ⟨w, _, rfl, hw, ' ', _, rfl, rfl, _, rfl, u, _, rfl, Re.Reads.plus.2 ⟨hu.1, fun c hc => ?_⟩, ?_⟩
    · have : c ≠ '@' := by rintro rfl; exact hat hc
      simp [hu.2 c hc, this]
    · rw [reads_litSeq]
      refine ⟨_, rfl, l, _, rfl, localhost_iff.2 hl, ?_⟩
      simp only [reads_litSeq, reads_spSeq, reads_ilitSeq, reads_wordSeq, Re.Reads.lit]
      exact ⟨_, rfl, ' ', _, rfl, rfl, x, _, rfl, hx', ' ', _, rfl, rfl, b, _, rfl, hb, ' ', _, rfl, rfl, rfl⟩

/-- **C150**.  The lines that are ignored are those of the list, and no others. -/
theorem C150_ignored (h : Str) (hs : ∀ c ∈ h, isSpace c = true → c = ' ') : rx.skip h = true ↔ Ignored h := by
  show skip h = true ↔ _
  unfold skip
  simp only [Bool.or_eq_true, Bool.and_eq_true, withLocal_iff, fetchmail_iff hs, bsmtp_iff, contentTech_iff hs, localUser_iff hs, avg_iff,
    from_iff, unknown_iff, authSkip_iff, unix_iff hs, amazon_iff hs, novell_iff, noName_iff, pickup_iff hs]
  constructor
  · rintro ((((((((((((((h | h) | h) | h) | h) | h) | h) | h) | h) | h) | h) | h) | h) | h) | h)
    · obtain ⟨pre, w, o, rest, h1, h2, h3, rfl⟩ := h; exact .withLocal pre w o rest h1 h2 h3
    · obtain ⟨_, pre, w, b, p, rest, h1, h2, h3, rfl⟩ := h; exact .fetchmail pre w b p rest h1 h2 h3
    · obtain ⟨hc, w, x, b, y, rest, h1, h2, h3, h4, rfl⟩ := h; exact .bsmtp w x b y rest h1 h2 h3 h4 ((hasSub_iff _ _).1 hc)
    · obtain ⟨w, v, x, b, y, rest, h1, h2, h3, h4, h5, rfl⟩ := h; exact .contentTechnologies w v x b y rest h1 h2 h3 h4 h5
    · obtain ⟨w, u, l, x, b, rest, h1, h2, h3, h4, h5, h6, rfl⟩ := h; exact .localUser w u l x b rest h1 h2 h3 h4 h5 h6
    · obtain ⟨v, w, rest, h1, h2, rfl⟩ := h; exact .avg v w rest h1 h2
    · obtain ⟨u, d, b, rest, h1, h2, h3, rfl⟩ := from_iff.1 (qmail_from h); exact .address u d b rest h1 h2 h3
    · obtain ⟨u, d, b, rest, h1, h2, h3, rfl⟩ := h; exact .address u d b rest h1 h2 h3
    · obtain ⟨rest, rfl⟩ := h; exact .unknownLocal rest
    · obtain ⟨a, b, rest, h1, h2, rfl⟩ := h; exact .auth a b rest h1 h2
    · obtain ⟨rest, rfl⟩ := h; exact .unix rest
    · obtain ⟨a, b, rest, h1, h2, rfl⟩ := h; exact .amazon a b rest h1 h2
    · obtain ⟨x, b, rest, h1, h2, h3, rfl⟩ := h; exact .groupWise x b rest h1 h2 h3
    · obtain ⟨b, rest, h1, rfl⟩ := h; exact .noName b rest h1
    · obtain ⟨b, h1, rfl⟩ := h; exact .pickup b h1
  · intro h
    cases h with
    | withLocal pre w o rest h1 h2 h3 => simp only [or_assoc]; exact .inl ⟨pre, w, o, rest, h1, h2, h3, rfl⟩
    | fetchmail pre w b p rest h1 h2 h3 =>
      simp only [or_assoc]; exact .inr (.inl ⟨(hasSub_iff _ _).2 ⟨pre ++ c!" " ++ w ++ c!" by " ++ b ++ c!" with " ++ p ++ c!" (", rest, by simp⟩, pre, w, b, p, rest, h1, h2, h3, rfl⟩)
    | bsmtp w x b y rest h1 h2 h3 h4 hc => simp only [or_assoc]; exact .inr (.inr (.inl ⟨(hasSub_iff _ _).2 hc, w, x, b, y, rest, h1, h2, h3, h4, rfl⟩))
    | contentTechnologies w v x b y rest h1 h2 h3 h4 h5 => simp only [or_assoc]; exact .inr (.inr (.inr (.inl ⟨w, v, x, b, y, rest, h1, h2, h3, h4, h5, rfl⟩)))
    | localUser w u l x b rest h1 h2 h3 h4 h5 h6 =>
      simp only [or_assoc]; exact .inr (.inr (.inr (.inr (.inl ⟨w, u, l, x, b, rest, h1, h2, h3, h4, h5, h6, rfl⟩))))
    | avg v w rest h1 h2 => simp only [or_assoc]; exact .inr (.inr (.inr (.inr (.inr (.inl ⟨v, w, rest, h1, h2, rfl⟩)))))
    | address u d b rest h1 h2 h3 => simp only [or_assoc]; exact .inr (.inr (.inr (.inr (.inr (.inr (.inr (.inl ⟨u, d, b, rest, h1, h2, h3, rfl⟩)))))))
    | unknownLocal rest => simp only [or_assoc]; exact .inr (.inr (.inr (.inr (.inr (.inr (.inr (.inr (.inl ⟨rest, rfl⟩))))))))
    | auth a b rest h1 h2 => simp only [or_assoc]; exact .inr (.inr (.inr (.inr (.inr (.inr (.inr (.inr (.inr (.inl ⟨a, b, rest, h1, h2, rfl⟩)))))))))
    | unix rest => simp only [or_assoc]; exact .inr (.inr (.inr (.inr (.inr (.inr (.inr (.inr (.inr (.inr (.inl ⟨rest, rfl⟩))))))))))
    | amazon a b rest h1 h2 =>
      simp only [or_assoc]; exact .inr (.inr (.inr (.inr (.inr (.inr (.inr (.inr (.inr (.inr (.inr (.inl ⟨a, b, rest, h1, h2, rfl⟩)))))))))))
    | groupWise x b rest h1 h2 h3 => exact .inl (.inl (.inr ⟨x, b, rest, h1, h2, h3, rfl⟩))
    | noName b rest h1 => exact .inl (.inr ⟨b, rest, h1, rfl⟩)
    | pickup b h1 => exact .inr ⟨b, h1, rfl⟩

theorem collapse_blanks : ∀ (s : Str) (p : Bool), ∀ c ∈ collapse p s, isSpace c = true → c = ' '
  | [], p => by intro c hc; simp [collapse] at hc
  | d :: s, p => by
    intro c hc hsp
    rw [collapse] at hc
    split at hc
    · split at hc
      · exact collapse_blanks s true c hc hsp
      · rcases List.mem_cons.1 hc with rfl | hc
        · rfl
        · exact collapse_blanks s true c hc hsp
    · rename_i hd
      rcases List.mem_cons.1 hc with rfl | hc
      · exact absurd hsp hd
      · exact collapse_blanks s false c hc hsp

theorem prepare_blanks {h t : Str} (hf : c!"from" <+: h) (ht : prepare h = some t) : ∀ c ∈ t, isSpace c = true → c = ' ' := by
  unfold prepare at ht
  rw [if_pos (show startsWith c!"from" h = true from List.isPrefixOf_iff_prefix.2 hf)] at ht
  simp only [Option.some.injEq] at ht
  subst ht
  intro c hc
  have h1 : c ∈ dropFrom (collapse false h) := (List.takeWhile_prefix _).subset hc
  have h2 : c ∈ collapse false h := by
    unfold dropFrom at h1
    split at h1
    · rename_i a b e
      rw [split1_spec e]
      rcases List.mem_append.1 h1 with h | h <;> simp [h]
    · exact h1
  exact collapse_blanks h false c h2

/-- **C150**.  A header of a message gives no relay if and only if what is left of it without `from` and date, with white space made
blanks, is on the list. -/
theorem C150_header (h t : Str) (hf : c!"from" <+: h) (ht : prepare h = some t) : parseReceived rx [some h] = some [] ↔ Ignored t := by
  rw [← C150_ignored t (prepare_blanks hf ht)]
  have : parseReceived rx [some h] = some ((parseHeader rx t).toList) := by
    unfold parseReceived
    simp [ht, List.filterMap_cons]
    cases parseHeader rx t <;> rfl
  rw [this]
  unfold parseHeader
  cases rx.skip t <;> simp
  split <;> simp

/-- **C150** is violated: a message that fetchmail has taken from a mailbox is ignored only if the address of the machine is given.  With
the name alone the line counts as one of a relay. -/
theorem C150_fetchmail_violated (w b p v : Str) (hw : HostName w) (hb : HostName b) (hv : HostName v) (hp : p ∈ [c!"IMAP", c!"POP3"]) :
    ∃ f, parseHeader rx (w ++ c!" by " ++ b ++ c!" with " ++ p ++ c!" (fetchmail-" ++ v ++ c!")") = some f := by
  have hpw : HostName p := by
    simp only [List.mem_cons, List.not_mem_nil, or_false] at hp
    rcases hp with rfl | rfl <;> (unfold HostName; decide)
  let ws : List Str := [w, c!"by", b, c!"with", p, c!"(fetchmail-" ++ v ++ c!")"]
  have et : w ++ c!" by " ++ b ++ c!" with " ++ p ++ c!" (fetchmail-" ++ v ++ c!")" = join [' '] ws := by simp [ws, join]
  have last : Words.Solid (c!"(fetchmail-" ++ v ++ c!")") :=
    solid_append (solid_append (by unfold Words.Solid; decide) (solid_host hv)) (by unfold Words.Solid; decide)
  have hs : ∀ x ∈ ws, Words.Solid x := by
    intro x hx
    simp only [ws, List.mem_cons, List.not_mem_nil, or_false] at hx
    rcases hx with rfl | rfl | rfl | rfl | rfl | rfl
    · exact solid_host hw
    · unfold Words.Solid; decide
    · exact solid_host hb
    · unfold Words.Solid; decide
    · exact solid_host hpw
    · exact last
  have chars : ∀ c ∈ w ++ c!" by " ++ b ++ c!" with " ++ p ++ c!" (fetchmail-" ++ v ++ c!")", hostChar c = true ∨ c ∈ c!" ()" := by
    intro c hc
    simp only [List.mem_append] at hc
    rcases hc with ((((((hc | hc) | hc) | hc) | hc) | hc) | hc) | hc
    · exact .inl (host_chars hw c hc)
    · revert c; decide
    · exact .inl (host_chars hb c hc)
    · revert c; decide
    · exact .inl (host_chars hpw c hc)
    · revert c; decide
    · exact .inl (host_chars hv c hc)
    · revert c; decide
  have pairs : ∀ {x y : Str}, (x, y) ∈ ws.zip ws.tail → (x = w ∧ y = c!"by") ∨ (x = c!"by" ∧ y = b) ∨ (x = b ∧ y = c!"with") ∨ (x = c!"with" ∧ y = p) ∨
      (x = p ∧ y = c!"(fetchmail-" ++ v ++ c!")") := by
    intro x y h
    simpa [ws] using h
  have blanks : ∀ c ∈ w ++ c!" by " ++ b ++ c!" with " ++ p ++ c!" (fetchmail-" ++ v ++ c!")", isSpace c = true → c = ' ' := by
    intro c hc hsp
    rcases chars c hc with h | h
    · rw [host_solid h] at hsp; simp at hsp
    · simp at h; rcases h with rfl | rfl | rfl
      · rfl
      · simp [isSpace] at hsp
      · simp [isSpace] at hsp
  have first : ∀ {x y : Str}, Words.Solid x → w ++ c!" by " ++ b ++ c!" with " ++ p ++ c!" (fetchmail-" ++ v ++ c!")" = x ++ ' ' :: y →
      ∃ y', y = 'b' :: y' := by
    intro x y hx e
    have := (Words.solid_cut (solid_host hw) hx (c := ' ') (d := ' ') (by decide) (by decide)
      (u := c!"by " ++ (b ++ (c!" with " ++ (p ++ (c!" (fetchmail-" ++ (v ++ c!")"))))))  (v := y) (by simpa using e)).2.2
    exact ⟨_, this.symm⟩
  have key : rx.skip (w ++ c!" by " ++ b ++ c!" with " ++ p ++ c!" (fetchmail-" ++ v ++ c!")") = false := by
    rw [Bool.eq_false_iff, ne_eq, C150_ignored _ blanks]
    intro hI
    have nothing : ∀ {c : Char}, c ∈ w ++ c!" by " ++ b ++ c!" with " ++ p ++ c!" (fetchmail-" ++ v ++ c!")" → hostChar c = false → c ∉ c!" ()" → False := by
      intro c hc h1 h2
      rcases chars c hc with h | h
      · rw [h] at h1; simp at h1
      · exact h2 h
    have lp : p.length = 4 ∧ p.map Char.toLower ≠ c!"with" := by
      simp only [List.mem_cons, List.not_mem_nil, or_false] at hp
      rcases hp with rfl | rfl <;> exact ⟨rfl, by decide⟩
    have withs : ∀ {u a q z : Str}, a.map Char.toLower = c!"with" → Words.Solid q → 5 ≤ q.length → join [' '] ws = (u ++ a) ++ ' ' :: (q ++ z) → False := by
      intro u a q z ha hq hl e
      obtain ⟨x, y, hxy⟩ := Words.adjacent hs (solid_lower ha (by unfold Words.Solid; decide)) hq (by decide) e
      have la : a.length = 4 := by simpa using congrArg List.length ha
      rcases pairs hxy with ⟨_, h⟩ | ⟨h, _⟩ | ⟨_, h⟩ | ⟨_, h⟩ | ⟨h, _⟩
      · have := congrArg List.length h; simp at this; omega
      · have := congrArg List.length h; simp at this; omega
      · have := congrArg List.length h; simp at this; omega
      · have := congrArg List.length h; simp at this; omega
      · have h1 := congrArg List.length h
        simp at h1
        obtain rfl : x = [] := List.length_eq_zero_iff.1 (by omega)
        rw [← h] at lp
        exact lp.2 (by simpa using ha)
    have none : ∀ {h : Str}, HostName h → h.count ' ' = 0 := fun h => List.count_eq_zero.2 (host_no h (by decide))
    generalize e : w ++ c!" by " ++ b ++ c!" with " ++ p ++ c!" (fetchmail-" ++ v ++ c!")" = t at hI
    cases hI with
    | withLocal pre w' o rest h1 h2 h3 =>
      obtain ⟨a, l, rfl, ha, hl⟩ := lower_cut (a := c!"with") (s := c!"local") h2
      exact withs (u := pre) (q := l) (z := o ++ c!" " ++ rest) ha (solid_lower hl (by unfold Words.Solid; decide))
        (by have := congrArg List.length hl; simp at this; omega) (by rw [← et, e]; simp)
    | fetchmail pre w' b' p' rest h1 h2 h3 =>
      have := congrArg (List.count ' ') e
      simp only [List.count_append, none hw, none hb, none hpw, none hv] at this
      simp at this
      omega
    | bsmtp w' x b' y rest h1 h2 h3 h4 hc =>
      obtain ⟨u, z, hc⟩ := hc
      rw [← e, et] at hc
      exact withs (u := u ++ c!" ") (a := c!"with") (q := c!"BSMTP") (z := z) (by decide) (by unfold Words.Solid; decide) (by decide) (by rw [← hc]; simp)
    | contentTechnologies w' v' x b' y rest h1 h2 h3 h4 h5 =>
      obtain ⟨y', h⟩ := first (x := w') h1.2 (by rw [e]; simp; rfl)
      simp at h
    | localUser w' u l x b' rest h1 h2 h3 h4 h5 h6 =>
      obtain ⟨y', h⟩ := first (x := w') h1.2 (by rw [e]; simp; rfl)
      simp at h
    | avg v' w' rest h1 h2 =>
      obtain ⟨y', h⟩ := first (x := c!"127.0.0.1") (by unfold Words.Solid; decide) (by rw [e]; simp; rfl)
      simp at h
    | address u d b' rest h1 h2 h3 => exact nothing (c := '@') (by rw [e]; simp) (by decide) (by decide)
    | unknownLocal rest => exact nothing (c := '/') (by rw [e]; simp) (by decide) (by decide)
    | auth a b' rest h1 h2 => exact nothing (c := ':') (by rw [e]; simp) (by decide) (by decide)
    | unix rest => exact nothing (c := '[') (by rw [e]; simp) (by decide) (by decide)
    | amazon a b' rest h1 h2 => exact nothing (c := ':') (by rw [e]; simp) (by decide) (by decide)
    | groupWise x b' rest h1 h2 h3 =>
      exact withs (u := x ++ c!" by " ++ b' ++ c!" ") (a := c!"with") (q := c!"Novell_GroupWise") (z := rest) (by decide) (by unfold Words.Solid; decide) (by decide)
        (by rw [← et, e]; simp)
    | noName b' rest h1 =>
      obtain ⟨x, y, hxy⟩ := Words.adjacent hs (s := c!"smtpd") (t := c!"(for") (x := ' ') (by unfold Words.Solid; decide) (by unfold Words.Solid; decide) (by decide)
        (u := c!"no.name.available by " ++ b' ++ c!" via ") (v := c!" " ++ rest) (by rw [← et, e]; simp)
      rcases pairs hxy with ⟨_, h⟩ | ⟨h, _⟩ | ⟨_, h⟩ | ⟨_, h⟩ | ⟨_, h⟩
      · simp at h
      · have := congrArg List.length h; simp at this
      · simp at h
      · exact host_no hpw (x := '(') (by decide) (by rw [← h]; simp)
      · simp at h
    | pickup b' h1 =>
      obtain ⟨y', h⟩ := first (x := c!"mail") (by unfold Words.Solid; decide) (by rw [e]; simp; rfl)
      simp at h
  unfold parseHeader
  rw [key]
  simp only [Bool.false_eq_true, if_false]
  split <;> exact ⟨_, rfl⟩

/-! ### Examples -/

instance (w : Str) : Decidable (Skip.Word w) := by unfold Skip.Word; infer_instance

instance (s t : Str) : Decidable (Reading s t) := by unfold Reading; infer_instance

/-- The examples in the comments of the parser. -/
example : Ignored c!"root by server6.seinternal.com with local-spamexperts-generated (Exim 4.80) id 1abp1W-0007Xm-KO" :=
  .withLocal c!"root by server6.seinternal.com " c!"with local" c!"-spamexperts-generated" _
    (by intro c hc; simp at hc; subst hc; decide) (by decide +kernel)
    (.inr ⟨c!"spamexperts-generated", by decide +kernel, rfl⟩)

example : Ignored c!"cabbage.jmason.org [127.0.0.1] by localhost with IMAP (fetchmail-5.9.0) for jm@localhost (single-drop)" :=
  .fetchmail c!"cabbage.jmason.org" c!"[127.0.0.1]" c!"localhost" c!"IMAP" _ (by decide +kernel) (by decide +kernel) (by decide +kernel)

example : Ignored c!"faerber.muc.de by slarti.muc.de with BSMTP (rsmtp-qm) for asrg@ietf.org" :=
  .bsmtp c!"faerber.muc.de" c!" by " c!"slarti.muc.de" c!" with BSMTP" c!" (rsmtp-qm) for asrg@ietf.org" (by decide +kernel) (by decide +kernel) (by decide +kernel)
    (by decide +kernel) (by decide +kernel)

example : Ignored c!"scv3.apple.com (scv3.apple.com) by mailgate2.apple.com (Content Technologies SMTPRS 4.2.1) with ESMTP" :=
  .contentTechnologies c!"scv3.apple.com" c!"scv3.apple.com" c!" by " c!"mailgate2.apple.com" c!" (Content Technologies " _ (by decide +kernel) (by decide +kernel)
    (by decide +kernel) (by decide +kernel) (by decide +kernel)

example : Ignored c!"raptor.research.att.com (bala@IPv6:::1) by raptor.research.att.com (SGI-8.9.3/8.8.7) with ESMTP id KAA14788" :=
  .localUser c!"raptor.research.att.com" c!"bala" _ c!" by " c!"raptor.research.att.com" _ (by decide +kernel) (by decide +kernel) (by decide +kernel)
    (.v6 (p := c!"IPv6:") (f := .short [] [c!"1"]) (.inr (by decide +kernel)) (by decide +kernel) (by decide +kernel) (by decide +kernel)) (by decide +kernel) (by decide +kernel)

example : LocalHost c!"0::0:FFFF:127.0.0.1" :=
  .mapped (p := []) (m := c!"0::0:ffff:") (m' := c!"0::0:FFFF:") (.inl rfl) (.inl (.second c!"0" [c!"0"] (by decide) (by decide) (by decide +kernel))) (by decide +kernel)

/-- The line with the address is ignored, the one without it is not. -/
example : rx.skip c!"pop.example.org [192.0.2.1] by localhost with POP3 (fetchmail-6.3.2)" = true :=
  (C150_ignored _ (by decide +kernel)).2
    (.fetchmail c!"pop.example.org" c!"[192.0.2.1]" c!"localhost" c!"POP3" _ (by decide +kernel) (by decide +kernel) (by decide +kernel))

example : ∃ f, parseHeader rx c!"pop.example.org by localhost with POP3 (fetchmail-6.3.2)" = some f :=
  C150_fetchmail_violated c!"pop.example.org" c!"localhost" c!"POP3" c!"6.3.2" (by unfold HostName; decide +kernel) (by unfold HostName; decide +kernel)
    (by unfold HostName; decide +kernel) (by simp)

example : parseReceived rx [some c!"from Unknown/Local ([?.?.?.?])\tby mailcity.com; Fri, 17 Jan 2003 15:23:29 -0000"] = some [] :=
  (C150_header _ c!"Unknown/Local ([?.?.?.?]) by mailcity.com" ⟨_, rfl⟩ (by decide +kernel)).2 (.unknownLocal _)

end Verif.Props
