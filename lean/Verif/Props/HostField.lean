import Verif.Lemmas.Rdns
import Verif.Props.Fields

/-!
# C152: the name of the host in a `Received` header
-/

namespace Verif.Props
open Verif Py Re Spec Received ReceivedRe
open Verif.Spec.Fields

/-- One step of a chain of tests. -/
theorem firstOf_if {h v x y : Str} {S : Str → Str → Prop} {l : List (Str → Str → Prop)} {c : Prop} [Decidable c]
    (hS : ∀ v, S h v ↔ c ∧ x = v) (hl : FirstOf h l v ↔ y = v) : FirstOf h (S :: l) v ↔ (if c then x else y) = v := by
  show S h v ∨ (∀ u, ¬ S h u) ∧ FirstOf h l v ↔ _
  rw [hl]
  by_cases hc : c
  · rw [if_pos hc, hS]
    constructor
    · rintro (⟨_, e⟩ | ⟨hn, _⟩)
      · exact e
      · exact absurd ((hS x).2 ⟨hc, rfl⟩) (hn x)
    · intro e; exact .inl ⟨hc, e⟩
  · rw [if_neg hc]
    constructor
    · rintro (h1 | ⟨_, e⟩)
      · exact absurd ((hS v).1 h1).1 hc
      · exact e
    · intro e
      exact .inr ⟨fun u hu => hc ((hS u).1 hu).1, e⟩

/-- Without the expressions that can no longer match. -/
theorem rdnsFirst_eq {h : Str} (hb : Blanks h) : rdnsFirst h =
    if isMatch heloRe7 h then (if (field heloRe7 1 h).getD [] = c!"softdnserr" then [] else (field heloRe7 1 h).getD [])
    else if isMatch heloRe5 h then (if hasSub c!"(Scalix SMTP Relay" h then [] else (field heloRe5 0 h).getD [])
    else if isMatch heloRe4 h && !hasSub c!"Exim" h then []
    else if isMatch headerRe h then []
    else if isMatch rdnsRe2 h then (field rdnsRe2 0 h).getD []
    else if isMatch rdnsRe3 h then []
    else if isMatch rdnsRe4 h && !hasSub c!"Exim" h then []
    else (field rdnsRe 0 h).getD [] := by
  have d1 : isMatch heloRe5 h = false → isMatch rdnsSmtp h = false := by
    intro h5
    cases hm : isMatch rdnsSmtp h with
    | false => rfl
    | true => rw [smtp_dead hm] at h5; simp at h5
  have d2 : isMatch heloRe4 h = false → isMatch rdnsSmtp1 h = false := by
    intro h4'
    cases hm : isMatch rdnsSmtp1 h with
    | false => rfl
    | true =>
      obtain ⟨w, s, a, rest, hw, hs, ha, c, hc, e⟩ := smtp1_dead hm
      have : c = ' ' := hb c (by rw [e]; simp) hc
      subst this
      have hB : ∃ v, Bracketed h v := by
        have hs' := (maySp_iff (fun c hc => hb c (by rw [e]; simp [hc]))).1 hs
        by_cases hx : ∃ u, w = '(' :: u ∧ u ≠ []
        · obtain ⟨u, rfl, hu⟩ := hx
          exact ⟨u, '(' :: u, c!"(", s, a, rest, hw, .inr rfl, hs', ha, by rw [e], .inl ⟨rfl, hu⟩⟩
        · refine ⟨w, w, c!"(", s, a, rest, hw, .inr rfl, hs', ha, by rw [e], .inr ⟨rfl, fun u hu => ?_⟩⟩
          apply Classical.byContradiction
          intro h0
          exact hx ⟨u, hu, h0⟩
      obtain ⟨v, hv⟩ := hB
      rw [(isMatch_iff (by simp [heloRe4, seqs, Sets, word])).2 ⟨v, (helo4_field hb).2 hv⟩] at h4'
      simp at h4'
  have d3 : isMatch headerRe h = false → isMatch rdnsRe1 h = false := by
    intro h4'
    cases hm : isMatch rdnsRe1 h with
    | false => rfl
    | true => rw [rdns1_dead hb hm] at h4'; simp at h4'
  unfold rdnsFirst
  cases h7 : isMatch heloRe7 h with
  | true => simp
  | false =>
  cases h5 : isMatch heloRe5 h with
  | true => simp
  | false =>
  rw [d1 h5]
  cases h4' : isMatch heloRe4 h with
  | false =>
    rw [d2 h4']
    cases hh : isMatch headerRe h with
    | true => simp
    | false => rw [d3 hh]; simp
  | true =>
    cases he : hasSub c!"Exim" h with
    | false => simp
    | true =>
      cases hh : isMatch headerRe h with
      | true => simp
      | false => rw [d3 hh]; simp

theorem rdnsFirst_iff {h u : Str} (hb : Blanks h) :
    FirstOf h [NamedHost, BeforeAddress, NotExim Bracketed, OnlyAddress, Glued, Served, NotExim WithPort, FirstWord] u ↔ rdnsFirst h = u := by
  rw [rdnsFirst_eq hb]
  have hx : (hasSub c!"Exim" h = true) ↔ c!"Exim" <:+: h := hasSub_iff _ _
  refine firstOf_cons (fun x => if x = c!"softdnserr" then [] else x) ?_ (isMatch_iff (by simp [heloRe7, seqs, Sets, word])) ?_
  · intro v
    constructor
    · rintro ⟨x, hx, e⟩
      obtain ⟨w, h1, h2⟩ := (helo7_host hb).1 hx
      exact ⟨w, x, h1, h2, e⟩
    · rintro ⟨w, x, h1, h2, e⟩
      exact ⟨x, (helo7_host hb).2 ⟨w, h1, h2⟩, e⟩
  refine firstOf_cons (fun w => if hasSub c!"(Scalix SMTP Relay" h then [] else w) ?_ (isMatch_iff (by simp [heloRe5, seqs, Sets, word])) ?_
  · intro v
    have hsc : (hasSub c!"(Scalix SMTP Relay" h = true) ↔ c!"(Scalix SMTP Relay" <:+: h := hasSub_iff _ _
    constructor
    · rintro ⟨w, hw, e⟩
      refine ⟨w, (helo5_field hb).1 hw, ?_⟩
      by_cases hc : hasSub c!"(Scalix SMTP Relay" h = true
      · exact .inl ⟨hsc.1 hc, by simpa [hc] using e⟩
      · exact .inr ⟨fun h1 => hc (hsc.2 h1), by simpa [hc] using e⟩
    · rintro ⟨w, hw, e⟩
      refine ⟨w, (helo5_field hb).2 hw, ?_⟩
      rcases e with ⟨h1, rfl⟩ | ⟨h1, rfl⟩
      · simp [hsc.2 h1]
      · have : hasSub c!"(Scalix SMTP Relay" h = false := by
          cases hc : hasSub c!"(Scalix SMTP Relay" h with
          | false => rfl
          | true => exact absurd (hsc.1 hc) h1
        simp [this]
  have exim : ∀ {r : Re} {n : Nat} {S : Str → Str → Prop}, Sets n r → (∀ v, field r n h = some v ↔ S h v) → ∀ v,
      NotExim S h v ↔ ((isMatch r h && !hasSub c!"Exim" h) = true) ∧ [] = v := by
    intro r n S hr hS v
    rw [Bool.and_eq_true, Bool.not_eq_true', ← Bool.not_eq_true, hx, isMatch_iff hr]
    simp only [hS]
    constructor
    · rintro ⟨h1, h2, rfl⟩; exact ⟨⟨h1, h2⟩, rfl⟩
    · rintro ⟨⟨h1, h2⟩, rfl⟩; exact ⟨h1, h2, rfl⟩
  refine firstOf_if (exim (n := 0) (by simp [heloRe4, seqs, Sets, word]) fun v => helo4_field hb) ?_
  refine firstOf_if (fun v => ?_) ?_
  · rw [header_match hb]
    constructor
    · rintro ⟨o, s, a, s', o', rest, h1, h2, h3, h4', h5, h6, rfl⟩
      exact ⟨⟨o, s, a, s', o', rest, h1, h2, h3, h4', h5, h6, rfl⟩, rfl⟩
    · rintro ⟨h1, rfl⟩
      exact h1
  refine firstOf_cons id (some_id fun v => rdns2_field hb) (isMatch_iff (by simp [rdnsRe2, seqs, Sets, word])) ?_
  refine firstOf_if (fun v => ?_) ?_
  · rw [rdns3_match hb]
    exact ⟨fun ⟨h1, h2⟩ => ⟨h1, h2.symm⟩, fun ⟨h1, h2⟩ => ⟨h1, h2.symm⟩⟩
  refine firstOf_if (exim (n := 1) (by simp [rdnsRe4, seqs, Sets, word]) fun v => rdns4_field hb) ?_
  show FirstWord h u ∨ (∀ u, ¬ FirstWord h u) ∧ u = [] ↔ _
  cases hf : field rdnsRe 0 h with
  | none =>
    have hn : ∀ u, ¬ FirstWord h u := fun u hu => by rw [← rdns_field hb, hf] at hu; simp at hu
    simp [hn, eq_comm]
  | some w =>
    have hw := (rdns_field hb).1 hf
    constructor
    · rintro (h1 | ⟨h1, _⟩)
      · rw [← rdns_field hb, hf] at h1; simpa using h1
      · exact absurd hw (h1 w)
    · intro e
      simp at e
      exact .inl (e ▸ hw)

open Classical in
/-- The name of the host of a line whose only white space are blanks. -/
theorem C152_rdns {h v : Str} (hs : ∀ c ∈ h, isSpace c = true → c = ' ') : Rdns h v ↔ rx.rdns h = v := by
  show Rdns h v ↔ getRdns h = v
  have hb : Blanks h := hs
  have hu : (hasSub c!"(Postfix)" h && isMatch unknownRdns h) = true ↔ PostfixUnknown h := by
    rw [Bool.and_eq_true, unknown_match hb]
    have : (hasSub c!"(Postfix)" h = true) ↔ c!"(Postfix)" <:+: h := hasSub_iff _ _
    rw [this]
    exact Iff.rfl
  have key : ∀ u, rdnsFirst h = u → getRdns h = if PostfixUnknown h ∨ Unusable u then [] else stripChars c!"[]" u := by
    rintro u hu'
    unfold getRdns
    rw [hu']
    by_cases hp : PostfixUnknown h
    · rw [if_pos (.inl hp)]
      have hp' := hu.2 hp
      have hf := unknown_field (by rw [Bool.and_eq_true] at hp'; exact hp'.2)
      simp only []
      rw [if_pos hp', hf]
      decide +kernel
    · have hp' : (hasSub c!"(Postfix)" h && isMatch unknownRdns h) = false := by
        rw [← Bool.not_eq_true, hu]; exact hp
      rw [hp']
      simp only [hp, false_or, Bool.false_eq_true, if_false]
      have none_nil : isMatch rdnsIp [] = false := by decide +kernel
      by_cases h1 : '@' ∈ u
      · rw [if_pos (show Unusable u from .inl h1), if_pos (show u.contains '@' = true by simpa using h1), none_nil]
        decide +kernel
      · rw [if_neg (show ¬ u.contains '@' = true by simpa using h1)]
        by_cases h2 : isMatch rdnsIp u = true
        · rw [if_pos (show Unusable u from .inr (.inl (rdnsIp_match.1 h2))), if_pos h2]
          decide +kernel
        · rw [if_neg h2]
          have hk : (hasSub c!"unknown" u || u == c!"UnknownHost") = true ↔ c!"unknown" <:+: u ∨ u = c!"UnknownHost" := by
            rw [Bool.or_eq_true, beq_iff_eq]
            have : (hasSub c!"unknown" u = true) ↔ c!"unknown" <:+: u := hasSub_iff _ _
            rw [this]
          by_cases h3 : (hasSub c!"unknown" u || u == c!"UnknownHost") = true
          · rw [if_pos h3, if_pos (show Unusable u from .inr (.inr (hk.1 h3)))]
            decide +kernel
          · rw [if_neg h3, if_neg]
            rintro (h | h | h)
            · exact h1 h
            · exact h2 (rdnsIp_match.2 h)
            · exact h3 (hk.2 h)
  constructor
  · rintro ⟨u, h1, h2⟩
    rw [key u ((rdnsFirst_iff hb).1 h1)]
    rcases h2 with ⟨h2, rfl⟩ | ⟨h2, rfl⟩
    · rw [if_pos h2]
    · rw [if_neg h2]
  · intro e
    refine ⟨rdnsFirst h, (rdnsFirst_iff hb).2 rfl, ?_⟩
    rw [key _ rfl] at e
    by_cases h2 : PostfixUnknown h ∨ Unusable (rdnsFirst h)
    · rw [if_pos h2] at e; exact .inl ⟨h2, e.symm⟩
    · rw [if_neg h2] at e; exact .inr ⟨h2, e.symm⟩

/-- The name of the host that is remembered for a header `from …`. -/
theorem C152_header (h t v : Str) (f : Fields) (hf : c!"from" <+: h) (ht : prepare h = some t) (hx : ¬ c!"X-ORIGINATING-IP" <+: t)
    (hp : parseReceived rx [some h] = some [f]) : Rdns t v ↔ f.rdns = v := by
  rw [C152_rdns (prepare_blanks hf ht), read_header ht hx hp]

/-- Every line has exactly one name of a host. -/
theorem C152_unique (h u v : Str) (hs : ∀ c ∈ h, isSpace c = true → c = ' ') (hu : Rdns h u) (hv : Rdns h v) : u = v :=
  ((C152_rdns hs).1 hu).symm.trans ((C152_rdns hs).1 hv)

set_option maxRecDepth 8000 in
example : Rdns c!"mail.sample.org (HELO client.sample.net) (192.0.2.7) by mx.sample.com with SMTP" c!"mail.sample.org" :=
  (C152_rdns (by decide +kernel)).2 (by decide +kernel)

set_option maxRecDepth 8000 in
example : Rdns c!"client.sample.net (mail.sample.org [192.0.2.7]) by mx.sample.com (Postfix) with ESMTP" c!"mail.sample.org" :=
  (C152_rdns (by decide +kernel)).2 (by decide +kernel)

set_option maxRecDepth 8000 in
example : Rdns c!"client.sample.net ([192.0.2.7]) by mx.sample.com with Microsoft SMTPSVC(5.0.2195.6713)" [] :=
  (C152_rdns (by decide +kernel)).2 (by decide +kernel)

end Verif.Props
