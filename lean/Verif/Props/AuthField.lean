import Verif.Props.ServerField
import Verif.Lemmas.Strip

/-!
# C154: the sender and the authentication in a `Received` header
-/

namespace Verif.Props
open Verif Py Re Spec Received ReceivedRe
open Verif.Spec.Fields

/-- The part after the last `=`. -/
theorem afterEquals_iff {s v : Str} : AfterEquals s v ↔ (rsplit1 '=' s).elim s Prod.snd = v := by
  cases hr : rsplit1 '=' s with
  | none =>
    have hn : '=' ∉ s := by
      intro hm
      obtain ⟨a, b, e, hb⟩ := mem_last hm
      rw [e, rsplit1_append a hb] at hr
      simp at hr
    constructor
    · rintro (⟨_, rfl⟩ | ⟨_, p, rfl⟩)
      · rfl
      · simp at hn
    · intro e; exact .inl ⟨hn, e.symm⟩
  | some p =>
    obtain ⟨a, b⟩ := p
    obtain ⟨e, hb⟩ := rsplit1_mem hr
    constructor
    · rintro (⟨hn, _⟩ | ⟨hv, p, e'⟩)
      · rw [e] at hn; simp at hn
      · rw [e', List.append_assoc] at hr
        have := rsplit1_append p hv
        rw [show p ++ (c!"=" ++ v) = p ++ '=' :: v from rfl, this] at hr
        simp at hr
        exact hr.2.symm
    · intro e'
      have e' : b = v := e'
      subst e'
      exact .inr ⟨hb, a, by rw [e]; simp⟩
where
  mem_last {c : Char} : ∀ {s : Str}, c ∈ s → ∃ a b, s = a ++ c :: b ∧ c ∉ b := by
    intro s
    induction s with
    | nil => intro h; simp at h
    | cons d s ih =>
      intro h
      by_cases hs : c ∈ s
      · obtain ⟨a, b, e, hb⟩ := ih hs
        exact ⟨d :: a, b, by rw [e]; rfl, hb⟩
      · simp [hs] at h
        exact ⟨[], s, by rw [h]; rfl, hs⟩

/-- The sender of a line whose only white space are blanks. -/
theorem C154_envfrom {h v : Str} (hs : ∀ c ∈ h, isSpace c = true → c = ' ') : Envfrom h v ↔ getEnvfrom rx h = v := by
  have hb : Blanks h := hs
  have : getEnvfrom rx h = ((field envfromRe 0 h).map fun u => (rsplit1 '=' (stripChars c!"><[]" u)).elim (stripChars c!"><[]" u) Prod.snd).getD [] := by
    unfold getEnvfrom
    have hx : rx.envfrom h = field envfromRe 0 h := rfl
    rw [hx]
    cases field envfromRe 0 h with
    | none => have h0 : rsplit1 '=' [] = none := by decide +kernel
              simp only [h0]; rfl
    | some e => simp only [Option.map_some, Option.getD_some]; cases rsplit1 '=' (stripChars c!"><[]" e) <;> rfl
  rw [this]
  refine firstOf_one fun v => ?_
  simp only [Option.map_eq_some_iff, envfrom_field hb]
  constructor
  · rintro ⟨u, h1, e⟩; exact ⟨u, h1, afterEquals_iff.2 e⟩
  · rintro ⟨u, h1, e⟩; exact ⟨u, h1, afterEquals_iff.1 e⟩

/-- How the client of a line whose only white space are blanks has proved who it is. -/
theorem C154_auth {h v : Str} (hs : ∀ c ∈ h, isSpace c = true → c = ' ') : Auth h v ↔ getAuth rx h = v := by
  have hb : Blanks h := hs
  have sub : ∀ s : Str, (hasSub s h = true) ↔ s <:+: h := fun s => hasSub_iff _ _
  have e1 : getAuth rx h = if (hasSub c!" by " h && (field authRe 0 h).isSome) then (field authRe 0 h).getD [] else
      if rx.auth3 h then c!"Postfix"
      else if hasSub c!" by mx.google.com with ESMTPS id " h then
        match rx.authVc h with
        | some (v, c) => c!"GMail - transport=" ++ v ++ c!" cipher=" ++ c
        | none => []
      else if hasSub c!"SquirrelMail authenticated " h then c!"SquirrelMail"
      else if hasSub c!"authenticated" h && rx.auth2 h then c!"CriticalPath"
      else if hasSub c!"authenticated" h then c!"Sendmail"
      else if (rx.auth4 h).isSome then (rx.auth4 h).elim [] (fun p => c!"GMX (" ++ p.2 ++ c!" / " ++ p.1 ++ c!")")
      else if rx.auth5 h then c!"Communigate" else [] := by
    unfold getAuth
    have hx : rx.auth h = field authRe 0 h := rfl
    rw [hx]
    cases rx.auth4 h <;> cases rx.authVc h <;> cases field authRe 0 h <;> cases hasSub c!" by " h <;> rfl
  rw [e1]
  refine firstOf_if (fun v => ?_) ?_
  · rw [Bool.and_eq_true, sub]
    show (_ ∧ _) ↔ _
    constructor
    · rintro ⟨h1, h2⟩
      have := (auth_name hb).2 h2
      exact ⟨⟨h1, by rw [this]; rfl⟩, by rw [this]; rfl⟩
    · rintro ⟨⟨h1, h2⟩, h3⟩
      cases hf : field authRe 0 h with
      | none => rw [hf] at h2; simp at h2
      | some a =>
        rw [hf] at h3
        simp at h3
        subst h3
        exact ⟨h1, (auth_name hb).1 hf⟩
  refine firstOf_if (fun v => ?_) ?_
  · rw [show (rx.auth3 h = true) ↔ _ from auth3_match hb, eq_comm (a := c!"Postfix")]
    exact Iff.rfl
  refine firstOf_if (fun v => ?_) ?_
  · rw [sub]
    refine and_congr_right fun _ => ?_
    show _ ↔ (match two (matchRe authVc h) 0 1 with | some (v, c) => _ | none => _) = v
    cases hv : two (matchRe authVc h) 0 1 with
    | none =>
      have hn := (vc_none hb).1 hv
      constructor
      · rintro (⟨pre, x, y, he, _⟩ | ⟨_, rfl⟩)
        · exact absurd he (hn _ _ _)
        · rfl
      · intro e; exact .inr ⟨hn, e.symm⟩
    | some p =>
      obtain ⟨x, y⟩ := p
      constructor
      · rintro (⟨pre, x', y', he, hmin, rfl⟩ | ⟨hn, _⟩)
        · have := (vc_fields hb).2 ⟨pre, he, hmin⟩
          rw [hv] at this
          simp at this
          simp [this.1, this.2]
        · rw [(vc_none hb).2 hn] at hv
          simp at hv
      · intro e
        obtain ⟨pre, he, hmin⟩ := (vc_fields hb).1 hv
        exact .inl ⟨pre, x, y, he, hmin, e.symm⟩
  refine firstOf_if (fun v => ?_) ?_
  · rw [sub, eq_comm (a := c!"SquirrelMail")]
    exact Iff.rfl
  refine firstOf_if (fun v => ?_) ?_
  · rw [Bool.and_eq_true, sub, show (rx.auth2 h = true) ↔ _ from auth2_match hb, eq_comm (a := c!"CriticalPath")]
    constructor
    · rintro ⟨⟨pre, u, rest, h1, e⟩, h2⟩
      exact ⟨⟨⟨pre ++ c!" (", c!" as " ++ u ++ c!")" ++ rest, by rw [e]; simp⟩, pre, u, rest, h1, e⟩, h2⟩
    · rintro ⟨⟨_, h1⟩, h2⟩
      exact ⟨h1, h2⟩
  refine firstOf_if (fun v => ?_) ?_
  · rw [sub, eq_comm (a := c!"Sendmail")]
    exact Iff.rfl
  refine firstOf_if (fun v => ?_) ?_
  · show _ ↔ (two (search authRe4 h) 0 3).isSome = true ∧ (two (search authRe4 h) 0 3).elim _ _ = v
    cases hv : two (search authRe4 h) 0 3 with
    | none =>
      have hn := (auth4_none hb).1 hv
      constructor
      · rintro ⟨pre, d, q, p, hg, _⟩; exact absurd hg (hn _ _ _ _)
      · rintro ⟨h1, _⟩; simp at h1
    | some y =>
      obtain ⟨x, p⟩ := y
      constructor
      · rintro ⟨pre, d, q, p', hg, hmax, rfl⟩
        have := (auth4_fields hb).2 ⟨pre, d, q, rfl, hg, hmax⟩
        rw [hv] at this
        simp at this
        simp [this.1, this.2]
      · rintro ⟨_, e⟩
        obtain ⟨pre, d, q, rfl, hg, hmax⟩ := (auth4_fields hb).1 hv
        exact ⟨pre, d, q, p, hg, hmax, by rw [← e]; simp⟩
  refine firstOf_if (fun v => ?_) eq_comm
  rw [show (rx.auth5 h = true) ↔ _ from auth5_match hb, eq_comm (a := c!"Communigate")]
  exact Iff.rfl

/-- The fields that are remembered for a header `from …`. -/
theorem C154_header (h t : Str) (f : Fields) (hf : c!"from" <+: h) (ht : prepare h = some t) (hx : ¬ c!"X-ORIGINATING-IP" <+: t)
    (hp : parseReceived rx [some h] = some [f]) (v : Str) : (Envfrom t v ↔ f.envfrom = v) ∧ (Auth t v ↔ f.auth = v) := by
  rw [C154_envfrom (prepare_blanks hf ht), C154_auth (prepare_blanks hf ht), read_header ht hx hp]
  exact ⟨Iff.rfl, Iff.rfl⟩

/-- A line that does not contain ` by ` or one of the names that servers leave has no authentication. -/
theorem C154_none (h : Str) (hs : ∀ c ∈ h, isSpace c = true → c = ' ') (h1 : ¬ c!" by " <:+: h) (h2 : ¬ c!"authenticated" <:+: h) : getAuth rx h = [] := by
  rw [← C154_auth hs]
  refine .inr ⟨?_, .inr ⟨?_, .inr ⟨?_, .inr ⟨?_, .inr ⟨?_, .inr ⟨?_, .inr ⟨?_, .inr ⟨?_, rfl⟩⟩⟩⟩⟩⟩⟩⟩
  · rintro u ⟨h', _⟩; exact h1 h'
  · rintro u ⟨⟨pre, x, s, rest, _, _, e⟩, _⟩
    exact h1 ⟨pre ++ c!") (Authenticated sender: " ++ x ++ c!")", s ++ c!" (Postfix) with " ++ rest, by rw [e]; simp⟩
  · rintro u ⟨⟨p, q, e⟩, _⟩
    exact h1 ⟨p, c!"mx.google.com with ESMTPS id " ++ q, by rw [← e]; simp⟩
  · rintro u ⟨⟨p, q, e⟩, _⟩
    exact h2 ⟨p ++ c!"SquirrelMail ", c!" " ++ q, by rw [← e]; simp⟩
  · rintro u ⟨⟨pre, x, rest, _, e⟩, _⟩
    exact h2 ⟨pre ++ c!" (", c!" as " ++ x ++ c!")" ++ rest, by rw [e]; simp⟩
  · rintro u ⟨h', _⟩; exact h2 h'
  · rintro u ⟨pre, d, q, p, ⟨rest, _, _, _, _, e⟩, _⟩
    exact h1 ⟨pre, c!"mail.gmx." ++ d ++ c!" (" ++ q ++ c!") with " ++ p ++ rest, by rw [e]; simp⟩
  · rintro u ⟨⟨pre, x, y, p, rest, _, e⟩, _⟩
    exact h1 ⟨pre ++ c!" (account " ++ x, y ++ c!" (CommuniGate Pro " ++ p ++ rest, by rw [e]; simp⟩

set_option maxRecDepth 8000 in
example : Envfrom c!"mail.sample.org (HELO a) (192.0.2.7) (envelope-sender <alice@sample.org>) by mx.sample.com with SMTP" c!"alice@sample.org" :=
  (C154_envfrom (by decide +kernel)).2 (by decide +kernel)

set_option maxRecDepth 8000 in
example : Auth c!"mail.sample.org (HELO a) (192.0.2.7) by mx.sample.com with ESMTPSA id 77" c!"ESMTPSA" :=
  (C154_auth (by decide +kernel)).2 (by decide +kernel)

set_option maxRecDepth 8000 in
example : Auth c!"mail.sample.org [192.0.2.7] by mail.gmx.net (mp035) with SMTP; Mon" c!"GMX (SMTP / mail.gmx.net)" :=
  (C154_auth (by decide +kernel)).2 (by decide +kernel)

set_option maxRecDepth 8000 in
example : Auth c!"a [192.0.2.7] by mx.google.com with ESMTPS id 7 (version=TLSv1 cipher=AES)" c!"GMail - transport=TLSv1 cipher=AES" :=
  (C154_auth (by decide +kernel)).2 (by decide +kernel)

end Verif.Props
