import Verif.Lemmas.Rest
import Verif.Props.HostField

/-!
# C153: the server, the user and the number in a `Received` header
-/

namespace Verif.Props
open Verif Py Re Spec Received ReceivedRe
open Verif.Spec.Fields

/-- The last step of a chain of tests. -/
theorem firstOf_one {h v : Str} {S : Str → Str → Prop} {o : Option Str} (hS : ∀ v, o = some v ↔ S h v) : FirstOf h [S] v ↔ o.getD [] = v := by
  show S h v ∨ (∀ u, ¬ S h u) ∧ v = [] ↔ _
  cases o with
  | none =>
    have hn : ∀ u, ¬ S h u := fun u hu => by have := (hS u).2 hu; simp at this
    simp [hn, eq_comm]
  | some w =>
    have hw := (hS w).1 rfl
    constructor
    · rintro (h1 | ⟨h1, _⟩)
      · simpa using (hS v).2 h1
      · exact absurd hw (h1 w)
    · intro e
      simp at e
      exact .inl (e ▸ hw)

/-- The server of a line whose only white space are blanks. -/
theorem C153_by {h v : Str} (hs : ∀ c ∈ h, isSpace c = true → c = ' ') : By h v ↔ rx.by_ h = v := by
  show By h v ↔ getBy h = v
  have hb : Blanks h := hs
  unfold getBy By
  refine firstOf_cons id (some_id fun v => rdns3_field hb) (isMatch_iff (by simp [rdnsRe3, seqs, Sets, word])) ?_
  exact firstOf_one fun v => by_name hb

/-- The user. -/
theorem C153_ident {h v : Str} (hs : ∀ c ∈ h, isSpace c = true → c = ' ') : Ident h v ↔ rx.ident h = v := by
  show Ident h v ↔ getIdent h = v
  have hb : Blanks h := hs
  unfold getIdent Ident
  refine firstOf_cons id (some_id fun v => ident_field hb) (isMatch_iff (by simp [identRe, seqs, Sets, word])) ?_
  refine firstOf_cons id (some_id fun v => ident2_field hb) (isMatch_iff (by simp [identRe2, seqs, Sets, word])) ?_
  exact eq_comm

/-- The number of the message. -/
theorem C153_id {h v : Str} (hs : ∀ c ∈ h, isSpace c = true → c = ' ') : Id h v ↔ rx.id_ h = v := by
  show Id h v ↔ getId h = v
  have hb : Blanks h := hs
  have : getId h = ((field idRe 0 h).map (stripChars c!"<>")).getD [] := by
    unfold getId
    cases field idRe 0 h <;> rfl
  rw [this]
  refine firstOf_one fun v => ?_
  simp only [Option.map_eq_some_iff, id_number hb]
  constructor
  · rintro ⟨u, h1, rfl⟩; exact ⟨u, h1, rfl⟩
  · rintro ⟨u, h1, rfl⟩; exact ⟨u, h1, rfl⟩

/-- The fields that are remembered for a header `from …`. -/
theorem C153_header (h t : Str) (f : Fields) (hf : c!"from" <+: h) (ht : prepare h = some t) (hx : ¬ c!"X-ORIGINATING-IP" <+: t)
    (hp : parseReceived rx [some h] = some [f]) (v : Str) : (By t v ↔ f.by_ = v) ∧ (Ident t v ↔ f.ident = v) ∧ (Id t v ↔ f.id_ = v) := by
  rw [C153_by (prepare_blanks hf ht), C153_ident (prepare_blanks hf ht), C153_id (prepare_blanks hf ht), read_header ht hx hp]
  exact ⟨Iff.rfl, Iff.rfl, Iff.rfl⟩

/-- The word after the first ` by ` is the server, when a blank follows it and the line is not `client [address] by server [address] …`. -/
theorem C153_by_partial {h pre v rest : Str} (hs : ∀ c ∈ h, isSpace c = true → c = ' ') (hn : ∀ b, ¬ ServerAddress h b)
    (e : h = pre ++ c!" by " ++ v ++ c!" " ++ rest) (hv : v ≠ []) (hc : ∀ c ∈ v, isSpace c = false) (hp : ¬ c!" by " <:+: pre ++ c!" by") : rx.by_ h = v := by
  rw [← C153_by hs]
  refine .inr ⟨hn, .inl ?_⟩
  refine ⟨pre, ⟨rest, ⟨hv, hc⟩, e⟩, ?_⟩
  rintro pre' v' ⟨rest', hw', e'⟩
  rcases Nat.lt_trichotomy pre.length pre'.length with hlen | hlen | hlen
  · exact .inl hlen
  · rw [e] at e'
    simp only [List.append_assoc] at e'
    obtain ⟨_, e1⟩ := List.append_inj e' hlen
    obtain ⟨e2, _⟩ := word_unique (v := v) (v' := v') (a := c!" " ++ rest) (a' := c!" " ++ rest') ⟨hv, hc⟩ hw' ⟨_, rfl⟩ ⟨_, rfl⟩ (List.append_cancel_left e1)
    exact .inr ⟨hlen.symm, by rw [e2]; exact Nat.le_refl _⟩
  exfalso
  apply hp
  have p1 : pre' ++ c!" by " <+: h := ⟨v' ++ c!" " ++ rest', by rw [e']; simp⟩
  have p2 : pre ++ c!" by" <+: h := ⟨c!" " ++ v ++ c!" " ++ rest, by rw [e]; simp⟩
  obtain ⟨z, hz⟩ := List.prefix_of_prefix_length_le p1 p2 (by simp; omega)
  exact ⟨pre', z, hz⟩

/-- In the line `client [address] by server [address] …` the name of the server is not what is taken for the server. -/
theorem C153_by_violated (w a s b rest : Str) (hw : w ≠ [] ∧ ∀ c ∈ w, isSpace c = false) (ha : Address a) (hsn : s ≠ [] ∧ ∀ c ∈ s, isSpace c = false)
    (hb : Address b) (hr : ∀ c ∈ rest, isSpace c = true → c = ' ') :
    rx.by_ (w ++ c!" [" ++ a ++ c!"] by " ++ s ++ c!" [" ++ b ++ c!"]" ++ rest) = b := by
  have hB : Blanks (w ++ c!" [" ++ a ++ c!"] by " ++ s ++ c!" [" ++ b ++ c!"]" ++ rest) := by
    have solid : ∀ {x : Str}, (∀ c ∈ x, isSpace c = false) → Blanks x := fun hx c hc h1 => absurd (hx c hc) (by simp [h1])
    simp only [blanks_append]
    refine ⟨⟨⟨⟨⟨⟨⟨⟨solid hw.2, ?_⟩, solid (address_solid ha).2⟩, ?_⟩, solid hsn.2⟩, ?_⟩, solid (address_solid hb).2⟩, ?_⟩, hr⟩ <;> intro c hc h1 <;> revert h1 <;>
      revert c <;> decide
  rw [← C153_by hB]
  exact .inl ⟨w, a, s, rest, hw, ha, hsn, hb, rfl⟩

/-- A server that is the last word of the line is not found, when there is no other. -/
theorem C153_by_end_violated (pre v : Str) (hs : ∀ c ∈ pre, isSpace c = true → c = ' ') (hv : ∀ c ∈ v, isSpace c = false)
    (hp : ¬ c!" by " <:+: pre ++ c!" by") : rx.by_ (pre ++ c!" by " ++ v) = [] := by
  have hB : Blanks (pre ++ c!" by " ++ v) := by
    simp only [blanks_append]
    refine ⟨⟨hs, ?_⟩, fun c hc h1 => absurd (hv c hc) (by simp [h1])⟩
    intro c hc h1; revert h1; revert c; decide
  have hcut : ∀ pre' v' rest' : Str, Skip.Word v' → pre ++ c!" by " ++ v ≠ pre' ++ c!" by " ++ v' ++ c!" " ++ rest' := by
    rintro pre' v' rest' hw' e
    have hlen : ¬ pre'.length < pre.length := by
      intro hlt
      apply hp
      have p1 : pre' ++ c!" by " <+: pre ++ c!" by " ++ v := ⟨v' ++ c!" " ++ rest', by rw [e]; simp⟩
      have p2 : pre ++ c!" by" <+: pre ++ c!" by " ++ v := ⟨c!" " ++ v, by simp⟩
      obtain ⟨z, hz⟩ := List.prefix_of_prefix_length_le p1 p2 (by simp; omega)
      exact ⟨pre', z, hz⟩
    have p3 : pre <+: pre' := by
      refine List.prefix_of_prefix_length_le (l₃ := pre ++ c!" by " ++ v) ⟨c!" by " ++ v, by simp⟩ ⟨c!" by " ++ v' ++ c!" " ++ rest', by rw [e]; simp⟩ (by omega)
    obtain ⟨z, rfl⟩ := p3
    simp only [List.append_assoc] at e
    have e1 := List.append_cancel_left e
    -- a blank that is not in ` by ` would be in the word
    have hm : ' ' ∈ v := by
      have hl := congrArg List.length e1
      have hd : v = (z ++ (c!" by " ++ (v' ++ (c!" " ++ rest')))).drop 4 := by rw [← e1]; rfl
      rw [hd]
      by_cases h4' : z.length < 4
      · have : z ++ (c!" by " ++ (v' ++ (c!" " ++ rest'))) = (z ++ (c!" by " ++ v')) ++ (c!" " ++ rest') := by simp
        rw [this, List.drop_append_of_le_length (by simp; omega)]
        simp
      · rw [List.drop_append_of_le_length (by omega)]
        simp
    have := hv ' ' hm
    simp [isSpace] at this
  rw [← C153_by hB]
  refine .inr ⟨?_, .inr ⟨?_, rfl⟩⟩
  · rintro b ⟨w, a, s, rest, hw, ha, hs', hb, e⟩
    exact hcut (w ++ c!" [" ++ a ++ c!"]") s (c!"[" ++ b ++ c!"]" ++ rest) hs' (by rw [e]; simp)
  · rintro u ⟨pre', ⟨rest, hw, e⟩, _⟩
    exact hcut pre' u rest hw e

set_option maxRecDepth 8000 in
example : By c!"mail.sample.org (HELO client.sample.net) (192.0.2.7) by mx.sample.com with SMTP id <77>" c!"mx.sample.com" :=
  (C153_by (by decide +kernel)).2 (by decide +kernel)

set_option maxRecDepth 8000 in
example : By c!"mail.sample.org [192.0.2.7] by mx.sample.com [192.0.2.9] with SMTP" c!"192.0.2.9" :=
  (C153_by (by decide +kernel)).2 (by decide +kernel)

set_option maxRecDepth 8000 in
example : Ident c!"mail.sample.org ([192.0.2.7] helo=a.sample.net ident=alice) by mx.sample.com with esmtp" c!"alice" :=
  (C153_ident (by decide +kernel)).2 (by decide +kernel)

set_option maxRecDepth 8000 in
example : Id c!"mail.sample.org (HELO client.sample.net) (192.0.2.7) by mx.sample.com with SMTP id <77>" c!"77" :=
  (C153_id (by decide +kernel)).2 (by decide +kernel)

/-- The number is what is after the last `id `, even when that is in another word. -/
theorem C153_id_violated (pre v x y : Str) (hs : ∀ c ∈ pre, isSpace c = true → c = ' ') (hv : ∀ c ∈ v, isSpace c = false) (hx : ∀ c ∈ x, isSpace c = false)
    (hy : y ≠ [] ∧ ∀ c ∈ y, isSpace c = false) :
    rx.id_ (pre ++ c!" id " ++ v ++ c!" (" ++ x ++ c!"id " ++ y) = stripChars c!"<>" y := by
  have hB : Blanks (pre ++ c!" id " ++ v ++ c!" (" ++ x ++ c!"id " ++ y) := by
    have solid : ∀ {x : Str}, (∀ c ∈ x, isSpace c = false) → Blanks x := fun hx c hc h1 => absurd (hx c hc) (by simp [h1])
    simp only [blanks_append]
    refine ⟨⟨⟨⟨⟨⟨hs, ?_⟩, solid hv⟩, ?_⟩, solid hx⟩, ?_⟩, solid hy.2⟩ <;> intro c hc h1 <;> revert h1 <;> revert c <;> decide
  rw [← C153_id hB]
  refine .inl ⟨y, ⟨pre ++ c!" id " ++ v ++ c!" (" ++ x, ⟨[], hy, by simp⟩, ?_⟩, rfl⟩
  rintro pre' v' ⟨rest, hw, e⟩
  -- no blank comes after the last one
  have hl := congrArg List.length e
  simp at hl
  rcases Nat.lt_trichotomy pre'.length (pre ++ c!" id " ++ v ++ c!" (" ++ x).length with h1 | h1 | h1
  · exact .inl h1
  · refine .inr ⟨h1, ?_⟩
    simp at h1
    omega
  · exfalso
    obtain ⟨z, rfl⟩ : pre ++ c!" id " ++ v ++ c!" (" ++ x <+: pre' :=
      List.prefix_of_prefix_length_le (l₃ := pre ++ c!" id " ++ v ++ c!" (" ++ x ++ c!"id " ++ y) ⟨c!"id " ++ y, by simp⟩ ⟨c!"id " ++ v' ++ rest, by rw [e]; simp⟩ (by omega)
    have hz : z ≠ [] := by rintro rfl; simp at h1
    have e1 : c!"id " ++ y = z ++ (c!"id " ++ (v' ++ rest)) :=
      List.append_cancel_left (as := pre ++ c!" id " ++ v ++ c!" (" ++ x) (by simpa using e)
    have hm : ' ' ∈ y := by
      have hd : y = (z ++ (c!"id " ++ (v' ++ rest))).drop 3 := by
        rw [← e1]; rfl
      rw [hd]
      match z, hz with
      | [_], _ => simp
      | [_, _], _ => simp
      | _ :: _ :: _ :: z, _ => simp
    have := hy.2 ' ' hm
    simp [isSpace] at this

set_option maxRecDepth 8000 in
example : rx.id_ c!"a (b [192.0.2.7]) by mx.sample.com with ESMTP id 77 (userid 33)" = c!"33)" := by decide +kernel

end Verif.Props
