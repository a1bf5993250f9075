import Verif.Lemmas.Helo
import Verif.Props.Skip

/-!
# C151: the name of the greeting in a `Received` header
-/

namespace Verif.Props
open Verif Py Re Spec Received ReceivedRe
open Verif.Spec.Fields

/-- One step of a chain of tests. -/
theorem firstOf_cons {h v : Str} {S : Str → Str → Prop} {l : List (Str → Str → Prop)} {b : Bool} {o : Option Str} {y : Str} (f : Str → Str)
    (hS : ∀ v, (∃ u, o = some u ∧ v = f u) ↔ S h v) (hb : b = true ↔ ∃ u, o = some u) (hl : FirstOf h l v ↔ y = v) :
    FirstOf h (S :: l) v ↔ (if b then f (o.getD []) else y) = v := by
  show S h v ∨ (∀ u, ¬ S h u) ∧ FirstOf h l v ↔ _
  rw [hl]
  cases o with
  | none =>
    have : b = false := by
      cases b with
      | false => rfl
      | true => obtain ⟨u, hu⟩ := hb.1 rfl; exact absurd hu (by simp)
    have hn : ∀ u, ¬ S h u := fun u hu => by
      obtain ⟨_, h1, _⟩ := (hS u).2 hu
      exact absurd h1 (by simp)
    simp [this, hn]
  | some u =>
    have hb' := hb.2 ⟨u, rfl⟩
    have hs : S h (f u) := (hS _).1 ⟨u, rfl, rfl⟩
    constructor
    · rintro (h1 | ⟨h1, _⟩)
      · obtain ⟨u', h2, h3⟩ := (hS v).2 h1
        simp at h2
        simp [hb', h3, h2]
      · exact absurd hs (h1 _)
    · intro e
      simp [hb'] at e
      exact .inl (e ▸ hs)

theorem some_id {o : Option Str} {S : Str → Prop} (h : ∀ v, o = some v ↔ S v) (v : Str) : (∃ u, o = some u ∧ v = id u) ↔ S v := by
  constructor
  · rintro ⟨u, hu, e⟩; rw [show v = u from e]; exact (h u).1 hu
  · intro hv; exact ⟨v, (h v).2 hv, rfl⟩

theorem some_map {o : Option Str} {L : Str → Prop} (h : ∀ v, o = some v ↔ L v) (f : Str → Str) (v : Str) :
    (∃ u, o = some u ∧ v = f u) ↔ ∃ u, L u ∧ v = f u :=
  ⟨fun ⟨u, hu, e⟩ => ⟨u, (h u).1 hu, e⟩, fun ⟨u, hu, e⟩ => ⟨u, (h u).2 hu, e⟩⟩

/-- The name of the greeting of a line whose only white space are blanks is that of the first shape that fits. -/
theorem C151_helo {h v : Str} (hs : ∀ c ∈ h, isSpace c = true → c = ' ') : Helo h v ↔ rx.helo h = v := by
  show Helo h v ↔ getHelo h = v
  have hb : Blanks h := hs
  unfold getHelo Helo
  refine firstOf_cons id (some_id fun v => helo_field hb) (isMatch_iff (by simp [heloRe, seqs, Sets])) ?_
  refine firstOf_cons (stripChars c!"[ ]();\n") (some_map (fun v => helo3_field hb) _) (isMatch_iff (by simp [heloRe3, seqs, Sets, word])) ?_
  refine firstOf_cons id (some_id fun v => helo4_field hb) (isMatch_iff (by simp [heloRe4, seqs, Sets, word])) ?_
  refine firstOf_cons id (some_id fun v => helo5_field hb) (isMatch_iff (by simp [heloRe5, seqs, Sets, word])) ?_
  refine firstOf_cons id (some_id fun v => helo6_field hb) (isMatch_iff (by simp [heloRe6, seqs, Sets, word])) ?_
  refine firstOf_cons id (some_id fun v => helo8_field hb) (isMatch_iff (by simp [heloRe8, seqs, Sets, word])) ?_
  refine firstOf_cons id (some_id fun v => helo9_field hb) (isMatch_iff (by simp [heloRe9, seqs, Sets, word])) ?_
  refine firstOf_cons id (some_id fun v => rdns4_field hb) (isMatch_iff (by simp [rdnsRe4, seqs, Sets, word])) ?_
  refine firstOf_cons (stripChars c!"[]") (some_map (fun v => helo10_field hb) _) (isMatch_iff (by simp [heloRe10, seqs, Sets, word])) ?_
  refine firstOf_cons id (some_id fun v => helo7_field hb) (isMatch_iff (by simp [heloRe7, seqs, Sets, word])) ?_
  refine firstOf_cons (fun u => if u = c!"unknown" then [] else u) (some_map (fun v => helo2_field hb) _)
    (isMatch_iff (by simp [heloRe2, seqs, Sets, word])) ?_
  exact eq_comm

/-- The headers that are read: they are not ignored. -/
theorem read_header {h t : Str} {f : Fields} (ht : prepare h = some t) (hx : ¬ c!"X-ORIGINATING-IP" <+: t)
    (hp : parseReceived rx [some h] = some [f]) : f = ⟨rx.rdns t, getIp rx t, rx.by_ t, rx.helo t, rx.ident t, rx.id_ t, getEnvfrom rx t, getAuth rx t⟩ := by
  have : parseReceived rx [some h] = some ((parseHeader rx t).toList) := by
    unfold parseReceived
    simp [ht, List.filterMap_cons]
    cases parseHeader rx t <;> rfl
  rw [this] at hp
  unfold parseHeader at hp
  rw [if_neg (show ¬ startsWith c!"X-ORIGINATING-IP" t = true from fun h => hx (List.isPrefixOf_iff_prefix.1 h))] at hp
  split at hp
  · simp at hp
  · simp at hp
    exact hp.symm

/-- The name of the greeting that is remembered for a header `from …`. -/
theorem C151_header (h t v : Str) (f : Fields) (hf : c!"from" <+: h) (ht : prepare h = some t) (hx : ¬ c!"X-ORIGINATING-IP" <+: t)
    (hp : parseReceived rx [some h] = some [f]) : Helo t v ↔ f.helo = v := by
  rw [C151_helo (prepare_blanks hf ht), read_header ht hx hp]

/-- Every line has exactly one name. -/
theorem C151_unique (h u v : Str) (hs : ∀ c ∈ h, isSpace c = true → c = ' ') (hu : Helo h u) (hv : Helo h v) : u = v :=
  ((C151_helo hs).1 hu).symm.trans ((C151_helo hs).1 hv)

set_option maxRecDepth 8000 in
example : Helo c!"mail.sample.org (HELO client.sample.net) (192.0.2.7) by mx.sample.com with SMTP" c!"client.sample.net" :=
  (C151_helo (by decide +kernel)).2 (by decide +kernel)

set_option maxRecDepth 8000 in
example : Helo c!"mail.sample.org ([192.0.2.7] helo=client.sample.net) by mx.sample.com with esmtp (Exim 4.80)" c!"client.sample.net" :=
  (C151_helo (by decide +kernel)).2 (by decide +kernel)

set_option maxRecDepth 8000 in
example : Helo c!"client.sample.net (mail.sample.org [192.0.2.7]) by mx.sample.com (Postfix) with ESMTP" c!"client.sample.net" :=
  (C151_helo (by decide +kernel)).2 (by decide +kernel)

end Verif.Props
