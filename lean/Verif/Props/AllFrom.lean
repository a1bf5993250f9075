import Verif.Spec.AllFrom
import Verif.Lemmas.Headers
import Verif.Props.FreeMail

/-!
# C181: all senders of a message are looked at
-/

namespace Verif.Props
open Verif Py Mail Spec AllFrom

theorem allAddrs_none (f : Option Str → Option (List (Str × Str))) (vs : List (Option Str)) :
    allAddrs f vs = none ↔ ∃ v ∈ vs, f v = none := by
  induction vs with
  | nil => simp [allAddrs]
  | cons v vs ih =>
    unfold allAddrs
    cases h1 : f v with
    | none => simp [h1]
    | some l =>
      cases h2 : allAddrs f vs with
      | none => simp [h1]; rw [h2] at ih; simpa using ih
      | some r => simp [h1]; rw [h2] at ih; simpa using ih

theorem allAddrs_mem (f : Option Str → Option (List (Str × Str))) (vs : List (Option Str)) (r : List Str) (h : allAddrs f vs = some r) (a : Str) :
    a ∈ r ↔ ∃ v ∈ vs, ∃ l n, f v = some l ∧ (n, a) ∈ l ∧ a ≠ [] := by
  induction vs generalizing r with
  | nil => simp [allAddrs] at h; subst h; simp
  | cons v vs ih =>
    unfold allAddrs at h
    cases h1 : f v with
    | none => simp [h1] at h
    | some l =>
      cases h2 : allAddrs f vs with
      | none => simp [h1, h2] at h
      | some r' =>
        simp only [h1, h2, Option.some.injEq] at h
        subst h
        rw [List.mem_append, ih r' h2]
        constructor
        · rintro (h | ⟨w, hw, rest⟩)
          · obtain ⟨h3, h4⟩ := List.mem_filter.mp h
            obtain ⟨p, hp, rfl⟩ := List.mem_map.mp h3
            exact ⟨v, by simp, l, p.1, h1, hp, by simpa using h4⟩
          · exact ⟨w, by simp [hw], rest⟩
        · rintro ⟨w, hw, l', n, e, hm, hne⟩
          rcases List.mem_cons.mp hw with rfl | hw
          · left
            rw [h1] at e
            injection e with e
            subst e
            exact List.mem_filter.mpr ⟨List.mem_map.mpr ⟨_, hm, rfl⟩, by simpa using hne⟩
          · exact Or.inr ⟨w, hw, l', n, e, hm, hne⟩

theorem mem_decoded (L : MailLib) (hs : List (Str × Str)) (key : Str) (P : Option Str → Prop) :
    (∃ v ∈ decodedValues L hs key, P v) ↔ ∃ h ∈ hs, lower h.1 = lower key ∧ P (L.decode h.2) := by
  unfold decodedValues rawValues
  constructor
  · rintro ⟨v, hv, hp⟩
    obtain ⟨w, hw, rfl⟩ := List.mem_map.mp hv
    obtain ⟨h, hh, rfl⟩ := List.mem_map.mp hw
    obtain ⟨h1, h2⟩ := List.mem_filter.mp hh
    exact ⟨h, h1, by simpa using h2, hp⟩
  · rintro ⟨h, h1, h2, hp⟩
    exact ⟨_, List.mem_map.mpr ⟨_, List.mem_map.mpr ⟨h, List.mem_filter.mpr ⟨h1, by simpa using h2⟩, rfl⟩, rfl⟩, hp⟩

/-- The loop over some of the headers. -/
theorem loop_spec (L : MailLib) (sender : Str) (hs mhs : List (Str × Str)) (ks : List Str) : ∀ m, Good L hs mhs m →
    ((loop L sender ks m).1 = none ↔ ∃ k ∈ ks, ¬ (k = c!"EnvelopeFrom" ∧ sender ≠ []) ∧
      ∃ h ∈ hs, lower h.1 = lower k ∧ L.addresses (L.decode h.2) = none) ∧
    ∀ r, (loop L sender ks m).1 = some r → ∀ a, a ∈ r ↔
      (a = sender ∧ sender ≠ [] ∧ c!"EnvelopeFrom" ∈ ks) ∨ ∃ k ∈ ks, ¬ (k = c!"EnvelopeFrom" ∧ sender ≠ []) ∧ InHeader L hs k a := by
  induction ks with
  | nil =>
    intro m _
    refine ⟨by simp [loop], ?_⟩
    intro r hr a
    simp [loop] at hr
    subst hr
    simp
  | cons k ks ih =>
    intro m g
    by_cases hk : k = c!"EnvelopeFrom" ∧ sender ≠ []
    · have e : loop L sender (k :: ks) m = match loop L sender ks m with
          | (some r, m2) => (some (sender :: r), m2)
          | (none, m2) => (none, m2) := by
        conv => lhs; unfold loop
        rw [if_pos hk]
        rfl
      obtain ⟨i1, i2⟩ := ih m g
      rw [e]
      generalize loop L sender ks m = x at i1 i2
      obtain ⟨o, m2⟩ := x
      cases o with
      | none =>
        refine ⟨?_, by intro r hr; cases hr⟩
        refine ⟨fun _ => ?_, fun _ => rfl⟩
        obtain ⟨k', hk', rest⟩ := i1.mp rfl
        exact ⟨k', by simp [hk'], rest⟩
      | some r =>
        refine ⟨⟨fun h => (by cases h), ?_⟩, ?_⟩
        · rintro ⟨k', hk', hn, rest⟩
          rcases List.mem_cons.mp hk' with rfl | hk'
          · exact absurd hk hn
          · exact absurd (i1.mpr ⟨k', hk', hn, rest⟩) (by simp)
        · intro r' hr' a
          injection hr' with hr'
          subst hr'
          rw [List.mem_cons, i2 r rfl a]
          constructor
          · rintro (h | h | ⟨k', hk', rest⟩)
            · exact Or.inl ⟨h, hk.2, by simp [hk.1]⟩
            · exact Or.inl ⟨h.1, h.2.1, by simp [h.2.2]⟩
            · exact Or.inr ⟨k', by simp [hk'], rest⟩
          · rintro (h | ⟨k', hk', hn, rest⟩)
            · exact Or.inl h.1
            · rcases List.mem_cons.mp hk' with rfl | hk'
              · exact absurd hk hn
              · exact Or.inr (Or.inr ⟨k', hk', hn, rest⟩)
    · obtain ⟨ga, gg⟩ := getAllAddr_good g k
      have e : loop L sender (k :: ks) m = match getAllAddr L k m with
          | (some a, m1) => match loop L sender ks m1 with
            | (some r, m2) => (some (a ++ r), m2)
            | (none, m2) => (none, m2)
          | (none, m1) => (none, m1) := by
        conv => lhs; unfold loop
        rw [if_neg hk]
        rfl
      rw [e]
      generalize getAllAddr L k m = y at ga gg
      obtain ⟨o1, m1⟩ := y
      simp only at ga gg
      have hnone := allAddrs_none L.addresses (decodedValues L hs k)
      rw [mem_decoded L hs k (fun v => L.addresses v = none)] at hnone
      cases o1 with
      | none =>
        refine ⟨⟨fun _ => ⟨k, by simp, hk, hnone.mp ga.symm⟩, fun _ => rfl⟩, by intro r hr; cases hr⟩
      | some r0 =>
        have hmem := allAddrs_mem L.addresses (decodedValues L hs k) r0 ga.symm
        have hno : ¬ ∃ h ∈ hs, lower h.1 = lower k ∧ L.addresses (L.decode h.2) = none := by
          intro h
          have := hnone.mpr h
          rw [← ga] at this
          cases this
        obtain ⟨i1, i2⟩ := ih m1 gg
        dsimp only
        generalize loop L sender ks m1 = x at i1 i2
        obtain ⟨o, m2⟩ := x
        cases o with
        | none =>
          refine ⟨⟨fun _ => ?_, fun _ => rfl⟩, by intro r hr; cases hr⟩
          obtain ⟨k', hk', rest⟩ := i1.mp rfl
          exact ⟨k', by simp [hk'], rest⟩
        | some r =>
          refine ⟨⟨fun h => (by cases h), ?_⟩, ?_⟩
          · rintro ⟨k', hk', hn, rest⟩
            rcases List.mem_cons.mp hk' with rfl | hk'
            · exact absurd rest hno
            · exact absurd (i1.mpr ⟨k', hk', hn, rest⟩) (by simp)
          · intro r' hr' a
            injection hr' with hr'
            subst hr'
            have hin : a ∈ r0 ↔ InHeader L hs k a := by
              rw [hmem a, mem_decoded L hs k (fun v => ∃ l n, L.addresses v = some l ∧ (n, a) ∈ l ∧ a ≠ [])]
              rfl
            rw [List.mem_append, hin, i2 r rfl a]
            constructor
            · rintro (h | h | ⟨k', hk', rest⟩)
              · exact Or.inr ⟨k, by simp, hk, h⟩
              · exact Or.inl ⟨h.1, h.2.1, by simp [h.2.2]⟩
              · exact Or.inr ⟨k', by simp [hk'], rest⟩
            · rintro (⟨h1, h2, h3⟩ | ⟨k', hk', hn, rest⟩)
              · rcases List.mem_cons.mp h3 with h3 | h3
                · exact absurd ⟨h3.symm, h2⟩ hk
                · exact Or.inr (Or.inl ⟨h1, h2, h3⟩)
              · rcases List.mem_cons.mp hk' with rfl | hk'
                · exact Or.inl rest
                · exact Or.inr (Or.inr ⟨k', hk', hn, rest⟩)

theorem names_iff (sender k : Str) : Names sender k ↔ k ∈ keys ∧ ¬ (k = c!"EnvelopeFrom" ∧ sender ≠ []) := by
  unfold Names keys
  constructor
  · rintro (rfl | rfl | rfl | rfl | rfl | ⟨rfl, h⟩)
    · exact ⟨by decide, fun h => absurd h.1 (by decide)⟩
    · exact ⟨by decide, fun h => absurd h.1 (by decide)⟩
    · exact ⟨by decide, fun h => absurd h.1 (by decide)⟩
    · exact ⟨by decide, fun h => absurd h.1 (by decide)⟩
    · exact ⟨by decide, fun h => absurd h.1 (by decide)⟩
    · exact ⟨by decide, fun h' => h'.2 h⟩
  · rintro ⟨hm, hn⟩
    simp only [List.mem_cons, List.not_mem_nil, or_false] at hm
    rcases hm with h | h | h | h | h | h
    · exact .inl h
    · exact .inr (.inl h)
    · exact .inr (.inr (.inl h))
    · exact .inr (.inr (.inr (.inl h)))
    · exact .inr (.inr (.inr (.inr (.inr ⟨h, Classical.byContradiction fun hs => hn ⟨h, hs⟩⟩))))
    · exact .inr (.inr (.inr (.inr (.inl h))))

/-- **C181**.  However the headers of a message were read before, the senders that are looked at are exactly those of the message, if its
headers about senders can be read. -/
theorem C181_senders (L : MailLib) (hs mhs : List (Str × Str)) (ops : List Access) (sender : Str) (hr : Readable L hs sender) :
    ∃ addrs, (allFrom L sender (accessed L hs mhs ops)).1 = some addrs ∧ ∀ a, a ∈ addrs ↔ Sender L hs sender a := by
  obtain ⟨h1, h2⟩ := loop_spec L sender hs mhs keys (accessed L hs mhs ops) (accessed_good L hs mhs ops)
  unfold allFrom
  cases hx : (loop L sender keys (accessed L hs mhs ops)).1 with
  | none =>
    obtain ⟨k, hk, hn, h, hh, he, hz⟩ := h1.mp hx
    exact absurd hz (hr h hh k ((names_iff sender k).mpr ⟨hk, hn⟩) he)
  | some r =>
    refine ⟨r, rfl, fun a => ?_⟩
    rw [h2 r hx a]
    unfold Sender
    constructor
    · rintro (⟨h1, h2, -⟩ | ⟨k, hk, hn, h⟩)
      · exact .inl ⟨h1, h2⟩
      · exact .inr ⟨k, (names_iff sender k).mpr ⟨hk, hn⟩, h⟩
    · rintro (⟨h1, h2⟩ | ⟨k, hk, h⟩)
      · exact .inl ⟨h1, h2, by decide⟩
      · obtain ⟨hk, hn⟩ := (names_iff sender k).mp hk
        exact .inr ⟨k, hk, hn, h⟩

/-- **C181**, part.  The rule without an expression holds exactly if one of the senders of the message has free mail.  Missing:
headers that can not be read (`C181_unreadable_violated`). -/
theorem C181_rule_partial (L : MailLib) (hs mhs : List (Str × Str)) (ops : List Access) (sender : Str) (hr : Readable L hs sender)
    (c : FreeMail.Conf) (ht : ∀ a, Sender L hs sender a → FreeMail.isFreemail c a ≠ none) :
    rule L c none sender (accessed L hs mhs ops) = true ↔ ∃ a, Sender L hs sender a ∧ FreeMail.isFreemail c a = some true := by
  obtain ⟨addrs, h1, h2⟩ := C181_senders L hs mhs ops sender hr
  unfold rule
  rw [h1]
  have h := C92_from_partial c none addrs (fun e he => ht e ((h2 e).mp he))
  simp only [Option.map_none] at h
  dsimp only
  rw [h]
  constructor
  · rintro ⟨e, he, hf, -⟩
    exact ⟨e, (h2 e).mp he, hf⟩
  · rintro ⟨e, he, hf⟩
    exact ⟨e, (h2 e).mpr he, hf, by simp⟩

/-- **C181**, negation.  One header about senders that can not be read, and the rule is false whatever the other senders are, with
every expression. -/
theorem C181_unreadable_violated (L : MailLib) (hs mhs : List (Str × Str)) (ops : List Access) (sender : Str) (h : Str × Str) (hh : h ∈ hs)
    (key : Str) (hk : Names sender key) (he : lower h.1 = lower key) (hx : L.addresses (L.decode h.2) = none) (c : FreeMail.Conf) (rx : FreeMail.Rx) :
    rule L c rx sender (accessed L hs mhs ops) = false := by
  obtain ⟨h1, -⟩ := loop_spec L sender hs mhs keys (accessed L hs mhs ops) (accessed_good L hs mhs ops)
  obtain ⟨hk, hn⟩ := (names_iff sender key).mp hk
  have := h1.mpr ⟨key, hk, hn, h, hh, he, hx⟩
  unfold rule allFrom
  rw [this]

/-! ## The hypotheses can be met -/

/-- Addresses are the values; one value can not be decoded. -/
def fromLib : MailLib where
  decode v := if v = c!"bad" then none else some v
  addresses v := v.map fun x => [([], x)]
  lazy := false

example : rule fromLib toyConf none c!"x@env.example" (accessed fromLib [(c!"From", c!"a@corp.example"), (c!"RESENT-SENDER", c!"b@gmx.de")] [] [.addr c!"From"]) = true ∧
    rule fromLib toyConf none [] (accessed fromLib [(c!"From", c!"b@gmx.de"), (c!"Resent-From", c!"bad")] [] []) = false ∧
    (allFrom fromLib c!"x@env.example" (accessed fromLib [(c!"EnvelopeFrom", c!"y@gmx.de"), (c!"from", c!"a@b.example")] [] [])).1 =
      some [c!"a@b.example", c!"x@env.example"] := by
  decide +kernel

example : Readable fromLib [(c!"From", c!"a@corp.example"), (c!"RESENT-SENDER", c!"b@gmx.de")] [] := by
  intro h hh key _ _
  simp only [List.mem_cons, List.not_mem_nil, or_false] at hh
  rcases hh with rfl | rfl <;> decide

end Verif.Props
