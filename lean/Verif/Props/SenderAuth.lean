import Verif.Spec.SenderAuth
import Verif.Lemmas.Py

/-!
# C54, C65, C67: sender authentication
-/

namespace Verif.Props
open Verif Py SenderAuth

/-! ## SPF -/

theorem mark_sticky (s : SpfSt) (key k : Str) (h : spfRule k s = true) : spfRule k (s.mark key) = true := by
  unfold spfRule SpfSt.mark at *
  simp only
  rw [Dict.get?_set]
  split
  · rfl
  · exact h

theorem received_sticky (L : SpfLib) (m : SpfMsg) (sender : Str) (s : SpfSt) (k : Str) (h : spfRule k s = true) :
    spfRule k (receivedHeaders L m sender s) = true := by
  unfold receivedHeaders
  split
  · exact h
  · simp only
    split
    · exact mark_sticky _ _ _ h
    · split
      · exact mark_sticky _ _ _ h
      · exact h

theorem header_sticky (L : SpfLib) (s : SpfSt) (hd : Str) (k : Str) (h : spfRule k s = true) :
    spfRule k (spfHeader L s hd) = true := by
  have hm : ∀ key, spfRule k (SpfSt.mark { s with noValid := true, spfCheck := true } key) = true :=
    fun key => mark_sticky _ _ _ h
  unfold spfHeader
  split
  · exact h
  · simp only
    split
    · split
      · exact h
      · exact hm _
    · split
      · exact h
      · split
        · split
          · exact h
          · exact hm _
        · split
          · split
            · exact h
            · exact hm _
          · split
            · split
              · exact h
              · exact mark_sticky _ _ _ h
            · exact h

theorem headers_sticky (L : SpfLib) (hs : List Str) (s : SpfSt) (k : Str) (h : spfRule k s = true) :
    spfRule k (spfHeaders L hs s) = true := by
  unfold spfHeaders
  induction hs generalizing s with
  | nil => exact h
  | cons x hs ih => exact ih _ (header_sticky L s x k h)

theorem authres_sticky (L : SpfLib) (x : Str) (s : SpfSt) (k : Str) (h : spfRule k s = true) :
    spfRule k (spfAuthres L x s) = true := by
  unfold spfAuthres
  split
  · exact h
  · simp only
    split
    · exact mark_sticky _ _ _ h
    · split <;> exact mark_sticky _ _ _ h

/-- Once a message has had an SPF result, every message checked later has it too, in this and in every other
instance of the plugin: no later message can make the rule false again. -/
theorem C54_spf_violated (L : SpfLib) (c : SpfConf) (s : SpfSt) (key : Str) (h : spfRule key s = true)
    (ops : List SpfOp) : spfRule key (spfHistory L c s ops) = true := by
  unfold spfHistory
  induction ops generalizing s with
  | nil => exact h
  | cons op ops ih =>
    apply ih
    cases op with
    | newInstance => exact h
    | check m =>
      show spfRule key (spfMetadata L c m s) = true
      unfold spfMetadata
      split
      · split
        · simp only
          split
          · exact received_sticky _ _ _ _ _ (received_sticky _ _ _ _ _ h)
          · exact received_sticky _ _ _ _ _ h
        · exact h
      · unfold checkSpfHeader
        simp only
        generalize (if c.newest = true then m.receivedSpf else m.receivedSpf.reverse) = hs
        have h1 : ∀ s1, s1 = (if (!hs.isEmpty) = true then
              if (!(spfHeaders L hs s).noValid) = true then receivedHeaders L m [] (spfHeaders L hs s)
              else spfHeaders L hs s
            else match m.authres with
              | some h => spfAuthres L h s
              | none => s) → spfRule key s1 = true := by
          intro s1 e
          rw [e]
          split
          · split
            · exact received_sticky _ _ _ _ _ (headers_sticky _ _ _ _ h)
            · exact headers_sticky _ _ _ _ h
          · split
            · exact authres_sticky _ _ _ _ h
            · exact h
        revert h1
        generalize (if (!hs.isEmpty) = true then
              if (!(spfHeaders L hs s).noValid) = true then receivedHeaders L m [] (spfHeaders L hs s)
              else spfHeaders L hs s
            else match m.authres with
              | some h => spfAuthres L h s
              | none => s) = s1
        intro h1
        have h1 := h1 s1 rfl
        split
        · have h2 : spfRule key (if hs.isEmpty = true then receivedHeaders L m [] s1 else s1) = true := by
            split
            · exact received_sticky _ _ _ _ _ h1
            · exact h1
          generalize (if hs.isEmpty = true then receivedHeaders L m [] s1 else s1) = s2 at h2
          split
          · split <;> exact received_sticky _ _ _ _ _ h2
          · exact h2
        · exact h1

/-- One header, in the terms of the specification. -/
theorem spfHeader_eq (L : SpfLib) (s : SpfSt) (h : Str) :
    spfHeader L s h = match aboutSender L h with
      | some res => if s.spfCheck then s
          else SpfSt.mark { s with noValid := true, spfCheck := true } (c!"check_spf_" ++ res)
      | none => match aboutHelo L h with
        | some res => if s.helo then s else SpfSt.mark { s with helo := true } (c!"check_spf_helo_" ++ res)
        | none => s := by
  unfold spfHeader aboutSender aboutHelo
  cases hx : L.received h with
  | none => rfl
  | some x =>
    obtain ⟨res, ident⟩ := x
    cases ident with
    | none => rfl
    | some i =>
      simp only
      by_cases h0 : i = []
      · subst h0
        simp [lower]
      · have he : i.isEmpty = false := by cases i <;> simp_all
        by_cases hn : lower i = c!"none"
        · have h1 : ¬ (i = [] ∨ lower i = c!"mfrom" ∨ lower i = c!"mailfrom") := by
            rw [hn]; simp [h0]
          have h2 : i ≠ c!"helo" := by
            intro e; rw [e] at hn; revert hn; decide
          rw [if_pos hn, if_neg h1]
          simp only
          rw [if_neg h2]
        · rw [if_neg hn, he]
          simp only [Bool.false_eq_true, if_false]
          by_cases hm : lower i = c!"mfrom" ∨ lower i = c!"mailfrom"
          · have hmem : lower i ∈ [c!"mfrom", c!"mailfrom"] := by
              rcases hm with hm | hm <;> rw [hm] <;> decide
            rw [if_pos hmem, if_pos (Or.inr hm)]
          · have hmem : lower i ∉ [c!"mfrom", c!"mailfrom"] := by
              intro hh; apply hm; simpa using hh
            have h1 : ¬ (i = [] ∨ lower i = c!"mfrom" ∨ lower i = c!"mailfrom") := by
              simp only [h0, false_or]; exact hm
            rw [if_neg hmem, if_neg h1]
            simp only
            by_cases hh : i = c!"helo"
            · rw [if_pos hh, if_pos hh, hh]
              rfl
            · rw [if_neg hh, if_neg hh]

theorem mark_rule (s : SpfSt) (key k : Str) : spfRule k (s.mark key) = true ↔ key = k ∨ spfRule k s = true := by
  unfold spfRule SpfSt.mark
  simp only
  rw [Dict.get?_set]
  by_cases hh : key = k
  · simp [hh]
  · simp [hh]

/-- The loop over the headers. -/
theorem spfHeaders_rule (L : SpfLib) (hL : ∀ h r i, L.received h = some (r, i) → r ∈ spfResults) (hs : List Str) :
    ∀ (s : SpfSt) (r : Str), r ∈ spfResults →
      (spfRule (c!"check_spf_" ++ r) (spfHeaders L hs s) = true ↔
        spfRule (c!"check_spf_" ++ r) s = true ∨ (s.spfCheck = false ∧ firstResult (aboutSender L) hs = some r)) ∧
      (spfRule (c!"check_spf_helo_" ++ r) (spfHeaders L hs s) = true ↔
        spfRule (c!"check_spf_helo_" ++ r) s = true ∨ (s.helo = false ∧ firstResult (aboutHelo L) hs = some r)) ∧
      ((spfHeaders L hs s).noValid = true ↔
        s.noValid = true ∨ (s.spfCheck = false ∧ (firstResult (aboutSender L) hs).isSome = true)) := by
  have inj : ∀ a b : Str, c!"check_spf_" ++ a = c!"check_spf_" ++ b ↔ a = b := by
    intro a b; exact ⟨fun h => List.append_cancel_left h, fun h => by rw [h]⟩
  have inj' : ∀ a b : Str, c!"check_spf_helo_" ++ a = c!"check_spf_helo_" ++ b ↔ a = b := by
    intro a b; exact ⟨fun h => List.append_cancel_left h, fun h => by rw [h]⟩
  have ne : ∀ a ∈ spfResults, ∀ b ∈ spfResults, c!"check_spf_" ++ a ≠ c!"check_spf_helo_" ++ b := by decide
  have memS : ∀ h res, aboutSender L h = some res → res ∈ spfResults ∧ aboutHelo L h = none := by
    intro h res hh
    unfold aboutSender at hh
    unfold aboutHelo
    cases hx : L.received h with
    | none => rw [hx] at hh; simp at hh
    | some x =>
      obtain ⟨a, b⟩ := x
      rw [hx] at hh
      cases b with
      | none => simp at hh; exact ⟨hh ▸ hL _ _ _ hx, rfl⟩
      | some i =>
        simp only at hh ⊢
        split at hh
        · rename_i h1
          simp at hh
          refine ⟨hh ▸ hL _ _ _ hx, ?_⟩
          rw [if_neg]
          intro e
          rw [e] at h1
          revert h1
          decide
        · simp at hh
  have memH : ∀ h res, aboutHelo L h = some res → res ∈ spfResults := by
    intro h res hh
    unfold aboutHelo at hh
    split at hh
    · rename_i hx
      split at hh
      · simp at hh; exact hh ▸ hL _ _ _ hx
      · simp at hh
    · simp at hh
  induction hs with
  | nil => intro s r _; simp [spfHeaders, firstResult]
  | cons h hs ih =>
    intro s r hr
    have e : spfHeaders L (h :: hs) s = spfHeaders L hs (spfHeader L s h) := rfl
    obtain ⟨i1, i2, i3⟩ := ih (spfHeader L s h) r hr
    rw [e, i1, i2, i3, spfHeader_eq]
    unfold firstResult
    simp only [List.findSome?_cons]
    cases hS : aboutSender L h with
    | some res =>
      obtain ⟨m1, m2⟩ := memS h res hS
      simp only [m2]
      cases hc : s.spfCheck with
      | true => simp [hc]
      | false =>
        have hne := ne res m1 r hr
        simp only [Bool.false_eq_true, if_false, mark_rule, inj]
        have e1 : (SpfSt.mark { s with noValid := true, spfCheck := true } (c!"check_spf_" ++ res)).spfCheck = true :=
          rfl
        have e2 : (SpfSt.mark { s with noValid := true, spfCheck := true } (c!"check_spf_" ++ res)).helo = s.helo :=
          rfl
        have e3 : (SpfSt.mark { s with noValid := true, spfCheck := true } (c!"check_spf_" ++ res)).noValid = true :=
          rfl
        rw [e1, e2, e3]
        have r1 : ∀ k, spfRule k { s with noValid := true, spfCheck := true } = spfRule k s := fun _ => rfl
        simp only [r1]
        refine ⟨?_, ?_, ?_⟩
        · simp; exact or_comm
        · simp only [List.cons_append, List.nil_append] at hne ⊢
          simp only [hne, false_or]
        · simp
    | none =>
      simp only
      cases hH : aboutHelo L h with
      | none => simp
      | some res =>
        have m1 := memH h res hH
        simp only
        cases hc : s.helo with
        | true => simp [hc]
        | false =>
          have hne := (ne r hr res m1).symm
          simp only [Bool.false_eq_true, if_false, mark_rule, inj']
          have e1 : (SpfSt.mark { s with helo := true } (c!"check_spf_helo_" ++ res)).spfCheck = s.spfCheck := rfl
          have e2 : (SpfSt.mark { s with helo := true } (c!"check_spf_helo_" ++ res)).helo = true := rfl
          have e3 : (SpfSt.mark { s with helo := true } (c!"check_spf_helo_" ++ res)).noValid = s.noValid := rfl
          rw [e1, e2, e3]
          have r1 : ∀ k, spfRule k { s with helo := true } = spfRule k s := fun _ => rfl
          simp only [r1]
          refine ⟨?_, ?_, ?_⟩
          · simp only [List.cons_append, List.nil_append] at hne ⊢
            simp only [hne, false_or]
          · simp; exact or_comm
          · simp

/-- What the headers of a message say decides, if the plugin has seen no other message: the result is that of the
first header about the sender address, and likewise for the HELO name (top first with
`use_newest_received_spf_header`, bottom first without).  Missing: messages after the first (`C54_spf_violated`),
results not written in lower case (`C67_case_violated`), and messages with `Received` headers, for which the DNS
is asked as well. -/
theorem C67_first_header_partial (L : SpfLib) (c : SpfConf) (m : SpfMsg) (hc : c.ignoreHeaders = false)
    (hr : m.hasReceived = false)
    (hL : ∀ h r i, L.received h = some (r, i) → r ∈ spfResults)
    (hs : List Str) (hhs : hs = if c.newest then m.receivedSpf else m.receivedSpf.reverse)
    (r0 : Str) (hf : firstResult (aboutSender L) hs = some r0) (r : Str) (hrs : r ∈ spfResults) :
    let s := spfMetadata L c m SpfSt.init
    (spfRule (c!"check_spf_" ++ r) s = true ↔ r = r0) ∧
    (spfRule (c!"check_spf_helo_" ++ r) s = true ↔ firstResult (aboutHelo L) hs = some r) := by
  have hne : hs.isEmpty = false := by
    cases hs with
    | nil => simp [firstResult] at hf
    | cons _ _ => rfl
  obtain ⟨l1, l2, l3⟩ := spfHeaders_rule L hL hs SpfSt.init r hrs
  have hnv : (spfHeaders L hs SpfSt.init).noValid = true := by
    rw [l3]; right; exact ⟨rfl, by rw [hf]; rfl⟩
  have e : spfMetadata L c m SpfSt.init = spfHeaders L hs SpfSt.init := by
    unfold spfMetadata checkSpfHeader
    rw [hc, ← hhs, hr]
    simp [hne, hnv]
  simp only [e]
  have i1 : ∀ r ∈ spfResults, spfRule (c!"check_spf_" ++ r) SpfSt.init = false ∧
      spfRule (c!"check_spf_helo_" ++ r) SpfSt.init = false := by decide
  obtain ⟨j1, j2⟩ := i1 r hrs
  rw [l1, l2, j1, j2, hf]
  have : SpfSt.init.spfCheck = false := rfl
  have : SpfSt.init.helo = false := rfl
  simp [*]
  exact eq_comm

/-- A message that bears out `C67_first_header_partial`: three headers, the second about the HELO name. -/
def spfLib : SpfLib where
  received := fun h =>
    if h = c!"pass" then some (c!"pass", none)
    else if h = c!"fail identity=helo" then some (c!"fail", some c!"helo")
    else if h = c!"softfail" then some (c!"softfail", some c!"mailfrom")
    else if h = c!"Pass" then some (c!"Pass", none)
    else none
  authres := fun _ => none
  query := fun _ _ _ => c!"fail"

def spfMsg : SpfMsg where
  receivedSpf := [c!"softfail", c!"fail identity=helo", c!"junk", c!"pass"]
  authres := none
  hasReceived := false
  sender := c!"joe@example.com"
  relay := none

example : firstResult (aboutSender spfLib) spfMsg.receivedSpf.reverse = some c!"pass" ∧
    firstResult (aboutSender spfLib) spfMsg.receivedSpf = some c!"softfail" ∧
    firstResult (aboutHelo spfLib) spfMsg.receivedSpf = some c!"fail" ∧
    spfRule c!"check_spf_pass" (spfMetadata spfLib ⟨false, false⟩ spfMsg SpfSt.init) = true ∧
    spfRule c!"check_spf_softfail" (spfMetadata spfLib ⟨false, true⟩ spfMsg SpfSt.init) = true ∧
    spfRule c!"check_spf_softfail" (spfMetadata spfLib ⟨false, false⟩ spfMsg SpfSt.init) = false ∧
    spfRule c!"check_spf_helo_fail" (spfMetadata spfLib ⟨false, false⟩ spfMsg SpfSt.init) = true := by
  decide +kernel

/-- A first message with the result `pass`, then one without any SPF header. -/
example : spfRule c!"check_spf_pass" (spfMetadata spfLib ⟨false, false⟩ { spfMsg with receivedSpf := [] }
      (spfMetadata spfLib ⟨false, false⟩ spfMsg SpfSt.init)) = true ∧
    spfRule c!"check_spf_pass" (spfMetadata spfLib ⟨false, false⟩ { spfMsg with receivedSpf := [] } SpfSt.init) =
      false := by
  decide +kernel

/-- The headers are matched without regard to case, but a result that is not in lower case, such as `Pass`, is
recorded where no rule looks: no rule is true. -/
theorem C67_case_violated (L : SpfLib) (c : SpfConf) (m : SpfMsg) (hc : c.ignoreHeaders = false)
    (hr : m.hasReceived = false) (h r0 : Str) (hh : L.received h = some (r0, none)) (hm : m.receivedSpf = [h])
    (hlow : r0 ∉ spfResults) (r : Str) (hrs : r ∈ spfResults) :
    spfRule (c!"check_spf_" ++ r) (spfMetadata L c m SpfSt.init) = false := by
  have e : spfMetadata L c m SpfSt.init =
      SpfSt.mark { SpfSt.init with noValid := true, spfCheck := true } (c!"check_spf_" ++ r0) := by
    have e1 : (if c.newest then m.receivedSpf else m.receivedSpf.reverse) = [h] := by rw [hm]; simp
    have e2 : spfHeaders L [h] SpfSt.init =
        SpfSt.mark { SpfSt.init with noValid := true, spfCheck := true } (c!"check_spf_" ++ r0) := by
      show spfHeader L SpfSt.init h = _
      unfold spfHeader
      rw [hh]
      rfl
    unfold spfMetadata checkSpfHeader
    rw [hc, e1, hr]
    simp only [e2]
    rfl
  have i1 : ∀ r ∈ spfResults, spfRule (c!"check_spf_" ++ r) SpfSt.init = false := by decide
  rw [e, Bool.eq_false_iff]
  intro ht
  rw [mark_rule] at ht
  rcases ht with ht | ht
  · exact hlow (List.append_cancel_left ht ▸ hrs)
  · have := i1 r hrs
    rw [show spfRule (c!"check_spf_" ++ r) { SpfSt.init with noValid := true, spfCheck := true } =
      spfRule (c!"check_spf_" ++ r) SpfSt.init from rfl, this] at ht
    cases ht

example : spfLib.received c!"Pass" = some (c!"Pass", none) ∧ lower c!"Pass" ∈ spfResults ∧ c!"Pass" ∉ spfResults := by
  decide

/-- If the message also has `Received` headers, a known sender and a header about the HELO name, the DNS is asked
although the headers have given the result, and both results hold at the same time. -/
theorem C67_dns_violated (L : SpfLib) (c : SpfConf) (m : SpfMsg) (hc : c.ignoreHeaders = false)
    (hr : m.hasReceived = true) (hse : m.sender ≠ [])
    (hL : ∀ h r i, L.received h = some (r, i) → r ∈ spfResults)
    (hs : List Str) (hhs : hs = if c.newest then m.receivedSpf else m.receivedSpf.reverse)
    (r0 r1 : Str) (hf : firstResult (aboutSender L) hs = some r0) (hm0 : r0 ∈ spfResults)
    (hh : (spfHeaders L hs SpfSt.init).helo = true)
    (mx ip : Str) (hrel : m.relay = some (mx, ip)) (hq : L.query ip mx m.sender = r1) (hne : r1 ≠ c!"error") :
    let s := spfMetadata L c m SpfSt.init
    spfRule (c!"check_spf_" ++ r0) s = true ∧ spfRule (c!"check_spf_" ++ r1) s = true := by
  have hne' : hs.isEmpty = false := by
    cases hs with
    | nil => simp [firstResult] at hf
    | cons _ _ => rfl
  obtain ⟨l1, _, l3⟩ := spfHeaders_rule L hL hs SpfSt.init r0 hm0
  have hnv : (spfHeaders L hs SpfSt.init).noValid = true := by
    rw [l3]; right; exact ⟨rfl, by rw [hf]; rfl⟩
  have he : m.sender.isEmpty = false := by
    cases hx : m.sender with
    | nil => exact absurd hx hse
    | cons _ _ => rfl
  have e : spfMetadata L c m SpfSt.init = (spfHeaders L hs SpfSt.init).mark (c!"check_spf_" ++ r1) := by
    unfold spfMetadata checkSpfHeader receivedHeaders
    rw [hc, ← hhs, hr]
    simp [hne', hnv, he, hrel, hq, hne, hh]
  simp only [e]
  refine ⟨?_, ?_⟩
  · rw [mark_rule]; right; rw [l1]; right; exact ⟨rfl, hf⟩
  · rw [mark_rule]; left; rfl

example : spfRule c!"check_spf_pass" (spfMetadata spfLib ⟨false, false⟩
      { spfMsg with hasReceived := true, relay := some (c!"mx.example.com", c!"1.2.3.4") } SpfSt.init) = true ∧
    spfRule c!"check_spf_fail" (spfMetadata spfLib ⟨false, false⟩
      { spfMsg with hasReceived := true, relay := some (c!"mx.example.com", c!"1.2.3.4") } SpfSt.init) = true := by
  decide +kernel

/-- What the DNS says about the host and the sender. -/
def asked (L : SpfLib) (ip mx sender : Str) : Str :=
  if L.query ip mx sender = c!"error" then c!"temperror" else L.query ip mx sender

/-- If headers are to be ignored, the rules about the sender say what the DNS says about the address, and the rules about the HELO
name what it says about the name, if that has a dot. -/
theorem C67_asked (L : SpfLib) (c : SpfConf) (m : SpfMsg) (hc : c.ignoreHeaders = true) (hr : m.hasReceived = true)
    (hse : m.sender ≠ []) (mx ip : Str) (hrel : m.relay = some (mx, ip)) (hq : ∀ x, asked L ip mx x ∈ spfResults)
    (r : Str) (hrs : r ∈ spfResults) :
    (spfRule (c!"check_spf_" ++ r) (spfMetadata L c m SpfSt.init) = true ↔ asked L ip mx m.sender = r) ∧
    (spfRule (c!"check_spf_helo_" ++ r) (spfMetadata L c m SpfSt.init) = true ↔ '.' ∈ mx ∧ asked L ip mx [] = r) := by
  have i1 : ∀ r ∈ spfResults, spfRule (c!"check_spf_" ++ r) SpfSt.init = false ∧ spfRule (c!"check_spf_helo_" ++ r) SpfSt.init = false := by
    decide
  have i2 : ∀ a ∈ spfResults, ∀ b ∈ spfResults, c!"check_spf_helo_" ++ a ≠ c!"check_spf_" ++ b := by decide +kernel
  have he : m.sender.isEmpty = false := by
    cases hx : m.sender with
    | nil => exact absurd hx hse
    | cons _ _ => rfl
  have e : spfMetadata L c m SpfSt.init =
      SpfSt.mark (if '.' ∈ mx then { SpfSt.init.mark (c!"check_spf_helo_" ++ asked L ip mx []) with helo := true }
        else { SpfSt.init with helo := true }) (c!"check_spf_" ++ asked L ip mx m.sender) := by
    unfold spfMetadata receivedHeaders
    rw [hc, hr, hrel]
    simp only [he, if_true, Bool.not_false]
    by_cases hd : '.' ∈ mx
    · simp only [if_pos hd, show SpfSt.init.helo = false from rfl, Bool.false_eq_true, if_false, if_true]
      rfl
    · simp only [if_neg hd, show SpfSt.init.helo = false from rfl, Bool.false_eq_true, if_false, if_true]
      rfl
  have j : ∀ k, spfRule k (if '.' ∈ mx then { SpfSt.init.mark (c!"check_spf_helo_" ++ asked L ip mx []) with helo := true }
      else { SpfSt.init with helo := true }) = true ↔
      ('.' ∈ mx ∧ c!"check_spf_helo_" ++ asked L ip mx [] = k) ∨ spfRule k SpfSt.init = true := by
    intro k
    by_cases hd : '.' ∈ mx
    · rw [if_pos hd]
      rw [show ∀ s : SpfSt, spfRule k { s with helo := true } = spfRule k s from fun _ => rfl]
      rw [mark_rule]
      simp [hd]
    · rw [if_neg hd]
      show spfRule k SpfSt.init = true ↔ _
      simp [hd]
  rw [e, mark_rule, mark_rule, j, j, (i1 r hrs).1, (i1 r hrs).2]
  constructor
  · constructor
    · rintro (h | ⟨_, h⟩ | h)
      · exact List.append_cancel_left h
      · exact absurd h (i2 _ (hq []) _ hrs)
      · cases h
    · rintro rfl; exact .inl rfl
  · constructor
    · rintro (h | ⟨hd, h⟩ | h)
      · exact absurd h.symm (i2 _ hrs _ (hq m.sender))
      · exact ⟨hd, List.append_cancel_left h⟩
      · cases h
    · rintro ⟨hd, rfl⟩; exact .inr (.inl ⟨hd, rfl⟩)

example : (∀ x, asked spfLib c!"1.2.3.4" c!"mx" x ∈ spfResults) ∧ spfRule c!"check_spf_fail" (spfMetadata spfLib ⟨true, false⟩
    { spfMsg with hasReceived := true, relay := some (c!"mx", c!"1.2.3.4") } SpfSt.init) = true :=
  ⟨fun _ => (by decide : c!"fail" ∈ spfResults), by decide +kernel⟩

/-- If the message has no Received-SPF and no Received headers, the rules say what the header Authentication-Results says, about the
identity it names or else the sender. -/
theorem C67_authentication_results (L : SpfLib) (c : SpfConf) (m : SpfMsg) (hc : c.ignoreHeaders = false) (hr : m.hasReceived = false)
    (hm : m.receivedSpf = []) (h r : Str) (ident : Option Str) (ha : m.authres = some h) (hl : L.authres h = some (r, ident)) (key : Str)
    (hk : key ∈ spfResults.flatMap (fun x => [c!"check_spf_" ++ x, c!"check_spf_helo_" ++ x])) :
    spfRule key (spfMetadata L c m SpfSt.init) = true ↔
      key = (match ident with
        | none => c!"check_spf_"
        | some i => if i = c!"mfrom" ∨ i = c!"mailfrom" ∨ i = c!"None" then c!"check_spf_" else c!"check_spf_" ++ i ++ c!"_") ++
          (if r = c!"hardfail" then c!"fail" else r) := by
  have i1 : ∀ k ∈ spfResults.flatMap (fun x => [c!"check_spf_" ++ x, c!"check_spf_helo_" ++ x]), spfRule k SpfSt.init = false := by
    decide +kernel
  have e : spfMetadata L c m SpfSt.init = spfAuthres L h SpfSt.init := by
    unfold spfMetadata checkSpfHeader
    rw [hc, hr, hm, ha]
    cases c.newest <;> rfl
  rw [e]
  unfold spfAuthres
  simp only [hl]
  cases ident with
  | none =>
    simp only
    rw [mark_rule, i1 _ hk]
    simp [eq_comm]
  | some i =>
    simp only [List.mem_cons, List.not_mem_nil, or_false]
    by_cases hi : i = c!"mfrom" ∨ i = c!"mailfrom" ∨ i = c!"None"
    · rw [if_pos hi, if_pos hi, mark_rule, i1 _ hk]
      simp [eq_comm]
    · rw [if_neg hi, if_neg hi, mark_rule, i1 _ hk]
      simp [eq_comm]

example : spfRule c!"check_spf_helo_pass" (spfMetadata { spfLib with authres := fun _ => some (c!"pass", some c!"helo") } ⟨false, false⟩
    { spfMsg with receivedSpf := [], authres := some c!"x" } SpfSt.init) = true := by decide +kernel

/-- The same but for results, which are those of `s0` besides. -/
def Besides (s0 s t : SpfSt) : Prop :=
  s.spfCheck = t.spfCheck ∧ s.helo = t.helo ∧ s.noValid = t.noValid ∧
    ∀ k, spfRule k s = true ↔ spfRule k t = true ∨ spfRule k s0 = true

theorem Besides.mark {s0 s t : SpfSt} (h : Besides s0 s t) (key : Str) : Besides s0 (s.mark key) (t.mark key) := by
  refine ⟨h.1, h.2.1, h.2.2.1, fun k => ?_⟩
  rw [mark_rule, mark_rule, h.2.2.2 k, or_assoc]

theorem Besides.received {s0 s t : SpfSt} (h : Besides s0 s t) (L : SpfLib) (m : SpfMsg) (sender : Str) :
    Besides s0 (receivedHeaders L m sender s) (receivedHeaders L m sender t) := by
  obtain ⟨R, a, b, d⟩ := s
  obtain ⟨R', a', b', d'⟩ := t
  obtain ⟨h1, h2, h3, h4⟩ := id h
  simp only at h1 h2 h3
  subst h1 h2 h3
  unfold receivedHeaders
  split
  · exact h
  · simp only
    split
    · exact h.mark _
    · split
      · exact ⟨rfl, rfl, rfl, (h.mark _).2.2.2⟩
      · exact ⟨rfl, rfl, rfl, h4⟩

theorem Besides.header {s0 s t : SpfSt} (h : Besides s0 s t) (L : SpfLib) (x : Str) : Besides s0 (spfHeader L s x) (spfHeader L t x) := by
  obtain ⟨R, a, b, d⟩ := s
  obtain ⟨R', a', b', d'⟩ := t
  obtain ⟨h1, h2, h3, h4⟩ := id h
  simp only at h1 h2 h3
  subst h1 h2 h3
  have hp : Besides s0 ⟨R, true, b, true⟩ ⟨R', true, b, true⟩ := ⟨rfl, rfl, rfl, h4⟩
  have hq : Besides s0 ⟨R, a, true, d⟩ ⟨R', a, true, d⟩ := ⟨rfl, rfl, rfl, h4⟩
  unfold spfHeader
  split
  · exact h
  · simp only
    split
    · split
      · exact h
      · exact hp.mark _
    · split
      · exact h
      · split
        · split
          · exact h
          · exact hp.mark _
        · split
          · split
            · exact h
            · exact hp.mark _
          · split
            · split
              · exact h
              · exact hq.mark _
            · exact h

theorem Besides.metadata {s0 s t : SpfSt} (h : Besides s0 s t) (L : SpfLib) (c : SpfConf) (m : SpfMsg) :
    Besides s0 (spfMetadata L c m s) (spfMetadata L c m t) := by
  have hh : ∀ (l : List Str) (s t : SpfSt), Besides s0 s t → Besides s0 (spfHeaders L l s) (spfHeaders L l t) := by
    intro l
    unfold spfHeaders
    induction l with
    | nil => intro s t h; exact h
    | cons x l ih => intro s t h; exact ih _ _ (h.header L x)
  have ha : ∀ x, Besides s0 (spfAuthres L x s) (spfAuthres L x t) := by
    intro x
    unfold spfAuthres
    split
    · exact h
    · simp only
      split
      · exact h.mark _
      · split <;> exact h.mark _
  unfold spfMetadata
  split
  · split
    · simp only
      split
      · exact (h.received L m []).received L m _
      · exact h.received L m []
    · exact h
  · unfold checkSpfHeader
    simp only
    generalize (if c.newest = true then m.receivedSpf else m.receivedSpf.reverse) = hs
    have key : ∀ a b : SpfSt, Besides s0 a b → Besides s0
        (if m.hasReceived = true then
          if (!m.sender.isEmpty) = true then
            if (if hs.isEmpty = true then receivedHeaders L m [] a else a).helo = true then
              receivedHeaders L m m.sender (if hs.isEmpty = true then receivedHeaders L m [] a else a)
            else receivedHeaders L m [] (if hs.isEmpty = true then receivedHeaders L m [] a else a)
          else (if hs.isEmpty = true then receivedHeaders L m [] a else a)
        else a)
        (if m.hasReceived = true then
          if (!m.sender.isEmpty) = true then
            if (if hs.isEmpty = true then receivedHeaders L m [] b else b).helo = true then
              receivedHeaders L m m.sender (if hs.isEmpty = true then receivedHeaders L m [] b else b)
            else receivedHeaders L m [] (if hs.isEmpty = true then receivedHeaders L m [] b else b)
          else (if hs.isEmpty = true then receivedHeaders L m [] b else b)
        else b) := by
      intro a b hab
      have h2 : Besides s0 (if hs.isEmpty = true then receivedHeaders L m [] a else a)
          (if hs.isEmpty = true then receivedHeaders L m [] b else b) := by
        split
        · exact hab.received L m []
        · exact hab
      generalize (if hs.isEmpty = true then receivedHeaders L m [] a else a) = a' at h2 ⊢
      generalize (if hs.isEmpty = true then receivedHeaders L m [] b else b) = b' at h2 ⊢
      split
      · split
        · rw [h2.2.1]
          split
          · exact h2.received L m _
          · exact h2.received L m _
        · exact h2
      · exact hab
    refine key _ _ ?_
    split
    · have := hh hs s t h
      rw [this.2.2.1]
      split
      · exact this.received L m []
      · exact this
    · split
      · exact ha _
      · exact h

/-- A new instance of the plugin, whatever was checked before, judges its first message as a new process does, except that the
results of all messages before are there too. -/
theorem C54_spf_instance_violated (L : SpfLib) (c : SpfConf) (before : List SpfOp) (m : SpfMsg) (key : Str) :
    spfRule key (spfHistory L c SpfSt.init (before ++ [.newInstance, .check m])) = true ↔
      spfRule key (spfMetadata L c m SpfSt.init) = true ∨ spfRule key (spfHistory L c SpfSt.init before) = true := by
  unfold spfHistory
  rw [List.foldl_append]
  generalize List.foldl (spfStep L c) SpfSt.init before = s
  have hi : ∀ k, spfRule k SpfSt.init = false := by
    intro k
    have : ∀ p ∈ SpfSt.init.results, p.2 = 0 := by decide
    unfold spfRule
    cases hg : Dict.get? SpfSt.init.results k with
    | none => rfl
    | some v =>
      have := this _ (Dict.mem_of_get? _ hg)
      simp only at this
      rw [this]
      rfl
  have hb : Besides s (spfStep L c s .newInstance) SpfSt.init := by
    refine ⟨rfl, rfl, rfl, fun k => ?_⟩
    rw [hi k]
    show spfRule k s = true ↔ _
    simp
  exact (hb.metadata L c m).2.2.2 key

example : spfRule c!"check_spf_pass" (spfHistory spfLib ⟨false, false⟩ SpfSt.init
    [.check spfMsg, .newInstance, .check { spfMsg with receivedSpf := [c!"softfail"] }]) = true ∧
    spfRule c!"check_spf_softfail" (spfHistory spfLib ⟨false, false⟩ SpfSt.init
    [.check spfMsg, .newInstance, .check { spfMsg with receivedSpf := [c!"softfail"] }]) = true := by decide +kernel

/-! ## DKIM -/

/-- In a new process the first message is reported to have a valid signature exactly if it has one of an author's
domain and the library has verified it.  Missing: every later check (`C65_error_violated`, `C54_dkim_violated`,
`C54_dkim_new_instance_violated`) and the rule about author signatures (`C65_author_violated`). -/
theorem C65_valid_partial (m : DkimMsg) : (dkimRule .valid m DkimSt.init).1 = true ↔ Verified m := by
  unfold Verified dkimRule checkSignature getAuthors DkimSt.init
  cases hp : m.parsed with
  | none => simp [hp]
  | some d =>
    cases d with
    | none => cases hv : m.verify <;> cases hk : m.fieldsOk <;> simp [hp, hv, hk]
    | some d =>
      by_cases hd : d ∈ m.domains <;> cases hv : m.verify <;> cases hk : m.fieldsOk <;> cases hh : m.hasSig <;>
        simp [hp, hv, hk, hh, hd]

/-- A message with a valid signature. -/
def dkimMsg : DkimMsg where
  addrs := [c!"joe@example.com"]
  domains := [c!"example.com"]
  hasSig := true
  parsed := some (some c!"example.com")
  verify := .good
  fieldsOk := true

example : Verified dkimMsg := ⟨rfl, rfl, c!"example.com", rfl, by decide⟩

/-- If the verification is cut short by an exception that is not the library's own (a DNS time-out, say), or the
header cannot be parsed, the first rule that is evaluated is false but every later one reports a valid signature. -/
theorem C65_error_violated (m : DkimMsg) (r : DkimRule)
    (h : m.parsed = none ∨ (m.verify = .otherError ∧ ∃ d ∈ m.domains, m.parsed = some (some d))) :
    ¬ Verified m ∧ (dkimRule .valid m (dkimRule r m DkimSt.init).2).1 = true := by
  rcases h with h | ⟨hv, d, hd, hp⟩
  · refine ⟨fun ⟨_, _, d, hp, _⟩ => (by rw [h] at hp; cases hp), ?_⟩
    unfold dkimRule checkSignature getAuthors DkimSt.init
    cases hh : m.hasSig <;> simp [h, hh]
  · refine ⟨fun ⟨hg, _⟩ => (by rw [hv] at hg; cases hg), ?_⟩
    unfold dkimRule checkSignature getAuthors DkimSt.init
    cases hh : m.hasSig <;> simp [hp, hh, hv, hd]

example : (dkimRule .valid { dkimMsg with verify := .otherError }
    (dkimRule .signed { dkimMsg with verify := .otherError } DkimSt.init).2).1 = true := by decide

/-- A signature that the library has rejected counts as a valid author signature. -/
theorem C65_author_violated (m : DkimMsg) (d : Str) (hd : d ∈ m.domains) (hp : m.parsed = some (some d))
    (hv : m.verify = .bad) (hk : m.fieldsOk = true) :
    ¬ Verified m ∧ (dkimRule .authorSig m DkimSt.init).1 = true := by
  refine ⟨fun ⟨hg, _⟩ => (by rw [hv] at hg; cases hg), ?_⟩
  unfold dkimRule checkSignature getAuthors DkimSt.init
  cases hh : m.hasSig <;> simp [hp, hh, hv, hd, hk]

example : (dkimRule .authorSig { dkimMsg with verify := .bad } DkimSt.init).1 = true := by decide

theorem dkim_checked (s : DkimSt) (h : s.checked = true) (r : DkimRule) (m m' : DkimMsg) :
    (dkimRule r m s).1 = (dkimRule r m' s).1 := by
  unfold dkimRule
  rw [if_pos h, if_pos h]

/-- After a message has been checked, no rule looks at a message again: whatever is checked afterwards, each answer is
the same for every message — and, unless the first check ended with an exception, it is the answer for the first. -/
theorem C54_dkim_violated (m0 : DkimMsg) (r0 : DkimRule) (later : List (DkimRule × DkimMsg)) (r : DkimRule)
    (m m' : DkimMsg) :
    let s := dkimHistory DkimSt.init (.eval r0 m0 :: later.map fun p => .eval p.1 p.2)
    (dkimRule r m s).1 = (dkimRule r m' s).1 ∧
    (m0.parsed ≠ none → m0.verify ≠ .otherError → (dkimRule r m s).1 = (dkimRule r m0 DkimSt.init).1) := by
  have hchk : (dkimRule r0 m0 DkimSt.init).2.checked = true := by
    unfold dkimRule checkSignature getAuthors DkimSt.init
    cases hp : m0.parsed with
    | none => cases hh : m0.hasSig <;> simp [hp, hh]
    | some d =>
      cases d with
      | none => cases hh : m0.hasSig <;> cases hv : m0.verify <;> cases hk : m0.fieldsOk <;> simp [hp, hh, hv, hk]
      | some d =>
        by_cases hd : d ∈ m0.domains <;> cases hv : m0.verify <;> cases hk : m0.fieldsOk <;>
          cases hh : m0.hasSig <;> simp [hp, hv, hk, hh, hd]
  have keep : ∀ (later : List (DkimRule × DkimMsg)) (s : DkimSt), s.checked = true →
      dkimHistory s (later.map fun p => .eval p.1 p.2) = s := by
    intro later
    induction later with
    | nil => intro s _; rfl
    | cons p later ih =>
      intro s hs
      have e : dkimStep s (.eval p.1 p.2) = s := by simp [dkimStep, dkimRule, hs]
      show dkimHistory (dkimStep s (.eval p.1 p.2)) _ = s
      rw [e]
      exact ih s hs
  have e : dkimHistory DkimSt.init (.eval r0 m0 :: later.map fun p => .eval p.1 p.2) =
      (dkimRule r0 m0 DkimSt.init).2 := keep later _ hchk
  simp only [e]
  refine ⟨dkim_checked _ hchk r m m', ?_⟩
  intro hp hv
  have hok : (checkSignature m0 DkimSt.init).1 = true := by
    unfold checkSignature
    cases hp' : m0.parsed with
    | none => exact absurd hp' hp
    | some d => cases hv' : m0.verify <;> first | rfl | exact absurd hv' hv
  have e2 : (dkimRule r0 m0 DkimSt.init).2 = (checkSignature m0 DkimSt.init).2 := by
    unfold dkimRule
    rw [show DkimSt.init.checked = false from rfl]
    cases hx : checkSignature m0 DkimSt.init with
    | mk b s => cases b <;> rfl
  have e3 : ∀ r, (dkimRule r m0 DkimSt.init).1 = (dkimRule r m (checkSignature m0 DkimSt.init).2).1 := by
    intro r
    have hchk' := hchk
    rw [e2] at hchk'
    revert hok hchk'
    unfold dkimRule
    rw [show DkimSt.init.checked = false from rfl]
    cases hx : checkSignature m0 DkimSt.init with
    | mk b s =>
      intro hb hc
      cases hb
      simp only at hc
      simp [hc]
  rw [e2, ← e3 r]

/-- A forged message after a good one is reported as validly signed. -/
example : (dkimRule .valid { dkimMsg with hasSig := false, parsed := some none, verify := .libError }
    (dkimHistory DkimSt.init [.eval .valid dkimMsg])).1 = true := by decide

/-- Even a new instance of the plugin judges every message by the author domains of the first message the process
has seen: a good signature of the message's own author counts for nothing, and that of the first message's author
is accepted whoever the author is. -/
theorem C54_dkim_new_instance_violated (m0 m : DkimMsg) (r0 : DkimRule) (h0 : m0.domains ≠ []) (d : Str)
    (hp : m.parsed = some (some d)) (hv : m.verify = .good) (hk : m.fieldsOk = true) :
    (dkimRule .valid m (dkimHistory DkimSt.init [.eval r0 m0, .newInstance])).1 = decide (d ∈ m0.domains) := by
  have e : (dkimHistory DkimSt.init [.eval r0 m0, .newInstance]) = { DkimSt.init with domains := m0.domains } := by
    have : (dkimRule r0 m0 DkimSt.init).2.domains = m0.domains := by
      unfold dkimRule checkSignature getAuthors DkimSt.init
      cases hp : m0.parsed with
      | none => cases hh : m0.hasSig <;> simp [hp, hh]
      | some d =>
        cases d with
        | none => cases hh : m0.hasSig <;> cases hv : m0.verify <;> cases hk : m0.fieldsOk <;> simp [hp, hh, hv, hk]
        | some d =>
          by_cases hd : d ∈ m0.domains <;> cases hv : m0.verify <;> cases hk : m0.fieldsOk <;>
            cases hh : m0.hasSig <;> simp [hp, hv, hk, hh, hd]
    show DkimSt.newInstance (dkimRule r0 m0 DkimSt.init).2 = _
    unfold DkimSt.newInstance
    rw [this]
  rw [e]
  have h0' : m0.domains.isEmpty = false := by
    cases hx : m0.domains with
    | nil => exact absurd hx h0
    | cons _ _ => rfl
  unfold dkimRule checkSignature DkimSt.init
  by_cases hd : d ∈ m0.domains <;> cases hh : m.hasSig <;> simp [hp, hv, hk, hh, hd, h0', h0]

example : Verified { dkimMsg with domains := [c!"b.org"], parsed := some (some c!"b.org") } ∧
    c!"b.org" ∉ dkimMsg.domains ∧
    ¬ Verified { dkimMsg with domains := [c!"b.org"] } := by
  refine ⟨⟨rfl, rfl, c!"b.org", rfl, by decide⟩, by decide, ?_⟩
  rintro ⟨_, _, d, hp, hd⟩
  simp [dkimMsg] at hp hd
  rw [← hp] at hd
  exact absurd hd (by decide)

/-! ## Forged Received trail -/

/-- The two checks give every message the verdict of the first message. -/
theorem C54_trail_violated (L : HopLib) (first : List Hop) (later : List (List Hop)) (m : List Hop) :
    let s := later.foldl (fun s m => (forgedTrail L m s).2) (forgedTrail L first none).2
    (forgedTrail L m s).1 = (forgedTrail L first none).1 ∧
    (forgedIpHelo L m s).1 = (forgedIpHelo L first none).1 := by
  have : ∀ (later : List (List Hop)) (c : Mism),
      later.foldl (fun s m => (forgedTrail L m s).2) (some c) = some c := by
    intro later c
    induction later with
    | nil => rfl
    | cons m later ih => exact ih
  have e : later.foldl (fun s m => (forgedTrail L m s).2) (forgedTrail L first none).2 =
      some (hops L none first ⟨0, 0⟩) := this later _
  simp only [e]
  exact ⟨rfl, rfl⟩

/-- The domain of a host name: its last two labels if the last is long (or one of a few short ones), or else the
last three. -/
theorem C54_domain (L : HopLib) (ps : List Str) (a b c : Str) (h : ∀ w ∈ ps ++ [a, b, c], '.' ∉ w)
    (hl : L.letterFirst (join c!"." (ps ++ [a, b, c])) = true) :
    toDomain L (join c!"." (ps ++ [a, b, c])) =
      if L.longTld c = true then b ++ '.' :: c else a ++ '.' :: (b ++ '.' :: c) := by
  have e : splitChar '.' (join c!"." (ps ++ [a, b, c])) = ps ++ [a, b, c] := splitChar_join '.' _ (by simp) h
  have h3 : (ps ++ [a, b, c]).drop ((ps ++ [a, b, c]).length - 3) = [a, b, c] := by
    have : (ps ++ [a, b, c]).length - 3 = ps.length := by simp
    rw [this, List.drop_append]
    simp
  have h2 : (ps ++ [a, b, c]).drop ((ps ++ [a, b, c]).length - 2) = [b, c] := by
    have : (ps ++ [a, b, c]).length - 2 = ps.length + 1 := by simp
    rw [this, List.drop_append]
    simp
  have hlast : (ps ++ [a, b, c]).getLastD [] = c := by simp [List.getLastD_eq_getLast?]
  have hlen : (ps ++ [a, b, c]).length > 2 := by simp
  unfold toDomain
  rw [hl]
  simp only [e, h2, h3, hlast]
  cases L.longTld c with
  | true =>
    rw [if_pos rfl, if_neg (by simp), if_pos ⟨by omega, rfl⟩]
    simp [join]
  | false =>
    simp [join]

theorem hop_from (L : HopLib) (prev : Option Hop) (h : Hop) (c : Mism) :
    (hop L prev h c).from_ = c.from_ + (match prev with
      | none => 0
      | some p => if Broken L p h then 1 else 0) := by
  unfold hop
  simp only
  by_cases h0 : toDomain L h.byHost = []
  · have hb : ∀ p, ¬ Broken L p h := fun p hp => hp.1 h0
    cases prev <;> simp [h0, hb]
  · have h0' : (toDomain L h.byHost).isEmpty = false := by
      cases hx : toDomain L h.byHost with
      | nil => exact absurd hx h0
      | cons _ _ => rfl
    rw [h0']
    by_cases hh : L.isHost (toDomain L h.byHost) = false
    · have hb : ∀ p, ¬ Broken L p h := fun p hp => by rw [hp.2.1] at hh; cases hh
      rw [hh]
      cases prev <;> simp [hb]
    · rw [Bool.not_eq_false] at hh
      rw [hh]
      simp only [Bool.not_true, Bool.or_false, Bool.false_eq_true, if_false]
      have hf : (hopHelo L h c).from_ = c.from_ := by
        unfold hopHelo
        simp only
        split
        · split <;> rfl
        · rfl
      cases prev with
      | none => simpa using hf
      | some p =>
        simp only
        by_cases hx : L.isHost p.rdns = true ∧ toDomain L h.byHost ≠ p.rdns ∧
            ¬ (toDomain L h.byHost = c!"msn.com" ∧ p.rdns = c!"hotmail.com")
        · rw [if_pos hx, if_pos (show Broken L p h from ⟨h0, hh, hx⟩), ← hf]
        · rw [if_neg hx, if_neg (show ¬ Broken L p h from fun y => hx y.2.2), hf]; rfl

theorem hop_ipHelo_eq (L : HopLib) (prev : Option Hop) (h : Hop) (c : Mism) :
    (hop L prev h c).ipHelo = if (toDomain L h.byHost).isEmpty || !L.isHost (toDomain L h.byHost) then c.ipHelo
      else (hopHelo L h c).ipHelo := by
  unfold hop
  simp only
  split
  · rfl
  · cases prev with
    | none => rfl
    | some p => simp only; split <;> rfl

theorem hop_ipHelo (L : HopLib) (prev : Option Hop) (h : Hop) (c : Mism) :
    (FalseHelo L h → (hop L prev h c).ipHelo = c.ipHelo + 1) ∧
    (¬ FalseHelo L h → (hop L prev h c).ipHelo = c.ipHelo) := by
  have key : (hop L prev h c).ipHelo = c.ipHelo ∧ ¬ FalseHelo L h ∨
      (hop L prev h c).ipHelo = c.ipHelo + 1 ∧ FalseHelo L h := by
    rw [hop_ipHelo_eq]
    unfold FalseHelo
    simp only
    by_cases h0 : toDomain L h.byHost = []
    · left; simp [h0]
    · have h0' : (toDomain L h.byHost).isEmpty = false := by
        cases hx : toDomain L h.byHost with
        | nil => exact absurd hx h0
        | cons _ _ => rfl
      rw [h0']
      cases hh : L.isHost (toDomain L h.byHost) with
      | false => left; simp
      | true =>
        simp only [Bool.not_true, Bool.or_false, Bool.false_eq_true, if_false]
        unfold hopHelo
        simp only
        cases ha : L.net16 h.ip with
        | none => left; simp
        | some a =>
          cases hb : L.net16 (toDomain L h.helo) with
          | none => left; simp
          | some b =>
            simp only
            by_cases hx : h.ip ≠ toDomain L h.helo ∧ a ≠ b ∧ L.isPrivate (toDomain L h.helo) = false
            · right
              rw [if_pos hx]
              exact ⟨rfl, h0, trivial, hx.2.2, hx.1, a, b, rfl, rfl, hx.2.1⟩
            · left
              rw [if_neg hx]
              refine ⟨rfl, ?_⟩
              rintro ⟨_, _, y1, y2, a', b', e1, e2, y3⟩
              cases e1; cases e2
              exact hx ⟨y2, y3, y1⟩
  rcases key with ⟨h1, h2⟩ | ⟨h1, h2⟩
  · exact ⟨fun h => absurd h h2, fun _ => h1⟩
  · exact ⟨fun _ => h1, fun h => absurd h2 h⟩

/-- In a new process the first message is judged right: its trail counts as forged if more than one link is broken,
and its HELO name if a relay's HELO name is an address of another network.  Missing: every later message
(`C54_trail_violated`). -/
theorem C54_first_partial (L : HopLib) (relays : List Hop) :
    ((forgedTrail L relays none).1 = true ↔ brokenLinks L relays > 1) ∧
    ((forgedIpHelo L relays none).1 = true ↔ ∃ h ∈ relays, FalseHelo L h) := by
  have loop1 : ∀ (hs : List Hop) (p : Hop) (c : Mism),
      (hops L (some p) hs c).from_ = c.from_ + brokenLinks L (p :: hs) := by
    intro hs
    induction hs with
    | nil => intro p c; rfl
    | cons h hs ih =>
      intro p c
      show (hops L (some h) hs (hop L (some p) h c)).from_ = _
      rw [ih, hop_from]
      have : brokenLinks L (p :: h :: hs) = (if Broken L p h then 1 else 0) + brokenLinks L (h :: hs) := by
        unfold brokenLinks
        simp only [List.tail_cons, List.zip_cons_cons, List.filter_cons, decide_eq_true_eq]
        split
        · simp only [List.length_cons]; omega
        · omega
      rw [this]
      simp only
      omega
  have loop2 : ∀ (hs : List Hop) (prev : Option Hop) (c : Mism),
      (hops L prev hs c).ipHelo > 0 ↔ c.ipHelo > 0 ∨ ∃ h ∈ hs, FalseHelo L h := by
    intro hs
    induction hs with
    | nil => intro prev c; simp [hops]
    | cons h hs ih =>
      intro prev c
      show (hops L (some h) hs (hop L prev h c)).ipHelo > 0 ↔ _
      rw [ih]
      obtain ⟨a, b⟩ := hop_ipHelo L prev h c
      by_cases hf : FalseHelo L h
      · rw [a hf]
        constructor
        · intro _; right; exact ⟨h, by simp, hf⟩
        · intro _; left; omega
      · rw [b hf]
        constructor
        · rintro (h1 | ⟨x, hx, h2⟩)
          · exact Or.inl h1
          · exact Or.inr ⟨x, by simp [hx], h2⟩
        · rintro (h1 | ⟨x, hx, h2⟩)
          · exact Or.inl h1
          · rcases List.mem_cons.mp hx with e | e
            · exact absurd (e ▸ h2) hf
            · exact Or.inr ⟨x, e, h2⟩
  constructor
  · show decide ((hops L none relays ⟨0, 0⟩).from_ > 1) = true ↔ _
    rw [decide_eq_true_iff]
    cases relays with
    | nil => rfl
    | cons h hs =>
      show (hops L (some h) hs (hop L none h ⟨0, 0⟩)).from_ > 1 ↔ _
      rw [loop1, hop_from]
      simp
  · show decide ((hops L none relays ⟨0, 0⟩).ipHelo > 0) = true ↔ _
    rw [decide_eq_true_iff, loop2]
    simp

/-- A trail with two broken links and a false HELO name, and one without. -/
def hopLib : HopLib where
  letterFirst := fun h => match h with | c :: _ => c.isAlpha | [] => false
  longTld := fun t => t.length ≥ 3
  isHost := fun h => '.' ∈ h && h.any Char.isAlpha
  isPrivate := fun _ => false
  net16 := fun h => if h = c!"1.2.3.4" then some 1 else if h = c!"5.6.7.8" then some 5 else none

def badTrail : List Hop :=
  [⟨c!"1.2.3.4", c!"a.com", c!"mx.example.com", c!"5.6.7.8"⟩, ⟨c!"1.2.3.4", c!"b.com", c!"mx.x.com", c!"x"⟩,
   ⟨c!"1.2.3.4", c!"c.com", c!"mx.y.com", c!"y"⟩]

def goodTrail : List Hop :=
  [⟨c!"1.2.3.4", c!"a.com", c!"mx.example.com", c!"a.com"⟩, ⟨c!"1.2.3.4", c!"b.com", c!"mx.a.com", c!"b.com"⟩]

example : brokenLinks hopLib badTrail = 2 ∧ brokenLinks hopLib goodTrail = 0 ∧
    (forgedIpHelo hopLib badTrail none).1 = true ∧ (forgedTrail hopLib goodTrail none).1 = false ∧
    (forgedTrail hopLib goodTrail (forgedTrail hopLib badTrail none).2).1 = true := by decide +kernel

end Verif.Props
