import Verif.Spec.CopSend
import Verif.Lemmas.Split
import Verif.Props.Services
import Verif.Props.Build

/-!
# C180: a report reaches the mail server of its receiver
-/

namespace Verif.Props
open Verif Py Services CopSend

theorem domain_of (to name domain : Str) (h : Address to name domain) : domainOf to = some domain := by
  obtain ⟨rfl, h1, h2⟩ := h
  unfold domainOf
  rw [splitChar_append _ h1, splitChar_nocomma h2]

theorem host_of (x : Mx) (h : x.Ok) : hostOf x.text = some x.host := by
  obtain ⟨h0, h1, h2, h3⟩ := h
  unfold hostOf Mx.text
  have hw : ∀ c ∈ x.host ++ c!".", isSpace c = false := by
    intro c hc
    rcases List.mem_append.mp hc with hc | hc
    · exact h2 c hc
    · have : c = '.' := by simpa using hc
      rw [this]; decide
  have hne : x.host ++ c!"." ≠ [] := by simp
  have e : x.digits ++ c!" " ++ x.host ++ c!"." = x.digits ++ ' ' :: (x.host ++ c!".") := by simp
  rw [e, splitWs_cons _ _ ⟨h0, h1⟩, splitWs_word _ ⟨hne, hw⟩]
  · simp
  · cases hx : x.host ++ c!"." with
    | nil => exact absurd hx hne
    | cons c cs => exact ⟨c, cs, rfl, hw c (by rw [hx]; simp)⟩

theorem helo_of (host : Str) (h : '.' ∈ host) : ∃ a b rest, host = a ++ '.' :: rest ∧ '.' ∉ a ∧ heloOf host = some b ∧ (∃ t, rest = b ++ t) := by
  obtain ⟨a, rest, e, ha⟩ : ∃ a rest, host = a ++ '.' :: rest ∧ '.' ∉ a := by
    induction host with
    | nil => cases h
    | cons c cs ih =>
      by_cases hc : c = '.'
      · exact ⟨[], cs, by rw [hc]; rfl, by simp⟩
      · rcases List.mem_cons.mp h with h | h
        · exact absurd h.symm hc
        · obtain ⟨a, rest, e, ha⟩ := ih h
          exact ⟨c :: a, rest, by rw [e]; rfl, by simp [ha, Ne.symm hc]⟩
  have hs : ∀ s : Str, ∃ b ws t, splitChar '.' s = b :: ws ∧ s = b ++ t := by
    intro s
    induction s with
    | nil => exact ⟨[], [], [], rfl, rfl⟩
    | cons c cs ih =>
      obtain ⟨b, ws, t, e1, e2⟩ := ih
      unfold splitChar
      split
      · exact ⟨[], _, c :: cs, rfl, rfl⟩
      · rw [e1]; exact ⟨c :: b, ws, t, rfl, by rw [e2]; rfl⟩
  obtain ⟨b, ws, t, e1, e2⟩ := hs rest
  refine ⟨a, b, rest, e, ha, ?_, t, e2⟩
  unfold heloOf
  rw [e, splitChar_append _ ha, e1]

/-- **C180**.  What the method says is what the server said: it is true exactly if a server took the report, and nothing is sent
that is not the report to its receiver. -/
theorem C180_honest (mx : Str → Option (List Str)) (smtp : Attempt → Bool) (r : Report) :
    ((send mx smtp r).1 = true ↔ ∃ a, (send mx smtp r).2 = some a ∧ smtp a = true) ∧
    ∀ a, (send mx smtp r).2 = some a → a.report = r := by
  unfold send
  split
  · simp
  · split
    · simp
    · simp
    · split
      · simp
      · split
        · simp
        · simp

/-- **C180**, part.  For an address with one at sign and records with hosts of several labels, the report is sent to the host of the
first record of the domain of the receiver.  Missing: the other records (`C180_preference_violated`, `C180_retry_violated`), domains
without records (`C180_none_violated`) and other addresses (`C180_quoted_violated`). -/
theorem C180_host_partial (mx : Str → Option (List Str)) (smtp : Attempt → Bool) (r : Report) (name domain : Str)
    (ha : Address r.receiver name domain) (x : Mx) (xs : List Mx) (hx : x.Ok) (hm : mx domain = some ((x :: xs).map Mx.text)) :
    ∃ helo, send mx smtp r = (smtp ⟨x.host, helo, r⟩, some ⟨x.host, helo, r⟩) := by
  obtain ⟨-, helo, -, -, -, hh, -⟩ := helo_of x.host hx.2.2.2
  refine ⟨helo, ?_⟩
  unfold send
  rw [domain_of _ _ _ ha]
  simp only [hm, List.map_cons, host_of x hx, hh]

/-- **C180**, negation.  The order of the answer decides, not the preference: whenever the first record is not the best one, the
report is sent to another server than the best. -/
theorem C180_preference_violated (mx : Str → Option (List Str)) (smtp : Attempt → Bool) (r : Report) (name domain : Str)
    (ha : Address r.receiver name domain) (x best : Mx) (xs : List Mx) (hx : x.Ok) (hm : mx domain = some ((x :: xs).map Mx.text))
    (_ : best ∈ xs) (_ : best.pref < x.pref) (hne : best.host ≠ x.host) :
    ∃ a, (send mx smtp r).2 = some a ∧ a.host ≠ best.host := by
  obtain ⟨helo, e⟩ := C180_host_partial mx smtp r name domain ha x xs hx hm
  rw [e]
  exact ⟨_, rfl, fun h => hne h.symm⟩

/-- **C180**, negation.  If the first server does not take the report, no other is tried, whatever the others would do. -/
theorem C180_retry_violated (mx : Str → Option (List Str)) (smtp : Attempt → Bool) (r : Report) (name domain : Str)
    (ha : Address r.receiver name domain) (x : Mx) (xs : List Mx) (hx : x.Ok) (hm : mx domain = some ((x :: xs).map Mx.text))
    (hdown : ∀ a, a.host = x.host → smtp a = false) : (send mx smtp r).1 = false := by
  obtain ⟨helo, e⟩ := C180_host_partial mx smtp r name domain ha x xs hx hm
  rw [e]
  exact hdown _ rfl

/-- **C180**, negation.  A domain without such records, whose own host takes mail, gets nothing. -/
theorem C180_none_violated (mx : Str → Option (List Str)) (smtp : Attempt → Bool) (r : Report) (name domain : Str)
    (ha : Address r.receiver name domain) (hm : mx domain = some []) : send mx smtp r = (false, none) := by
  unfold send
  rw [domain_of _ _ _ ha]
  simp only [hm]

/-- **C180**, negation.  An at sign in the first part of an address, as in `"a@b"@domain`, gives the report to what follows it. -/
theorem C180_quoted_violated (mx : Str → Option (List Str)) (smtp : Attempt → Bool) (r : Report) (a b domain : Str) (h1 : '@' ∉ a) (h2 : '@' ∉ b)
    (hr : r.receiver = a ++ '@' :: (b ++ '@' :: domain)) (x : Mx) (xs : List Mx) (hx : x.Ok) (hm : mx b = some ((x :: xs).map Mx.text)) :
    ∃ helo, (send mx smtp r).2 = some ⟨x.host, helo, r⟩ := by
  obtain ⟨-, helo, -, -, -, hh, -⟩ := helo_of x.host hx.2.2.2
  refine ⟨helo, ?_⟩
  have hd : domainOf r.receiver = some b := by
    unfold domainOf
    rw [hr, splitChar_append _ h1, splitChar_append _ h2]
  unfold send
  rw [hd]
  simp only [hm, List.map_cons, host_of x hx, hh]

/-- **C180**, negation.  The name given in `HELO` is a label of the server that is spoken to, not of the host that speaks. -/
theorem C180_helo_violated (mx : Str → Option (List Str)) (smtp : Attempt → Bool) (r : Report) (a : Attempt) (h : (send mx smtp r).2 = some a) :
    heloOf a.host = some a.helo := by
  unfold send at h
  split at h
  · cases h
  · split at h
    · cases h
    · cases h
    · split at h
      · cases h
      · split at h
        · cases h
        · rename_i hh
          cases h
          exact hh

/-- **C180**.  A report of a message that is sent is the message cut to the limit, from and to the configured addresses, and the
answer is true exactly if a server took it. -/
theorem C180_report (s : Cop) (mktime : Str → Option Int) (now : Int) (mx : Str → Option (List Str)) (smtp : Attempt → Bool)
    (received : List (Option Str)) (raw : Str) (ok : Bool) (sent : Option Attempt) (h : report s mktime now mx smtp received raw = some (ok, sent)) :
    (ok = true ↔ ∃ a, sent = some a ∧ smtp a = true) ∧
    ∀ a, sent = some a → a.report.sender = s.fromAddr ∧ a.report.receiver = s.toAddr ∧ a.report.original = cut s.maxSize raw := by
  unfold report copReport at h
  by_cases hu : usableTo s.toAddr = true
  · simp only [hu, Bool.not_true, Bool.false_eq_true, if_false] at h
    cases hd : mailDate mktime received with
    | none => simp [hd] at h
    | some date =>
      simp only [hd] at h
      by_cases hc : date = 0 ∨ date < now - 2 * 86400
      · simp only [hc, if_true, Option.some.injEq, Prod.mk.injEq, Option.bind_none] at h
        obtain ⟨rfl, rfl⟩ := h
        simp
      · simp only [hc, if_false, Option.some.injEq, Prod.mk.injEq, Option.bind_some] at h
        obtain ⟨rfl, rfl⟩ := h
        obtain ⟨h1, h2⟩ := C180_honest mx smtp ⟨s.fromAddr, s.toAddr, cut s.maxSize raw⟩
        exact ⟨h1, fun a ha => by rw [h2 a ha]; exact ⟨rfl, rfl, rfl⟩⟩
  · have hu' : usableTo s.toAddr = false := by simpa using hu
    simp only [hu', Bool.not_false, if_true, Option.some.injEq, Prod.mk.injEq, Option.bind_none] at h
    obtain ⟨rfl, rfl⟩ := h
    simp

/-! ## The hypotheses can be met -/

def copMx (d : Str) : Option (List Str) :=
  if d = c!"spamcop.net" then some [c!"20 backup.spamcop.net.", c!"10 mx.spamcop.net."] else some []

def copSmtp (a : Attempt) : Bool := decide (a.host = c!"mx.spamcop.net")

/-- The second, better server would take the report; the first is down. -/
example : send copMx copSmtp ⟨c!"me@a.example", c!"submit@spamcop.net", c!"spam"⟩ =
    (false, some ⟨c!"backup.spamcop.net", c!"spamcop", ⟨c!"me@a.example", c!"submit@spamcop.net", c!"spam"⟩⟩) ∧
    (send copMx (fun _ => true) ⟨c!"me@a.example", c!"submit@spamcop.net", c!"spam"⟩).1 = true := by
  decide +kernel

example : (Mx.mk 20 c!"20" c!"backup.spamcop.net").Ok ∧ (Mx.mk 20 c!"20" c!"backup.spamcop.net").text = c!"20 backup.spamcop.net." ∧
    Address c!"submit@spamcop.net" c!"submit" c!"spamcop.net" := by
  refine ⟨⟨by decide, by decide, by decide, by decide⟩, by decide, by decide, by decide, by decide⟩

example : report ⟨false, c!"me@a.example", c!"submit@spamcop.net", 50⟩ toyTime 8 copMx (fun _ => true) [some c!"from a by b;7"] c!"spam" =
    some (true, some ⟨c!"backup.spamcop.net", c!"spamcop", ⟨c!"me@a.example", c!"submit@spamcop.net", c!"spam"⟩⟩) := by
  decide +kernel

end Verif.Props
