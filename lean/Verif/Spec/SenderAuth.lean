import Verif.Model.SenderAuth

/-!
# Specification of sender authentication
-/

namespace Verif.SenderAuth
open Verif Py

/-- The results an SPF check can have. -/
def spfResults : List Str :=
  [c!"pass", c!"neutral", c!"none", c!"fail", c!"softfail", c!"permerror", c!"temperror"]

/-- The header is about the sender address: it names no identity or the mail-from identity. -/
def aboutSender (L : SpfLib) (h : Str) : Option Str :=
  match L.received h with
  | some (r, none) => some r
  | some (r, some i) => if i = [] ∨ lower i = c!"mfrom" ∨ lower i = c!"mailfrom" then some r else none
  | none => none

/-- The header is about the HELO name. -/
def aboutHelo (L : SpfLib) (h : Str) : Option Str :=
  match L.received h with
  | some (r, some i) => if i = c!"helo" then some r else none
  | _ => none

/-- The result of the first header of a kind. -/
def firstResult (about : Str → Option Str) (hs : List Str) : Option Str := hs.findSome? about

/-- The message carries a signature of an author's domain and the library has verified it. -/
def Verified (m : DkimMsg) : Prop :=
  m.verify = .good ∧ m.fieldsOk = true ∧ ∃ d, m.parsed = some (some d) ∧ d ∈ m.domains

/-- Received lines are linked: the domain of the host that wrote a line should be the name of the host the line
above came from. -/
def Broken (L : HopLib) (above below : Hop) : Prop :=
  let by_ := toDomain L below.byHost
  by_ ≠ [] ∧ L.isHost by_ = true ∧ L.isHost above.rdns = true ∧ by_ ≠ above.rdns ∧
    ¬ (by_ = c!"msn.com" ∧ above.rdns = c!"hotmail.com")

instance (L : HopLib) (a b : Hop) : Decidable (Broken L a b) :=
  inferInstanceAs (Decidable (_ ∧ _ ∧ _ ∧ _ ∧ ¬ _))

/-- How many links are broken. -/
def brokenLinks (L : HopLib) (relays : List Hop) : Nat :=
  ((relays.zip relays.tail).filter fun p => decide (Broken L p.1 p.2)).length

/-- The HELO name of a relay is an address of another /16 network. -/
def FalseHelo (L : HopLib) (h : Hop) : Prop :=
  let by_ := toDomain L h.byHost
  let helo := toDomain L h.helo
  by_ ≠ [] ∧ L.isHost by_ = true ∧ L.isPrivate helo = false ∧ h.ip ≠ helo ∧
    ∃ a b, L.net16 h.ip = some a ∧ L.net16 helo = some b ∧ a ≠ b

end Verif.SenderAuth
