import Verif.Model.Tell
import Verif.Spec.Bayes
import Verif.Spec.Services

/-!
# Specification: what a client that tells about a message asks for
-/

namespace Verif.Spec
open Verif Py Tell Services

variable {D : Type}

/-- The mail to SpamCop that a report leads to: there is one if there is an address and the message is not older than two days. -/
def MailedTo (s : Services.Cop) (mktime : Str → Option Int) (now : Int) (m : Letter) (out : List Deed) : Prop :=
  (Usable s.toAddr ∧ (∃ t, Stamped mktime m.received t ∧ t ≠ 0 ∧ now - 2 * 24 * 60 * 60 ≤ t) ∧
    ∃ r : Services.Report, r.sender = s.fromAddr ∧ r.receiver = s.toAddr ∧ Carries s.maxSize m.raw r.original ∧ out = [.mailed r]) ∨
  (¬ (Usable s.toAddr ∧ (∃ t, Stamped mktime m.received t ∧ t ≠ 0 ∧ now - 2 * 24 * 60 * 60 ≤ t)) ∧ out = [])

/-- What a service that works is told when a message is reported as spam, or, with `revoke`, as no spam. -/
def Informed (now : Int) (m : Letter) (revoke : Bool) : Plug D → List Deed → Prop
  | .pyzor use _ _ servers, out => out = if use then servers.map (fun s => .pyzor ⟨s, m.digest, !revoke⟩) else []
  | .razor starts, out => out = if starts then [.ran (if revoke then c!"razor-revoke" else c!"razor-report")] else []
  | .spamcop s mktime _, out => if revoke then out = [] else MailedTo s mktime now m out
  | _, out => out = []

/-- What all services are told, one after the other. -/
def AllInformed (now : Int) (m : Letter) (revoke : Bool) : List (Plug D) → List Deed → Prop
  | [], out => out = []
  | p :: ps, out => ∃ a b, Informed now m revoke p a ∧ AllInformed now m revoke ps b ∧ out = a ++ b

/-- A service that does not fail: the servers can be told, the message has a date. -/
def ServiceWorks (m : Letter) : Plug D → Prop
  | .bayes _ _ => False
  | .pyzor _ ok stored servers => (∀ s ∈ servers, ok s = true) ∧ ∀ d, stored = some d → d = m.digest
  | .spamcop s mktime _ => Usable s.toAddr → ∃ t, Stamped mktime m.received t
  | _ => True

/-- Plugins of which one is the classifier, with a database that does what is expected of it, and the others work. -/
def Installed (m : Letter) (ps : List (Plug D)) (st : Bayes.Store D) (abs : D → Bayes.Learned) : Prop :=
  ∃ a b, ps = a ++ .bayes st true :: b ∧ (∀ p ∈ a, ServiceWorks m p) ∧ (∀ p ∈ b, ServiceWorks m p) ∧ Bayes.Contract st abs

/-- A plugin that fails: the database of the classifier does, or a server of Pyzor cannot be told, or SpamCop is to get a message
without a date. -/
def Fails (now : Int) (m : Letter) (revoke : Bool) (db : D) : Plug D → Prop
  | .bayes st use => ∃ e d, Bayes.learnMessage st use now (!revoke) m.mail db = (.error e, d)
  | .pyzor use ok _ servers => use = true ∧ ∃ s ∈ servers, ok s = false
  | .spamcop s mktime _ => revoke = false ∧ Usable s.toAddr ∧ ¬ ∃ t, Stamped mktime m.received t
  | _ => False

/-- The message is learned as this class, and nothing else about messages has changed. -/
def LearnedAs (abs : D → Bayes.Learned) (m : Letter) (spam : Bool) (before after : D) : Prop :=
  ∀ id, (abs after).status id = if id = m.mail.msgid then some spam else (abs before).status id

/-- What the client says the message is: spam, unless it says otherwise. -/
def SaysSpam (options : Dict Str Str) : Prop :=
  Dict.get? options c!"message-class" = none ∨ ∃ t, Dict.get? options c!"message-class" = some t ∧ lower t = c!"spam"

/-- The client names this place under this key. -/
def NamesPlace (options : Dict Str Str) (key place : Str) : Prop :=
  ∃ l, Dict.get? options key = some (join c!"," l) ∧ (∀ t ∈ l, ',' ∉ t) ∧ place ∈ l

end Verif.Spec
