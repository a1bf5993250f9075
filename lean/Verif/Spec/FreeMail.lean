import Verif.Model.FreeMail

/-!
# Specification of rules about free mail
-/

namespace Verif.FreeMail
open Verif Py

/-- An address with a name and a domain. -/
def Address (e l d : Str) : Prop := e = l ++ '@' :: d ∧ '@' ∉ l ∧ '@' ∉ d

/-- An address is one of a free mail service: neither it nor its domain is excepted, and its domain is in the list or is
described by a wildcard. -/
def Free (c : Conf) (e : Str) : Prop :=
  ∃ l d, Address e l d ∧ e ∉ c.whitelist ∧ d ∉ c.whitelist ∧ c.standard e = false ∧
    (d ∈ c.domains ∨ ∃ m, c.wild = some (some m) ∧ m e = true)

/-- A character domains may have. -/
def DomainChar (ch : Char) : Prop :=
  ('a' ≤ ch ∧ ch ≤ 'z') ∨ ('0' ≤ ch ∧ ch ≤ '9') ∨ ch = '.' ∨ ch = '*' ∨ ch = '?' ∨ ch = '-'

/-- A rule about the body, or about the address to reply to. -/
inductive Ev where
  | body (rx : Rx)
  | reply (option : Option Str) (sender : Option Str) (from_ replyTo : Str)

/-- Its evaluation. -/
def Ev.eval (c : Conf) (b : Body) : Ev → Bool × Body
  | .body rx => checkBody c rx b
  | .reply o s f r => checkReplyto c o s f r b

/-- What is remembered after a message was read in parts and some rules were evaluated; `old` is what was remembered of
the message before. -/
def after (c : Conf) (old : Body) (parts : List (List Str)) (evs : List Ev) : Body :=
  evs.foldl (fun b e => (e.eval c b).2) (parts.foldl Body.extract old.reset)

/-- The distinct addresses of the parts of a message. -/
def Distinct (parts : List (List Str)) (es : List Str) : Prop := es.Nodup ∧ ∀ e, e ∈ es ↔ ∃ p ∈ parts, e ∈ p

/-- There are not too many addresses in the body. -/
def Few (c : Conf) (es fs : List Str) : Prop :=
  (c.skipOver = true → (es.length : Int) < c.maxEmails) ∧ (fs.length : Int) < c.maxFree

end Verif.FreeMail
