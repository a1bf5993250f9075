import Verif.Model.Wlbl

/-!
# Specification of white and black lists
-/

namespace Verif.Wlbl
open Verif Py

/-- File-glob patterns as the documentation describes them: `*` stands for any text, `?` for one character, and every
other character for itself; the pattern covers the whole text. -/
inductive Covers : Str → Str → Prop where
  | nil : Covers [] []
  | star (p t u : Str) : Covers p u → Covers ('*' :: p) (t ++ u)
  | one (p u : Str) (c : Char) : Covers p u → Covers ('?' :: p) (c :: u)
  | lit (p u : Str) (c : Char) : c ≠ '*' → c ≠ '?' → Covers p u → Covers (c :: p) (c :: u)

/-- What the code makes of a pattern: `*` stands for `n` characters or more, `?` for one character or none, and no
wildcard for a line break.  `n` is 0 for plain lists and 1 for lists with relays. -/
inductive Loose (n : Nat) : Str → Str → Prop where
  | nil : Loose n [] []
  | star (p t u : Str) : n ≤ t.length → '\n' ∉ t → Loose n p u → Loose n ('*' :: p) (t ++ u)
  | none (p u : Str) : Loose n p u → Loose n ('?' :: p) u
  | one (p u : Str) (c : Char) : c ≠ '\n' → Loose n p u → Loose n ('?' :: p) (c :: u)
  | lit (p u : Str) (c : Char) : c ≠ '*' → c ≠ '?' → Loose n p u → Loose n (c :: p) (c :: u)

/-- A part of the text is what the pattern stands for. -/
def Within (n : Nat) (pattern text : Str) : Prop := ∃ x y z, text = x ++ y ++ z ∧ Loose n pattern y

/-- Entries the code does not skip. -/
def Usable (entry : Str) : Prop := '?' ∈ entry ∨ '@' ∈ entry ∨ '.' ∈ entry

/-- An entry without `@` is about the domain. -/
def whole (entry : Str) : Str := if '@' ∈ entry then entry else c!"*@" ++ entry

/-- The host is the domain or below it. -/
def Under (domain host : Str) : Prop := host = domain ∨ ∃ x, host = x ++ '.' :: domain

/-- The relays that matter: the first untrusted one, or all trusted ones if there is none. -/
def Considered (m : WMsg) (r : WRelay) : Prop := m.untrusted.head? = some r ∨ (m.untrusted = [] ∧ r ∈ m.trusted)

/-- The relay is the one an entry names: its address is in the network, or, if the entry gives no network, its name
is in the domain. -/
def FromDomain (N : InNet) (domain : Str) (r : WRelay) : Prop :=
  N (bareDomain domain) r.ip = some true ∨ (N (bareDomain domain) r.ip = none ∧ Under (bareDomain domain) (lower r.rdns))

/-- A list of pattern and domain accepts the address: an entry stands for a part of it (in lower case), and a relay
that matters is the one the entry names. -/
def Accepts (N : InNet) (m : WMsg) (list : List (Str × Str)) (address : Str) : Prop :=
  ∃ e d r, (e, d) ∈ list ∧ Within 1 e (lower address) ∧ Considered m r ∧ FromDomain N d r

/-- A host is enlisted in a list of URI hosts. -/
def Enlisted (c : UriConf) (list host : Str) : Prop :=
  (∃ line k hosts, line ∈ c.enlist ∧ splitWs line = k :: hosts ∧ listName k = list ∧ host ∈ hosts) ∨
  (list = c!"WHITE" ∧ ∃ line ∈ c.white, host ∈ splitWs line) ∨
  (list = c!"BLACK" ∧ ∃ line ∈ c.black, host ∈ splitWs line)

/-- A host is taken off a list, or off all of them. -/
def Delisted (c : UriConf) (list host : Str) : Prop :=
  (∃ line k hosts h, line ∈ c.delist ∧ '(' ∈ line ∧ splitWs line = k :: hosts ∧
    (listName k = list ∨ listName k = c!"ALL") ∧ h ∈ hosts ∧ host = stripChars c!"." h) ∨
  (∃ line h, line ∈ c.delist ∧ '(' ∉ line ∧ h ∈ splitWs line ∧ host = stripChars c!"!" h)

end Verif.Wlbl
