import Verif.Model.Py

/-!
# Addresses in `Received` headers

Words of the statements about the real expressions of the parser.
-/

namespace Verif.Spec
open Verif

/-- A number in decimal digits. -/
def decimal (n : Nat) : Str := (toString n).toList

/-- The usual text of an IPv4 address. -/
def dotted (a b c d : Nat) : Str := decimal a ++ '.' :: (decimal b ++ '.' :: (decimal c ++ '.' :: decimal d))

/-- The four numbers are those of an address that the parser does not take for one of a private network. -/
structure PublicAddress (a b c d : Nat) : Prop where
  a255 : a ≤ 255
  b255 : b ≤ 255
  c255 : c ≤ 255
  d255 : d ≤ 255
  not10 : a ≠ 10
  not127 : a ≠ 127
  notLinkLocal : ¬ (a = 169 ∧ b = 254)
  not192168 : ¬ (a = 192 ∧ b = 168)
  notShared : ¬ (a = 100 ∧ 64 ≤ b ∧ b ≤ 127)

/-- A name of a host: letters, digits, `-`, `.` and `_`. -/
def HostName (s : Str) : Prop := s ≠ [] ∧ ∀ c ∈ s, c.isAlphanum = true ∨ c = '-' ∨ c = '.' ∨ c = '_'

/-- What a Postfix server writes into its line. -/
structure PostfixLine where
  helo : Str
  rdns : Str
  a : Nat
  b : Nat
  c : Nat
  d : Nat
  by_ : Str
  proto : Str
  id_ : Str
  rcpt : Option Str

/-- The receiver, if the server names one. -/
def forPart : Option Str → Str
  | none => []
  | some r => c!" for <" ++ r ++ c!">"

/-- The line of a Postfix server without `from ` and date. -/
def PostfixLine.text (l : PostfixLine) : Str :=
  l.helo ++ c!" (" ++ l.rdns ++ c!" [" ++ dotted l.a l.b l.c l.d ++ c!"]) by " ++ l.by_ ++ c!" (Postfix) with " ++ l.proto ++ c!" id " ++ l.id_ ++
    forPart l.rcpt

/-- The names and the address in the line are ordinary ones. -/
structure PostfixLine.Ok (l : PostfixLine) : Prop where
  helo : HostName l.helo
  rdns : HostName l.rdns
  by_ : HostName l.by_
  id_ : HostName l.id_
  ip : PublicAddress l.a l.b l.c l.d
  proto : l.proto ∈ [c!"SMTP", c!"ESMTP", c!"ESMTPS", c!"ESMTPA", c!"ESMTPSA"]
  rcpt : ∀ r ∈ l.rcpt, ∀ c ∈ r, c.isAlphanum = true ∨ c = '-' ∨ c = '.' ∨ c = '_' ∨ c = '@' ∨ c = '+'

/-- None of the names in the line is one that the parser takes for something else. -/
structure PostfixLine.Plain (l : PostfixLine) : Prop where
  known : ¬ c!"unknown" <:+: l.rdns
  known' : l.rdns ≠ c!"softdnserr" ∧ l.rdns ≠ c!"UnknownHost"
  rdnsHelo : l.rdns.map Char.toLower ≠ c!"helo" ∧ l.rdns.map Char.toLower ≠ c!"ehlo"
  byHelo : l.by_.map Char.toLower ≠ c!"helo" ∧ l.by_.map Char.toLower ≠ c!"ehlo"
  idEnd : l.rcpt = none ∨ ¬ c!"id" <:+ l.id_
  envelope : ∀ n ∈ [l.helo, l.rdns, l.by_, l.id_], ¬ c!"return-path" <:+ n ∧ ¬ c!"envelope-sender" <:+ n ∧ ¬ c!"envelope-from" <:+ n
  authenticated : ¬ c!"authenticated" <:+: l.text
  gmx : l.by_ ≠ c!"mail.gmx.net" ∧ l.by_ ≠ c!"mail.gmx.com"

end Verif.Spec
