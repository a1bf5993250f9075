import Verif.Spec.Decimal
import Verif.Spec.Skip

/-!
# What a `Received` header says

Where the parser looks for the name given in the greeting, the name of the host and so on: the shapes of lines it knows, in the order in
which it tries them.
-/

namespace Verif.Spec.Fields
open Verif Py
open Verif.Spec.Skip (Word Reading)

/-! ### Addresses -/

/-- A number up to 255, perhaps with one zero before a single digit. -/
def Octet (s : Str) : Prop := ∃ n, n ≤ 255 ∧ (s = decimal n ∨ n < 10 ∧ s = '0' :: decimal n)

/-- An IPv4 address. -/
def Quad (s : Str) : Prop := ∃ p q r t, Octet p ∧ Octet q ∧ Octet r ∧ Octet t ∧ s = p ++ c!"." ++ q ++ c!"." ++ r ++ c!"." ++ t

/-- A part of an IPv6 address, in small letters. -/
def SmallPart (s : Str) : Prop := Hextet s ∧ ∀ c ∈ s, c.isUpper = false

/-- An address: IPv4, IPv6, or IPv6 whose last two parts are written as an IPv4 address. -/
inductive Address : Str → Prop
  | v4 {q : Str} (h : Quad q) : Address q
  | v6 {p : Str} {f : V6Form} (hp : V6Tag p) (hf : f.Ok) (hl : f.LowerCase) : Address (p ++ f.text)
  | mixed {p q : Str} {ps : List Str} (hp : V6Tag p) (h6 : ps.length = 6) (hs : ∀ x ∈ ps, SmallPart x) (hq : Quad q) :
      Address (p ++ join c!":" (ps ++ [q]))
  | mixedShort {p q : Str} {hi lo : List Str} (hp : V6Tag p) (h5 : hi.length + lo.length ≤ 5) (hh : ∀ x ∈ hi, SmallPart x)
      (hl : ∀ x ∈ lo, SmallPart x) (hq : Quad q) : Address (p ++ join c!":" hi ++ c!"::" ++ join c!":" (lo ++ [q]))

/-- A port after an address: `.` or, after an IPv4 address, `:`, and digits. -/
inductive Port : Str → Str → Prop
  | none (a : Str) : Port a []
  | dot (a : Str) {d : Str} (h0 : d ≠ []) (hd : ∀ c ∈ d, c.isDigit = true) : Port a ('.' :: d)
  | colon {a : Str} (ha : Quad a) {d : Str} (h0 : d ≠ []) (hd : ∀ c ∈ d, c.isDigit = true) : Port a (':' :: d)

/-! ### Choosing -/

/-- What the first shape gives that fits; nothing if none does. -/
def FirstOf (h : Str) : List (Str → Str → Prop) → Str → Prop
  | [], v => v = []
  | S :: l, v => S h v ∨ (∀ u, ¬ S h u) ∧ FirstOf h l v

/-- `P pre v`: `v` can be found after `pre`.  The one that is found is as far to the left as possible, and then as long as possible. -/
def Leftmost (P : Str → Str → Prop) (v : Str) : Prop :=
  ∃ pre, P pre v ∧ ∀ pre' v', P pre' v' → pre.length < pre'.length ∨ pre'.length = pre.length ∧ v'.length ≤ v.length

/-- The one that is found is as far to the right as possible, and then as long as possible. -/
def Rightmost (P : Str → Str → Prop) (v : Str) : Prop :=
  ∃ pre, P pre v ∧ ∀ pre' v', P pre' v' → pre'.length < pre.length ∨ pre'.length = pre.length ∧ v'.length ≤ v.length

/-- Perhaps a text. -/
def Perhaps (s t : Str) : Prop := t = [] ∨ t = s

/-- A first word `w` means the name `v`: without a bracket that opens it. -/
def Unopened (w v : Str) : Prop := (w = '(' :: v ∧ v ≠ []) ∨ (w = v ∧ ∀ u, w = '(' :: u → u = [])

/-- `HELO` or `EHLO`. -/
def Greeting (k : Str) : Prop := Reading c!"helo" k ∨ Reading c!"ehlo" k

/-! ### The name given in the greeting -/

/-- `… (HELO name) …` -/
def Greeted (h v : Str) : Prop :=
  Leftmost (fun pre v => ∃ k rest, Greeting k ∧ (∀ c ∈ v, isSpace c = false) ∧ h = pre ++ c!"(" ++ k ++ c!" " ++ v ++ c!")" ++ rest) v

/-- `… helo=name) …`, without brackets around the name. -/
def HeloIs (h v : Str) : Prop :=
  ∃ u, Leftmost (fun pre v => ∃ k rest, Reading c!"helo=" k ∧ Word v ∧ h = pre ++ k ++ v ++ c!")" ++ rest) u ∧ v = stripChars c!"[ ]();\n" u

/-- `name ([address]) …` -/
def Bracketed (h v : Str) : Prop :=
  ∃ w o s a rest, Word w ∧ Perhaps c!"(" o ∧ Perhaps c!" " s ∧ Address a ∧ h = w ++ c!" " ++ o ++ s ++ c!"[" ++ a ++ c!"])" ++ rest ∧ Unopened w v

/-- `name (address) …` -/
def Parenthesised (h v : Str) : Prop :=
  ∃ s a rest, Word v ∧ Perhaps c!" " s ∧ Address a ∧ h = v ++ c!" (" ++ s ++ a ++ c!")" ++ rest

/-- `name ([address] [address]) …` -/
def TwoAddresses (h v : Str) : Prop :=
  ∃ a b rest, Word v ∧ Address a ∧ Address b ∧ h = v ++ c!" ([" ++ a ++ c!"] [" ++ b ++ c!"])" ++ rest

/-- `name [address] …` -/
def Bare (h v : Str) : Prop :=
  ∃ w s a rest, Word w ∧ Perhaps c!" " s ∧ Address a ∧ h = w ++ c!" [" ++ s ++ a ++ c!"]" ++ rest ∧ Unopened w v

/-- `name ([address] word) …` -/
def Followed (h v : Str) : Prop :=
  ∃ w o s a s' x rest, Word w ∧ Perhaps c!"(" o ∧ Perhaps c!" " s ∧ Address a ∧ Perhaps c!" " s' ∧ Word x ∧
    h = w ++ c!" " ++ o ++ s ++ c!"[" ++ a ++ c!"]" ++ s' ++ x ++ c!")" ++ rest ∧ Unopened w v

/-- `name ([address]:port) … by server …` -/
def WithPort (h v : Str) : Prop :=
  ∃ a p mid b rest, Word v ∧ Address a ∧ Port a p ∧ Word b ∧ h = v ++ c!" ([" ++ a ++ p ++ c!"])" ++ mid ++ c!" by " ++ b ++ rest

/-- `… ( … HELO name) …`, without square brackets around the name. -/
def GreetedInside (h v : Str) : Prop :=
  ∃ u, Rightmost (fun pre v => ∃ k rest, '(' ∈ pre ∧ Greeting k ∧ Word v ∧ h = pre ++ c!" " ++ k ++ c!" " ++ v ++ c!")" ++ rest) u ∧
    v = stripChars c!"[]" u

/-- `name (host [address] … ) …`: `v` is the name and `x` the host. -/
def HostShape (h v x : Str) : Prop :=
  ∃ s a mid rest, Word v ∧ Word x ∧ Perhaps c!" " s ∧ Address a ∧ h = v ++ c!" (" ++ x ++ s ++ c!"[" ++ a ++ c!"]" ++ mid ++ c!")" ++ rest

/-- `name (host [address] … ) …` -/
def BeforeHost (h v : Str) : Prop := ∃ x, HostShape h v x

/-- `… (host [address]) …`, unless the host is `unknown`. -/
def HostName (h v : Str) : Prop :=
  ∃ u, Leftmost (fun pre v => ∃ a rest, Word v ∧ Address a ∧ h = pre ++ c!"(" ++ v ++ c!" [" ++ a ++ c!"])" ++ rest) u ∧
    v = if u = c!"unknown" then [] else u

/-- The name given in the greeting. -/
def Helo (h : Str) : Str → Prop :=
  FirstOf h [Greeted, HeloIs, Bracketed, Parenthesised, TwoAddresses, Bare, Followed, WithPort, GreetedInside, BeforeHost, HostName]

/-! ### The name of the host -/

/-- The host in `name (host [address] … ) …`, as long as possible, unless it is `softdnserr`. -/
def NamedHost (h v : Str) : Prop :=
  ∃ w x, HostShape h w x ∧ (∀ x', HostShape h w x' → x'.length ≤ x.length) ∧ v = if x = c!"softdnserr" then [] else x

/-- `name (address) …`, unless Scalix wrote the line. -/
def BeforeAddress (h v : Str) : Prop :=
  ∃ w, Parenthesised h w ∧ ((c!"(Scalix SMTP Relay" <:+: h ∧ v = []) ∨ (¬ c!"(Scalix SMTP Relay" <:+: h ∧ v = w))

/-- A shape that does not tell the name of the host, unless Exim wrote the line. -/
def NotExim (S : Str → Str → Prop) (h v : Str) : Prop := (∃ w, S h w) ∧ ¬ c!"Exim" <:+: h ∧ v = []

/-- `address by …`, the address with or without brackets: no name. -/
def OnlyAddress (h v : Str) : Prop :=
  ∃ o s a s' o' rest, Perhaps c!"(" o ∧ Perhaps c!"[" s ∧ Address a ∧ Perhaps c!"]" s' ∧ Perhaps c!")" o' ∧
    h = o ++ s ++ a ++ s' ++ o' ++ c!" by" ++ rest ∧ v = []

/-- `name(…`: a first word with a bracket in it; the name is what is before the last one. -/
def Glued (h v : Str) : Prop := (Word v ∧ ∃ rest, h = v ++ c!"(" ++ rest) ∧ ∀ v', (Word v' ∧ ∃ rest, h = v' ++ c!"(" ++ rest) → v'.length ≤ v.length

/-- `name [address] by server [address] …`: `b` is the address of the server. -/
def ServerAddress (h b : Str) : Prop :=
  ∃ w a s rest, Word w ∧ Address a ∧ Word s ∧ Address b ∧ h = w ++ c!" [" ++ a ++ c!"] by " ++ s ++ c!" [" ++ b ++ c!"]" ++ rest

/-- `name [address] by server [address] …`: no name. -/
def Served (h v : Str) : Prop := (∃ b, ServerAddress h b) ∧ v = []

/-- The first word. -/
def FirstWord (h v : Str) : Prop := Word v ∧ ∃ rest, h = v ++ c!" " ++ rest

/-- No name of a host. -/
def Unusable (u : Str) : Prop := '@' ∈ u ∨ (∃ a rest, Address a ∧ u = c!"[" ++ a ++ c!"]" ++ rest) ∨ c!"unknown" <:+: u ∨ u = c!"UnknownHost"

/-- Postfix did not know the name. -/
def PostfixUnknown (h : Str) : Prop :=
  c!"(Postfix)" <:+: h ∧ ∃ w a rest, Word w ∧ Address a ∧ h = w ++ c!" (unknown [" ++ a ++ c!"]) (" ++ rest

/-- The name of the host. -/
def Rdns (h v : Str) : Prop :=
  ∃ u, FirstOf h [NamedHost, BeforeAddress, NotExim Bracketed, OnlyAddress, Glued, Served, NotExim WithPort, FirstWord] u ∧
    (((PostfixUnknown h ∨ Unusable u) ∧ v = []) ∨ (¬ (PostfixUnknown h ∨ Unusable u) ∧ v = stripChars c!"[]" u))

/-! ### The server, the user and the number -/

/-- `… by server …`: the first one that is followed by a blank. -/
def ServerName (h v : Str) : Prop := Leftmost (fun pre v => ∃ rest, Word v ∧ h = pre ++ c!" by " ++ v ++ c!" " ++ rest) v

/-- The server.  In `name [address] by server [address]` it is the address of the server. -/
def By (h : Str) : Str → Prop := FirstOf h [ServerAddress, ServerName]

/-- `… ident=user) …`: the last one. -/
def IdentIs (h v : Str) : Prop := Rightmost (fun pre v => ∃ rest, Word v ∧ h = pre ++ c!"ident=" ++ v ++ c!")" ++ rest) v

/-- `… (user@ …`: the last one. -/
def UserAt (h v : Str) : Prop := Rightmost (fun pre v => ∃ rest, Word v ∧ h = pre ++ c!"(" ++ v ++ c!"@" ++ rest) v

/-- The user. -/
def Ident (h : Str) : Str → Prop := FirstOf h [IdentIs, UserAt]

/-- `… id number …`: the last one, without angle brackets. -/
def IdIs (h v : Str) : Prop :=
  ∃ u, Rightmost (fun pre v => ∃ rest, Word v ∧ h = pre ++ c!"id " ++ v ++ rest) u ∧ v = stripChars c!"<>" u

/-- The number of the message. -/
def Id (h : Str) : Str → Prop := FirstOf h [IdIs]

/-! ### The sender -/

/-- A letter, a digit or `_`. -/
def WordChar (c : Char) : Prop := c.isAlphanum = true ∨ c = '_'

/-- Between these two texts a word begins or ends. -/
def Turn (v rest : Str) : Prop := (∃ c, v.getLast? = some c ∧ WordChar c) ↔ ¬ ∃ c, rest.head? = some c ∧ WordChar c

/-- What comes before the sender. -/
def senderKeys : List Str :=
  [c!"return-path ", c!"return-path: ", c!"envelope-sender ", c!"envelope-sender=", c!"envelope-from ", c!"envelope-from="]

/-- What is after the last `=`. -/
def AfterEquals (s v : Str) : Prop := ('=' ∉ s ∧ v = s) ∨ ('=' ∉ v ∧ ∃ p, s = p ++ c!"=" ++ v)

/-- The first sender that is told, without brackets, and only what is after the last `=` in it. -/
def Sender (h v : Str) : Prop :=
  ∃ u, Leftmost (fun pre v => ∃ k rest, k ∈ senderKeys ∧ Word v ∧ Turn v rest ∧ h = pre ++ k ++ v ++ rest) u ∧ AfterEquals (stripChars c!"><[]" u) v

/-- The sender. -/
def Envfrom (h : Str) : Str → Prop := FirstOf h [Sender]

/-! ### How the client has proved who it is -/

/-- The protocols that tell that the client has proved who it is, in small letters. -/
def protocols : List Str :=
  [c!"esmtpa", c!"esmtpsa", c!"lmtpa", c!"lmtpsa", c!"utf8smtpa", c!"utf8smtpsa", c!"utf8lmtpa", c!"utf8lmtpsa", c!"asmtp", c!"http", c!"httpu"]

/-- `… with protocol …`: the first one. -/
def ByProtocol (h v : Str) : Prop :=
  c!" by " <:+: h ∧ Leftmost (fun pre v => ∃ k p rest, Reading c!"with" k ∧ p ∈ protocols ∧ Reading p v ∧ h = pre ++ c!" " ++ k ++ c!" " ++ v ++ rest ∧
    (rest = [] ∨ ∃ y, rest = ' ' :: y ∨ rest = ';' :: y)) v

/-- `…) (Authenticated sender: user) by server (Postfix) with …` -/
def ByPostfix (h v : Str) : Prop :=
  (∃ pre u s rest, Word u ∧ Word s ∧ h = pre ++ c!") (Authenticated sender: " ++ u ++ c!") by " ++ s ++ c!" (Postfix) with " ++ rest) ∧ v = c!"Postfix"

/-- `… (version=version cipher=cipher) …` after `pre`. -/
def Encrypted (h pre x y : Str) : Prop :=
  ∃ rest, x ≠ [] ∧ ' ' ∉ x ∧ y ≠ [] ∧ ')' ∉ y ∧ h = pre ++ c!" (version=" ++ x ++ c!" cipher=" ++ y ++ c!")" ++ rest

/-- Google: what is told about the encryption, if something is. -/
def ByGoogle (h v : Str) : Prop :=
  c!" by mx.google.com with ESMTPS id " <:+: h ∧
    ((∃ pre x y, Encrypted h pre x y ∧ (∀ pre' x' y', Encrypted h pre' x' y' → pre.length ≤ pre'.length) ∧
      v = c!"GMail - transport=" ++ x ++ c!" cipher=" ++ y) ∨ (∀ pre x y, ¬ Encrypted h pre x y) ∧ v = [])

/-- SquirrelMail. -/
def BySquirrelMail (h v : Str) : Prop := c!"SquirrelMail authenticated " <:+: h ∧ v = c!"SquirrelMail"

/-- `… (authenticated as user) …` -/
def ByCriticalPath (h v : Str) : Prop := (∃ pre u rest, Word u ∧ h = pre ++ c!" (authenticated as " ++ u ++ c!")" ++ rest) ∧ v = c!"CriticalPath"

/-- Any other line with the word. -/
def BySendmail (h v : Str) : Prop := c!"authenticated" <:+: h ∧ v = c!"Sendmail"

/-- `… by mail.gmx.net (…) with SMTP …` after `pre`. -/
def Gmx (h pre d q p : Str) : Prop :=
  ∃ rest, (d = c!"net" ∨ d = c!"com") ∧ q ≠ [] ∧ ')' ∉ q ∧ (p = c!"ESMTP" ∨ p = c!"SMTP") ∧
    h = pre ++ c!" by mail.gmx." ++ d ++ c!" (" ++ q ++ c!") with " ++ p ++ rest

/-- GMX: the last one. -/
def ByGmx (h v : Str) : Prop :=
  ∃ pre d q p, Gmx h pre d q p ∧ (∀ pre' d' q' p', Gmx h pre' d' q' p' → pre'.length ≤ pre.length) ∧
    v = c!"GMX (" ++ p ++ c!" / mail.gmx." ++ d ++ c!")"

/-- `… (account … by … (CommuniGate Pro SMTP …` -/
def ByCommunigate (h v : Str) : Prop :=
  (∃ pre x y p rest, (p = c!"HTTP" ∨ p = c!"SMTP") ∧ h = pre ++ c!" (account " ++ x ++ c!" by " ++ y ++ c!" (CommuniGate Pro " ++ p ++ rest) ∧
    v = c!"Communigate"

/-- How the client has proved who it is. -/
def Auth (h : Str) : Str → Prop :=
  FirstOf h [ByProtocol, ByPostfix, ByGoogle, BySquirrelMail, ByCriticalPath, BySendmail, ByGmx, ByCommunigate]

end Verif.Spec.Fields
