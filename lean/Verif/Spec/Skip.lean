import Verif.Spec.Ipv6Re

/-!
# `Received` headers that are ignored

The handovers inside one machine, or of programs whose headers say nothing of use, in the order of the list in the parser.
-/

namespace Verif.Spec.Skip
open Verif Py

/-- A word: something, without white space. -/
def Word (w : Str) : Prop := w ≠ [] ∧ ∀ c ∈ w, isSpace c = false

/-- `t` is the text `s`, whose letters are small, in letters of any kind. -/
def Reading (s t : Str) : Prop := t.map Char.toLower = s

/-- Nothing, or something that does not end in a letter, a digit or `_`. -/
def Boundary (pre : Str) : Prop := ∀ c, pre.getLast? = some c → c.isAlphanum = false ∧ c ≠ '_'

/-- Names and addresses of the machine itself. -/
inductive LocalHost : Str → Prop
  | name {t : Str} (h : Reading c!"localhost" t) : LocalHost t
  | fullName {t : Str} (h : Reading c!"localhost.localdomain" t) : LocalHost t
  | v4 : LocalHost c!"127.0.0.1"
  | v6 {p : Str} {f : V6Form} (hp : p = [] ∨ Reading c!"ipv6:" p) (hf : f.Ok) (hl : f.LowerCase) (h1 : LoopbackV6 f.address) : LocalHost (p ++ f.text)
  | mapped {p m m' : Str} (hp : p = [] ∨ Reading c!"ipv6:" p) (hm : MappedHead m ∨ NarrowHead m) (hm' : Reading m m') :
      LocalHost (p ++ m' ++ c!"127.0.0.1")

/-- The lines that are ignored. -/
inductive Ignored : Str → Prop
  /-- Handed over on the same machine: `with local`, or `with local-` and a word. -/
  | withLocal (pre w o rest : Str) (hb : Boundary pre) (hw : Reading c!"with local" w) (ho : o = [] ∨ ∃ x, Word x ∧ o = c!"-" ++ x) :
      Ignored (pre ++ w ++ o ++ c!" " ++ rest)
  /-- Fetched from a mailbox. -/
  | fetchmail (pre w b p rest : Str) (hw : Word w) (hb : Word b) (hp : Word p) :
      Ignored (pre ++ c!" " ++ w ++ c!" by " ++ b ++ c!" with " ++ p ++ c!" (fetchmail" ++ rest)
  /-- Batched SMTP. -/
  | bsmtp (w x b y rest : Str) (hw : Word w) (hx : Reading c!" by " x) (hb : Word b) (hy : Reading c!" with bsmtp" y)
      (hc : c!" with BSMTP" <:+: w ++ x ++ b ++ y ++ rest) : Ignored (w ++ x ++ b ++ y ++ rest)
  | contentTechnologies (w v x b y rest : Str) (hw : Word w) (hv : Word v) (hx : Reading c!" by " x) (hb : Word b)
      (hy : Reading c!" (content technologies " y) : Ignored (w ++ c!" (" ++ v ++ c!")" ++ x ++ b ++ y ++ rest)
  /-- A user of the machine itself. -/
  | localUser (w u l x b rest : Str) (hw : Word w) (hu : Word u) (hat : '@' ∉ u) (hl : LocalHost l) (hx : Reading c!" by " x) (hb : Word b) :
      Ignored (w ++ c!" (" ++ u ++ c!"@" ++ l ++ c!")" ++ x ++ b ++ c!" (" ++ rest)
  | avg (v w rest : Str) (hv : Word v) (hw : Word w) : Ignored (c!"127.0.0.1 (AVG SMTP " ++ v ++ c!" [" ++ w ++ c!"])" ++ rest)
  /-- A mail address instead of the name of a host. -/
  | address (u d b rest : Str) (hu : Word u) (hd : Word d) (hb : Word b) : Ignored (u ++ c!"@" ++ d ++ c!" by " ++ b ++ c!" " ++ rest)
  | unknownLocal (rest : Str) : Ignored (c!"Unknown/Local (" ++ rest)
  | auth (a b rest : Str) (ha : Word a) (hb : Word b) : Ignored (c!"(AUTH: " ++ a ++ c!") by " ++ b ++ c!" with " ++ rest)
  /-- A socket of the machine itself. -/
  | unix (rest : Str) : Ignored (c!"localhost (localhost [[UNIX: localhost]]) by " ++ rest)
  | amazon (a b rest : Str) (ha : Word a) (hb : Word b) :
      Ignored (a ++ c!".amazon.com by " ++ b ++ c!".amazon.com with ESMTP (peer crosscheck: " ++ rest)
  | groupWise (x b rest : Str) (h0 : x ≠ []) (hx : '.' ∉ x) (hb : Word b) : Ignored (x ++ c!" by " ++ b ++ c!" with Novell_GroupWise" ++ rest)
  | noName (b rest : Str) (hb : Word b) : Ignored (c!"no.name.available by " ++ b ++ c!" via smtpd (for " ++ rest)
  | pickup (b : Str) (hb : Word b) : Ignored (c!"mail pickup service by " ++ b ++ c!" with Microsoft SMTPSVC")

end Verif.Spec.Skip
