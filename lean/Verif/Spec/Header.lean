import Verif.Model.HeaderRule

/-!
# What patterns and header rules are documented to mean
-/

namespace Verif.Spec
open Verif Py Mail

/-- Opening and closing pattern delimiters. -/
def Delimiters (d r : Char) : Prop :=
  (d, r) ∈ [('/', '/'), ('{', '}'), ('%', '%'), ('<', '>'), ('\'', '\''), ('~', '~'), (',', ','),
    ('!', '!'), (';', ';')]

/-- The flags asked for by the letters after the closing delimiter. -/
def wantFlags (letters : Str) : ReFlags :=
  { i := decide ('i' ∈ letters), s := decide ('s' ∈ letters), m := decide ('m' ∈ letters),
    x := decide ('x' ∈ letters) }

/-- The pattern uses none of the Perl constructs that are rewritten for Python. -/
def NoPerlisms (t : Str) : Prop :=
  ¬ c!"(?" <:+: t ∧ ¬ c!"\\b?" <:+: t ∧ ¬ c!"\\B?" <:+: t

/-- Only white space. -/
def Blank (s : Str) : Prop := ∀ c ∈ s, isSpace c = true

/-- A pattern as written: `  m/text/flags  `. -/
def Written (d r : Char) (lead pre text flags trail : Str) : Str :=
  lead ++ pre ++ [d] ++ text ++ [r] ++ flags ++ trail

/-- What may surround the text: white space, optional `m`, `g`, `s` in front, flags that are not
the closing delimiter and not white space. -/
def WellWritten (d r : Char) (lead pre flags trail : Str) : Prop :=
  Delimiters d r ∧ Blank lead ∧ (∀ c ∈ pre, c ∈ c!"mgs") ∧ r ∉ flags ∧
  (∀ c ∈ flags, isSpace c = false) ∧ Blank trail

/-- The result of compiling a text. -/
def compiled {R : Type} (L : ReLib R) (text : Str) (f : ReFlags) (neg : Bool) : Except RuleErr (Pat R) :=
  match L.compile text f with
  | some c => .ok { re := c, neg := neg }
  | none => .error .invalidRegex

/-- The raw values of the headers called `name`, in message order. -/
def rawValues (hs : List (Str × Str)) (name : Str) : List Str :=
  (hs.filter (fun p => lower p.1 == lower name)).map Prod.snd

/-- The decoded values of the headers called `name`, in message order. -/
def decodedValues (L : MailLib) (hs : List (Str × Str)) (name : Str) : List (Option Str) :=
  (rawValues hs name).map L.decode

/-- What the accessors of a message do to it. -/
inductive Access where
  | decoded (n : Str)
  | addr (n : Str)
  | name (n : Str)
  | mime (n : Str)
  | all
deriving DecidableEq, Repr

def Access.run (L : MailLib) (m : Msg) : Access → Msg
  | .decoded n => (getDecoded L n m).2
  | .addr n => (getAddr L n m).2
  | .name n => (getName L n m).2
  | .mime n => (getMime L n m).2
  | .all => (iterDecoded L m).2

/-- The message with headers `hs` (and part headers `mhs`) after any accesses. -/
def accessed (L : MailLib) (hs mhs : List (Str × Str)) (ops : List Access) : Msg :=
  ops.foldl (fun (m : Msg) (a : Access) => a.run L m) (Msg.ofHeaders hs mhs)

end Verif.Spec

namespace Verif.Spec
open Verif Py Mail

/-- The mail library reads these headers as text: `dec` is what a raw value decodes to and `A`
are the (name, address) pairs of a decoded value. -/
structure Reads (L : MailLib) (hs : List (Str × Str)) (dec : Str → Str) (A : Str → List (Str × Str)) : Prop where
  decodes : ∀ p ∈ hs, L.decode p.2 = some (dec p.2)
  parses : ∀ v, L.addresses (some v) = some (A v)

/-- The first entry that is not empty. -/
def firstNonEmpty (l : List Str) : Option Str := l.find? (fun a => a ≠ [])

/-- The texts that a header rule on `name` tests. -/
def viewTexts (dec : Str → Str) (A : Str → List (Str × Str)) (hs : List (Str × Str)) (name : Str) :
    HView → List Str
  | .raw => rawValues hs name
  | .decoded => (rawValues hs name).map dec
  | .addr => (rawValues hs name).filterMap (fun v => firstNonEmpty ((A (dec v)).map Prod.snd))
  | .name => (rawValues hs name).filterMap (fun v => firstNonEmpty ((A (dec v)).map Prod.fst))

/-- How the views are written in a rule. -/
def viewSuffix : HView → Str
  | .decoded => []
  | .raw => c!":raw"
  | .addr => c!":addr"
  | .name => c!":name"

/-- A header name: not empty, no white space, colon or tilde. -/
def PlainName (n : Str) : Prop := n ≠ [] ∧ ∀ c ∈ n, isSpace c = false ∧ c ≠ ':' ∧ c ≠ '~'

/-- The match operator as written. -/
def opText (neg : Bool) : Str := if neg then c!"!~" else c!"=~"

/-- Every address of the headers called `name`, in message order. -/
def addressesOf (dec : Str → Str) (A : Str → List (Str × Str)) (hs : List (Str × Str)) (name : Str) : List Str :=
  ((rawValues hs name).flatMap (fun v => (A (dec v)).map Prod.snd)).filter (fun a => a ≠ [])

/-- Line break styles. -/
inductive Eol where
  | lf
  | crlf
  | cr
deriving DecidableEq, Repr

def Eol.text : Eol → Str
  | .lf => c!"\n"
  | .crlf => c!"\r\n"
  | .cr => c!"\r"

/-- A text of lines with their line breaks, and an unterminated rest. -/
def renderLines : List (Str × Eol) → Str → Str
  | [], rest => rest
  | (l, e) :: ls, rest => l ++ e.text ++ renderLines ls rest

/-- No line contains a line break character, and no empty line terminated by `\n` follows a
`\r` (the two would be one `\r\n`). -/
def Unambiguous : List (Str × Eol) → Str → Prop
  | [], rest => '\r' ∉ rest ∧ '\n' ∉ rest
  | (l, e) :: ls, rest => '\r' ∉ l ∧ '\n' ∉ l ∧ (e = .cr → ∀ ls', ls ≠ ([], .lf) :: ls') ∧ Unambiguous ls rest

end Verif.Spec
