import Verif.Model.Content

/-!
# Specification of the content rules see
-/

namespace Verif.Content
open Verif Py

variable {β : Type}

/-- The charset with which a part is to be read: the one it names, or ASCII. -/
def namedCharset (p : Part β) : Str := if p.charset.getD [] = [] then c!"ascii" else p.charset.getD []

/-- Names of the quoted-printable encoding are no charsets: what they cannot decode is not to be skipped. -/
def isStrict (cs : Str) : Bool :=
  decide ((lower cs).map (fun c => if c = '_' then '-' else c) ∈
    [c!"quopri-codec", c!"quopri", c!"quoted-printable", c!"quotedprintable"])

/-- The text of a text part: decoded with its charset and, should that not work, as ASCII. -/
def partText (L : Lib β) (p : Part β) : Option Str :=
  if p.maintype ≠ c!"text" then none
  else match p.payload with
    | none => none
    | some b =>
      match L.decode (namedCharset p) (isStrict (namedCharset p)) b with
      | .ok s => some s
      | .error _ =>
        match L.decode c!"ascii" false b with
        | .ok s => some s
        | .error _ => none

/-- The pieces of text of an HTML page, without the space around them. -/
def pageText (ev : List HtmlEvent) : List Str :=
  ev.filterMap fun
    | .data s => if strip s = [] then none else some (strip s)
    | _ => none

/-- What the body rules are shown of a text part: its text on one line, without HTML markup. -/
def shown (L : Lib β) (p : Part β) : Option Str :=
  (partText L p).map fun s =>
    let line := s.map (fun c => if c = '\n' then ' ' else c)
    if p.subtype = c!"html" then join c!" " (pageText (L.html line).1) else line

/-- The part can be read: text can be decoded and HTML can be tokenized. -/
def Readable (L : Lib β) (p : Part β) : Prop :=
  p.maintype = c!"text" →
    ∃ b, p.payload = some b ∧
      ((∃ s, L.decode (namedCharset p) (isStrict (namedCharset p)) b = .ok s) ∨
        (∃ e, L.decode (namedCharset p) (isStrict (namedCharset p)) b = .error e ∧ (e = .lookup ∨ e = .unicode ∨ e = .assertion)) ∧
          ∃ s, L.decode c!"ascii" false b = .ok s) ∧
      (p.subtype = c!"html" → ∀ s, (L.html s).2 = none)

/-- White space, quotes and angle brackets end a link. -/
def EndsLink (c : Char) : Prop := isSpace c = true ∨ c = '<' ∨ c = '>' ∨ c = '"' ∨ c = '\''

/-- A character that can be part of a link: none that ends it, and none of DEL to `ÿ`. -/
def LinkChar (c : Char) : Prop := ¬ EndsLink c ∧ ¬ (0x7f ≤ c.toNat ∧ c.toNat ≤ 0xff)

/-- A link with a protocol in lower case, or a host that begins with `www.` or `ftp.`. -/
def IsLink (u : Str) : Prop :=
  (∀ c ∈ u, LinkChar c) ∧
    ((∃ p ∈ [c!"http://", c!"https://", c!"ftp://"], ∃ g, g ≠ [] ∧ u = p ++ g) ∨
     (∃ p ∈ [c!"www.", c!"ftp."], ∃ c g, c ≠ '.' ∧ u = p ++ c :: g))

/-- An identifier without content: `<>` with white space in it and before it, or `<@sa_generated>`; anything can
follow on the same line. -/
def BlankId (i : Str) : Prop :=
  ∃ lead space mid tail, (∀ c ∈ lead, isSpace c = true) ∧ (∀ c ∈ space, isSpace c = true) ∧
    (mid = [] ∨ mid = c!"@sa_generated") ∧ (∃ t, '\n' ∉ t ∧ (tail = t ∨ tail = t ++ c!"\n")) ∧
    i = lead ++ c!"<" ++ space ++ mid ++ c!">" ++ tail

/-- The message has no identifier of its own. -/
def noId (m : IdInput) : Prop := ∀ i, m.messageId = some i → i = [] ∨ BlankId i

/-- The first 1024 characters of the body, but not more than half of it; short bodies are taken whole. -/
def idPart (body : Str) : Str :=
  if body.length ≤ 64 then body else body.take (min 1024 (body.length / 2))

/-- A text without its line breaks. -/
def unbroken (s : Str) : Str := s.filter (fun c => c ≠ '\n' ∧ c ≠ '\r')

end Verif.Content
