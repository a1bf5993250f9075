import Verif.Model.Headers

/-!
# The content of a message: `oa/message.py` 36-50, 58-74, 181-192, 429-472, 492-518, 549-595

The `email` package (header decoding, MIME structure, payload decoding, text form), the tokens of
`html.parser` and SHA-1 are parameters.
-/

namespace Verif.Content
open Verif Py

/-- The exceptions the code distinguishes. -/
inductive Exc where
  | lookup | unicode | assertion | attribute | type | index | other
deriving DecidableEq, Repr

/-! ## Links -/

/-- `[^\s<>"'\x7f-\xff]`: the characters a link can be made of (oa/message.py 48). -/
def isGuts (c : Char) : Bool :=
  !isSpace c && !(c!"<>\"'").contains c && !(decide (0x7f ≤ c.toNat) && decide (c.toNat ≤ 0xff))

/-- `\w`; `u` tells which characters outside ASCII are letters or digits. -/
def isWord (u : Char → Bool) (c : Char) : Bool :=
  c.isAlphanum || c == '_' || (decide (0x80 ≤ c.toNat) && u c)

/-- `(?= ftp\.[^\.\s<>"'\x7f-\xff] )` and its variant for `www.` (oa/message.py 44-45). -/
def bareHost (pre s : Str) : Bool :=
  startsWith pre s && match s.drop pre.length with
    | c :: _ => isGuts c && c != '.'
    | [] => false

/-- The protocols with which a link can begin (oa/message.py 41-42). -/
def protocols : List Str := [c!"http://", c!"https://", c!"ftp://"]

/-- The length of the link that begins here, or 0 (oa/message.py 37-49). -/
def urlLen (s : Str) : Nat :=
  match protocols.find? (fun p => startsWith p s) with
  | some p =>
    let g := (s.drop p.length).takeWhile isGuts
    if g = [] then 0 else p.length + g.length
  | none => if bareHost c!"ftp." s || bareHost c!"www." s then (s.takeWhile isGuts).length else 0

/-- `URL_RE.findall` (oa/message.py 36-50): `skip` characters belong to the link found last and `prev`
tells whether the last character is a word character.  Every link begins with a word character, so that
`\b` holds there exactly if the character before is none. -/
def findUrls (u : Char → Bool) : Nat → Bool → Str → List Str
  | _, _, [] => []
  | k + 1, _, c :: cs => findUrls u k (isWord u c) cs
  | 0, prev, c :: cs =>
    if !prev && decide (urlLen (c :: cs) ≠ 0) then
      (c :: cs).take (urlLen (c :: cs)) :: findUrls u (urlLen (c :: cs) - 1) (isWord u c) cs
    else findUrls u 0 (isWord u c) cs

/-! ## HTML -/

/-- What the tokenizer of `html.parser` reports. -/
inductive HtmlEvent where
  | data (s : Str)
  | charref (s : Str)
  | entityref (s : Str)
  | tag (s : Str)
deriving DecidableEq, Repr

/-- `_ParseHTML.handle_data` (oa/message.py 70-74); the handlers of the other events do nothing. -/
def handleEvent (acc : List Str) : HtmlEvent → List Str
  | .data s => if strip s ≠ [] then acc ++ [strip s] else acc
  | _ => acc

/-- The libraries. -/
structure Lib (β : Type) where
  /-- letters and digits outside ASCII -/
  word : Char → Bool
  /-- `Message._decode_header` -/
  decodeHeader : Str → Option Str
  /-- `payload.decode(charset, errors)`; the flag is `errors == "strict"` -/
  decode : Str → Bool → β → Except Exc Str
  /-- the events of `HTMLParser.feed` and the exception that ends it, if any -/
  html : Str → List HtmlEvent × Option Exc
  /-- `html.parser.HTMLParseError` exists (Python before 3.5) -/
  oldHtml : Bool
  /-- the exception is `UnicodeDecodeError` or `HTMLParseError` -/
  htmlCaught : Exc → Bool

variable {β : Type}

/-- `normalize_html_part` (oa/message.py 181-192).  The `except` clause names an attribute that newer
versions of Python do not have, which is looked up when an exception arrives. -/
def normalizeHtml (L : Lib β) (payload : Str) : Except Exc (List Str) :=
  match L.html payload with
  | (ev, none) => .ok (ev.foldl handleEvent [])
  | (ev, some e) =>
    if !L.oldHtml then .error .attribute
    else if L.htmlCaught e then .ok (ev.foldl handleEvent []) else .error e

/-! ## Parts -/

/-- A part of the message as the `email` package presents it. -/
structure Part (β : Type) where
  headers : List (Str × Str)
  maintype : Str
  subtype : Str
  /-- `get_payload(decode=True)`; `None` for a part made of parts -/
  payload : Option β
  charset : Option Str
deriving DecidableEq

/-- `STRICT_CHARSETS` (oa/message.py 54-55). -/
def strictCharsets : List Str := [c!"quopri-codec", c!"quopri", c!"quoted-printable", c!"quotedprintable"]

/-- The charset and whether errors are strict (oa/message.py 503-508). -/
def charsetOf (p : Part β) : Str × Bool :=
  match p.charset with
  | none => (c!"ascii", false)
  | some c => if c = [] then (c!"ascii", false)
    else (c, strictCharsets.contains (replace c!"_" c!"-" (lower c)))

/-- One step of `_iter_parts` (oa/message.py 499-518): `none` is a part skipped, and `some none` a part
that is no text. -/
def iterPart (L : Lib β) (p : Part β) : Except Exc (Option (Option Str)) :=
  if p.maintype = c!"text" then
    match p.payload with
    | none => .error .attribute
    | some b =>
      match L.decode (charsetOf p).1 (charsetOf p).2 b with
      | .ok s => .ok (some (some s))
      | .error e =>
        if e = .lookup ∨ e = .unicode ∨ e = .assertion then
          match L.decode c!"ascii" false b with
          | .ok s => .ok (some (some s))
          | .error e2 => if e2 = .unicode then .ok none else .error e2
        else .error e
  else .ok (some none)

/-- What `_parse_message` has gathered from the parts (oa/message.py 448-472). -/
structure Content (β : Type) where
  mimeHeaders : List (Str × Str)
  /-- `uri_list`; a set, kept here in the order of discovery -/
  uris : List Str
  body : List (Option Str)
  rawBody : List Str
  missingBoundary : Bool
  /-- the calls of the hook `extract_metadata`: payload, text and part -/
  hooks : List (Option Str × Option Str × Part β)

/-- The loop body (oa/message.py 451-470) for one part that is not skipped. -/
def addPart (L : Lib β) (p : Part β) (payload : Option Str) (c : Content β) : Except Exc (Content β) :=
  let c1 := { c with
    missingBoundary := c.missingBoundary || decide (p.headers = [])
    mimeHeaders := c.mimeHeaders ++ p.headers }
  match payload with
  | none => .ok { c1 with hooks := c1.hooks ++ [(none, none, p)] }
  | some s =>
    let c2 := { c1 with uris := c1.uris ++ findUrls L.word 0 false s }
    if p.subtype = c!"html" then
      match normalizeHtml L (replace c!"\n" c!" " s) with
      | .error e => .error e
      | .ok l =>
        .ok { c2 with
          body := c2.body ++ [some (join c!" " l)]
          rawBody := c2.rawBody ++ [s]
          hooks := c2.hooks ++ [(some s, some (join c!" " l), p)] }
    else
      .ok { c2 with
        body := c2.body ++ [some (replace c!"\n" c!" " s)]
        rawBody := c2.rawBody ++ [s]
        hooks := c2.hooks ++ [(some s, some (replace c!"\n" c!" " s), p)] }

/-- The loop over the parts (oa/message.py 450-470). -/
def addParts (L : Lib β) : List (Part β) → Content β → Except Exc (Content β)
  | [], c => .ok c
  | p :: ps, c =>
    match iterPart L p with
    | .error e => .error e
    | .ok none => addParts L ps c
    | .ok (some payload) =>
      match addPart L p payload c with
      | .error e => .error e
      | .ok c1 => addParts L ps c1

/-- `" ".join(body)`: a `TypeError` if an element is `None` (oa/message.py 471). -/
def joinBody (body : List (Option Str)) : Except Exc Str :=
  if body.contains none then .error .type else .ok (join c!" " (body.map (fun x => x.getD [])))

/-- What rules see of the content. -/
structure View (β : Type) where
  text : Str
  rawText : Str
  uris : List Str
  mimeHeaders : List (Str × Str)
  missingBoundary : Bool
  hooks : List (Option Str × Option Str × Part β)

/-- The part of `_parse_message` about the content (oa/message.py 446-472); `subjects` are the raw
values of the `Subject` headers and `parts` is `msg.walk()`, which begins with the message itself. -/
def parseContent (L : Lib β) (subjects : List Str) (parts : List (Part β)) : Except Exc (View β) :=
  match addParts L parts ⟨[], [], subjects.map L.decodeHeader, [], false, []⟩ with
  | .error e => .error e
  | .ok c =>
    match joinBody c.body with
    | .error e => .error e
    | .ok t => .ok ⟨t, join c!"\n" c.rawBody, c.uris, c.mimeHeaders, c.missingBoundary, c.hooks⟩

/-! ## Identifier and date -/

/-- `.*$` from here: no line break, except one at the very end. -/
def restOfLine (s : Str) : Bool :=
  !s.contains '\n' || (s.getLast? == some '\n' && !(s.dropLast).contains '\n')

/-- `re.match(r"^\s*<\s*(?:\@sa_generated)?>.*$", msgid)` (oa/message.py 560). -/
def emptyId (s : Str) : Bool :=
  match lstripBy isSpace s with
  | '<' :: t =>
    let t1 := lstripBy isSpace t
    let t2 := if startsWith c!"@sa_generated" t1 then t1.drop 13 else t1
    match t2 with
    | '>' :: r => restOfLine r
    | _ => false
  | _ => false

/-- What `msgid` reads of a message. -/
structure IdInput where
  /-- `msg["Message-ID"]` -/
  messageId : Option Str
  /-- `msg["Date"]` -/
  date : Option Str
  /-- `msg.as_string()` -/
  text : Str

/-- How much of the body is used (oa/message.py 568-570). -/
def keepBody (body : Str) : Str :=
  if body.length > 64 then body.take (if body.length > 2048 then 1024 else body.length / 2) else body

/-- `msgid` (oa/message.py 549-581); `none` is an `IndexError`, `sha` is the digest in hexadecimal of the
UTF-8 form of a text. -/
def msgId (sha : Str → Str) (m : IdInput) : Option Str :=
  let generated : Option Str :=
    match split1 c!"\n\n" m.text with
    | none => none
    | some (_, body) =>
      let d := match m.date with
        | some d => if d = [] then c!"None" else d
        | none => c!"None"
      let b := replace c!"\r" [] (replace c!"\n" [] (keepBody body))
      some (sha (d ++ Char.ofNat 0 :: b) ++ c!"@sa_generated")
  match m.messageId with
  | some i =>
    if i ≠ [] ∧ emptyId i = false then some (stripChars c!">" (stripChars c!"<" (strip i))) else generated
  | none => generated

/-- `receive_date` (oa/message.py 583-595): `parse` is `parsedate` followed by `timegm`, `none` for a text
that is no date, on which `timegm` raises; `now` is `time.time()`.  The values are those of the `Received`
headers. -/
def receiveDate (parse : Str → Option Int) (now : Int) : List Str → Except Exc Int
  | [] => .ok now
  | h :: hs =>
    match rsplit1 ';' h with
    | none => receiveDate parse now hs
    | some (_, ts) =>
      match parse ts with
      | some t => .ok t
      | none => .error .type

end Verif.Content
