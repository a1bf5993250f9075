import Verif.Model.Headers
import Verif.Model.Locales

/-!
# Statistics about the parts of a message: `oa/plugins/mime_eval.py`

Results are `none` if the code raises.  Numbers are exact where Python uses floating point.
-/

namespace Verif.MimeEval
open Verif Py Locales

/-- `part.get_payload()`: text, or the content types of the parts in it. -/
inductive Payload
  | text (s : Str)
  | parts (types : List (Str × Str))
deriving DecidableEq

/-- What the plugin reads of a part.  The email library gives types and the charset in lower case. -/
structure Part where
  maintype : Str
  subtype : Str
  /-- `get_content_charset()` -/
  charset : Option Str
  /-- `get("Content-Transfer-Encoding", "")` -/
  encoding : Str
  /-- `get("Content-Disposition", "")` -/
  disposition : Str
  payload : Payload
  /-- `get_payload(decode=True)` -/
  bytes : Option (List Nat)
  /-- the decoded payload, `None` for a part that is not text -/
  decoded : Option Str
  /-- the text of the part in the body, `None` for a part that is not text -/
  text : Option Str
  /-- `as_string()` -/
  raw : Str
deriving DecidableEq

/-- The values kept for a message (oa/plugins/mime_eval.py 39-55, 161-172). -/
structure Stats where
  base64Count : Nat
  base64Text : Bool
  htmlCount : Nat
  textCount : Nat
  faraway : Bool
  missingBoundary : Bool
  alternative : Bool
  multipartRatio : Rat
  qpCount : Nat
  qpLongLine : Bool
  qpRatio : Rat
  asciiIllegal : Bool
  unicodeRatio : Rat
  badIso : Bool
  maNonText : Bool
  base64Length : Nat
  asciiCount : Nat
  plainChars : Nat
  htmlChars : Nat
  unicodeCount : Nat
  qpChars : Nat
  qpBytes : Nat
  highBits : Bool
deriving DecidableEq

/-- `check_start` (oa/plugins/mime_eval.py 161-172). -/
def start : Stats :=
  { base64Count := 0, base64Text := false, htmlCount := 0, textCount := 0, faraway := false, missingBoundary := false,
    alternative := false, multipartRatio := 1, qpCount := 0, qpLongLine := false, qpRatio := 0, asciiIllegal := false,
    unicodeRatio := 0, badIso := false, maNonText := false, base64Length := 0, asciiCount := 0, plainChars := 0,
    htmlChars := 0, unicodeCount := 0, qpChars := 0, qpBytes := 0, highBits := false }

/-- The characters at which `str.splitlines` ends a line. -/
def isBreak (c : Char) : Bool :=
  decide (c.toNat ∈ [10, 11, 12, 13, 28, 29, 30, 133, 8232, 8233])

/-- `s.splitlines()` with the line so far. -/
def linesFrom (cur : Str) : Str → List Str
  | [] => if cur = [] then [] else [cur]
  | '\r' :: '\n' :: r => cur :: linesFrom [] r
  | c :: r => if isBreak c then cur :: linesFrom [] r else linesFrom (cur ++ [c]) r

/-- `str.splitlines`. -/
def splitlines (s : Str) : List Str := linesFrom [] s

/-- `max(len(line) for line in …)` of a list that is not empty. -/
def maxLen (ls : List Str) : Nat := ls.foldl (fun n l => max n l.length) 0

/-- `_update_base64_information` (oa/plugins/mime_eval.py 57-67).  A list that is not empty has no `splitlines`. -/
def updateBase64 (p : Part) (s : Stats) : Option Stats :=
  match p.payload with
  | .text [] => some { s with base64Count := s.base64Count + 1 }
  | .text t => some { s with base64Length := s.base64Length + maxLen (splitlines t), base64Count := s.base64Count + 1 }
  | .parts [] => some { s with base64Count := s.base64Count + 1 }
  | .parts _ => none

/-- `len("".join(line.split(":")[1:])) > 79 and not line.startswith("SPAM")` (oa/plugins/mime_eval.py 70, 86-87). -/
def longLine (line : Str) : Bool :=
  decide (((splitChar ':' line).drop 1).flatten.length > 79) && !startsWith c!"SPAM" line

/-- `_update_quopri_stats` (oa/plugins/mime_eval.py 69-89).  The expression has no groups, so that the length of
`groups()` is zero. -/
def updateQuopri (p : Part) (s : Stats) : Option Stats :=
  match p.payload with
  | .parts _ => none
  | .text t =>
    let s := { s with qpBytes := s.qpBytes + t.length, qpChars := s.qpChars + 0, qpCount := s.qpCount + 1 }
    if s.qpLongLine then some s
    else some { s with qpLongLine := (splitlines (Mail.translateLineBreaks p.raw)).any longLine }

/-- `text_charset_re` (oa/plugins/mime_eval.py 95-98). -/
def textCharsets : List Str :=
  [c!"us-ascii", c!"ansi_x3.4-1968", c!"iso-ir-6", c!"ansi_x3.4-1986", c!"iso_646.irv:1991", c!"ascii", c!"iso646-us",
   c!"us", c!"ibm367", c!"cp367", c!"csascii"]

/-- `not charset or text_charset_re.search(charset)` (oa/plugins/mime_eval.py 100). -/
def charsetCheck : Option Str → Bool
  | none => true
  | some [] => true
  | some cs => textCharsets.any fun t => hasSub t cs

/-- `_update_base64_text_stats` (oa/plugins/mime_eval.py 91-108). -/
def updateBase64Text (p : Part) (s : Stats) : Stats :=
  let dispositionCheck := !(decide (strip p.disposition = c!"inline") || decide (strip p.disposition = c!"attachment"))
  if hasSub c!"base64" p.encoding ∧ charsetCheck p.charset = true ∧ dispositionCheck = true then { s with base64Text := true } else s

/-- A capital hexadecimal digit. -/
def isHex (c : Char) : Bool := decide ('0' ≤ c) && decide (c ≤ '9') || decide ('A' ≤ c) && decide (c ≤ 'F')

/-- `&\#x[0-9A-F]{4};` at the beginning of a text (oa/plugins/mime_eval.py 138). -/
def entityAt : Str → Bool
  | '&' :: '#' :: 'x' :: a :: b :: c :: d :: ';' :: _ => isHex a && isHex b && isHex c && isHex d
  | _ => false

/-- The search for it. -/
def hasEntity : Str → Bool
  | [] => false
  | c :: r => entityAt (c :: r) || hasEntity r

/-- `len(re.split("--", raw))` (oa/plugins/mime_eval.py 150). -/
def pieces : Str → Nat
  | [] => 1
  | '-' :: '-' :: r => pieces r + 1
  | _ :: r => pieces r

/-- `_update_mime_text_info` (oa/plugins/mime_eval.py 127-151) for a part `text/plain`.  `get_charset()` is `None` for
every parsed part; a list cannot be encoded. -/
def updateText (rawMsg : Str) (p : Part) (s : Stats) : Option Stats :=
  let s := { s with textCount := s.textCount + 1 }
  match p.text with
  | none => none
  | some text =>
    let s := { s with plainChars := s.plainChars + text.length, asciiCount := s.asciiCount + text.length }
    let s := if hasEntity text then { s with unicodeCount := s.unicodeCount + 1 } else s
    match p.payload with
    | .parts _ => none
    | .text t =>
      let s := if t.all (fun c => decide (c.toNat < 128)) then s else { s with asciiIllegal := true }
      some (if pieces rawMsg ≤ 4 then { s with missingBoundary := true } else s)

/-- `_update_mime_ma_non_text` (oa/plugins/mime_eval.py 153-159).  The method `get_content_type` is compared, not its
result; a character has no content type. -/
def updateAlternative (p : Part) (s : Stats) : Option Stats :=
  let s := { s with alternative := true }
  if s.maNonText then some s
  else match p.payload with
    | .text [] => some s
    | .text _ => none
    | .parts types => some (if types.any (fun t => !decide (t.1 = c!"text")) then { s with maNonText := true } else s)

/-- The bytes of a part (oa/plugins/mime_eval.py 175-180): `low` counts the ASCII bytes. -/
def updateHighBits (p : Part) (s : Stats) : Stats :=
  match p.bytes with
  | none => s
  | some content =>
    if content = [] then s
    else
      let low := (content.filter fun b => decide (b < 128)).length
      let high := content.length
      if high > low ∧ high * 2 > 3 then { s with highBits := true } else s

/-- `len(payload)` of an HTML part (oa/plugins/mime_eval.py 192-197). -/
def updateHtml (p : Part) (s : Stats) : Option Stats :=
  match p.decoded with
  | none => none
  | some d => some { s with htmlCount := s.htmlCount + 1, htmlChars := s.htmlChars + d.length }

/-- `extract_metadata` (oa/plugins/mime_eval.py 174-213). -/
def extract (okLocales rawMsg : Str) (p : Part) (s : Stats) : Option Stats :=
  let s := updateHighBits p s
  (if p.maintype = c!"multipart" ∧ p.subtype = c!"alternative" then updateAlternative p s else some s).bind fun s =>
  (if p.subtype = c!"html" then updateHtml p s else some s).bind fun s =>
  (if p.maintype = c!"text" ∧ p.subtype = c!"plain" then updateText rawMsg p s else some s).bind fun s =>
  let s := updateBase64Text p s
  (if hasSub c!"base64" (lower p.encoding) then updateBase64 p s else some s).bind fun s =>
  (if hasSub c!"quoted-printable" (lower p.encoding) then updateQuopri p s else some s).bind fun s =>
  some { s with faraway := updateFaraway okLocales s.faraway p.charset }

/-- `extract_metadata` for every part. -/
def extractAll (okLocales rawMsg : Str) : List Part → Stats → Option Stats
  | [], s => some s
  | p :: ps, s => (extract okLocales rawMsg p s).bind (extractAll okLocales rawMsg ps)

/-- `parsed_metadata` (oa/plugins/mime_eval.py 215-233). -/
def finish (s : Stats) : Stats :=
  let s := if s.htmlChars ≠ 0 ∧ s.plainChars ≠ 0 then
    { s with multipartRatio := (s.plainChars : Rat) / (s.htmlChars : Rat) } else s
  let s := if s.asciiCount ≠ 0 then { s with unicodeRatio := (s.unicodeCount : Rat) / (s.asciiCount : Rat) } else s
  if s.qpChars ≠ 0 ∧ s.qpBytes ≠ 0 then { s with qpRatio := (s.qpChars : Rat) / (s.qpBytes : Rat) } else s

/-- The statistics of a message. -/
def stats (okLocales rawMsg : Str) (parts : List Part) : Option Stats :=
  (extractAll okLocales rawMsg parts start).map finish

/-- `check_for_mime_html` (oa/plugins/mime_eval.py 259-261). -/
def hasHtml (s : Stats) : Bool := decide (s.htmlCount ≠ 0)

/-- `check_for_mime_html_only` (oa/plugins/mime_eval.py 263-267). -/
def htmlOnly (s : Stats) : Bool := decide (s.htmlCount ≠ 0) && !decide (s.textCount ≠ 0)

/-- `check_for_faraway_charset` (oa/plugins/mime_eval.py 299-307). -/
def farawayCharset (s : Stats) : Bool := if s.highBits then s.faraway else false

/-- `check_mime_multipart_ratio` (oa/plugins/mime_eval.py 335-345). -/
def multipartRatio (lo hi : Rat) (s : Stats) : Bool := decide (lo ≤ s.multipartRatio) && decide (s.multipartRatio < hi)

/-- A closed range; without upper bound it is infinite (oa/plugins/mime_eval.py 357, 394, 404). -/
def inRange (lo : Rat) (hi : Option Rat) (x : Rat) : Bool :=
  decide (lo ≤ x) && (match hi with
    | none => true
    | some h => decide (x ≤ h))

/-- `check_base64_length` (oa/plugins/mime_eval.py 347-357). -/
def base64Length (lo : Rat) (hi : Option Rat) (s : Stats) : Bool := inRange lo hi (s.base64Length : Rat)

/-- `check_abundant_unicode_ratio` (oa/plugins/mime_eval.py 376-394). -/
def abundantUnicode (lo : Rat) (hi : Option Rat) (s : Stats) : Bool := inRange lo hi s.unicodeRatio

/-- `check_qp_ratio` (oa/plugins/mime_eval.py 396-404). -/
def qpRatio (lo : Rat) (hi : Option Rat) (s : Stats) : Bool := inRange lo hi s.qpRatio

/-- A truth value as a number. -/
def ofBool (b : Bool) : Rat := if b then 1 else 0

/-- `check_for_mime` (oa/plugins/mime_eval.py 237-257): the value of a statistic, `False` for a name that is none of `mime_checks` (39-55).
`_update_mime_bad_iso_charset` (110-114) is not called by anything. -/
def checkForMime (test : Str) (s : Stats) : Rat :=
  if test = c!"mime_base64_count" then (s.base64Count : Rat)
  else if test = c!"mime_base64_encoded_text" then ofBool s.base64Text
  else if test = c!"mime_body_html_count" then (s.htmlCount : Rat)
  else if test = c!"mime_body_text_count" then (s.textCount : Rat)
  else if test = c!"mime_faraway_charset" then ofBool s.faraway
  else if test = c!"mime_missing_boundary" then ofBool s.missingBoundary
  else if test = c!"mime_multipart_alternative" then ofBool s.alternative
  else if test = c!"mime_multipart_ratio" then s.multipartRatio
  else if test = c!"mime_qp_count" then (s.qpCount : Rat)
  else if test = c!"mime_qp_long_line" then ofBool s.qpLongLine
  else if test = c!"mime_qp_ratio" then s.qpRatio
  else if test = c!"mime_ascii_text_illegal" then ofBool s.asciiIllegal
  else if test = c!"mime_text_unicode_ratio" then s.unicodeRatio
  else if test = c!"mime_bad_iso_charset" then ofBool s.badIso
  else 0

/-- A rule holds if the value its function returns is true (oa/rules/ruleset.py 346-359). -/
def mimeRule (test : Str) (s : Stats) : Bool := decide (checkForMime test s ≠ 0)

/-- `check_ma_non_text` (oa/plugins/mime_eval.py 359-364). -/
def nonText (s : Stats) : Bool := s.maNonText

/-- `check_for_ascii_text_illegal` (oa/plugins/mime_eval.py 366-374). -/
def asciiTextIllegal (s : Stats) : Bool := s.asciiIllegal

/-- `truncated_headers` of `check_msg_parse_flags` (oa/plugins/mime_eval.py 286-289): `value` is the list of the values
of a header. -/
def truncatedHeaders (raw : Mail.Headers Str) : Bool :=
  raw.any fun p => decide (p.1.length > 256) || decide (p.2.length > 8192)

end Verif.MimeEval
