import Verif.Model.MimeEval

/-!
# Specification of the statistics about parts
-/

namespace Verif.MimeEval
open Verif Py Locales

def Part.isHtml (p : Part) : Bool := decide (p.subtype = c!"html")
def Part.isPlain (p : Part) : Bool := decide (p.maintype = c!"text") && decide (p.subtype = c!"plain")
def Part.isAlternative (p : Part) : Bool := decide (p.maintype = c!"multipart") && decide (p.subtype = c!"alternative")
/-- The transfer encoding of a part names an encoding, in any case. -/
def Part.encodedAs (enc : Str) (p : Part) : Bool := hasSub enc (p.encoding.map Char.toLower)

/-- The parts of a message as the email library gives them: text parts have a text, `multipart` parts have parts in
them, others do not. -/
structure Part.Sound (p : Part) : Prop where
  text : p.maintype = c!"text" → ∃ d t s, p.decoded = some d ∧ p.text = some t ∧ p.payload = .text s
  multi : p.maintype = c!"multipart" → ∃ ts, p.payload = .parts ts
  single : p.maintype ≠ c!"multipart" → ∃ s, p.payload = .text s

/-- A part the plugin can cope with: HTML is text, and no `multipart` is said to be encoded. -/
structure Part.Mild (p : Part) : Prop extends p.Sound where
  html : p.subtype = c!"html" → p.maintype = c!"text"
  base64 : p.maintype = c!"multipart" → p.encodedAs c!"base64" = false
  qp : p.maintype = c!"multipart" → p.encodedAs c!"quoted-printable" = false

/-- The characters at which Unicode text is broken into lines: line feed, vertical tab, form feed, carriage return, the
three separators of ASCII, next line, and the separators of lines and paragraphs. -/
def lineBreaks : List Nat := [0x0A, 0x0B, 0x0C, 0x0D, 0x1C, 0x1D, 0x1E, 0x85, 0x2028, 0x2029]

/-- The registered names of US-ASCII. -/
def asciiNames : List Str :=
  [c!"us-ascii", c!"ansi_x3.4-1968", c!"iso-ir-6", c!"ansi_x3.4-1986", c!"iso_646.irv:1991", c!"ascii", c!"iso646-us",
   c!"us", c!"ibm367", c!"cp367", c!"csascii"]

/-- The number of characters of a decoded part. -/
def Part.chars (p : Part) : Nat := (p.decoded.getD []).length
/-- The number of characters of its text in the body. -/
def Part.textChars (p : Part) : Nat := (p.text.getD []).length
/-- The text as it was sent. -/
def Part.sent (p : Part) : Str := match p.payload with
  | .text s => s
  | .parts _ => []
/-- The types of the parts in it. -/
def Part.inner (p : Part) : List (Str × Str) := match p.payload with
  | .text _ => []
  | .parts ts => ts

/-- The names `check_for_mime` is documented to know. -/
def mimeTests : List Str :=
  [c!"mime_base64_count", c!"mime_base64_encoded_text", c!"mime_body_html_count", c!"mime_body_text_count", c!"mime_faraway_charset",
    c!"mime_missing_boundary", c!"mime_multipart_alternative", c!"mime_multipart_ratio", c!"mime_qp_count", c!"mime_qp_long_line",
    c!"mime_qp_ratio", c!"mime_ascii_text_illegal", c!"mime_text_unicode_ratio", c!"mime_bad_iso_charset"]

/-- The names that ask for a kind of part, and the kind. -/
def partTests : List (Str × (Part → Bool)) :=
  [ (c!"mime_base64_count", Part.encodedAs c!"base64"), (c!"mime_body_html_count", Part.isHtml), (c!"mime_body_text_count", Part.isPlain),
    (c!"mime_multipart_alternative", Part.isAlternative), (c!"mime_qp_count", Part.encodedAs c!"quoted-printable"),
    (c!"mime_ascii_text_illegal", fun p => p.isPlain && p.sent.any fun c => decide (128 ≤ c.toNat)) ]

end Verif.MimeEval
