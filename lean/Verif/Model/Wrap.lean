import Verif.Model.Protocol

/-!
# The text of wrapped spam: `oa/rules/ruleset.py` 172-242 with Python's `email` package

`_get_bounce_message` builds a `MIMEMultipart` of two parts and `get_adjusted_message` returns its
`as_string()`.  The part of `email.generator` that writes such a message is modelled, because what
the user gets is its output.
-/

namespace Verif.Wrap
open Verif Py Report Protocol

/-- `NLCRE.split` and the writing of the pieces with `\n` between them (`Generator._write_lines`, called for
the parts of type `text`): every `\r\n`, `\r` and `\n` becomes `\n`. -/
def normNl : Str → Str
  | [] => []
  | c :: cs =>
    if c = '\r' then
      match cs with
      | '\n' :: _ => normNl cs
      | _ => '\n' :: normNl cs
    else c :: normNl cs

/-- The headers of a part followed by an empty line.  Simplification: the values are short ASCII texts, which
`policy.fold` leaves alone. -/
def headText (h : Hdrs) : Str := h.flatMap (fun p => p.1 ++ c!": " ++ p.2 ++ c!"\n") ++ c!"\n"

/-- `attach_type` (oa/rules/ruleset.py 227-229), as the generator shows it.  NB the digits of `rfc882`. -/
def attachType (reportSafe : Int) : Str := if reportSafe = 2 then c!"text/plain" else c!"message/rfc882"

/-- The headers of the second part (oa/rules/ruleset.py 234-239); `MIMEBase` adds `MIME-Version`. -/
def attachHeaders (reportSafe : Int) : Hdrs :=
  [(c!"Content-Type", attachType reportSafe ++ c!"; x-spam-type=\"original\""), (c!"MIME-Version", c!"1.0"),
   (c!"Content-Disposition", c!"inline"), (c!"Content-Description", c!"original message before OrangeAssassin")]

/-- The second part as text (oa/rules/ruleset.py 234-241): the generator writes the payload of a part of type
`message` as it is, and that of a part of type `text` line by line. -/
def attachment (reportSafe : Int) (raw : Str) : Str :=
  headText (attachHeaders reportSafe) ++ if reportSafe = 2 then normNl raw else raw

/-- The first part, `MIMEText(report_message)` (oa/rules/ruleset.py 231-233).  `base64` is the encoding of a text that
is not ASCII, in lines. -/
def reportPart (base64 : Str → Str) (report : Str) : Str :=
  if report.all (fun c => c.toNat < 128) then
    headText [(c!"Content-Type", c!"text/plain; charset=\"us-ascii\""), (c!"MIME-Version", c!"1.0"),
      (c!"Content-Transfer-Encoding", c!"7bit")] ++ normNl report
  else
    headText [(c!"Content-Type", c!"text/plain; charset=\"utf-8\""), (c!"MIME-Version", c!"1.0"),
      (c!"Content-Transfer-Encoding", c!"base64")] ++ normNl (base64 report)

/-- `('=' * 15) + ('%019d' % token) + '=='` (`Generator._make_boundary`). -/
def firstBoundary (token : Nat) : Str :=
  List.replicate 15 '=' ++ List.replicate (19 - (dec token).length) '0' ++ dec token ++ c!"=="

/-- The boundary tried with a counter: the first one as it is, then with `.0`, `.1`, ... -/
def candidate (token : Nat) : Nat → Str
  | 0 => firstBoundary token
  | n + 1 => firstBoundary token ++ c!"." ++ dec n

/-- `^--b(--)?$` found in the text, with `re.MULTILINE`: one of its lines is the delimiter. -/
def occurs (text b : Str) : Bool :=
  (splitChar '\n' text).any (fun l => l = c!"--" ++ b || l = c!"--" ++ b ++ c!"--")

/-- The loop of `Generator._make_boundary`, for at most the given number of rounds. -/
def tryFrom (token : Nat) (text : Str) : Nat → Nat → Str
  | 0, n => candidate token n
  | fuel + 1, n => if occurs text (candidate token n) then tryFrom token text fuel (n + 1) else candidate token n

/-- `Generator._make_boundary`: each round but the last finds a line of the text, so there are at most as many rounds as
lines, and one more. -/
def makeBoundary (token : Nat) (text : Str) : Str := tryFrom token text (splitChar '\n' text).length 0

/-- `msg.set_boundary(b)`: the header `Content-Type` gets the boundary. -/
def setBoundary (b : Str) (h : Hdrs) : Hdrs :=
  h.map (fun p => if lower p.1 = c!"content-type" then (p.1, p.2 ++ c!"; boundary=\"" ++ b ++ c!"\"") else p)

/-- `as_string()` of the wrapping message (oa/rules/ruleset.py 224-225 and 189).  `fold` writes the headers, with the empty
line after them. -/
def wrappedText (fold : Hdrs → Str) (base64 : Str → Str) (token : Nat) (reportSafe : Int) (raw report : Str) (h : Hdrs) : Str :=
  let p1 := reportPart base64 report
  let p2 := attachment reportSafe raw
  let b := makeBoundary token (p1 ++ c!"\n" ++ p2)
  fold (setBoundary b h) ++ c!"This is a multi-part message in MIME format.\n" ++
    c!"--" ++ b ++ c!"\n" ++ p1 ++ c!"\n--" ++ b ++ c!"\n" ++ p2 ++ c!"\n--" ++ b ++ c!"--\n"

/-- The message as the commands use it: `raw` is `msg.raw_msg`, `orig` are its headers, `get` is `msg.msg[name]`
(oa/rules/ruleset.py 172-242). -/
def mail {S X : Type} (fold : Hdrs → Str) (base64 : Str → Str) (token : Nat) (received now : Str) (reportSafe : Int)
    (st : MsgSt S X) (raw body : Str) (orig : Hdrs) (get : Str → Option Str) : Mail S X where
  st := st
  orig := orig
  bounce := bounceHeaders received now get
  render h := fold h ++ body
  renderBounce report h := wrappedText fold base64 token reportSafe raw report h

end Verif.Wrap
