import Verif.Model.Re
import Verif.Model.Headers
import Verif.Model.MimeEval

/-!
# What a message says about the end of its headers

`oa/message.py` 429-452 and `check_msg_parse_flags` of `oa/plugins/mime_eval.py`.
-/

namespace Verif.HeadEnd
open Verif Py Re

/-- `[\041-\071\073-\176]`: the printable characters of ASCII but the blank and the colon. -/
def nameChar (c : Char) : Bool :=
  (decide (33 ≤ c.toNat) && decide (c.toNat ≤ 57)) || (decide (59 ≤ c.toNat) && decide (c.toNat ≤ 126))

/-- `email.feedparser.headerRE`: `^(From |[\041-\071\073-\176]*:|[\t ])` (used in oa/message.py 435).  `re.match` begins at the
start of the line, so that `^` says nothing more. -/
def headerRe : Re :=
  .alt (lit c!"From ") (.alt (.seq (.star true nameChar) (.chr (fun c => c == ':'))) (.chr (fun c => c == '\t' || c == ' ')))

/-- `email.feedparser.headerRE.match(line)` (oa/message.py 435). -/
def isHeader (line : Str) : Bool := (matchRe headerRe line).isSome

/-- The loop over the lines (oa/message.py 434-441). -/
def flagLoop : List Str → Bool
  | [] => false
  | line :: rest =>
    if !isHeader line then !(strip line).isEmpty
    else flagLoop rest

/-- `missing_header_body_separator` of a message (oa/message.py 140, 434-441). -/
def missingSeparator (raw : Str) : Bool := flagLoop (MimeEval.splitlines (Mail.translateLineBreaks raw))

/-- `missing_boundary_header` of a message (oa/message.py 450-452), given the headers of the message and of each of its parts
as the email library has read them. -/
def missingBoundaryHeader (parts : List (List (Str × Str))) : Bool :=
  parts.foldl (fun flag headers => if headers.isEmpty then true else flag) false

/-- `check_msg_parse_flags` (oa/plugins/mime_eval.py 269-297): the message as it was received, the headers of its parts, its
headers, and its epilogue if it has one. -/
def checkMsgParseFlags (raw : Str) (parts : List (List (Str × Str))) (headers : Mail.Headers Str) (epilogue : Option Str)
    (flag : Str) : Bool :=
  if flag = c!"missing_mime_head_body_separator" then missingSeparator raw
  else if flag = c!"missing_mime_headers" then missingBoundaryHeader parts
  else if flag = c!"truncated_headers" then MimeEval.truncatedHeaders headers
  else if flag = c!"mime_epilogue_exists" then
    match epilogue with
    | some e => !e.isEmpty
    | none => false
  else false

end Verif.HeadEnd
