import Verif.Model.Wrap
import Verif.Model.MimeEval

/-!
# The text of the headers of the message that is delivered: `newmsg.as_string()` of `oa/rules/ruleset.py` 172-189

What a client gets is what Python's `email` package makes of the headers, so the part of it that writes headers is modelled.
-/

namespace Verif.HeadText
open Verif Py Report

/-- `email.header._embedded_header`, `\n[^ \t]+:`, found in a text. -/
def embedded : Str → Bool
  | [] => false
  | c :: s => (c == '\n' && ((s.takeWhile (fun d => d != ' ' && d != '\t')).drop 1).contains ':') || embedded s

/-- `email.generator.NEWLINE_WITHOUT_FWSP` found in a text that has no `\r`: a line that begins neither with a blank nor with a tab. -/
def bare : Str → Bool
  | [] => false
  | c :: s => (c == '\n' && (match s with | [] => false | d :: _ => d != ' ' && d != '\t')) || bare s

/-- `Header(value).encode()`, called by `as_string()` (oa/rules/ruleset.py 188-189): the lines of the value as they are.  Simplification: the values
are ASCII, with lines short enough not to be folded, and none of the lines but the first is blank. -/
def encoded (value : Str) : Str := join c!"\n" (MimeEval.splitlines value)

/-- `Generator._write_headers`, called by `as_string()` (oa/rules/ruleset.py 188-189).  `strict` are the versions of Python that look at what
they have written (`verify_generated_headers`, for instance 3.11.10).  `none` is `HeaderParseError` or `HeaderWriteError`. -/
def writeHeaders (strict : Bool) : Hdrs → Option Str
  | [] => some c!"\n"
  | (name, value) :: rest =>
    let t := name ++ c!": " ++ encoded value
    if embedded (encoded value) then none
    else if strict && bare t then none
    else (writeHeaders strict rest).map (fun r => t ++ c!"\n" ++ r)

/-- `as_string()` (oa/rules/ruleset.py 188-189) of a message that has no parts: the body is written line by line. -/
def delivered (strict : Bool) (h : Hdrs) (body : Str) : Option Str := (writeHeaders strict h).map (· ++ Wrap.normNl body)

end Verif.HeadText
