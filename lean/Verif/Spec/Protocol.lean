import Verif.Model.Protocol

/-! # Specification vocabulary for the spamd protocol -/

namespace Verif.Spec
open Verif Py Utf8

/-- A text line as it travels. -/
def wire (line : Str) : Bytes := encode line ++ [10]

/-- An option line: its text, and the name and value in it. -/
structure OptLine where
  text : Str
  name : Str
  value : Str

/-- The line is one line, and after removing the white space around it is the name, a colon and
the value. -/
def OptLine.Ok (o : OptLine) : Prop :=
  '\n' ∉ o.text ∧ strip o.text = o.name ++ ':' :: o.value ∧ ':' ∉ o.name

/-- The last value given for a name, whatever the case the name is written in. -/
def lastGiven : List OptLine → Str → Option Str
  | [], _ => none
  | o :: os, n => match lastGiven os n with
    | some v => some v
    | none => if lower o.name = n then some (strip o.value) else none

/-- A blank line. -/
def BlankLine (w : Str) : Prop := '\n' ∉ w ∧ strip w = []

/-- What ends the options: a blank line and what follows it, or the end of the connection. -/
inductive Ending where
  | blank (w : Str) (rest : Bytes)
  | closed

def Ending.bytes : Ending → Bytes
  | .blank w rest => wire w ++ rest
  | .closed => []

def Ending.rest : Ending → Bytes
  | .blank _ rest => rest
  | .closed => []

def Ending.Ok : Ending → Prop
  | .blank w _ => BlankLine w
  | .closed => True

/-- The request line: one line of exactly two words. -/
def RequestLine (s w1 w2 : Str) : Prop := '\n' ∉ s ∧ splitWs (strip s) = [w1, w2]

/-- The error answer of the server. -/
def badHeaderLine (version what : Str) : Str :=
  c!"SPAMD/" ++ version ++ c!" 76 Bad header line: " ++ what ++ c!"\r\n"

/-- The success line. -/
def successLine (version code : Str) : Str :=
  c!"SPAMD/" ++ version ++ c!" 0 " ++ code ++ c!"\r\n"

/-- The commands that check a message. -/
def checking : List Str := [c!"CHECK", c!"SYMBOLS", c!"REPORT", c!"REPORT_IFSPAM", c!"PROCESS", c!"HEADERS"]

end Verif.Spec
