import Verif.Model.Re

/-!
# Identifiers at the end of a subject: `oa/plugins/header_eval.py` 103-140
-/

namespace Verif.SubjectId
open Verif Py Re

/-- The text of the match of `re.search`, from some place on. -/
def textFrom (r : Re) : Str → Str → Option Str
  | b, [] => (m r ⟨b, [], []⟩ some).map fun _ => []
  | b, c :: cs =>
    match m r ⟨b, c :: cs, []⟩ some with
    | some t => some ((c :: cs).take ((c :: cs).length - t.after.length))
    | none => textFrom r (c :: b) cs

/-- `re.search(r, text).group()`. -/
def searchText (r : Re) (text : Str) : Option Str := textFrom r [] text

/-- `p{n,}` -/
def atLeast (n : Nat) (p : Char → Bool) : Re := .seq (times (.chr p) n) (.star true p)

/-- `r+`, as far as a text of that length needs it. -/
def many (length : Nat) (r : Re) : Re := .seq r (upTo r length)

/-- `[-a-z0-9]` with `re.I` -/
def idChar (c : Char) : Bool := c.isAlphanum || c == '-'

/-- `[\s._]` -/
def gapChar (c : Char) : Bool := isSpace c || c == '.' || c == '_'

/-- `[-_\.\s]` -/
def lineChar (c : Char) : Bool := gapChar c || c == '-'

/-- `[a-f0-9]` with `re.I` -/
def hexChar (c : Char) : Bool := c.isDigit || c!"abcdef".contains c.toLower

/-- `\s*` -/
def blanks : Re := .star true isSpace

/-- `unique_id_re_list` (oa/plugins/header_eval.py 107-128), with `re.I`, for a text of that length.  Groups are left out, as only the
whole match is used. -/
def idRes (length : Nat) : List Re := [
  seqs [atLeast 7 lineChar, atLeast 4 idChar, .eol],
  seqs [atLeast 10 isSpace, opt (.seq (.chr nonSpace) sp), plus nonSpace, .eol],
  seqs [atLeast 3 isSpace, plus (fun c => c!"-:#([".contains c), atLeast 4 idChar, plus (fun c => c!"])".contains c), .eol],
  seqs [atLeast 3 isSpace, .chr (fun c => c!"-:#".contains c), atLeast 5 (fun c => c.isAlphanum), .eol],
  seqs [atLeast 3 gapChar, .chr (fun c => c != '0' && !gapChar c), atLeast 3 digit, .eol],
  seqs [atLeast 3 gapChar, lit c!"[", plus nonSpace, lit c!"]", .eol],
  seqs [lit c!"(", atLeast 7 (fun c => isWord c || c == '-'), lit c!"@", plus digit, lit c!")", .eol],
  seqs [.wordb, atLeast 7 digit, blanks, .eol],
  seqs [.chr (fun c => c!"!?".contains c), blanks,
    .alt (atLeast 4 digit) (.seq (plus isWord) (many length (.seq (lit c!"-") (plus isWord)))), blanks, .eol],
  seqs [opt (seqs [rep (.chr isWord) 2 3, lit c!":", sp]), plus isWord, plus isSpace, atLeast 7 isWord, lit c!"-", atLeast 7 isWord,
    upTo (.seq (lit c!"-") (plus isWord)) length, blanks, .eol],
  seqs [sp, lit c!"#", blanks, atLeast 4 hexChar, blanks, .eol]]

/-- The loop of oa/plugins/header_eval.py 129-133. -/
def firstMatch : List Re → Str → Option Str
  | [], _ => none
  | r :: rs, subject =>
    match searchText r subject with
    | some id => some id
    | none => firstMatch rs subject

/-! ### The expression made of the identifier -/

/-- What a text is as part of an expression with `re.X`: parts, and whether a comment is open at its end; an error; or a text with
characters that are not modelled. -/
inductive Verbose where
  | parts (rs : List Re) (comment : Bool)
  | error
  | other

def Verbose.add (r : Re) : Verbose → Verbose
  | .parts rs c => .parts (r :: rs) c
  | v => v

/-- The white space that `re.X` leaves out. -/
def skipped (c : Char) : Bool := [' ', '\t', '\n', '\r', '\x0b', '\x0c'].contains c

/-- `re.compile` with `re.X` and `re.I` of a text inside an expression: white space is left out, `#` begins a comment, `.` is any
character, parentheses must match; other special characters are not modelled. -/
def verbose : Bool → Nat → Str → Verbose
  | comment, depth, [] => if depth = 0 then .parts [] comment else .error
  | true, depth, c :: cs => verbose (c != '\n') depth cs
  | false, depth, c :: cs =>
    if skipped c then verbose false depth cs
    else if c = '#' then verbose true depth cs
    else if c = '(' then verbose false (depth + 1) cs
    else if c = ')' then if depth = 0 then .error else verbose false (depth - 1) cs
    else if c = '.' then (verbose false depth cs).add (.chr dot)
    else if c!"\\?*+{}[]|^$".contains c then .other
    else (verbose false depth cs).add (.chr (fun d => d.toLower == c.toLower))

/-- The words of oa/plugins/header_eval.py 136. -/
def commercialWords : List Str := [c!"item", c!"invoice", c!"order", c!"number", c!"confirmation"]

/-- `comercial_re.search` (oa/plugins/header_eval.py 136-138): `none` is a `re.error`.  `E` is the answer for an identifier with
special characters that are not modelled. -/
def commercial (E : Str → Str → Option Bool) (id subject : Str) : Option Bool :=
  match verbose false 0 id with
  | .other => E id subject
  | .error => none
  | .parts rs comment =>
    some (search (seqs ([alts (commercialWords.map ilit), rep (.chr dot) 1 6] ++ rs ++ if comment then [] else [blanks, .eol])) subject).isSome

/-- `\d{5,}` (oa/plugins/header_eval.py 138). -/
def longNumber (id : Str) : Bool := (search (atLeast 5 digit) id).isSome

/-- `check_for_unique_subject_id` (oa/plugins/header_eval.py 103-140) on the decoded subject (the subjects, if there are several, joined):
`none` is an exception, with which the rule does not hold (oa/rules/eval_.py 70-77).  Expressions are compiled when they are used
(oa/regex.py 118-131). -/
def uniqueId (E : Str → Str → Option Bool) (subject : Str) : Option Bool :=
  match firstMatch (idRes subject.length) subject with
  | none => some false
  | some id =>
    if id = [] then some false
    else if longNumber id then (commercial E id subject).map (!·)
    else some true

end Verif.SubjectId
