import Verif.Model.Py

/-!
# Rules about languages, subjects and capital letters

`oa/plugins/textcat.py`, `oa/plugins/whitelist_subject.py` and `check_for_uppercase` of `oa/plugins/mime_eval.py`.
Results are `none` if the code raises (the rule then does not hold, oa/rules/eval_.py 70-77).
-/

namespace Verif.Texts
open Verif Py

/-- `EvalRule.match` (oa/rules/eval_.py 70-77). -/
def holds (r : Option Bool) : Bool := r.getD false

/-! ### Languages -/

/-- The option `ok_languages`: the default is a text, and the option is set to a list (oa/plugins/textcat.py 30, 46-48). -/
inductive Ok where
  | text (s : Str)
  | list (l : List Str)
deriving DecidableEq, Repr

/-- `x in ok_languages`: a part of the text, or an element of the list. -/
def Ok.has (ok : Ok) (x : Str) : Bool :=
  match ok with
  | .text s => hasSub x s
  | .list l => l.contains x

/-- The options of the plugin (oa/plugins/textcat.py 29-43).  Simplification: probabilities are rational numbers. -/
structure Settings where
  ok : Ok
  maxLangs : Int
  prob : Rat
deriving DecidableEq, Repr

/-- The defaults (oa/plugins/textcat.py 30-32). -/
def Settings.default : Settings := ⟨.text c!"all", 5, 7 / 10⟩

/-- A line `ok_languages VALUE`: `set_list_option` with no separator (oa/plugins/textcat.py 46-48, oa/conf.py 139-141). -/
def setOk (s : Settings) (value : Str) : Settings := { s with ok := .list (splitWs value) }

/-- What `check_language` returns and the tag `LANGUAGES`, if it is set (oa/plugins/textcat.py 50-75).  `found` is what
`langdetect.detect_langs` returns, `none` if it raises. -/
def checkLanguage (s : Settings) (found : Option (List (Str × Rat))) : Option Bool × Option Str :=
  match found with
  | none => (none, none)
  | some rs =>
    let langs := (rs.filter (fun r => decide (r.2 > s.prob))).map Prod.fst
    if (langs.length : Int) > s.maxLangs then (some false, none)
    else
      let tag := some (join c!" " langs)
      if s.ok.has c!"all" then (some false, tag)
      else (some (langs.any (fun l => !s.ok.has l)), tag)

/-! ### Subjects -/

/-- The lists of the class, which all contexts of a process share (oa/plugins/whitelist_subject.py 16-19, 36-40). -/
structure Lists where
  white : List Str
  black : List Str
deriving DecidableEq, Repr

/-- `parse_config` (oa/plugins/whitelist_subject.py 21-34); `valid` tells whether an expression compiles.  The second result is
whether the line has been taken. -/
def parseLine (valid : Str → Bool) (s : Lists) (key value : Str) : Lists × Bool :=
  if key = c!"whitelist_subject" then
    if valid (strip value) then ({ s with white := s.white ++ [value] }, true) else (s, false)
  else if key = c!"blacklist_subject" then
    if valid (strip value) then ({ s with black := s.black ++ [value] }, true) else (s, false)
  else (s, false)

/-- The lines that the contexts of a process have been given, in their order: name of the context, key and value. -/
def parseAll (valid : Str → Bool) (s : Lists) (lines : List (Nat × Str × Str)) : Lists :=
  lines.foldl (fun s l => (parseLine valid s l.2.1 l.2.2).1) s

/-- `_check_subject` (oa/plugins/whitelist_subject.py 52-64); `re` is `re.match`.  Without a subject `re.match` raises. -/
def checkSubject (re : Str → Str → Bool) (subject : Option Str) : List Str → Option Bool
  | [] => some false
  | item :: rest =>
    match subject with
    | none => none
    | some s => if re item s then some true else checkSubject re subject rest

/-- `check_subject_in_whitelist`, `check_subject_in_blacklist` (oa/plugins/whitelist_subject.py 42-50). -/
def inWhitelist (re : Str → Str → Bool) (s : Lists) (subject : Option Str) : Option Bool := checkSubject re subject s.white
def inBlacklist (re : Str → Str → Bool) (s : Lists) (subject : Option Str) : Option Bool := checkSubject re subject s.black

/-! ### Capital letters -/

/-- `re.split("\n\n", text)` (oa/plugins/mime_eval.py 315). -/
def paragraphs : Str → List Str
  | [] => [[]]
  | [c] => [[c]]
  | c :: d :: cs =>
    if c = '\n' ∧ d = '\n' then [] :: paragraphs cs
    else match paragraphs (d :: cs) with
      | [] => [[c]]
      | p :: ps => (c :: p) :: ps

/-- What is used of Unicode: `str.upper` of a character, `isdigit`, and the characters that `\w` matches. -/
structure Chars where
  upper : Char → Str
  digit : Char → Bool
  word : Char → Bool

/-- `text.replace("\n", " ")`. -/
def spaced (s : Str) : Str := s.map (fun c => if c = '\n' then ' ' else c)

/-- `re.sub(r"[\W_]", "", text)` (oa/plugins/mime_eval.py 320). -/
def letters (u : Chars) (s : Str) : Str := s.filter (fun c => u.word c && c != '_')

/-- `sum(1 for a, b in zip(text, text.upper()) if a != b or a.isdigit())` (oa/plugins/mime_eval.py 321-323). -/
def countLower (u : Chars) (text : Str) : Nat :=
  ((text.zip (text.flatMap u.upper)).filter (fun p => p.1 != p.2 || u.digit p.1)).length

/-- The loop (oa/plugins/mime_eval.py 312-325): small letters, capital letters and length. -/
def tally (u : Chars) : List Str → Nat × Nat × Nat
  | [] => (0, 0, 0)
  | line :: rest =>
    let t := tally u rest
    if !(spaced (stripChars c!"\n" line)).contains ' ' then t
    else
      let text := spaced line
      let ls := letters u text
      let low := countLower u ls
      (t.1 + low, t.2.1 + (ls.length - low), t.2.2 + text.length)

/-- `check_for_uppercase` (oa/plugins/mime_eval.py 309-333).  Simplifications: percentages are rational numbers, and the bounds are
given as numbers (`none` if `float()` raises). -/
def uppercase (u : Chars) (raw : Str) (lo hi : Option Rat) : Option Bool :=
  let (low, up, len) := tally u (paragraphs raw)
  if len < 200 then some false
  else match lo with
    | none => none
    | some a =>
      if low + up = 0 then some false
      else
        let percent : Rat := (up : Rat) / ((low + up : Nat) : Rat) * 100
        if a < percent then
          match hi with
          | none => none
          | some b => some (decide (percent ≤ b))
        else some false

end Verif.Texts
