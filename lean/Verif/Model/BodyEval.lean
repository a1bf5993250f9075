import Verif.Model.Content

/-!
# Rules about the body: `oa/plugins/body_eval.py`

Results are `none` if the code raises.  Numbers are exact where Python uses floating point.
-/

namespace Verif.BodyEval
open Verif Py

/-- What the plugin reads of a part: its identity (`id(part)`), `get_content_type()` (which the email library gives in lower
case), the identities of the parts in it (none if
the email library found no parts in a multipart, and its payload is text: characters are no parts), and the text of the part in the body, `None` for a part that is not text. -/
structure Part where
  id : Nat
  type : Str
  kids : List Nat
  text : Option Str
deriving DecidableEq

/-- `collections.Counter`. -/
abbrev Counter := Dict Str Nat

/-- `Counter.update` for one element. -/
def Counter.add (c : Counter) (w : Str) : Counter := Dict.set c w ((Dict.get? c w).getD 0 + 1)

/-- `word.lower() for word in (REMOVE_OTHER.sub('', word) for word in SPLIT_WORDS.split(text)) if word`
(oa/plugins/body_eval.py 67-76, 13-14).  `SPLIT_WORDS.split` gives the runs of other characters than white space, and perhaps
empty texts at both ends, which are dropped here at once; `u` tells which characters outside ASCII are letters or digits. -/
def words (u : Char → Bool) (text : Str) : List Str :=
  (((splitWs text).map (fun w => w.filter (Content.isWord u))).filter (fun w => !w.isEmpty)).map lower

/-- The values kept for a message (oa/plugins/body_eval.py 41-48). -/
structure Tokens where
  multiparts : List Nat
  text : Counter
  html : Counter
deriving DecidableEq

/-- `check_start` (oa/plugins/body_eval.py 41-48). -/
def start : Tokens := ⟨[], [], []⟩

/-- `extract_metadata` (oa/plugins/body_eval.py 50-76). -/
def extract (u : Char → Bool) (t : Tokens) (p : Part) : Tokens :=
  if p.type = c!"multipart/alternative" then { t with multiparts := t.multiparts ++ p.kids }
  else match p.text with
    | none => t
    | some text =>
      if p.id ∉ t.multiparts ∨ text = [] ∨ (p.type ≠ c!"text/plain" ∧ p.type ≠ c!"text/html") then t
      else if p.type = c!"text/plain" then { t with text := (words u text).foldl Counter.add t.text }
      else { t with html := (words u text).foldl Counter.add t.html }

/-- The tokens of a message with these parts, in the order in which they are visited. -/
def tokens (u : Char → Bool) (parts : List Part) : Tokens := parts.foldl (extract u) start

/-- `valid_count` (oa/plugins/body_eval.py 87-93). -/
def validCount (t : Tokens) : Nat :=
  t.text.foldl (fun n (w, count) => match Dict.get? t.html w with
    | none => n
    | some h => if count ≥ h then n + 1 else n) 0

/-- `abs`. -/
def pyAbs (x : Rat) : Rat := if x < 0 then -x else x

/-- `madiff` (oa/plugins/body_eval.py 94-98). -/
def madiff (t : Tokens) : Rat :=
  if t.html.length = 0 then 0
  else pyAbs (((t.html.length : Rat) - (validCount t : Rat)) / (t.html.length : Rat) * 100)

/-- An argument of a rule: a number, or a text with the number that `float` or `int` reads in it. -/
inductive Arg
  | num (x : Rat)
  | str (x : Option Rat)
deriving DecidableEq

/-- `float(arg)`. -/
def Arg.float : Arg → Option Rat
  | .num x => some x
  | .str x => x

/-- `multipart_alternative_difference` (oa/plugins/body_eval.py 107-129). -/
def difference (t : Tokens) (lo hi : Arg) : Option Bool :=
  match lo.float, hi.float with
  | some lo, some hi => some (decide (lo ≤ madiff t) && decide (madiff t ≤ hi))
  | _, _ => none

/-- `multipart_alternative_difference_count` (oa/plugins/body_eval.py 131-159); `int(minhtml)` is a parameter. -/
def differenceCount (t : Tokens) (ratio : Arg) (minHtml : Int) : Option Bool :=
  match ratio.float with
  | none => none
  | some ratio =>
    if (t.html.length : Int) < minHtml then some false
    else if t.html.length = 0 then some false
    else some (decide ((t.text.length : Rat) / (t.html.length : Rat) > ratio))

/-- `raw_text.count("\n")` (oa/plugins/body_eval.py 104). -/
def lineCount (raw : Str) : Nat := raw.count '\n'

/-- `raw_text.count("\n\n")`, which does not count what overlaps (oa/plugins/body_eval.py 105). -/
def blankCount : Str → Nat
  | '\n' :: '\n' :: cs => blankCount cs + 1
  | _ :: cs => blankCount cs
  | [] => 0

/-- `check_blank_line_ratio` (oa/plugins/body_eval.py 161-181); `int(minlines)` is a parameter. -/
def blankRatio (raw : Str) (lo hi : Arg) (minLines : Int) : Option Bool :=
  match lo.float, hi.float with
  | some lo, some hi =>
    if (lineCount raw : Int) < max minLines 1 then some false
    else
      let ratio : Rat := (blankCount raw : Rat) / (lineCount raw : Rat) * 100
      some (decide (lo ≤ ratio) && decide (ratio ≤ hi))
  | _, _ => none

/-- `<=` between an argument and a number: texts cannot be compared with numbers. -/
def Arg.compare : Arg → Option Rat
  | .num x => some x
  | .str _ => none

/-- `tvd_vertical_words` (oa/plugins/body_eval.py 184-203) on the text chosen by the target.  `minr <= ratio <= maxr` looks at
the second bound only if the first comparison holds. -/
def verticalWords (text : Str) (lo hi : Arg) : Option Bool :=
  let spaces := text.countP isSpace
  if text.length - spaces = 0 then some false
  else
    let ratio : Rat := (spaces : Rat) / ((text.length - spaces : Nat) : Rat) * 100
    match lo.compare with
    | none => none
    | some lo => if lo ≤ ratio then
        match hi.compare with
        | none => none
        | some hi => some (decide (ratio ≤ hi))
      else some false

/-- `EvalRule.match` (oa/rules/eval_.py 70-77). -/
def holds (r : Option Bool) : Bool := r.getD false

end Verif.BodyEval
