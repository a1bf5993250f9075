import Verif.Spec.Spamd
import Verif.Spec.Report
import Verif.Spec.Conf

/-!
# What a report says
-/

namespace Verif.Spec
open Verif Py Parser

/-- One line of a template: possibly in quotes, plain text and tags. -/
structure TLine where
  opening : Str
  segs : List Seg
  tail : Str
  closing : Str

def TLine.inner (t : TLine) : Str := t.segs.flatMap Seg.text ++ t.tail

/-- How it is written. -/
def TLine.text (t : TLine) : Str := t.opening ++ t.inner ++ t.closing

/-- How it is shown. -/
def TLine.shown (value : Str → Str) (t : TLine) : Str := t.segs.flatMap (Seg.shown value) ++ t.tail

/-- Without percent signs and double underscores (see C60), and with all quotes outside. -/
structure TLine.Ok (t : TLine) : Prop where
  segs : ∀ g ∈ t.segs, g.Ok
  tail : PlainTail t.tail
  opening : ∀ c ∈ t.opening, c = '"' ∨ c = '\''
  closing : ∀ c ∈ t.closing, c = '"' ∨ c = '\''
  inner : ∀ c, (t.inner.head? = some c ∨ t.inner.getLast? = some c) → c ≠ '"' ∧ c ≠ '\''

/-- A template that is not empty: it has two lines, or something in its only line. -/
def Something (ts : List TLine) : Prop := ts ≠ [] ∧ ∀ t, ts = [t] → t.inner ≠ []

/-- What there is to say about a message.  `matched` are the rules that matched with their results. -/
structure Verdict (S : Type) where
  score : S
  required : S
  matched : List (Str × Int)
  /-- the text before markup was removed -/
  text : Str

/-- What is known about a rule. -/
structure RuleInfo (S : Type) where
  score : S
  label : Str
  description : Str

/-- Names with commas between, or `none`. -/
def namesOrNone (names : List Str) : Str := if names = [] then c!"none" else join c!"," names

/-- The first three lines, at most 200 characters of them. -/
def beginning (text : Str) : Str := (join c!" " ((splitChar '\n' text).take 3)).take 200 ++ c!"[...]"

/-- One line for every rule that matched. -/
def perRule {S : Type} (E : Report.Env S) (about : Str → RuleInfo S) (v : Verdict S) : Str :=
  c!"\r\n" ++ join c!"\r\n" (v.matched.map (fun p =>
    c!"* " ++ E.shw (about p.1).score ++ c!" " ++ p.1 ++ c!" " ++ (about p.1).label ++ (about p.1).description))

/-- What each tag stands for; `extra` are the tags of the relays. -/
def tagValue {S : Type} [PyNum S] (E : Report.Env S) (contact : Str) (about : Str → RuleInfo S) (extra : Str → Option Str)
    (v : Verdict S) (t : Str) : Str :=
  match extra t with
  | some x => x
  | none =>
    if t = c!"YESNO" then if v.required ≤ v.score then c!"Yes" else c!"No"
    else if t = c!"YESNOCAPS" then if v.required ≤ v.score then c!"YES" else c!"NO"
    else if t = c!"SCORE" then E.fmt1 v.score
    else if t = c!"REQD" then E.fmt1 v.required
    else if t = c!"CONTACTADDRESS" then contact
    else if t = c!"HOSTNAME" then E.hostname
    else if t = c!"VERSION" then E.version
    else if t = c!"SUBVERSION" then E.release
    else if t = c!"TESTS" then namesOrNone (v.matched.map Prod.fst)
    else if t = c!"TESTSSCORES" then namesOrNone (v.matched.map (fun p => p.1 ++ c!"=" ++ E.int p.2))
    else if t = c!"SUMMARY" then
      join c!"\r\n" (v.matched.map (fun p => E.shw4 (about p.1).score ++ c!" " ++ ljust 22 p.1 ++ c!" " ++ (about p.1).description))
    else if t = c!"REPORT" then perRule E about v
    else if t = c!"PREVIEW" then beginning v.text
    else c!"@@" ++ t ++ c!"@@"

/-- The lines that set options: all that are not about rules. -/
def settings (isCmd : Str → Bool) (lines : List Str) : List (Str × Str) :=
  (lines.filter (fun l => !decide (Skipped l ∨ keyword l ∈ known2 ∨ isCmd (keyword l) = true))).map (fun l => (keyword l, argument l))

/-- What was given for `key` since the last line that clears it. -/
def since (clear key : Str) (given : List (Str × Str)) : List Str :=
  ((given.reverse.takeWhile (fun l => l.1 ≠ clear)).reverse.filter (fun l => l.1 = key)).map Prod.snd

end Verif.Spec
