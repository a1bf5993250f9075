import Verif.Model.RuleSet

/-! Specifications for scoring and matching, in terms of lists of rules and
outcomes only. -/

namespace Verif.Spec
open Verif

variable {S X : Type} [PyNum S]

/-- A rule that does not itself write the score, the results or the descriptions
(it may change anything else). -/
def Quiet (r : Rule S X) : Prop :=
  ∀ s : MsgSt S X, (r.run s).2.score = s.score ∧ (r.run s).2.checked = s.checked ∧
    (r.run s).2.descs = s.descs

/-- The recorded result for an outcome: text counts as `True`, an error as `False`. -/
def asResult : Outcome → Int
  | .ret (.text _) => 1
  | .ret (.val v) => v
  | .raised => 0
  | .stop => 0

/-- The rule matched. -/
def Matched (o : Outcome) : Bool := asResult o ≠ 0

/-- Left-to-right sum. -/
def total (start : S) (l : List S) : S := l.foldl (· + ·) start

/-- The rules that are executed when every rule's outcome is known: all before
the first stop request. -/
def executed (out : Str → Outcome) (rules : List (Str × Rule S X)) : List (Str × Rule S X) :=
  rules.takeWhile (fun p => out p.1 ≠ .stop)

/-- Description shown for a matched rule: the returned text if any. -/
def shownDesc (o : Outcome) (r : Rule S X) : Str :=
  match o with
  | .ret (.text t) => t
  | _ => r.base.description

/-- The documented effective score: `none` means the score list is rejected. -/
def documentedScore (name : Str) (given : Option (List S)) (flags : List Str) (c : ScoreConf) :
    Option S :=
  let disabled := ("__".toList <+: name) ∨ ("net".toList ∈ flags ∧ c.useNetwork = false) ∨
    ("noautolearn".toList ∈ flags ∧ c.autolearn = true) ∨
    ("learn".toList ∈ flags ∧ c.useBayes = false) ∨
    ("userconf".toList ∈ flags ∧ c.userConfig = false)
  let off (x : S) : Option S := if disabled then some 0 else some x
  match given with
  | none => off (if "nice".toList ∈ flags then -1 else 1)
  | some [x] => off x
  | some [a, b, d, e] =>
    off (if c.useBayes then (if c.useNetwork then e else d) else (if c.useNetwork then b else a))
  | some _ => if "__".toList <+: name then some 0 else none

end Verif.Spec
