import Verif.Model.Py

/-!
# Automatic learning: `oa/plugins/auto_learn_threshold.py`

Simplification: exact rational numbers for scores and thresholds.
-/

namespace Verif.AutoLearn
open Verif Py

/-- What the plugin looks at of a rule (oa/rules/base.py 27-56). -/
structure LRule where
  /-- `rule.rule_type` -/
  kind : Str
  score : Rat
  /-- `None` and the empty list are the same here (`rule.tflags or []`) -/
  tflags : List Str
deriving DecidableEq, Repr

/-- The options (oa/plugins/auto_learn_threshold.py 16-20) and `required_score`. -/
structure Conf where
  nonspam : Rat
  spam : Rat
  onError : Bool
  required : Rat
deriving DecidableEq, Repr

/-- What `prepare_learning_metadata` sums up (oa/plugins/auto_learn_threshold.py 115-118). -/
structure Points where
  header : Rat
  body : Rat
  learned : Rat
  points : Rat
  forced : Bool
deriving DecidableEq, Repr

/-- `valid_tests` (oa/plugins/auto_learn_threshold.py 22-33). -/
def validTests (tests : Dict Str LRule) : Dict Str LRule :=
  tests.filter fun p => !(decide (p.2.score = 0) ||
    p.2.tflags.any fun f => decide (f ∈ [c!"noautolearn", c!"userconf"]))

/-- One round of the loop (oa/plugins/auto_learn_threshold.py 119-132). -/
def addTest (a : Points) (r : LRule) : Points :=
  let a :=
    if r.kind = c!"header" then { a with header := a.header + r.score }
    else if r.kind ∈ [c!"body", c!"uri"] then { a with body := a.body + r.score }
    else if r.kind = c!"meta" ∧ c!"net" ∉ r.tflags then
      { a with header := a.header + r.score, body := a.body + r.score }
    else a
  if c!"learn" ∈ r.tflags then { a with learned := a.learned + r.score }
  else { a with forced := a.forced || decide (c!"autolearn_force" ∈ r.tflags), points := a.points + r.score }

/-- The points of the rules (oa/plugins/auto_learn_threshold.py 115-132). -/
def points (tests : Dict Str LRule) : Points :=
  (validTests tests).foldl (fun a p => addTest a p.2) ⟨0, 0, 0, 0, false⟩

/-- `MIN_BODY_POINTS`, `MIN_HEADER_POINTS` and their low values
(oa/plugins/auto_learn_threshold.py 7-10, 155-162). -/
def minPoints (forced : Bool) : Rat := if forced then -99 else 3

/-- `bayes_agrees` (oa/plugins/auto_learn_threshold.py 35-46, 116-117). -/
def bayesAgrees (thinksSpam : Bool) (tests : Dict Str LRule) : Bool :=
  if thinksSpam && Dict.has tests c!"BAYES_99" then true
  else if !thinksSpam && Dict.has tests c!"BAYES_00" then true
  else false

/-- `should_learn` (oa/plugins/auto_learn_threshold.py 48-98). -/
def shouldLearn (c : Conf) (tests : Dict Str LRule) (score : Rat) : Bool :=
  let p := points tests
  let thinksSpam := decide (c.spam ≤ p.points)
  let thinksHam := decide (p.points < c.nonspam)
  let pass :=
    if thinksSpam then
      if p.header < minPoints p.forced then false
      else if p.body < minPoints p.forced then false
      else if p.learned < -1 then false
      else if score ≤ c.required then false
      else true
    else if thinksHam then
      if p.learned > 1 then false
      else if score ≥ c.required then false
      else true
    else false
  if !pass then false
  else if c.onError && bayesAgrees thinksSpam tests then false
  else true

/-- How a message is learned. -/
inductive LearnAs where
  | spam
  | ham
deriving DecidableEq, Repr

/-- `auto_learn_discriminator` (oa/plugins/auto_learn_threshold.py 164-174): `checked` are the rules of the
ruleset, `bayes` says whether the Bayes plugin is loaded, `score` is the score of the message.  The second
branch has the same condition as the first. -/
def discriminate (c : Conf) (bayes : Bool) (checked : Dict Str LRule) (score : Rat) : Option LearnAs :=
  if shouldLearn c checked score && bayes then
    if c.spam ≤ (points checked).points then some .spam
    else if c.spam ≤ (points checked).points then some .ham
    else none
  else none

end Verif.AutoLearn
