import Verif.Model.AutoLearn

/-!
# Specification of automatic learning: sums over a set of rules
-/

namespace Verif.AutoLearn
open Verif Py

/-- Rules that count for learning: with a score, and not excluded by a flag. -/
def Counts (r : LRule) : Prop := r.score ≠ 0 ∧ c!"noautolearn" ∉ r.tflags ∧ c!"userconf" ∉ r.tflags

instance (r : LRule) : Decidable (Counts r) := inferInstanceAs (Decidable (_ ∧ _ ∧ _))

/-- The sum of the scores of the counting rules with a property. -/
def sumOf (rules : List LRule) (P : LRule → Bool) : Rat :=
  ((rules.filter fun r => decide (Counts r) && P r).map LRule.score).sum

/-- Rules on the headers; a meta rule without network lookups counts as both. -/
def onHeader (r : LRule) : Bool := r.kind = c!"header" || (r.kind = c!"meta" && c!"net" ∉ r.tflags)

/-- Rules on the body. -/
def onBody (r : LRule) : Bool := r.kind = c!"body" || r.kind = c!"uri" || (r.kind = c!"meta" && c!"net" ∉ r.tflags)

/-- Rules of the learner itself. -/
def isLearner (r : LRule) : Bool := c!"learn" ∈ r.tflags

/-- Some counting rule forces learning. -/
def Forced (rules : List LRule) : Prop :=
  ∃ r ∈ rules, Counts r ∧ c!"learn" ∉ r.tflags ∧ c!"autolearn_force" ∈ r.tflags

/-- What must hold of a set of rules and the score to learn a message as spam: enough points in all, enough
from headers and from the body unless forced, the learner does not think it is ham, and the message is spam. -/
structure SpamCase (c : Conf) (rules : List LRule) (score : Rat) : Prop where
  points : c.spam ≤ sumOf rules (fun r => !isLearner r)
  header : 3 ≤ sumOf rules onHeader ∨ (Forced rules ∧ -99 ≤ sumOf rules onHeader)
  body : 3 ≤ sumOf rules onBody ∨ (Forced rules ∧ -99 ≤ sumOf rules onBody)
  learner : -1 ≤ sumOf rules isLearner
  score : c.required < score

/-- What must hold to consider a message for learning as ham. -/
structure HamCase (c : Conf) (rules : List LRule) (score : Rat) : Prop where
  points : sumOf rules (fun r => !isLearner r) < c.nonspam
  learner : sumOf rules isLearner ≤ 1
  score : score < c.required

/-- The rules with the given names: the ones that matched a message. -/
def matched (checked : Dict Str LRule) (names : List Str) : List LRule :=
  (checked.filter fun p => decide (p.1 ∈ names)).map Prod.snd

end Verif.AutoLearn
