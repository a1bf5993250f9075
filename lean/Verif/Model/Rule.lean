import Verif.Model.Py

/-!
# Rules: `oa/rules/base.py`

Scores are of an arbitrary type `S` with the operations Python uses on them
(`PyNum`); no algebraic law is assumed, so the theorems also speak about
floating point addition in the order in which the code performs it.
-/

deriving instance DecidableEq for Except

namespace Verif
open Py

/-- The number operations the code uses on scores.  No laws. -/
class PyNum (S : Type) extends Add S, Zero S, One S, Neg S, LE S where
  decEq : DecidableEq S
  decLe : (a b : S) → Decidable (a ≤ b)

instance {S : Type} [PyNum S] : DecidableEq S := PyNum.decEq
instance {S : Type} [PyNum S] (a b : S) : Decidable (a ≤ b) := PyNum.decLe a b

instance instPyNumInt : PyNum Int where
  decEq := inferInstance
  decLe := inferInstance

instance instPyNumRat : PyNum Rat where
  decEq := inferInstance
  decLe := inferInstance

/-- The switches of the main configuration that scoring looks at
(`ruleset.conf[...]`, oa/rules/base.py 63-79). -/
structure ScoreConf where
  useNetwork : Bool
  autolearn : Bool
  useBayes : Bool
  userConfig : Bool
deriving DecidableEq, Repr

/-- Attributes of `BaseRule` (oa/rules/base.py 27-56).  `tflags = none` is
Python's `None`. -/
structure BaseRule (S : Type) where
  name : Str
  scores : List S
  tflags : Option (List Str)
  description : Str
  priority : Int
  score : S
deriving DecidableEq

/-- Errors that matter to the callers of rule construction. -/
inductive RuleErr where
  /-- `oa.errors.InvalidRule` -/
  | invalidRule
  /-- `oa.errors.InvalidRegex` -/
  | invalidRegex
  /-- any other Python exception (`SyntaxError`, `AttributeError`, …) -/
  | other
deriving DecidableEq, Repr

/-- Truthiness of `self.tflags` together with membership: `tflags and f in tflags`. -/
def hasFlag (tflags : Option (List Str)) (f : Str) : Bool :=
  match tflags with
  | none => false
  | some l => l.contains f

/-- Python's `name.startswith("__")`. -/
def dunder (name : Str) : Bool := startsWith c!"__" name

/-- `BaseRule.__init__` lines 29-37: the score list used when the keyword
argument `score` is `score`. -/
def initScores {S : Type} [PyNum S] (name : Str) (score : Option (List S))
    (tflags : Option (List Str)) : List S :=
  if dunder name then [0]
  else match score with
    | some l => l
    | none => if hasFlag tflags c!"nice" then [-1] else [1]

/-- `BaseRule.__init__` (oa/rules/base.py 27-56).  `priority = none` is the
default argument `0`; otherwise it is the configuration string, and a string
that is not an integer gives 0. -/
def BaseRule.init {S : Type} [PyNum S] (name : Str) (score : Option (List S))
    (desc : Option Str) (priority : Option Str) (tflags : Option (List Str)) :
    Except RuleErr (BaseRule S) :=
  let scores := initScores name score tflags
  match scores with
  | s0 :: rest =>
    if rest.length = 0 ∨ rest.length = 3 then
      .ok { name := name
            scores := scores
            tflags := tflags
            description := desc.getD c!"No description available."
            priority := match priority with
              | none => 0
              | some p => (int? p).getD 0
            score := s0 }
    else .error .invalidRule
  | [] => .error .invalidRule

/-- `BaseRule.preprocess` (oa/rules/base.py 58-80); `_ADVANCED_SCORING` is
lines 15-20. -/
def BaseRule.preprocess {S : Type} [PyNum S] (c : ScoreConf) (r : BaseRule S) : BaseRule S :=
  if !c.useNetwork && hasFlag r.tflags c!"net" then { r with score := 0 }
  else if c.autolearn && hasFlag r.tflags c!"noautolearn" then { r with score := 0 }
  else if !c.useBayes && hasFlag r.tflags c!"learn" then { r with score := 0 }
  else if !c.userConfig && hasFlag r.tflags c!"userconf" then { r with score := 0 }
  else match r.scores with
    | [a, b, d, e] =>
      if r.score = 0 then r
      else { r with score := match c.useBayes, c.useNetwork with
                | false, false => a
                | false, true => b
                | true, false => d
                | true, true => e }
    | _ => r

/-- `BaseRule.should_check` (oa/rules/base.py 96-104). -/
def BaseRule.shouldCheck {S : Type} [PyNum S] (r : BaseRule S) : Bool :=
  if dunder r.name then false
  else if r.score = 0 then false
  else true

end Verif
