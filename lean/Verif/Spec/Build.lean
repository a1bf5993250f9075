import Verif.Model.Build

/-!
# Specification vocabulary for building rulesets and for eval rules
-/

namespace Verif.Spec
open Verif Py Build

variable {S R V : Type} [PyNum S]

/-- The ruleset before anything is built. -/
def noRules : Rules S R V := { checked := [], notChecked := [] }

/-- What comes out when this entry is the only one in the configuration. -/
def alone (E : BuildEnv S R V) (e : Str × Data) : Rules S R V × Option RuleErr := build E [e] noRules

/-- Rule classes of plugins give the rule the name it was defined under. -/
def PluginNames (E : BuildEnv S R V) : Prop :=
  ∀ t f name d r, E.cmd t = some f → f name d = .ok (some r) → r.base.name = name

/-- The rule types whose value is one pattern. -/
inductive OnePattern : Str → (Pat R → Kind R V) → Prop
  | full : OnePattern c!"full" .full
  | body : OnePattern c!"body" .body
  | rawbody : OnePattern c!"rawbody" .rawbody
  | uri : OnePattern c!"uri" .uri

/-- The attribute `key` is absent or a text. -/
def Textual (d : Data) (key : Str) : Prop :=
  Dict.get? d key = none ∨ ∃ s, Dict.get? d key = some (.str s)

/-- The text of an attribute without surrounding white space, if it is given. -/
def attr (d : Data) (key : Str) : Option Str :=
  match Dict.get? d key with
  | some (.str s) => some (strip s)
  | _ => none

/-- The flags of a `tflags` line, if there is one. -/
def Flags (d : Data) (tflags : Option (List Str)) : Prop :=
  (Dict.get? d c!"tflags" = none ∧ tflags = none) ∨
  ∃ l, l ≠ [] ∧ Dict.get? d c!"tflags" = some (.list l) ∧ tflags = some (l.map strip)

/-- The scores of the score line, if there is one: one or four numbers. -/
def Scores (E : BuildEnv S R V) (d : Data) (scores : Option (List S)) : Prop :=
  (Dict.get? d c!"score" = none ∧ scores = none) ∨
  ∃ (s : Str) (fs : List S), Dict.get? d c!"score" = some (.str s) ∧
    (splitWs s).map E.float = fs.map some ∧ (fs.length = 1 ∨ fs.length = 4) ∧ scores = some fs

/-- An identifier that the code can read after `eval:`. -/
def FnName (fn : Str) : Prop :=
  ∃ c cs, fn = c :: cs ∧ MetaExpr.isIdStart c = true ∧ (∀ x ∈ cs, MetaExpr.isWord x = true)

/-- `eval:fn(a1,a2,…)` followed by white space. -/
def evalText (fn : Str) (args : List Str) (trail : Str) : Str :=
  c!"eval:" ++ (fn ++ '(' :: (join c!"," args ++ [')'])) ++ trail

end Verif.Spec
