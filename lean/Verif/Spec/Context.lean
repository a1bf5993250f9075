import Verif.Model.Context

namespace Verif.Context
open Verif Py

/-- The plugin class an operation is about. -/
def Op.about {V : Type} : Op V → Str
  | .load n _ _ => className n
  | .unload n => n

/-- A load that has nothing wrong with it. -/
def Op.goodLoad {V : Type} : Op V → Option Plugin
  | .load n hasPath (.ok p _) =>
    if (hasPath ∨ '.' ∈ n) ∧ (∀ r ∈ p.cmds, r.2 = true) ∧ (∀ r ∈ p.evalRules, r.2 = true)
    then some p else none
  | _ => none

/-- The loads of the history that no later operation on the same class undoes, in order. -/
def survivors {V : Type} : List (Op V) → List (Str × Plugin)
  | [] => []
  | op :: rest =>
    match op.goodLoad with
    | some p => if ∀ o ∈ rest, o.about ≠ op.about then (op.about, p) :: survivors rest
                else survivors rest
    | none => survivors rest

/-- The operation loads a plugin that declares the eval rule `r`. -/
def Op.declaresEval {V : Type} (r : Str) : Op V → Prop
  | .load _ _ (.ok p _) => r ∈ p.evalRules.map Prod.fst
  | _ => False

/-- The operation loads a plugin that declares the rule type `r`. -/
def Op.declaresCmd {V : Type} (r : Str) : Op V → Prop
  | .load _ _ (.ok p _) => r ∈ p.cmds.map Prod.fst
  | _ => False

/-- The operation is not a load that fails after it has begun to register things. -/
def Op.notHalfway {V : Type} : Op V → Prop
  | .load _ _ (.ok p _) => (∀ r ∈ p.cmds, r.2 = true) ∧ (∀ r ∈ p.evalRules, r.2 = true)
  | _ => True

/-- Every callback in `ps` returns (with a value accepted by `ok`), leading from one state to
another. -/
def AllReturn {P S : Type} (cb : P → S → S × Cb) (ok : Bool → Prop) : List P → S → S → Prop
  | [], s, s' => s' = s
  | p :: ps, s, s' => ∃ s1 b, cb p s = (s1, .ret b) ∧ ok b ∧ AllReturn cb ok ps s1 s'

/-- Operations on plugin data, over several contexts (the global one and the messages). -/
inductive DataOp (V : Type) where
  | set (ctx : Nat) (plugin key : Str) (v : V)
  | get (ctx : Nat) (plugin key : Str)
  | del (ctx : Nat) (plugin : Str) (key : Option Str)
  | pop (ctx : Nat) (plugin : Str) (key : Option Str)

/-- Contexts are separate objects. -/
def dataStep {V : Type} (w : Nat → Data V) : DataOp V → (Nat → Data V)
  | .set i p k v => fun j => if j = i then setData (w i) p k v else w j
  | .get i p k => fun j => if j = i then (getData (w i) p k).1 else w j
  | .del i p k => fun j => if j = i then (delData (w i) p k).1 else w j
  | .pop i p k => fun j => if j = i then popData (w i) p k else w j

def dataRun {V : Type} (w : Nat → Data V) (ops : List (DataOp V)) : Nat → Data V :=
  ops.foldl dataStep w

/-- The operation overwrites or deletes `key` of `plugin` in context `ctx`. -/
def DataOp.touches {V : Type} (ctx : Nat) (plugin key : Str) : DataOp V → Prop
  | .set i p k _ => i = ctx ∧ p = plugin ∧ k = key
  | .get _ _ _ => False
  | .del i p k => i = ctx ∧ p = plugin ∧ (k = none ∨ k = some key)
  | .pop i p k => i = ctx ∧ p = plugin ∧ (k = none ∨ k = some key)

end Verif.Context
