import Verif.Model.Context

/-!
# Saving and restoring a context: `oa/context.py` 54-72

A context is saved with `pickle` (scripts/compile.py) and restored (scripts/match.py 144-151).  `pickle` itself, which is taken
to give back what it was given, and the parts of a ruleset outside the context are not modelled.
-/

namespace Verif.Serialise
open Verif Py Context

variable {V : Type}

/-- A context, with the name and path each plugin was loaded from (`path_to_plugin`, oa/context.py 204-205; `None` for plugins
of installed modules).  The code keeps it in the instance, the model under the name of its class, under which the instance is
registered. -/
structure State (V : Type) where
  ctx : Ctx V
  paths : Dict Str (Str × Str)

def State.empty : State V := ⟨Ctx.empty, []⟩

/-- `load_plugin` (oa/context.py 169-207) with the path. -/
def loadFrom (s : State V) (name : Str) (path : Option Str) (imp : Import V) : State V × Option Err :=
  let (c, e) := load s.ctx name path.isSome imp
  (⟨c, match path with
    | none => Dict.del s.paths (className name)
    | some p => Dict.set s.paths (className name) (name, p)⟩, e)

/-- What `__getstate__` returns: the attributes, and `plugins_to_import`. -/
structure Saved (V : Type) where
  state : State V
  toImport : List (Str × Str)

def relay : Str := c!"RelayCountryPlugin"

/-- The databases that are not saved (oa/context.py 56-58); false for `KeyError`. -/
def dropRelay (d : Data V) : Data V × Bool :=
  if Dict.has d relay then
    match delData d relay (some c!"ipv4") with
    | (d', false) => (d', false)
    | (d', true) => delData d' relay (some c!"ipv6")
  else (d, true)

/-- `for rule in plugin.eval_rules: del odict["eval_rules"][rule]` (oa/context.py 65-66); false for `KeyError`. -/
def dropRules : List (Str × Bool) → Dict Str Plugin → Dict Str Plugin × Bool
  | [], d => (d, true)
  | r :: rs, d => if Dict.has d r.1 then dropRules rs (Dict.del d r.1) else (d, false)

/-- The loop over the plugins (oa/context.py 60-66); `none` for `KeyError`. -/
def saveLoop (paths : Dict Str (Str × Str)) : Dict Str Plugin → Ctx V → List (Str × Str) →
    Ctx V × Option (List (Str × Str))
  | [], c, acc => (c, some acc)
  | (cls, p) :: rest, c, acc =>
    match Dict.get? paths cls with
    | none => saveLoop paths rest c acc
    | some np =>
      match dropRules p.evalRules c.evalRules with
      | (ev, false) => ({ c with plugins := Dict.del c.plugins cls, evalRules := ev }, none)
      | (ev, true) =>
        saveLoop paths rest { c with plugins := Dict.del c.plugins cls, evalRules := ev } (acc ++ [np])

/-- `__getstate__` (oa/context.py 54-67).  Only the outermost dictionary is copied: what is deleted from the copy is deleted
from the context as well, which is the first result. -/
def getstate (s : State V) : State V × Option (Saved V) :=
  match dropRelay s.ctx.data with
  | (d, false) => (⟨{ s.ctx with data := d }, s.paths⟩, none)
  | (d, true) =>
    match saveLoop s.paths s.ctx.plugins { s.ctx with data := d } [] with
    | (c, none) => (⟨c, s.paths⟩, none)
    | (c, some l) => (⟨c, s.paths⟩, some ⟨⟨c, s.paths⟩, l⟩)

/-- The loop of `__setstate__` (oa/context.py 69-72): false if loading a plugin fails. -/
def restoreLoop (imp : Str → Str → Import V) : List (Str × Str) → State V → State V × Bool
  | [], s => (s, true)
  | (n, path) :: rest, s =>
    match loadFrom s n (some path) (imp n path) with
    | (s', none) => restoreLoop imp rest s'
    | (s', some _) => (s', false)

/-- `__setstate__` (oa/context.py 69-72). -/
def setstate (imp : Str → Str → Import V) (sv : Saved V) : State V × Bool := restoreLoop imp sv.toImport sv.state

/-- A history of loads, unloads and settings (`set_plugin_data`, oa/context.py 74-76). -/
inductive Step (V : Type) where
  | set (cls key : Str) (v : V)
  | load (name : Str) (path : Option Str) (imp : Import V)
  | unload (name : Str)

def doStep (s : State V) : Step V → State V
  | .set cls k v => ⟨{ s.ctx with data := setData s.ctx.data cls k v }, s.paths⟩
  | .load n p i => (loadFrom s n p i).1
  | .unload n => ⟨(unload s.ctx n).1, s.paths⟩

def runSteps (l : List (Step V)) : State V := l.foldl doStep State.empty

end Verif.Serialise
