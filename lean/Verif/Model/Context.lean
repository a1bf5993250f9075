import Verif.Model.Py

/-!
# Contexts: `oa/context.py`

Plugin data, the plugin registry and the callback chains.  `V` is the type of the values that
plugins store.  Importing Python modules is an input (`Import`).
-/

namespace Verif.Context
open Verif Py

/-- What a plugin class declares.  `id` stands for the instance (each load creates a new one).
`evalRules` pairs each name with whether the attribute of that name exists; `cmds` pairs each
rule type with whether its class is a subclass of `BaseRule`. -/
structure Plugin where
  id : Nat
  evalRules : List (Str × Bool)
  cmds : List (Str × Bool)
deriving DecidableEq, Repr

inductive Err where
  /-- `oa.errors.PluginLoadError` -/
  | loadError
  /-- `ValueError`, `AttributeError`, or whatever importing raised -/
  | other
deriving DecidableEq, Repr

/-- What importing the module and looking up the class gives (oa/context.py 177-198). -/
inductive Import (V : Type) where
  | failed (e : Err)
  /-- the module has no such attribute: `getattr` raises `AttributeError` -/
  | missing
  | notPlugin
  /-- the class, and the defaults its constructor stores (oa/conf.py 39-41) -/
  | ok (p : Plugin) (defaults : List (Str × V))

/-- `plugin_data`: a `defaultdict(dict)` (oa/context.py 51). -/
abbrev Data (V : Type) := Dict Str (Dict Str V)

/-- `self.plugin_data[plugin_name]` on a `defaultdict`. -/
def Data.of {V : Type} (d : Data V) (p : Str) : Dict Str V := (Dict.get? d p).getD []

/-- `set_plugin_data` (oa/context.py 74-76). -/
def setData {V : Type} (d : Data V) (p k : Str) (v : V) : Data V :=
  Dict.set d p (Dict.set (Data.of d p) k v)

/-- `get_plugin_data` with a key (oa/context.py 78-87).  The lookup creates an empty dictionary for
an unknown plugin; `none` is `KeyError`. -/
def getData {V : Type} (d : Data V) (p k : Str) : Data V × Option V :=
  (Dict.set d p (Data.of d p), Dict.get? (Data.of d p) k)

/-- `del_plugin_data` (oa/context.py 89-98); the Boolean is false for `KeyError`.  Without a key
`del self.plugin_data[plugin_name]` does not create the entry. -/
def delData {V : Type} (d : Data V) (p : Str) : Option Str → Data V × Bool
  | none => (Dict.del d p, Dict.has d p)
  | some k => (Dict.set d p (Dict.del (Data.of d p) k), Dict.has (Data.of d p) k)

/-- `pop_plugin_data` (oa/context.py 100-108). -/
def popData {V : Type} (d : Data V) (p : Str) : Option Str → Data V
  | none => Dict.del d p
  | some k => Dict.set d p (Dict.del (Data.of d p) k)

/-- `GlobalContext` (oa/context.py 141-152), the parts concerned with plugins.  An entry of
`evalRules` or `cmds` is the plugin instance whose method or class it is. -/
structure Ctx (V : Type) where
  plugins : Dict Str Plugin
  evalRules : Dict Str Plugin
  cmds : Dict Str Plugin
  data : Data V

def Ctx.empty {V : Type} : Ctx V := ⟨[], [], [], []⟩

/-- `name.rsplit(".", 1)[-1]` (oa/context.py 172). -/
def className (name : Str) : Str :=
  match rsplit1 '.' name with
  | some (_, b) => b
  | none => name

/-- `unload_plugin` (oa/context.py 239-253). -/
def unload {V : Type} (c : Ctx V) (name : Str) : Ctx V × Option Err :=
  match Dict.get? c.plugins name with
  | none => (c, some .loadError)
  | some p =>
    ({ evalRules := p.evalRules.foldl (fun d r => Dict.del d r.1) c.evalRules
       cmds := p.cmds.foldl (fun d r => Dict.del d r.1) c.cmds
       data := popData c.data name none
       plugins := Dict.del c.plugins name }, none)

/-- The loops of `_load_eval_rules` and `_load_cmds` (oa/context.py 209-237): entries are
registered one by one until one is bad. -/
def register (p : Plugin) : List (Str × Bool) → Dict Str Plugin → Dict Str Plugin × Bool
  | [], d => (d, true)
  | (r, good) :: rs, d => if good then register p rs (Dict.set d r p) else (d, false)

/-- `load_plugin` (oa/context.py 169-207). -/
def load {V : Type} (c : Ctx V) (name : Str) (hasPath : Bool) (imp : Import V) : Ctx V × Option Err :=
  let cls := className name
  let c1 := if Dict.has c.plugins cls then (unload c cls).1 else c
  if !hasPath && (rsplit1 '.' name).isNone then (c1, some .other)
  else match imp with
    | .failed e => (c1, some e)
    | .missing => (c1, some .other)
    | .notPlugin => (c1, some .loadError)
    | .ok p defaults =>
      let c2 := { c1 with data := defaults.foldl (fun (d : Data V) (kv : Str × V) => setData d cls kv.1 kv.2) c1.data }
      match register p p.cmds c2.cmds with
      | (cmds', false) => ({ c2 with cmds := cmds' }, some .loadError)
      | (cmds', true) =>
        match register p p.evalRules c2.evalRules with
        | (ev', false) => ({ c2 with cmds := cmds', evalRules := ev' }, some .other)
        | (ev', true) =>
          ({ c2 with cmds := cmds', evalRules := ev', plugins := Dict.set c2.plugins cls p }, none)

/-- A history of the registry. -/
inductive Op (V : Type) where
  | load (name : Str) (hasPath : Bool) (imp : Import V)
  | unload (name : Str)

def step {V : Type} (c : Ctx V) : Op V → Ctx V
  | .load n h i => (load c n h i).1
  | .unload n => (unload c n).1

def run {V : Type} (c : Ctx V) (ops : List (Op V)) : Ctx V := ops.foldl step c

/-! ### Callback chains (oa/context.py 111-124, 276-366, 376-392) -/

/-- How a callback of a plugin ends. -/
inductive Cb where
  /-- returned; the Boolean is whether the value is true -/
  | ret (truthy : Bool)
  /-- raised `InhibitCallbacks` -/
  | inhibit
  /-- raised something else -/
  | raised
deriving DecidableEq, Repr

/-- How a hook ends: `_callback_chain` turns `InhibitCallbacks` into the result `True`. -/
inductive Hook where
  | result (b : Bool)
  | raised
deriving DecidableEq, Repr

/-- The loop `for plugin in self.plugins.values(): plugin.callback(...)` under `_callback_chain`
(oa/context.py 286-292, 344-366, 376-392).  `S` is the whole mutable state. -/
def chain {P S : Type} (cb : P → S → S × Cb) : List P → S → S × Hook
  | [], s => (s, .result false)
  | p :: ps, s =>
    match cb p s with
    | (s', .ret _) => chain cb ps s'
    | (s', .inhibit) => (s', .result true)
    | (s', .raised) => (s', .raised)

/-- The loop of `hook_parse_config` over the plugins (oa/context.py 282-284): a true return
value ends it. -/
def configLoop {P S : Type} (cb : P → S → S × Cb) : List P → S → S × Hook
  | [], s => (s, .result false)
  | p :: ps, s =>
    match cb p s with
    | (s', .ret false) => configLoop cb ps s'
    | (s', .ret true) => (s', .result false)
    | (s', .inhibit) => (s', .result true)
    | (s', .raised) => (s', .raised)

/-- `hook_parse_config` (oa/context.py 276-284): the main configuration first. -/
def hookParseConfig {P S : Type} (conf : S → S × Cb) (cb : P → S → S × Cb) (ps : List P) (s : S) :
    S × Hook :=
  match conf s with
  | (s', .ret _) => configLoop cb ps s'
  | (s', .inhibit) => (s', .result true)
  | (s', .raised) => (s', .raised)

end Verif.Context
