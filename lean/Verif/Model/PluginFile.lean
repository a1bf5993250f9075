import Verif.Model.Context

/-!
# Plugins from files: `oa/context.py` 169-207 and 255-261

Python's `SourceFileLoader.load_module` and `sys.modules` are modelled as the documentation of `importlib` describes them.
-/

namespace Verif.PluginFile
open Verif Py Context

variable {V : Type}

/-- `os.path.basename`. -/
def basename (path : Str) : Str :=
  match rsplit1 '/' path with
  | some (_, b) => b
  | none => path

/-- `os.path.basename(path).rstrip(".py").rstrip(".pyc")` (oa/context.py 258). -/
def moduleName (path : Str) : Str :=
  rstripBy (fun c => c!".pyc".contains c) (rstripBy (fun c => c!".py".contains c) (basename path))

/-- A file with Python code: the names it binds, in order, with what importing the name gives, and whether its code raises after that.
Simplification: what it binds does not depend on the names that are bound already. -/
structure File (V : Type) where
  names : List (Str × Import V)
  raises : Bool := false

/-- `sys.modules`: the names that each module binds. -/
abbrev Modules (V : Type) := Dict Str (Dict Str (Import V))

/-- `SourceFileLoader(name, path).load_module()`: if there is a module with this name, the code runs in it; otherwise in a new one, which
is removed if the code raises.  `none`: an exception. -/
def loadModule (ms : Modules V) (name : Str) (f : File V) : Modules V × Option (Dict Str (Import V)) :=
  let ns := f.names.foldl (fun d x => Dict.set d x.1 x.2) ((Dict.get? ms name).getD [])
  if f.raises then
    match Dict.get? ms name with
    | some _ => (Dict.set ms name ns, none)
    | none => (ms, none)
  else (Dict.set ms name ns, some ns)

/-- `_load_module_py3` (oa/context.py 256-261) and `getattr(module, class_name)` (192). -/
def importFile (ms : Modules V) (path cls : Str) (f : File V) : Modules V × Import V :=
  match loadModule ms (moduleName path) f with
  | (ms, none) => (ms, .failed .other)
  | (ms, some ns) => (ms, (Dict.get? ns cls).getD .missing)

/-- A process: its context and its modules. -/
structure Proc (V : Type) where
  ctx : Ctx V
  modules : Modules V

/-- `load_plugin(name, path)` (oa/context.py 169-207). -/
def loadPath (p : Proc V) (name path : Str) (f : File V) : Proc V × Option Err :=
  let r := importFile p.modules path (className name) f
  let l := load p.ctx name true r.2
  (⟨l.1, r.1⟩, l.2)

end Verif.PluginFile
