import Verif.Model.Serialise

/-! # Specification: plugins of installed modules and plugins loaded from files -/

namespace Verif.Serialise
open Verif Py Context

variable {V : Type}

/-- The plugins that were loaded from a file. -/
def State.fromFile (s : State V) : Dict Str Plugin := s.ctx.plugins.filter (fun e => Dict.has s.paths e.1)

/-- The plugins of installed modules. -/
def State.installed (s : State V) : Dict Str Plugin := s.ctx.plugins.filter (fun e => !Dict.has s.paths e.1)

/-- The plugin declares the eval rule. -/
def declares (r : Str) (p : Plugin) : Bool := decide (r ∈ p.evalRules.map Prod.fst)

/-- The setting `k` of the plugin `cls`. -/
def State.setting (s : State V) (cls k : Str) : Option V := Dict.get? (Data.of s.ctx.data cls) k

end Verif.Serialise
