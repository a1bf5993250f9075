import Verif.Model.PluginConf
import Verif.Spec.Conf

namespace Verif.PluginConf
open Verif Py Conf

variable {F : Type}

/-- Before the configuration is read: no plugin is loaded. -/
def start (main : St F) (classes : Dict Str (Cls F)) : World F := ⟨main, classes, []⟩

/-- The value of an option of a loaded plugin. -/
def option (w : World F) (c key : Str) : Option (OptVal F) := (w.plugin c).bind fun s => s.read key

/-- The loaded plugin `c` has an option `key`. -/
def Declares (w : World F) (c key : Str) : Prop :=
  ∃ s t, w.plugin c = some s ∧ Dict.get? s.cls key = some t

/-- The main configuration has an option `key`. -/
def MainDeclares (w : World F) (key : Str) : Prop := ∃ t, Dict.get? w.main.cls key = some t

/-- Somebody who is asked before the plugin `c` has an option `key` too: the main configuration, or a
plugin that stands before it in the order of loading. -/
def Taken (w : World F) (c key : Str) : Prop :=
  MainDeclares w key ∨
    ∃ before after a, Dict.keys w.loaded = before ++ c :: after ∧ c ∉ before ∧ a ∈ before ∧ Declares w a key

/-- The lines among the events that are not `loadplugin`. -/
def linesOf : List Ev → List (Str × Str)
  | [] => []
  | .load _ :: evs => linesOf evs
  | .line k v :: evs => (k, v) :: linesOf evs

/-- Nothing is loaded under one of these class names. -/
def NoLoadOf (names : List Str) (evs : List Ev) : Prop :=
  ∀ n, Ev.load n ∈ evs → Context.className n ∉ names

end Verif.PluginConf
