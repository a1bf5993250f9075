import Verif.Model.FullEnv
import Verif.Spec.Parser
import Verif.Spec.PluginConf
import Verif.Spec.Scan

/-!
# What the lines of configuration files do to options
-/

namespace Verif.Parser
open Verif Py PluginConf

/-- The plugin that a `loadplugin` line names: one of SpamAssassin's is replaced if there is a replacement. -/
def pluginNamed (value : Str) : Option Str :=
  if hasSub c!"::" value = true then Dict.get? reimplemented value else if value = [] then none else some value

/-- What a line does to options: a plugin is loaded, or an option is offered.  Lines about rules do nothing. -/
def eventsOf (l : Str) : List Ev :=
  if Skipped l ∨ keyword l ∈ known2 then []
  else if keyword l = c!"loadplugin" then (pluginNamed (argument l)).toList.map .load
  else [.line (keyword l) (argument l)]

/-- Lines about options, plugins and rules: no `lang`, no path for a plugin, and no line of a kind that a plugin adds. -/
def OptionLine (words : List Str) (l : Str) : Prop :=
  Plain l ∧ (¬ Skipped l → keyword l ≠ c!"lang" ∧ keyword l ∉ words ∧
    (keyword l = c!"loadplugin" → (splitNone 1 (argument l)).length ≠ 2))

instance (words : List Str) (l : Str) : Decidable (OptionLine words l) := by unfold OptionLine; exact inferInstance

/-- The options that lines give, with the values as written. -/
def optionsGiven (lines : List Str) : List (Str × Str) :=
  (lines.filter fun l => decide (¬ Skipped l ∧ keyword l ∉ known2 ∧ keyword l ≠ c!"loadplugin")).map fun l => (keyword l, argument l)

/-- What the plugins register: nothing they may not, and only commands among these words. -/
def Registers (plug : Str → Context.Plugin) (words : List Str) : Prop :=
  ∀ n, (∀ r ∈ (plug n).cmds, r.2 = true ∧ r.1 ∈ words) ∧ ∀ r ∈ (plug n).evalRules, r.2 = true

/-- The option has this type where it is looked for first: in the main configuration, otherwise in the first plugin that has it. -/
def AskedFor {F : Type} (w : World F) (key : Str) (t : Conf.OptType) : Prop :=
  (∃ d, Dict.get? w.main.cls key = some (t, d)) ∨
  (¬ MainDeclares w key ∧ ∃ x a y s d, Dict.keys w.loaded = x ++ a :: y ∧ (∀ b ∈ x, ¬ Declares w b key) ∧ w.plugin a = some s ∧
    Dict.get? s.cls key = some (t, d))

/-- A number is expected, and this is none. -/
def NoNumber {F : Type} (fe : Conf.FloatEnv F) (t : Conf.OptType) (value : Str) : Prop :=
  value ≠ [] ∧ (t = .int ∧ int? value = none ∨ t = .float ∧ fe.parse value = none)

/-- A line that cannot be read: it names a plugin that is in no module or cannot be imported (other than because there is none), or it
gives an option that is a number something else. -/
def Stops {F : Type} (fe : Conf.FloatEnv F) (bad : Str → Context.Err) (w : World F) (l : Str) : Prop :=
  ¬ Skipped l ∧
  ((keyword l = c!"loadplugin" ∧ ∃ n, pluginNamed (argument l) = some n ∧ ('.' ∉ n ∨ Dict.get? w.classes n = none ∧ bad n = .other)) ∨
    (keyword l ∉ known2 ∧ keyword l ≠ c!"loadplugin" ∧ ∃ t, AskedFor w (keyword l) t ∧ NoNumber fe t (argument l)))

end Verif.Parser
