import Verif.Model.ParserEnv
import Verif.Model.PluginConf

/-!
# The parser's environment with the options of plugins: `oa/rules/parser.py` over `Verif.Model.PluginConf` and `Verif.Model.Context`
-/

namespace Verif.Parser
open Verif Py

/-- The parts of `GlobalContext` that the parser uses: the options, of the main configuration and of the plugins, and the registry. -/
structure FCtx (F : Type) where
  world : PluginConf.World F
  reg : Context.Ctx Unit

/-- What importing a plugin gives (oa/context.py 177-198): a class if there is one with this name; `plug` says what it registers, `bad`
which exception there is for a name without a class. -/
def importOf {F : Type} (plug : Str → Context.Plugin) (bad : Str → Context.Err) (w : PluginConf.World F) (n : Str) : Context.Import Unit :=
  if Dict.has w.classes n then .ok (plug n) [] else .failed (bad n)

/-- A plugin that was loaded under this name is gone (oa/context.py 172-174, 239-253). -/
def dropped {F : Type} (w : PluginConf.World F) (n : Str) : PluginConf.World F :=
  { w with loaded := if Dict.has w.loaded (Context.className n) then Dict.del w.loaded (Context.className n) else w.loaded }

/-- `load_plugin` (oa/context.py 169-207) on options and registry.  Simplification: a plugin that is loaded with a path has no options. -/
def loadFull {F : Type} (plug : Str → Context.Plugin) (bad : Str → Context.Err) (c : FCtx F) (n : Str) (p : Option Str) : FCtx F × Option Err :=
  let r := Context.load c.reg n p.isSome (importOf plug bad c.world n)
  let w := if r.2.isNone && p.isNone then (PluginConf.load c.world n).1 else dropped c.world n
  (⟨w, r.1⟩, r.2.map ofLoadErr)

/-- `hook_parse_config` (oa/context.py 276-284), as the parser sees it.  Simplification: which exception it is is not kept. -/
def configFull {F : Type} (fe : Conf.FloatEnv F) (c : FCtx F) (k v : Str) : FCtx F × Cfg :=
  match PluginConf.line fe c.world k v with
  | (w, .result b) => ({ c with world := w }, .done b)
  | (w, .raised) => ({ c with world := w }, .raised .other)

/-- The environment of `PADParser` (oa/rules/parser.py 101-108), with the options of plugins. -/
def fullEnv {F : Type} (fe : Conf.FloatEnv F) (plug : Str → Context.Plugin) (bad : Str → Context.Err)
    (files : Str → Option (List Str)) (paranoid : Bool) (lang : Option Str) : Env (FCtx F) where
  files := files
  paranoid := paranoid
  isCmd := fun c t => Dict.has c.reg.cmds t
  hasPlugin := fun c n => Dict.has c.reg.plugins n
  loadPlugin := loadFull plug bad
  parseConfig := configFull fe
  reimpl := fun n => Dict.get? reimplemented n
  lang := lang

/-- A new parser (oa/rules/parser.py 101-108). -/
def freshState {F : Type} (main : Conf.St F) (classes : Dict Str (Conf.Cls F)) : State (FCtx F) :=
  ⟨[], false, ⟨⟨main, classes, []⟩, Context.Ctx.empty⟩⟩

end Verif.Parser
