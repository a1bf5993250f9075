import Verif.Model.Conf
import Verif.Model.Context

/-!
# Options of plugins: `oa/conf.py` 33-41 and 173-185, `oa/context.py` 169-207 and 276-284

`Verif.Model.Conf` is one class with options, `Verif.Model.Context` the registry and the chain of
callbacks.  Here they are put together: the main configuration, the plugin classes that can be
imported, and the plugins that are loaded, each with the option values stored in the context.

Simplifications: the rules and commands a plugin registers are left out (`Verif.Model.Context`), so a
class that can be imported is loaded; a plugin is loaded from `sys.path`, i.e. without a path, so that
its class, and the lists in its class attribute, are the same objects at every load; plugins that
override `parse_config` (`oa/plugins/whitelist_subject.py`) are left out; dictionaries keep the order
of insertion (Python 3.7 and later).
-/

namespace Verif.PluginConf
open Verif Py Conf

variable {F : Type}

/-- The context and the imported classes. -/
structure World (F : Type) where
  /-- `ctxt.conf` with its class (oa/context.py 148, oa/conf.py 188-231) -/
  main : St F
  /-- the `options` of the plugin classes, by dotted name -/
  classes : Dict Str (Cls F)
  /-- `ctxt.plugins` and `ctxt.plugin_data` (oa/context.py 51, 143): for every loaded plugin the dotted
  name of its class and the values of its options -/
  loaded : Dict Str (Str × Opts F)

/-- The plugin registered under a class name: its class attribute and its values. -/
def World.plugin (w : World F) (c : Str) : Option (St F) :=
  match Dict.get? w.loaded c with
  | none => none
  | some (name, opts) => (Dict.get? w.classes name).map fun cls => ⟨cls, opts⟩

/-- The values and the class attribute of a plugin are changed in place. -/
def World.put (w : World F) (c name : Str) (s : St F) : World F :=
  { w with classes := Dict.set w.classes name s.cls, loaded := Dict.set w.loaded c (name, s.opts) }

/-- `load_plugin(name)` (oa/context.py 169-207): a plugin with the same class name is unloaded first, its
data with it (239-253); the constructor stores the defaults (oa/conf.py 39-41).  The Boolean is false for
an exception. -/
def load (w : World F) (name : Str) : World F × Bool :=
  let c := Context.className name
  let l := if Dict.has w.loaded c then Dict.del w.loaded c else w.loaded
  if (rsplit1 '.' name).isNone then ({ w with loaded := l }, false)
  else match Dict.get? w.classes name with
    | none => ({ w with loaded := l }, false)
    | some cls => ({ w with loaded := Dict.set l c (name, Conf.init cls) }, true)

/-- How `parse_config` ends, as a callback (oa/conf.py 173-185). -/
def cbOf : ConfRes → Context.Cb
  | .unclaimed => .ret false
  | .inhibit => .inhibit
  | .error _ => .raised

/-- `self.conf.parse_config(key, value)` (oa/context.py 281). -/
def offerMain (fe : FloatEnv F) (key value : Str) (w : World F) : World F × Context.Cb :=
  ({ w with main := (parseConfig fe w.main key value).1 }, cbOf (parseConfig fe w.main key value).2)

/-- `plugin.parse_config(key, value)` for one plugin (oa/context.py 283, oa/plugins/base.py 190-199). -/
def offer (fe : FloatEnv F) (key value c : Str) (w : World F) : World F × Context.Cb :=
  match Dict.get? w.loaded c with
  | none => (w, .ret false)
  | some (name, opts) =>
    match Dict.get? w.classes name with
    | none => (w, .ret false)
    | some cls =>
      match (parseConfig fe ⟨cls, opts⟩ key value).2 with
      | .unclaimed => (w, .ret false)
      | r => (w.put c name (parseConfig fe ⟨cls, opts⟩ key value).1, cbOf r)

/-- `hook_parse_config` (oa/context.py 276-284): the main configuration, then the plugins in the order of
the dictionary. -/
def line (fe : FloatEnv F) (w : World F) (key value : Str) : World F × Context.Hook :=
  Context.hookParseConfig (offerMain fe key value) (offer fe key value) (Dict.keys w.loaded) w

/-- What the lines of a configuration do to the options: `loadplugin NAME` (oa/rules/parser.py 273-284)
or a line that is not one of the parser's own (212, 246). -/
inductive Ev where
  | load (name : Str)
  | line (key value : Str)
deriving DecidableEq, Repr

/-- One line. -/
def step (fe : FloatEnv F) (w : World F) : Ev → World F
  | .load n => (load w n).1
  | .line k v => (line fe w k v).1

/-- A configuration, as long as reading it goes on. -/
def run (fe : FloatEnv F) (w : World F) (evs : List Ev) : World F := evs.foldl (step fe) w

/-- `HeaderEval.options` (oa/plugins/header_eval.py 58-62). -/
def headerEvalOptions : Cls F :=
  [ (c!"util_rb_tld", .appendSplit, .list []),
    (c!"util_rb_2tld", .appendSplit, .list []),
    (c!"util_rb_3tld", .appendSplit, .list []) ]

/-- `FreeMail.options` (oa/plugins/free_mail.py 44-55). -/
def freeMailOptions : Cls F :=
  [ (c!"freemail_max_body_emails", .int, .int 5),
    (c!"freemail_max_body_freemails", .int, .int 3),
    (c!"freemail_skip_when_over_max", .bool, .bool true),
    (c!"freemail_skip_bulk_envfrom", .bool, .bool true),
    (c!"freemail_add_describe_email", .bool, .bool true),
    (c!"freemail_domains", .appendSplit, .list []),
    (c!"freemail_whitelist", .appendSplit, .list []),
    (c!"util_rb_tld", .appendSplit, .list []),
    (c!"util_rb_2tld", .appendSplit, .list []),
    (c!"util_rb_3tld", .appendSplit, .list []) ]

/-- `WLBLEvalPlugin.options` (oa/plugins/wlbl_eval.py 28-48). -/
def wlblOptions : Cls F :=
  [ (c!"blacklist_from", .appendSplit, .list []),
    (c!"whitelist_from", .appendSplit, .list []),
    (c!"whitelist_to", .appendSplit, .list []),
    (c!"blacklist_to", .appendSplit, .list []),
    (c!"all_spam_to", .appendSplit, .list []),
    (c!"more_spam_to", .appendSplit, .list []),
    (c!"def_whitelist_from_rcvd", .list, .list []),
    (c!"whitelist_from_rcvd", .list, .list []),
    (c!"whitelist_allow_relays", .appendSplit, .list []),
    (c!"enlist_uri_host", .list, .list []),
    (c!"delist_uri_host", .list, .list []),
    (c!"blacklist_uri_host", .list, .list []),
    (c!"whitelist_uri_host", .list, .list []),
    (c!"util_rb_tld", .appendSplit, .list []),
    (c!"util_rb_2tld", .appendSplit, .list []),
    (c!"util_rb_3tld", .appendSplit, .list []) ]

end Verif.PluginConf
