import Verif.Model.Py

/-!
# Configuration options: `oa/conf.py`

`F` is the type of Python floats; what the code needs of it is collected in `FloatEnv`.
List-valued options are Python lists, i.e. objects with an identity: the default list is
the object in the class attribute `options`, stored in the context without copying
(oa/conf.py 40-41), so appending to it changes the class attribute.  This is modelled by
the value `alias`.
-/

namespace Verif.Conf
open Verif Py

/-- What is used of Python floats: `float(s)`, `value < 0`, and
`timedelta(minutes=value).total_seconds()` etc. -/
structure FloatEnv (F : Type) where
  /-- `float(s)`, `none` is `ValueError` -/
  parse : Str → Option F
  neg : F → Bool
  /-- `timedelta(...=value).total_seconds()` where the keyword names a unit of that many
  seconds (`minutes` is 60 seconds, and so on); `none`: `OverflowError`, or `ValueError` for what is no number -/
  scale : Nat → F → Option F

/-- The option types (oa/conf.py 19-26 and the `set_*_option` methods). -/
inductive OptType where
  | int | float | timevalue | bool | str | list | append | appendSplit | clear
deriving DecidableEq, Repr

/-- Values of options. -/
inductive OptVal (F : Type) where
  | int (n : Int)
  | float (x : F)
  | bool (b : Bool)
  | str (s : Str)
  /-- a list object that belongs to this holder only -/
  | list (l : List Str)
  /-- the list object of the class attribute (`self.options[key][1]`) -/
  | alias
deriving DecidableEq, Repr

/-- The class attribute `options`: type and default of every option. -/
abbrev Cls (F : Type) := Dict Str (OptType × OptVal F)

/-- The values stored in the context for this class (`ctxt.plugin_data[name]`). -/
abbrev Opts (F : Type) := Dict Str (OptVal F)

inductive ConfErr where
  /-- `oa.errors.PluginError` -/
  | plugin
  /-- `KeyError`, `AttributeError`, `OverflowError` or `ValueError` -/
  | other
deriving DecidableEq, Repr

/-- How `parse_config` ends. -/
inductive ConfRes where
  /-- returned: the key is not an option of this class -/
  | unclaimed
  /-- raised `InhibitCallbacks`: the option has been handled -/
  | inhibit
  | error (e : ConfErr)
deriving DecidableEq, Repr

/-- `Conf.__init__` (oa/conf.py 33-41): every option gets its default; a default list is
stored by reference. -/
def init {F : Type} (cls : Cls F) : Opts F :=
  cls.map fun p => (p.1, match p.2.2 with
    | .list _ => .alias
    | v => v)

/-- Class attribute and context. -/
structure St (F : Type) where
  cls : Cls F
  opts : Opts F

/-- `conf[key]` (oa/conf.py 46-47, 56-58), following the reference. -/
def St.read {F : Type} (s : St F) (key : Str) : Option (OptVal F) :=
  match Dict.get? s.opts key with
  | some .alias => (Dict.get? s.cls key).map Prod.snd
  | v => v

/-- `set_global` (oa/conf.py 52-54). -/
def St.set {F : Type} (s : St F) (key : Str) (v : OptVal F) : St F :=
  { s with opts := Dict.set s.opts key v }

/-- `self.get_global(key).extend(values)` (oa/conf.py 143-147, 149-157): the list object is
changed in place, wherever it lives. -/
def St.extend {F : Type} (s : St F) (key : Str) (values : List Str) : St F × Option ConfErr :=
  match Dict.get? s.opts key with
  | some (.list l) => ({ s with opts := Dict.set s.opts key (.list (l ++ values)) }, none)
  | some .alias =>
    match Dict.get? s.cls key with
    | some (t, .list l) => ({ s with cls := Dict.set s.cls key (t, .list (l ++ values)) }, none)
    | _ => (s, some .other)
  | _ => (s, some .other)

/-- `set_int_option` (oa/conf.py 76-83). -/
def setInt {F : Type} (s : St F) (key value : Str) : St F × Option ConfErr :=
  if value = [] then (s, none)
  else match int? value with
    | some n => (s.set key (.int n), none)
    | none => (s, some .plugin)

/-- `set_float_option` (oa/conf.py 85-92). -/
def setFloat {F : Type} (fe : FloatEnv F) (s : St F) (key value : Str) : St F × Option ConfErr :=
  if value = [] then (s, none)
  else match fe.parse value with
    | some x => (s.set key (.float x), none)
    | none => (s, some .plugin)

/-- A number of units set as an option (oa/conf.py 114-129). -/
def setScaled {F : Type} (fe : FloatEnv F) (s : St F) (key : Str) (n : Nat) (x : F) : St F × Option ConfErr :=
  match fe.scale n x with
  | some y => (s.set key (.float y), none)
  | none => (s, some .other)

/-- `set_timevalue_option` (oa/conf.py 94-129). -/
def setTimevalue {F : Type} (fe : FloatEnv F) (s : St F) (key value : Str) : St F × Option ConfErr :=
  if value = [] then (s, none)
  else match fe.parse value with
    | some x => if fe.neg x then (s, none) else (s.set key (.float x), none)
    | none =>
      let unit := value.drop (value.length - 1)
      let body := value.take (value.length - 1)
      if body = [] then (s, none)
      else match fe.parse body with
        | none => (s, some .plugin)
        | some x =>
          if fe.neg x then (s, none)
          else match unit with
            | [u] =>
              if u = 'm' then setScaled fe s key 60 x
              else if u = 'h' then setScaled fe s key (60 * 60) x
              else if u = 'd' then setScaled fe s key (24 * 60 * 60) x
              else if u = 'w' then setScaled fe s key (7 * 24 * 60 * 60) x
              else if u = 's' then setScaled fe s key 1 x
              else (s, none)
            | _ => (s, none)

/-- `set_bool_option` (oa/conf.py 131-133). -/
def setBool {F : Type} (s : St F) (key value : Str) : St F :=
  s.set key (.bool (lower value = c!"1" || lower value = c!"true"))

/-- `set_clear_option` (oa/conf.py 159-165). -/
def setClear {F : Type} (s : St F) (key : Str) : St F × Option ConfErr :=
  match Dict.get? s.cls key with
  | some (_, .list realKeys) => (realKeys.foldl (fun s k => s.set k (.list [])) s, none)
  | _ => (s, some .other)

/-- The dispatch on the option type (oa/conf.py 182-184). -/
def setOption {F : Type} (fe : FloatEnv F) (s : St F) (t : OptType) (key value : Str) :
    St F × Option ConfErr :=
  match t with
  | .int => setInt s key value
  | .float => setFloat fe s key value
  | .timevalue => setTimevalue fe s key value
  | .bool => (setBool s key value, none)
  | .str => (s.set key (.str value), none)
  | .list => (s.set key (.list (splitChar ',' value)), none)
  | .append => s.extend key [value]
  | .appendSplit => s.extend key (splitWs value)
  | .clear => setClear s key

/-- `Conf.parse_config` (oa/conf.py 173-185). -/
def parseConfig {F : Type} (fe : FloatEnv F) (s : St F) (key value : Str) : St F × ConfRes :=
  match Dict.get? s.cls key with
  | none => (s, .unclaimed)
  | some (t, _) =>
    match setOption fe s t key value with
    | (s', none) => (s', .inhibit)
    | (s', some e) => (s', .error e)

/-- A sequence of configuration lines given to one class. -/
def runLines {F : Type} (fe : FloatEnv F) (s : St F) (lines : List (Str × Str)) : St F :=
  lines.foldl (fun s l => (parseConfig fe s l.1 l.2).1) s

/-- `PADConf.options` (oa/conf.py 188-231). -/
def padOptions {F : Type} (five ten two : F) : Cls F :=
  [ (c!"report", .append, .list []),
    (c!"clear_report_template", .clear, .list [c!"report"]),
    (c!"unsafe_report", .append, .list []),
    (c!"clear_unsafe_report_template", .clear, .list [c!"unsafe_report"]),
    (c!"report_contact", .str, .str []),
    (c!"report_safe", .int, .int 1),
    (c!"add_header", .append, .list []),
    (c!"remove_header", .append, .list []),
    (c!"clear_headers", .clear, .list [c!"add_header", c!"remove_header"]),
    (c!"required_score", .float, .float five),
    (c!"use_bayes", .bool, .bool true),
    (c!"use_network", .bool, .bool true),
    (c!"envelope_sender_header", .append, .list []),
    (c!"dns_server", .append, .list []),
    (c!"clear_dns_servers", .clear, .list [c!"dns_server"]),
    (c!"default_dns_lifetime", .float, .float ten),
    (c!"default_dns_timeout", .float, .float two),
    (c!"allow_user_rules", .bool, .bool false),
    (c!"skip_rbl_checks", .bool, .int 0),
    (c!"trusted_networks", .appendSplit, .list []),
    (c!"clear_trusted_networks", .clear, .list [c!"trusted_networks"]),
    (c!"internal_networks", .appendSplit, .list []),
    (c!"clear_internal_networks", .clear, .list [c!"internal_networks"]),
    (c!"msa_networks", .appendSplit, .list []),
    (c!"clear_msa_networks", .clear, .list [c!"msa_networks"]),
    (c!"originating_ip_headers", .appendSplit, .list []),
    (c!"clear_originating_ip_headers", .clear, .list [c!"originating_ip_headers"]),
    (c!"clear_dns_query_restriction", .clear, .list [c!"dns_query_restriction"]),
    (c!"always_trust_envelope_sender", .int, .int 0),
    (c!"dns_available", .str, .str c!"yes"),
    (c!"dns_local_ports_permit", .appendSplit, .list []),
    (c!"dns_local_ports_avoid", .appendSplit, .list []),
    (c!"dns_test_interval", .str, .str c!"600"),
    (c!"dns_options", .str, .str c!"norotate, nodns0x20, edns=4096"),
    (c!"dns_query_restriction", .append, .list []),
    (c!"autolearn", .bool, .bool false),
    (c!"training", .bool, .bool false),
    (c!"user_config", .bool, .bool true),
    (c!"ok_locales", .str, .str []) ]

end Verif.Conf
