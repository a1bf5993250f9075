import Verif.Model.Py

/-!
# The configuration parser: `oa/rules/parser.py` 41-284

Files, plugins, options and the locale are an environment (`Env`); `C` is the type of the
global context.  Logging is not modelled.
-/

namespace Verif.Parser
open Verif Py

/-- The exceptions that matter here (oa/errors.py). -/
inductive Err where
  /-- `InvalidSyntax` -/
  | syntax
  /-- `PluginLoadError` -/
  | pluginLoad
  /-- `PluginError` that is not a `PluginLoadError` -/
  | plugin
  /-- `MaxRecursionDepthExceeded` -/
  | maxRec
  /-- any other exception -/
  | other
deriving DecidableEq, Repr

/-- The value stored for an attribute of a rule: text, or the list of `tflags`. -/
inductive PVal where
  | str (s : Str)
  | list (l : List Str)
deriving DecidableEq, Repr

/-- The outcome of `ctxt.hook_parse_config`. -/
inductive Cfg where
  | done (claimed : Bool)
  | raised (e : Err)
deriving DecidableEq, Repr

structure Env (C : Type) where
  /-- the lines of a file, `none` if `os.path.isfile` is false -/
  files : Str → Option (List Str)
  paranoid : Bool
  /-- `rtype in self.ctxt.cmds` -/
  isCmd : C → Str → Bool
  /-- `name in self.ctxt.plugins` -/
  hasPlugin : C → Str → Bool
  /-- `self.ctxt.load_plugin(name, path)` -/
  loadPlugin : C → Str → Option Str → C × Option Err
  /-- `self.ctxt.hook_parse_config(key, value)` -/
  parseConfig : C → Str → Str → C × Cfg
  /-- `oa.plugins.REIMPLEMENTED_PLUGINS` -/
  reimpl : Str → Option Str
  /-- `locale.getlocale(locale.LC_MESSAGES)[0]` -/
  lang : Option Str

/-- `self.results`, `self._ignore`, `self.ctxt`. -/
structure State (C : Type) where
  results : Dict Str (Dict Str PVal)
  ignore : Bool
  ctx : C

/-- `KNOWN_2_RTYPE` (oa/rules/parser.py 41-57). -/
def known2 : List Str :=
  [c!"score", c!"priority", c!"describe", c!"full", c!"body", c!"rawbody", c!"uri", c!"header",
   c!"mimeheader", c!"meta", c!"eval", c!"lang", c!"tflags"]

/-- The keys of `RULES` (oa/rules/parser.py 81-90). -/
def ruleTypes : List Str :=
  [c!"full", c!"body", c!"rawbody", c!"uri", c!"meta", c!"header", c!"mimeheader", c!"eval"]

/-- `_COMMENT_P.sub("", line)` (oa/rules/parser.py 92, 170): cut at the first `#` whose
predecessor exists and is not a backslash.  Simplification: a line contains no newline. -/
def cutComment : Option Char → Str → Str
  | _, [] => []
  | prev, c :: cs =>
    if c = '#' ∧ prev ≠ none ∧ prev ≠ some '\\' then [] else c :: cutComment (some c) cs

/-- `rtype, value = line.split(None, 1)`, or `line, ""` (oa/rules/parser.py 172-176). -/
def splitHead (line : Str) : Str × Str :=
  match splitNone 1 line with
  | [a, b] => (a, b)
  | _ => (line, [])

/-- `os.path.isabs`. -/
def isAbs (p : Str) : Bool := startsWith c!"/" p

/-- `os.path.dirname` (posixpath): up to and including the last `/`, trailing slashes removed
unless there is nothing else. -/
def dirname (p : Str) : Str :=
  let head := (p.reverse.dropWhile (· ≠ '/')).reverse
  let cut := rstripBy (· == '/') head
  if cut = [] then head else cut

/-- `os.path.join(a, b)` for two arguments (posixpath). -/
def joinPath (a b : Str) : Str :=
  if isAbs b then b
  else if a = [] ∨ endsWith c!"/" a then a ++ b
  else a ++ c!"/" ++ b

/-- The file an `include` names (oa/rules/parser.py 179-183, 253-255). -/
def includePath (file value : Str) : Str :=
  let f := strip value
  if !isAbs f && isAbs file then joinPath (dirname file) f else f

/-- `_handle_ifplugin` (oa/rules/parser.py 262-271). -/
def handleIfplugin {C : Type} (E : Env C) (value : Str) (s : State C) : State C :=
  let name := (E.reimpl value).getD value
  let name := match rsplit1 '.' name with
    | some (_, b) => b
    | none => name
  if E.hasPlugin s.ctx name then s else { s with ignore := true }

/-- `_handle_loadplugin` (oa/rules/parser.py 273-284). -/
def handleLoadplugin {C : Type} (E : Env C) (value : Str) (s : State C) : State C × Option Err :=
  let (name, path) : Str × Option Str := match splitNone 1 value with
    | [a, b] => (a, some b)
    | _ => (value, none)
  let name : Option Str := if hasSub c!"::" name then E.reimpl name else some name
  match name with
  | none => (s, none)
  | some n =>
    if n = [] then (s, none)
    else
      let (c, e) := E.loadPlugin s.ctx n path
      ({ s with ctx := c }, e)

/-- A call of `hook_parse_config` (oa/rules/parser.py 212-216, 246-248). -/
def handleConfig {C : Type} (E : Env C) (key value : Str) (s : State C) : State C × Option Err :=
  match E.parseConfig s.ctx key value with
  | (c, .done _) => ({ s with ctx := c }, none)
  | (c, .raised e) => ({ s with ctx := c }, some e)

/-- Storing what a two-argument line says (oa/rules/parser.py 224-243). -/
def store {C : Type} (E : Env C) (rtype name : Str) (value : PVal) (s : State C) : State C × Option Err :=
  let res := if Dict.has s.results name then s.results else Dict.set s.results name []
  let data := (Dict.get? res name).getD []
  if rtype ∈ ruleTypes ∨ E.isCmd s.ctx rtype = true then
    match value with
    | .list _ => ({ s with results := res }, some .other)
    | .str v =>
      let (data, rtype) := if startsWith c!"eval:" v then
        (Dict.set data c!"target" (.str rtype), c!"eval") else (data, rtype)
      let data := Dict.set data c!"type" (.str rtype)
      let data := Dict.set data c!"value" (.str v)
      ({ s with results := Dict.set res name data }, none)
  else ({ s with results := Dict.set res name (Dict.set data rtype value) }, none)

/-- Lines of known two-argument types (oa/rules/parser.py 188-243). -/
def handleTwo {C : Type} (E : Env C) (line : Str) (s : State C) : State C × Option Err :=
  match splitNone 2 line with
  | [rtype, name, value] =>
    if rtype = c!"lang" then
      match E.lang with
      | none => (s, some .other)
      | some l =>
        if !startsWith name l then (s, none)
        else if hasSub c!"report" value then
          match splitNone 1 value with
          | [k, v] => handleConfig E k v s
          | _ => (s, some .syntax)
        else match splitNone 2 value with
          | [t, n, v] => store E t n (.str v) s
          | _ => (s, some .syntax)
    else if rtype = c!"tflags" then store E rtype name (.list (splitWs value)) s
    else store E rtype name (.str value) s
  | _ => (s, some .syntax)

/-- `_handle_line` (oa/rules/parser.py 137-248).  `inc` is `parse_file` one level deeper. -/
def handleLine {C : Type} (E : Env C) (inc : Str → State C → State C × Option Err) (file : Str)
    (raw : Str) (s : State C) : State C × Option Err :=
  let line := strip raw
  if startsWith c!"endif" line then ({ s with ignore := false }, none)
  else if startsWith c!"else" line then ({ s with ignore := !s.ignore }, none)
  else if startsWith c!"require_version" line then (s, none)
  else if line = [] ∨ startsWith c!"#" line = true ∨ s.ignore = true then (s, none)
  else
    let line := strip (cutComment none line)
    let (rtype, value) := splitHead line
    if rtype = c!"include" then inc (includePath file value) s
    else if rtype = c!"ifplugin" then (handleIfplugin E value s, none)
    else if rtype = c!"loadplugin" then handleLoadplugin E value s
    else if rtype ∈ known2 ∨ E.isCmd s.ctx rtype = true then handleTwo E line s
    else handleConfig E rtype value s

/-- The loop of `parse_file` (oa/rules/parser.py 129-135). -/
def parseLines {C : Type} (E : Env C) (inc : Str → State C → State C × Option Err) (file : Str) :
    List Str → State C → State C × Option Err
  | [], s => (s, none)
  | l :: ls, s =>
    match handleLine E inc file l s with
    | (s', none) => parseLines E inc file ls s'
    | (s', some .syntax) => if E.paranoid then (s', some .syntax) else parseLines E inc file ls s'
    | (s', some .pluginLoad) => parseLines E inc file ls s'
    | (s', some e) => (s', some e)

/-- `parse_file` (oa/rules/parser.py 120-135).  The first argument is `MAX_RECURSION + 1 - _depth`. -/
def parseFile {C : Type} (E : Env C) : Nat → Str → State C → State C × Option Err
  | 0, _, s => (s, some .maxRec)
  | n + 1, f, s =>
    match E.files f with
    | none => (s, none)
    | some ls => parseLines E (parseFile E n) f ls s

/-- `parse_file(filename)` with the default depth; `MAX_RECURSION = 10` (line 38). -/
def parse {C : Type} (E : Env C) (f : Str) (s : State C) : State C × Option Err := parseFile E 11 f s

end Verif.Parser
