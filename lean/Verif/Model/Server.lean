import Verif.Model.ParserEnv

/-!
# Rulesets of the server: `Server` in `oa/server.py`; configuration files: `oa/config.py`
-/

namespace Verif.Server
open Verif Py

/-! ### Paths and files -/

/-- One step of `os.path.join` on POSIX. -/
def joinStep (path b : Str) : Str :=
  if startsWith c!"/" b then b
  else if path = [] || endsWith c!"/" path then path ++ b
  else path ++ c!"/" ++ b

/-- `os.path.join(a, *p)`. -/
def pathJoin (a : Str) (p : List Str) : Str := p.foldl joinStep a

/-- `get_userprefs_path` (oa/config.py 123-125). -/
def userPrefsPath (user : Str) : Str := pathJoin c!"/home" [user, c!".spamassassin", c!"user_prefs"]

/-- What the functions on configuration files take from the operating system. -/
structure Os where
  /-- `os.path.expanduser` -/
  expanduser : Str → Str
  /-- `os.listdir` -/
  listdir : Str → List Str
  /-- `os.path.exists` -/
  pathExists : Str → Bool

/-- `get_files_with_extension` (oa/config.py 97-101). -/
def filesWith (os : Os) (path ext : Str) : List Str :=
  let path := os.expanduser path
  ((os.listdir path).filter (fun p => endsWith ext p)).map (fun p => pathJoin path [p])

/-- Python's order of strings: by code points. -/
def strLt : Str → Str → Bool
  | _, [] => false
  | [], _ :: _ => true
  | a :: as, b :: bs => a.toNat < b.toNat || (a.toNat = b.toNat && strLt as bs)

/-- `sorted` on strings. -/
def sortedStr (l : List Str) : List Str := sortedBy strLt l

/-- `get_config_files` (oa/config.py 104-120). -/
def configFiles (os : Os) (config site : Str) (prefs : Option Str) : List Str :=
  let files := sortedStr (filesWith os site c!".pre")
  let files := if site ≠ config then
      files ++ sortedStr (filesWith os config c!".pre") ++ sortedStr (filesWith os config c!".cf")
    else files
  let files := files ++ sortedStr (filesWith os site c!".cf")
  match prefs with
  | none => files
  | some p => if os.pathExists (os.expanduser p) then files ++ [os.expanduser p] else files

/-! ### Rulesets -/

/-- What the server takes from the rest of the program: parsing the configuration files, and
parsing a user's preferences on top of a copy of the results.  `G` is the state shared by
everything in the process, such as the class attributes holding default options. -/
structure World (Rs Res Files Pref G : Type) where
  /-- `parse_pad_rules(...)`, `parser.get_ruleset()` and `parser.results`; `none`: an exception -/
  compileSite : G → Files → Option (Rs × Res) × G
  /-- lines 101-109 of oa/server.py; `none`: an exception -/
  compileUser : G → Res → Str → Pref → Option Rs × G
  /-- `ruleset.conf["allow_user_rules"]` -/
  allowed : Rs → Bool

/-- The server, the files it reads, and the shared state.  `reads` lists the users whose preferences
have been read, for the statements only. -/
structure St (Rs Res Files Pref G : Type) where
  /-- `_ruleset` -/
  site : Rs
  /-- `_parser_results` -/
  results : Res
  /-- `_user_rulesets` -/
  cache : Dict Str Rs
  g : G
  files : Files
  prefs : Str → Option Pref
  reads : List Str

variable {Rs Res Files Pref G : Type}

/-- `load_config` (oa/server.py 71-81). -/
def loadConfig (w : World Rs Res Files Pref G) (s : St Rs Res Files Pref G) : St Rs Res Files Pref G :=
  match w.compileSite s.g s.files with
  | (some (rs, res), g) => { s with cache := [], site := rs, results := res, g := g }
  | (none, g) => { s with cache := [], g := g }

/-- `get_user_ruleset` (oa/server.py 83-113); `none`: an exception leaves it. -/
def userRuleset (w : World Rs Res Files Pref G) (user : Option Str) (s : St Rs Res Files Pref G) :
    Option Rs × St Rs Res Files Pref G :=
  match user with
  | none => (some s.site, s)
  | some u =>
    if w.allowed s.site then
      match Dict.get? s.cache u with
      | some rs => (some rs, s)
      | none => match s.prefs u with
        | none => (some s.site, s)
        | some p => match w.compileUser s.g s.results u p with
          | (some rs, g) => (some rs, { s with cache := Dict.set s.cache u rs, g := g, reads := s.reads ++ [u] })
          | (none, g) => (none, { s with g := g, reads := s.reads ++ [u] })
    else (some s.site, s)

/-- What can happen: a request, a reload, or a change of the files on disk. -/
inductive Op (Files Pref : Type) where
  | request (user : Option Str)
  | reload
  | editSite (f : Files)
  | editPrefs (user : Str) (p : Option Pref)

/-- One event; requests give the ruleset used. -/
def step (w : World Rs Res Files Pref G) (s : St Rs Res Files Pref G) :
    Op Files Pref → Option (Option Str × Option Rs) × St Rs Res Files Pref G
  | .request u => (some (u, (userRuleset w u s).1), (userRuleset w u s).2)
  | .reload => (none, loadConfig w s)
  | .editSite f => (none, { s with files := f })
  | .editPrefs u p => (none, { s with prefs := fun v => if v = u then p else s.prefs v })

/-- A history: the requests with the rulesets used, and the final state. -/
def run (w : World Rs Res Files Pref G) : St Rs Res Files Pref G → List (Op Files Pref) →
    List (Option Str × Option Rs) × St Rs Res Files Pref G
  | s, [] => ([], s)
  | s, op :: ops =>
    let r := step w s op
    let rest := run w r.2 ops
    (r.1.toList ++ rest.1, rest.2)

/-! ### The world made of the models of the parser and the options -/

open Verif.Parser in
/-- The rule types that cannot be built: `self.ctxt.cmds[rule_type]` raises `KeyError`
(oa/rules/parser.py 300-305). -/
def badType {F : Type} (st : State (GCtx F)) (data : Dict Str PVal) : Bool :=
  match Dict.get? data c!"type" with
  | some (.str t) => !(decide (t ∈ ruleTypes)) && !(Dict.has st.ctx.reg.cmds t)
  | some (.list _) => true
  | none => false

open Verif.Parser in
/-- The part of `get_ruleset` (oa/rules/parser.py 286-311) that can abort it when not paranoid; the
ruleset is a function of the parser's state, so that state stands for it.  `none`: an exception. -/
def finish {F : Type} (r : State (GCtx F) × Option Err) : Option (State (GCtx F)) :=
  match r.2 with
  | some _ => none
  | none => if r.1.results.any (fun x => badType r.1 x.2) then none else some r.1

open Verif.Parser in
/-- The loop of `parse_pad_rules` (oa/rules/parser.py 315-332). -/
def parseFiles {C : Type} (E : Env C) : List Str → State C → State C × Option Err
  | [], s => (s, none)
  | f :: fs, s => match parse E f s with
    | (s', none) => parseFiles E fs s'
    | (s', some e) => (s', some e)

/-- A file system: the content of every file. -/
abbrev Disk := Str → Option (List Str)

open Verif.Parser in
/-- The server's world.  The shared state is the class attribute `PADConf.options`; a new parser
starts with new options and no plugins, a user's parser also with the results of the site's.
The site configuration is given by the names in order and the content, a user's preferences by
the file system at the moment they are read.  The rules are built when not paranoid. -/
def realWorld {F : Type} (fe : Conf.FloatEnv F) (imp : Str → Option Str → Context.Import Unit)
    (lang : Option Str) :
    World (State (GCtx F)) (Dict Str (Dict Str PVal)) (List Str × Disk) Disk (Conf.Cls F) where
  compileSite := fun g f =>
    let r := parseFiles (realEnv fe imp f.2 false lang) f.1 (newState g)
    ((finish r).map (fun s => (s, s.results)), r.1.ctx.conf.cls)
  compileUser := fun g res u disk =>
    let r := parse (realEnv fe imp disk false lang) (userPrefsPath u) { newState g with results := res }
    (finish r, r.1.ctx.conf.cls)
  allowed := fun rs => match rs.ctx.conf.read c!"allow_user_rules" with
    | some (.bool b) => b
    | _ => false

end Verif.Server
