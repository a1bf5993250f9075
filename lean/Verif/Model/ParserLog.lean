import Verif.Model.Parser

/-!
# What the parser complains about: `ctxt.err` in `oa/rules/parser.py` 110-248

`Verif.Model.Parser` once more, with the complaints that are logged.  Simplifications: the level (oa/context.py 154-167) and the wording of the messages
are left out, and so are the warnings about plugins that cannot be loaded (oa/rules/parser.py 133-135), which name no line.
-/

namespace Verif.Parser
open Verif Py

inductive Kind where
  /-- "Missing argument" -/
  | missing
  /-- "Ignoring unknown configuration line" -/
  | unknown
  /-- "Invalid type for priority value" -/
  | priority
deriving DecidableEq, Repr

/-- What a complaint says: `filename`, `line_no`, `line`. -/
structure Complaint where
  kind : Kind
  file : Str
  number : Nat
  line : Str
deriving DecidableEq, Repr

/-- The complaints logged, the state, and the exception with the complaint that it stands for (`InvalidSyntax`, oa/errors.py 30-42). -/
abbrev Out (C : Type) := List Complaint × State C × Option (Err × List Complaint)

/-- `if not self.ctxt.hook_parse_config(rtype, value): self.ctxt.err(...)` (oa/rules/parser.py 212-216, 246-248). -/
def configL {C : Type} (E : Env C) (c : Kind → Complaint) (key value : Str) (s : State C) : Out C :=
  match E.parseConfig s.ctx key value with
  | (x, .done true) => ([], { s with ctx := x }, none)
  | (x, .done false) => ([c .unknown], { s with ctx := x }, none)
  | (x, .raised e) => ([], { s with ctx := x }, some (e, []))

/-- Storing what a two-argument line says, with the check of priorities (oa/rules/parser.py 224-243). -/
def storeL {C : Type} (E : Env C) (c : Kind → Complaint) (rtype name : Str) (value : PVal) (s : State C) : Out C :=
  let log : List Complaint :=
    if rtype ∈ ruleTypes ∨ E.isCmd s.ctx rtype = true then []
    else if rtype = c!"priority" then
      match value with
      | .str v => if (int? v).isNone then [c .priority] else []
      | .list _ => []
    else []
  let r := store E rtype name value s
  (log, r.1, r.2.map fun e => (e, []))

/-- `InvalidSyntax(filename, line_no, line, "Missing argument")`. -/
def missingL {C : Type} (c : Kind → Complaint) (s : State C) : Out C := ([], s, some (.syntax, [c .missing]))

/-- Lines with two arguments (oa/rules/parser.py 188-243). -/
def twoL {C : Type} (E : Env C) (c : Kind → Complaint) (line : Str) (s : State C) : Out C :=
  match splitNone 2 line with
  | [rtype, name, value] =>
    if rtype = c!"lang" then
      match E.lang with
      | none => ([], s, some (.other, []))
      | some l =>
        if !startsWith name l then ([], s, none)
        else if hasSub c!"report" value then
          match splitNone 1 value with
          | [k, v] => configL E c k v s
          | _ => missingL c s
        else match splitNone 2 value with
          | [t, n, v] => storeL E c t n (.str v) s
          | _ => missingL c s
    else if rtype = c!"tflags" then storeL E c rtype name (.list (splitWs value)) s
    else storeL E c rtype name (.str value) s
  | _ => missingL c s

/-- `_handle_line` (oa/rules/parser.py 137-248). -/
def handleLineL {C : Type} (E : Env C) (inc : Str → State C → Out C) (file raw : Str) (no : Nat) (s : State C) : Out C :=
  let line := strip raw
  if startsWith c!"endif" line then ([], { s with ignore := false }, none)
  else if startsWith c!"else" line then ([], { s with ignore := !s.ignore }, none)
  else if startsWith c!"require_version" line then ([], s, none)
  else if line = [] ∨ startsWith c!"#" line = true ∨ s.ignore = true then ([], s, none)
  else
    let line := strip (cutComment none line)
    let c : Kind → Complaint := fun k => ⟨k, file, no, line⟩
    let (rtype, value) := splitHead line
    if rtype = c!"include" then inc (includePath file value) s
    else if rtype = c!"ifplugin" then ([], handleIfplugin E value s, none)
    else if rtype = c!"loadplugin" then
      let r := handleLoadplugin E value s
      ([], r.1, r.2.map fun e => (e, []))
    else if rtype ∈ known2 ∨ E.isCmd s.ctx rtype = true then twoL E c line s
    else configL E c rtype value s

/-- The complaints so far, and then those of the rest. -/
def after {C : Type} (log : List Complaint) (o : Out C) : Out C := (log ++ o.1, o.2)

/-- The loop of `parse_file` with `_paranoid` (oa/rules/parser.py 110-118, 129-135), from line number `no` on. -/
def parseLinesL {C : Type} (E : Env C) (inc : Str → State C → Out C) (file : Str) : List Str → Nat → State C → Out C
  | [], _, s => ([], s, none)
  | l :: ls, no, s =>
    match handleLineL E inc file l no s with
    | (log, s', none) => after log (parseLinesL E inc file ls (no + 1) s')
    | (log, s', some (.syntax, c)) =>
      if E.paranoid then (log ++ c, s', some (.syntax, c)) else after (log ++ c) (parseLinesL E inc file ls (no + 1) s')
    | (log, s', some (.pluginLoad, _)) => after log (parseLinesL E inc file ls (no + 1) s')
    | (log, s', some e) => (log, s', some e)

/-- `parse_file` (oa/rules/parser.py 120-135). -/
def parseFileL {C : Type} (E : Env C) : Nat → Str → State C → Out C
  | 0, _, s => ([], s, some (.maxRec, []))
  | n + 1, f, s =>
    match E.files f with
    | none => ([], s, none)
    | some ls => parseLinesL E (parseFileL E n) f ls 1 s

/-- `parse_file(filename)` with the default depth; `MAX_RECURSION = 10` (line 38). -/
def parseL {C : Type} (E : Env C) (f : Str) (s : State C) : Out C := parseFileL E 11 f s

end Verif.Parser
