import Verif.Model.Parser

/-!
# The list of includes that a recursion error carries

`oa/errors.py` 45-64 and `oa/rules/parser.py` 120-135, 137-199, 250-260, 1-to-1 with `Verif.Model.Parser`, but with exceptions that
carry the list `_recursion_list`.  Exceptions of other classes carry the empty list.
-/

namespace Verif.Parser
open Verif Py

/-- An element of `recursion_list` (oa/errors.py 54-56): file name, line number, line. -/
structure Call where
  file : Str
  number : Nat
  line : Str
deriving DecidableEq, Repr

/-- An exception with its recursion list; `__init__` makes it empty (oa/errors.py 50-52). -/
abbrev Raised := Err × List Call

/-- The result of code that does not add to the list. -/
def unlisted {C : Type} (r : State C × Option Err) : State C × Option Raised := (r.1, r.2.map fun e => (e, []))

/-- `_handle_include` (oa/rules/parser.py 250-260): `filename` is by then the name of the included file. -/
def handleIncludeT {C : Type} (inc : Str → State C → State C × Option Raised) (file value line : Str) (no : Nat) (s : State C) :
    State C × Option Raised :=
  let filename := includePath file value
  match inc filename s with
  | (s', some (.maxRec, calls)) => (s', some (.maxRec, calls ++ [⟨filename, no, line⟩]))
  | r => r

/-- `_handle_line` (oa/rules/parser.py 137-199). -/
def handleLineT {C : Type} (E : Env C) (inc : Str → State C → State C × Option Raised) (file raw : Str) (no : Nat) (s : State C) :
    State C × Option Raised :=
  let line := strip raw
  if startsWith c!"endif" line then ({ s with ignore := false }, none)
  else if startsWith c!"else" line then ({ s with ignore := !s.ignore }, none)
  else if startsWith c!"require_version" line then (s, none)
  else if line = [] ∨ startsWith c!"#" line = true ∨ s.ignore = true then (s, none)
  else
    let line := strip (cutComment none line)
    let (rtype, value) := splitHead line
    if rtype = c!"include" then handleIncludeT inc file value line no s
    else if rtype = c!"ifplugin" then (handleIfplugin E value s, none)
    else if rtype = c!"loadplugin" then unlisted (handleLoadplugin E value s)
    else if rtype ∈ known2 ∨ E.isCmd s.ctx rtype = true then unlisted (handleTwo E line s)
    else unlisted (handleConfig E rtype value s)

/-- The loop of `parse_file` (oa/rules/parser.py 129-135), from line number `no` on. -/
def parseLinesT {C : Type} (E : Env C) (inc : Str → State C → State C × Option Raised) (file : Str) :
    List Str → Nat → State C → State C × Option Raised
  | [], _, s => (s, none)
  | l :: ls, no, s =>
    match handleLineT E inc file l no s with
    | (s', none) => parseLinesT E inc file ls (no + 1) s'
    | (s', some (.syntax, cs)) => if E.paranoid then (s', some (.syntax, cs)) else parseLinesT E inc file ls (no + 1) s'
    | (s', some (.pluginLoad, _)) => parseLinesT E inc file ls (no + 1) s'
    | (s', some r) => (s', some r)

/-- `parse_file` (oa/rules/parser.py 120-135).  The first argument is `MAX_RECURSION + 1 - _depth`; lines are counted from 1
(line 132). -/
def parseFileT {C : Type} (E : Env C) : Nat → Str → State C → State C × Option Raised
  | 0, _, s => (s, some (.maxRec, []))
  | n + 1, f, s =>
    match E.files f with
    | none => (s, none)
    | some ls => parseLinesT E (parseFileT E n) f ls 1 s

/-- `parse_file(filename)` with the default depth; `MAX_RECURSION = 10` (line 38). -/
def parseT {C : Type} (E : Env C) (f : Str) (s : State C) : State C × Option Raised := parseFileT E 11 f s

end Verif.Parser
