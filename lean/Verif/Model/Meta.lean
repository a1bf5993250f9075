import Verif.Model.Py

/-!
# Resolving meta rules: `oa/rules/meta.py`, `oa/rules/ruleset.py` 329-339

Only what resolution depends on is kept of each rule.  `subs` is the set of rule
names in the expression, in whatever order Python iterates over that set (the
theorems hold for every order).  `compiles` says whether Python's `compile`
accepts the translated expression (otherwise it raises `SyntaxError`).
-/

namespace Verif
open Py

/-- A rule definition as seen by `postparsing`. -/
inductive Def where
  /-- any rule class with the empty `BaseRule.postparsing` (oa/rules/base.py 86-88) -/
  | plain
  /-- a `MetaRule` (oa/rules/meta.py 24-34) -/
  | metaR (subs : List Str) (compiles : Bool)
deriving DecidableEq, Repr

/-- How `postparsing` ends. -/
inductive PPRes where
  | ok
  /-- `oa.errors.InvalidRule` -/
  | invalid
  /-- `SyntaxError` from `compile` (oa/rules/meta.py 55), not an `InvalidRule` -/
  | syntaxErr
deriving DecidableEq, Repr

/-- `ruleset.checked` and `ruleset.not_checked`. -/
structure DefSet where
  checked : Dict Str Def
  notChecked : Dict Str Def

/-- `RuleSet.get_rule` (oa/rules/ruleset.py 276-287) on definitions. -/
def DefSet.get (rs : DefSet) (n : Str) : Option Def :=
  match Dict.get? rs.checked n with
  | some d => some d
  | none => Dict.get? rs.notChecked n

/-- `MAX_RECURSION` (oa/rules/meta.py 19). -/
def metaMaxRecursion : Nat := 10

/-- The loop over the sub-rules (oa/rules/meta.py 58-69); `rec` is the recursive
call `subrule.postparsing(ruleset, _depth + 1)`.  `done` are the meta rules that
have been processed (`"match" in self._location`). -/
def resolveSubs (rs : DefSet) (rec : Str → Def → List Str → PPRes × List Str) :
    List Str → List Str → PPRes × List Str
  | [], done => (.ok, done)
  | m :: ms, done =>
    match rs.get m with
    | none => (.invalid, done)
    | some d =>
      match rec m d done with
      | (.ok, done') => resolveSubs rs rec ms done'
      | (e, done') => (e, done')

/-- `MetaRule.postparsing` (oa/rules/meta.py 36-71).  The first argument is
`MAX_RECURSION + 1 - _depth`, so `_depth > MAX_RECURSION` is the case 0; note that
the depth test comes before the "already processed" test.  Simplification: a rule
is identified by its name (parsing produces each name once). -/
def resolve (rs : DefSet) : Nat → Str → Def → List Str → PPRes × List Str
  | _, _, .plain, done => (.ok, done)
  | 0, _, .metaR _ _, done => (.invalid, done)
  | k + 1, n, .metaR subs compiles, done =>
    if n ∈ done then (.ok, done)
    else if !compiles then (.syntaxErr, done)
    else match resolveSubs rs (resolve rs k) subs done with
      | (.ok, done') => (.ok, n :: done')
      | (e, done') => (e, done')

/-- `del rule_list[name]` where `rule_list` is `checked` or `not_checked`. -/
def DefSet.del (rs : DefSet) (inChecked : Bool) (n : Str) : DefSet :=
  if inChecked then { rs with checked := Dict.del rs.checked n }
  else { rs with notChecked := Dict.del rs.notChecked n }

/-- The inner loop of `call_postparsing` (oa/rules/ruleset.py 332-339) over the
snapshot `list(rule_list.items())`.  The result is how it ended (an exception
propagates), the ruleset and the processed rules. -/
def postItems (paranoid inChecked : Bool) :
    List (Str × Def) → DefSet → List Str → PPRes × DefSet × List Str
  | [], rs, done => (.ok, rs, done)
  | (n, d) :: items, rs, done =>
    match resolve rs (metaMaxRecursion + 1) n d done with
    | (.ok, done') => postItems paranoid inChecked items rs done'
    | (.invalid, done') =>
      if paranoid then (.invalid, rs, done')
      else postItems paranoid inChecked items (rs.del inChecked n) done'
    | (.syntaxErr, done') => (.syntaxErr, rs, done')

/-- `RuleSet.call_postparsing` (oa/rules/ruleset.py 329-339). -/
def callPostparsing (paranoid : Bool) (rs : DefSet) : PPRes × DefSet :=
  match postItems paranoid true rs.checked rs [] with
  | (.ok, rs1, done1) =>
    match postItems paranoid false rs1.notChecked rs1 done1 with
    | (r, rs2, _) => (r, rs2)
  | (e, rs1, _) => (e, rs1)

end Verif
