import Verif.Model.Build
import Verif.Model.Meta
import Verif.Model.RuleSet

/-!
# From rule files to the score of a message

The models of the parser (`Model/Parser.lean`), of the building of rules (`Model/Build.lean`), of the resolution of meta
rules (`Model/Meta.lean`), of their expressions (`Model/MetaExpr.lean`), of the header rules (`Model/HeaderRule.lean`) and
of the loop over the rules (`Model/RuleSet.lean`) put together, as `parse_pad_rules`, `get_ruleset` and `RuleSet.match` do
(oa/rules/parser.py 286-332, oa/rules/ruleset.py 289-293, 329-366).

Simplifications: the hooks of plugins do nothing (`hook_parsing_start`, `hook_parsing_end`, `hook_check_end` and
`hook_auto_learn`; `matchMsg` in `Model/RuleSet.lean` has the last two); rules of plugins and eval functions are parameters
that may change what the other rules see in any way; the part of `post_parsing` about reports, headers and DNS is in
`Model/Report.lean` and `Model/Dns.lean`.
-/

namespace Verif.Scan
open Verif Py Build

/-- What the rules look at in a message (oa/message.py 131-164): `text`, `raw_text`, `raw_msg`, `uri_list` and the header
dictionaries. -/
structure Seen where
  text : Str
  rawText : Str
  raw : Str
  uris : List Str
  mail : Mail.Msg

/-- Everything outside of the modelled code.  `C` is the type of the global context. -/
structure ScanEnv (S R V C : Type) where
  parser : Parser.Env C
  float : Str → Option S
  re : ReLib R
  evalArg : Str → Except RuleErr V
  hasEval : C → Str → Bool
  cmd : C → Str → Option (Str → Data → Except RuleErr (Option (RuleDef S R V)))
  /-- the switches `preprocess` reads, from the options as parsed -/
  conf : C → ScoreConf
  mail : Mail.MailLib
  /-- calling the eval function with this name, these arguments and this target; `none` is an exception -/
  evalFn : C → Str → List V → Option Str → Seen → Option Int × Seen
  /-- `match` of a rule of a plugin -/
  plugin : C → Str → Seen → Option Int × Seen

variable {S R V C : Type} [PyNum S]

/-- What `get_ruleset` builds the rules with, once the files have been parsed. -/
def ScanEnv.build (E : ScanEnv S R V C) (c : C) : BuildEnv S R V where
  float := E.float
  re := E.re
  evalArg := E.evalArg
  hasEval := E.hasEval c
  cmd := E.cmd c
  conf := E.conf c
  paranoid := E.parser.paranoid

/-- The expression compiled for a meta rule (oa/rules/meta.py 48-55); `none` is `SyntaxError`. -/
def compileMeta (rule : Str) : Option MetaExpr.Expr :=
  match MetaExpr.pyLex [] (MetaExpr.translate rule) with
  | some ts => MetaExpr.parseAll false ts
  | none => none

/-- Running the compiled expression (oa/rules/meta.py 52-55, 70-74): sub-rules are called from left to right, `and` and
`or` call their second operand only if needed, and an exception ends it all (`none`).  `msg` and `match` are not rules
there, see `MetaExpr.ownNames`. -/
def evalMeta {X : Type} (call : Str → X → Option Int × X) : MetaExpr.Expr → X → Option Int × X
  | .num n, x => (some n, x)
  | .rule s, x => if s ∈ MetaExpr.ownNames then (none, x) else call s x
  | .not e, x =>
    match evalMeta call e x with
    | (some v, x1) => (some (MetaExpr.ofBool (!MetaExpr.truthy v)), x1)
    | (none, x1) => (none, x1)
  | .bin .or a b, x =>
    match evalMeta call a x with
    | (some v, x1) => if MetaExpr.truthy v then (some v, x1) else evalMeta call b x1
    | (none, x1) => (none, x1)
  | .bin .and a b, x =>
    match evalMeta call a x with
    | (some v, x1) => if MetaExpr.truthy v then evalMeta call b x1 else (some v, x1)
    | (none, x1) => (none, x1)
  | .bin (.cmp c) a b, x =>
    match evalMeta call a x with
    | (some u, x1) =>
      match evalMeta call b x1 with
      | (some v, x2) => (some (MetaExpr.ofBool (c.eval u v)), x2)
      | (none, x2) => (none, x2)
    | (none, x1) => (none, x1)
  | .bin .add a b, x =>
    match evalMeta call a x with
    | (some u, x1) =>
      match evalMeta call b x1 with
      | (some v, x2) => (some (u + v), x2)
      | (none, x2) => (none, x2)
    | (none, x1) => (none, x1)
  | .bin .sub a b, x =>
    match evalMeta call a x with
    | (some u, x1) =>
      match evalMeta call b x1 with
      | (some v, x2) => (some (u - v), x2)
      | (none, x2) => (none, x2)
    | (none, x1) => (none, x1)
  | .bin .mul a b, x =>
    match evalMeta call a x with
    | (some u, x1) =>
      match evalMeta call b x1 with
      | (some v, x2) => (some (u * v), x2)
      | (none, x2) => (none, x2)
    | (none, x1) => (none, x1)

/-- `bool(self._pattern.match(text))` as an integer. -/
def flag (b : Bool) : Int := if b then 1 else 0

/-- `rule.match(msg)` (oa/rules/body.py 25-26, 44-45, oa/rules/full.py 17-18, oa/rules/uri.py 22-26, oa/rules/header.py,
oa/rules/meta.py 73-74, oa/rules/eval_.py 70-77); `none` is an exception.  An exception in an eval function counts as
`False` (`evalRuleRun` in `Model/RuleSet.lean`).  A meta rule calls the `match` of the rules that `postparsing` found in
the ruleset.  The number bounds the nesting of meta rules, see `depth`. -/
def runKind (E : ScanEnv S R V C) (c : C) (rs : Rules S R V) : Nat → Kind R V → Seen → Option Int × Seen
  | _, .full p, x => (some (flag (p.test E.re x.raw)), x)
  | _, .body p, x => (some (flag (p.test E.re x.text)), x)
  | _, .rawbody p, x => (some (flag (p.test E.re x.rawText)), x)
  | _, .uri p, x => (some (flag (x.uris.any (p.test E.re))), x)
  | _, .header h, x =>
    match h.run E.mail E.re x.mail with
    | (some b, m) => (some (flag b), { x with mail := m })
    | (none, m) => (none, { x with mail := m })
  | _, .eval fn args t, x =>
    match E.evalFn c fn args t x with
    | (some v, x1) => (some v, x1)
    | (none, x1) => (some 0, x1)
  | _, .plugin k, x => E.plugin c k x
  | 0, .metaR _, x => (none, x)
  | n + 1, .metaR text, x =>
    match compileMeta text with
    | none => (none, x)
    | some e =>
      evalMeta (fun m x =>
        match rs.find m with
        | some r => runKind E c rs n r.kind x
        | none => (none, x)) e x

/-- Enough for every nesting: a resolved meta rule is not nested deeper than there are rules. -/
def depth (rs : Rules S R V) : Nat := metaMaxRecursion + 1 + rs.checked.length + rs.notChecked.length

/-- `_rule_type` of the classes (oa/rules/base.py 25, oa/rules/body.py 16 and 41, oa/rules/uri.py 13, oa/rules/header.py 10,
oa/plugins/uri_detail.py 24: the only class that a plugin registers). -/
def rtypeOf : Kind R V → Str
  | .body _ => c!"BODY: "
  | .rawbody _ => c!"RAW: "
  | .uri _ => c!"URI: "
  | .header (.mime _ _ _) => c!"BODY: "
  | .plugin _ => c!"uri_detail"
  | _ => []

/-- A rule as the loop over the rules sees it. -/
def toRule (E : ScanEnv S R V C) (c : C) (rs : Rules S R V) (r : RuleDef S R V) : Rule S Seen where
  base := r.base
  rtype := rtypeOf r.kind
  run := fun s =>
    match runKind E c rs (depth rs) r.kind s.rest with
    | (some v, x) => (.ret (.val v), { s with rest := x })
    | (none, x) => (.raised, { s with rest := x })

/-- What `postparsing` depends on (oa/rules/meta.py 36-71, oa/rules/base.py 86-88). -/
def defOf (k : Kind R V) : Def :=
  match k with
  | .metaR text => .metaR (MetaExpr.findNames [] text) (compileMeta text).isSome
  | _ => .plain

/-- The two dictionaries as `call_postparsing` sees them. -/
def defs (rs : Rules S R V) : DefSet where
  checked := rs.checked.map (fun p => (p.1, defOf p.2.kind))
  notChecked := rs.notChecked.map (fun p => (p.1, defOf p.2.kind))

/-- `sorted(self.checked.items(), key=itemgetter(1))` (oa/rules/ruleset.py 291-292, oa/rules/base.py 148-149). -/
def sortDefs (rs : Rules S R V) : Rules S R V :=
  { rs with checked := sortedBy (fun a b => decide (b.2.base.priority < a.2.base.priority)) rs.checked }

/-- `for filename in files: parser.parse_file(filename)` (oa/rules/parser.py 329-330). -/
def parseFiles (E : Parser.Env C) : List Str → Parser.State C → Parser.State C × Option Parser.Err
  | [], s => (s, none)
  | f :: fs, s =>
    match Parser.parse E f s with
    | (s', none) => parseFiles E fs s'
    | (s', some e) => (s', some e)

/-- A finished ruleset: the context, the rules built and the rules that are checked. -/
structure Loaded (S R V C : Type) where
  ctx : C
  rules : Rules S R V
  checked : Dict Str (RuleDef S R V)

/-- `parse_pad_rules(files)`, then `get_ruleset()` (oa/rules/parser.py 286-332) with `post_parsing` (oa/rules/ruleset.py
289-293); `none` is an exception. -/
def load (E : ScanEnv S R V C) (c0 : C) (files : List Str) : Option (Loaded S R V C) :=
  match parseFiles E.parser files { results := [], ignore := false, ctx := c0 } with
  | (_, some _) => none
  | (s, none) =>
    match build (E.build s.ctx) s.results { checked := [], notChecked := [] } with
    | (_, some _) => none
    | (rs, none) =>
      let rs := sortDefs rs
      match callPostparsing E.parser.paranoid (defs rs) with
      | (.ok, ds) => some ⟨s.ctx, rs, rs.checked.filter (fun p => Dict.has ds.checked p.1)⟩
      | _ => none

/-- `ruleset.match(msg)` for a new message (oa/rules/ruleset.py 341-364, oa/message.py 131-141). -/
def check (E : ScanEnv S R V C) (l : Loaded S R V C) (x : Seen) : MsgSt S Seen :=
  runRules (l.checked.map (fun p => (p.1, toRule E l.ctx l.rules p.2)))
    { score := 0, checked := [], descs := [], rest := x }

/-- Loading the files and checking one message. -/
def scan (E : ScanEnv S R V C) (c0 : C) (files : List Str) (x : Seen) : Option (MsgSt S Seen) :=
  (load E c0 files).map (fun l => check E l x)

end Verif.Scan
