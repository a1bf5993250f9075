import Verif.Model.HeaderRule
import Verif.Model.Parser
import Verif.Model.MetaExpr

/-!
# From parse results to rules: `oa/rules/parser.py` 286-312, the `get_rule` methods

Python's `float`, `eval` and `re`, the eval functions registered by plugins and the rule classes
defined by plugins are parameters (`BuildEnv`).
-/

namespace Verif.Build
open Verif Py

/-- What the parser stored for one rule. -/
abbrev Data := Dict Str Parser.PVal

/-- The class of a rule with its own parameters. `V` is the type of evaluated arguments. -/
inductive Kind (R V : Type) where
  /-- `FullRule` (oa/rules/full.py) -/
  | full (p : Pat R)
  /-- `BodyRule` (oa/rules/body.py 7-32) -/
  | body (p : Pat R)
  /-- `RawBodyRule` (oa/rules/body.py 35-45) -/
  | rawbody (p : Pat R)
  /-- `URIRule` (oa/rules/uri.py) -/
  | uri (p : Pat R)
  /-- `MetaRule` (oa/rules/meta.py 24-34) -/
  | metaR (expr : Str)
  /-- the classes of oa/rules/header.py -/
  | header (h : HRule R)
  /-- `EvalRule` (oa/rules/eval_.py 27-51): function name, arguments, target -/
  | eval (fn : Str) (args : List V) (target : Option Str)
  /-- a rule class registered by a plugin -/
  | plugin (cls : Str)
deriving DecidableEq

structure RuleDef (S R V : Type) where
  base : BaseRule S
  kind : Kind R V
deriving DecidableEq

structure BuildEnv (S R V : Type) where
  /-- `float(word)`, `none` is `ValueError` -/
  float : Str → Option S
  re : ReLib R
  /-- `eval(arg)`: `invalidRule` for the exceptions `EvalRule.__init__` turns into
  `InvalidRule`, `other` for any other exception -/
  evalArg : Str → Except RuleErr V
  /-- `name in ruleset.ctxt.eval_rules` -/
  hasEval : Str → Bool
  /-- `ctxt.cmds[type].get_rule(name, data)`; `none` if the type is not in `ctxt.cmds` -/
  cmd : Str → Option (Str → Data → Except RuleErr (Option (RuleDef S R V)))
  /-- the switches `preprocess` reads -/
  conf : ScoreConf
  paranoid : Bool

variable {S R V : Type} [PyNum S]

/-- The keyword arguments common to all rules. -/
structure Kwargs (S : Type) where
  score : Option (List S)
  desc : Option Str
  priority : Option Str
  tflags : Option (List Str)
deriving DecidableEq

/-- `list(map(float, words))`. -/
def floats (float : Str → Option S) : List Str → Option (List S)
  | [] => some []
  | w :: ws =>
    match float w, floats float ws with
    | some f, some fs => some (f :: fs)
    | _, _ => none

/-- The value of a textual attribute: `ok none` if absent, `error` if it is not a text (calling
`strip` on a list raises `AttributeError`). -/
def textAttr (d : Data) (key : Str) : Except RuleErr (Option Str) :=
  match Dict.get? d key with
  | none => .ok none
  | some (.str s) => .ok (some s)
  | some (.list _) => .error .other

/-- `BaseRule.get_rule_kwargs` (oa/rules/base.py 106-132). -/
def kwargs (E : BuildEnv S R V) (d : Data) : Except RuleErr (Kwargs S) :=
  match textAttr d c!"score", textAttr d c!"describe", textAttr d c!"priority" with
  | .ok score, .ok desc, .ok prio =>
    let tflags : Option (List Str) := match Dict.get? d c!"tflags" with
      | none => none
      | some (.list []) => none
      | some (.list l) => some (l.map strip)
      | some (.str []) => none
      | some (.str s) => some (s.map (fun c => strip [c]))
    match score with
    | none => .ok { score := none, desc := desc.map strip, priority := prio.map strip, tflags := tflags }
    | some s =>
      match floats E.float (splitWs s) with
      | none => .error .other
      | some fs =>
        .ok { score := some fs, desc := desc.map strip, priority := prio.map strip, tflags := tflags }
  | _, _, _ => .error .other

/-- `BaseRule.__init__` called with the keyword arguments. -/
def mkBase (name : Str) (k : Kwargs S) : Except RuleErr (BaseRule S) :=
  BaseRule.init name k.score k.desc k.priority k.tflags

/-- A rule object from its base part and its kind. -/
def mkRule (name : Str) (k : Kwargs S) (kind : Kind R V) : Except RuleErr (Option (RuleDef S R V)) :=
  match mkBase name k with
  | .error e => .error e
  | .ok b => .ok (some { base := b, kind := kind })

/-- `get_rule` of the classes with one pattern (oa/rules/base.py 134-139, oa/rules/body.py 28-32,
oa/rules/full.py 20-24, oa/rules/uri.py 28-32). -/
def patternRule (E : BuildEnv S R V) (mk : Pat R → Kind R V) (name value : Str) (k : Kwargs S) :
    Except RuleErr (Option (RuleDef S R V)) :=
  match perl2re E.re value false with
  | .error e => .error e
  | .ok p => mkRule name k (mk p)

/-- `get_rule` of the header rule classes, given what their value says.  Only
`_PatternMimeHeaderRule` forgets the priority (oa/rules/header.py 46-50). -/
def headerKind (name : Str) (k : Kwargs S) (h : Except RuleErr (Option (HRule R))) :
    Except RuleErr (Option (RuleDef S R V)) :=
  match h with
  | .error e => .error e
  | .ok none => .ok none
  | .ok (some (.mime raw hd p)) => mkRule name { k with priority := none } (.header (.mime raw hd p))
  | .ok (some h) => mkRule name k (.header h)

/-- `_EVAL_RULE_P.match(eval_rule).groups()` (oa/rules/eval_.py 11-14, 36); `none` if it does not
match.  Simplification: `\w` is ASCII and the text has no line break. -/
def evalGroups (s : Str) : Option (Str × Str) :=
  match s with
  | [] => none
  | c :: cs =>
    if MetaExpr.isIdStart c then
      let w := cs.takeWhile MetaExpr.isWord
      match cs.drop w.length with
      | '(' :: r =>
        match rsplit1 ')' r with
        | some (args, _) => some (c :: w, args)
        | none => none
      | _ => none
    else none

/-- `tuple(eval(arg) for arg in args)` (oa/rules/eval_.py 39-40). -/
def evalArgs (E : BuildEnv S R V) : List Str → Except RuleErr (List V)
  | [] => .ok []
  | a :: as =>
    match E.evalArg a with
    | .error e => .error e
    | .ok v =>
      match evalArgs E as with
      | .error e => .error e
      | .ok vs => .ok (v :: vs)

/-- `EvalRule.get_rule` (oa/rules/eval_.py 30-51, 79-85). -/
def evalRule (E : BuildEnv S R V) (name value : Str) (target : Option Str) (k : Kwargs S) :
    Except RuleErr (Option (RuleDef S R V)) :=
  let text := strip (lstripChars c!"eval:" value)
  match mkBase name k with
  | .error e => .error e
  | .ok b =>
    match evalGroups text with
    | none => .error .invalidRule
    | some (fn, args) =>
      match (if args = [] then .ok [] else evalArgs E (splitChar ',' args)) with
      | .error e => .error e
      | .ok vs => .ok (some { base := b, kind := .eval fn vs target })

/-- `rule_class.get_rule(name, data)` for the class registered for `rtype` in `RULES` or
`ctxt.cmds` (oa/rules/parser.py 81-90, 300-307). `error other` also stands for `KeyError`. -/
def getRule (E : BuildEnv S R V) (name rtype : Str) (d : Data) : Except RuleErr (Option (RuleDef S R V)) :=
  if rtype ∈ Parser.ruleTypes then
    match kwargs E d with
    | .error e => .error e
    | .ok k =>
      match Dict.get? d c!"value" with
      | some (.str value) =>
        if rtype = c!"full" then patternRule E .full name value k
        else if rtype = c!"body" then patternRule E .body name value k
        else if rtype = c!"rawbody" then patternRule E .rawbody name value k
        else if rtype = c!"uri" then patternRule E .uri name value k
        else if rtype = c!"meta" then mkRule name k (.metaR value)
        else if rtype = c!"header" then headerKind name k (headerRule E.re value)
        else if rtype = c!"mimeheader" then headerKind name k (mimeHeaderRule E.re value)
        else match textAttr d c!"target" with
          | .ok t => evalRule E name value t k
          | .error e => .error e
      | _ => .error .other
  else match E.cmd rtype with
    | none => .error .other
    | some f => f name d

/-- `rule.preprocess(ruleset)` (oa/rules/base.py 58-80, oa/rules/eval_.py 53-68): eval rules
look up their function. -/
def preprocess (E : BuildEnv S R V) (r : RuleDef S R V) : Except RuleErr (RuleDef S R V) :=
  let r' := { r with base := r.base.preprocess E.conf }
  match r.kind with
  | .eval fn _ _ => if E.hasEval fn then .ok r' else .error .invalidRule
  | _ => .ok r'

/-- The two dictionaries of the ruleset. -/
structure Rules (S R V : Type) where
  checked : Dict Str (RuleDef S R V)
  notChecked : Dict Str (RuleDef S R V)
deriving DecidableEq

/-- `RuleSet.get_rule` (oa/rules/ruleset.py 276-287). -/
def Rules.find (rs : Rules S R V) (name : Str) : Option (RuleDef S R V) :=
  match Dict.get? rs.checked name with
  | some r => some r
  | none => Dict.get? rs.notChecked name

/-- `RuleSet.add_rule` (oa/rules/ruleset.py 112-121); `none` is Python's `None`, which has no
`preprocess`. -/
def addRule (E : BuildEnv S R V) (rs : Rules S R V) (r : Option (RuleDef S R V)) : Except RuleErr (Rules S R V) :=
  match r with
  | none => .error .other
  | some r =>
    match preprocess E r with
    | .error e => .error e
    | .ok r =>
      if r.base.shouldCheck then .ok { rs with checked := Dict.set rs.checked r.base.name r }
      else .ok { rs with notChecked := Dict.set rs.notChecked r.base.name r }

/-- The body of the loop of `get_ruleset` for one rule (oa/rules/parser.py 290-308). -/
def buildOne (E : BuildEnv S R V) (name : Str) (d : Data) (rs : Rules S R V) : Except RuleErr (Rules S R V) :=
  match Dict.get? d c!"type" with
  | none => .error .invalidRule
  | some (.list _) => .error .other
  | some (.str t) =>
    match getRule E name t d with
    | .error e => .error e
    | .ok r => addRule E rs r

/-- The loop of `get_ruleset` (oa/rules/parser.py 289-308), with the `_paranoid` handler
(111-118).  The error is the exception that leaves the loop. -/
def build (E : BuildEnv S R V) : List (Str × Data) → Rules S R V → Rules S R V × Option RuleErr
  | [], rs => (rs, none)
  | (name, d) :: rest, rs =>
    match buildOne E name d rs with
    | .ok rs' => build E rest rs'
    | .error .other => (rs, some .other)
    | .error e => if E.paranoid then (rs, some e) else build E rest rs

end Verif.Build
