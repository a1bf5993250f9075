import Verif.Model.Rule

/-!
# Rule sets: `oa/rules/ruleset.py`
-/

namespace Verif
open Py

/-- What `rule.match(msg)` returned, as far as `RuleSet.match` distinguishes it:
a string, or another value represented by an integer (`True = 1`,
`False = None = 0`; simplification: other objects are represented by a non-zero
integer when truthy and by 0 when falsy). -/
inductive MatchValue where
  | text (s : Str)
  | val (v : Int)
deriving DecidableEq, Repr

/-- How `rule.match(msg)` ended. -/
inductive Outcome where
  | ret (v : MatchValue)
  /-- an exception other than `StopProcessing` -/
  | raised
  /-- `oa.errors.StopProcessing` -/
  | stop
deriving DecidableEq, Repr

/-- The attributes of a message that checking updates, plus everything else
(`rest`: plugin data, plugin state, data bases, logs …), which rules may change
in any way. -/
structure MsgSt (S X : Type) where
  score : S
  /-- `msg.rules_checked` -/
  checked : Dict Str Int
  /-- `msg.rules_descriptions` -/
  descs : Dict Str Str
  rest : X

/-- A rule: its attributes, its `_rule_type`, and its `match` method as an
arbitrary state transformer. -/
structure Rule (S X : Type) where
  base : BaseRule S
  rtype : Str
  run : MsgSt S X → Outcome × MsgSt S X

variable {S X : Type} [PyNum S]

/-- Body of the loop in `RuleSet.match` after a rule returned normally or its
exception was swallowed (oa/rules/ruleset.py 353-361). -/
def record (name : Str) (r : Rule S X) (v : MatchValue) (s : MsgSt S X) : MsgSt S X :=
  match v with
  | .text t =>
    { s with descs := Dict.set s.descs name t
             checked := Dict.set s.checked name 1
             score := s.score + r.base.score }
  | .val v =>
    if v ≠ 0 then
      { s with descs := Dict.set s.descs name r.base.description
               checked := Dict.set s.checked name v
               score := s.score + r.base.score }
    else
      { s with checked := Dict.set s.checked name v }

/-- The rule loop of `RuleSet.match` (oa/rules/ruleset.py 344-364), including
the handlers for `StopProcessing` and other exceptions. -/
def runRules : List (Str × Rule S X) → MsgSt S X → MsgSt S X
  | [], s => s
  | (name, r) :: rs, s =>
    match r.run s with
    | (.stop, s') => s'
    | (.raised, s') => runRules rs (record name r (.val 0) s')
    | (.ret v, s') => runRules rs (record name r v s')

/-- `RuleSet.match` (oa/rules/ruleset.py 341-366).  The two hooks are arbitrary
state transformers (`_callback_chain` over all plugins). -/
def matchMsg (hookCheckEnd hookAutoLearn : MsgSt S X → MsgSt S X)
    (rules : Dict Str (Rule S X)) (s : MsgSt S X) : MsgSt S X :=
  hookAutoLearn (hookCheckEnd (runRules rules s))

/-- `EvalRule.match` (oa/rules/eval_.py 70-77): every exception of the eval
method, even `StopProcessing`, becomes `False`. -/
def evalRuleRun (method : MsgSt S X → Outcome × MsgSt S X) : MsgSt S X → Outcome × MsgSt S X :=
  fun s => match method s with
    | (.ret v, s') => (.ret v, s')
    | (.raised, s') => (.ret (.val 0), s')
    | (.stop, s') => (.ret (.val 0), s')

/-- `Message.clear_matches` (oa/message.py 170-173). NB the descriptions are kept. -/
def clearMatches (s : MsgSt S X) : MsgSt S X := { s with checked := [], score := 0 }

/-- The two rule dictionaries of a `RuleSet` (oa/rules/ruleset.py 53-54). -/
structure RuleSt (S X : Type) where
  checked : Dict Str (Rule S X)
  notChecked : Dict Str (Rule S X)

/-- `RuleSet.add_rule` (oa/rules/ruleset.py 112-121) for a rule whose
`preprocess` is `BaseRule.preprocess` (eval rules add a lookup, see
`Model/Build.lean`); `postprocess` is empty for all rule classes. -/
def addRule (c : ScoreConf) (st : RuleSt S X) (r : Rule S X) : RuleSt S X :=
  let r := { r with base := r.base.preprocess c }
  if r.base.shouldCheck then { st with checked := Dict.set st.checked r.base.name r }
  else { st with notChecked := Dict.set st.notChecked r.base.name r }

/-- `RuleSet.get_rule` (oa/rules/ruleset.py 276-287). `none` is `KeyError`. -/
def getRule (st : RuleSt S X) (name : Str) (checkedOnly : Bool := false) : Option (Rule S X) :=
  match Dict.get? st.checked name with
  | some r => some r
  | none => if checkedOnly then none else Dict.get? st.notChecked name

/-- `rule1 < rule2` (oa/rules/base.py 148-149): the comparison is reversed. -/
def ruleLt (a b : Rule S X) : Bool := decide (b.base.priority < a.base.priority)

/-- `sorted(self.checked.items(), key=itemgetter(1))` (oa/rules/ruleset.py
291-292).  Python's `sorted` is a stable sort using only `<`. -/
def sortRules (d : Dict Str (Rule S X)) : Dict Str (Rule S X) :=
  sortedBy (fun a b => ruleLt a.2 b.2) d

/-- `[name for name, result in msg.rules_checked.items() if result]`
(oa/rules/ruleset.py 84-85, oa/protocol/check.py 41-42). -/
def matchedNames (s : MsgSt S X) : List Str :=
  (s.checked.filter (fun p => p.2 ≠ 0)).map Prod.fst

/-- The `TESTS` tag (oa/rules/ruleset.py 83-89). -/
def testsTag (s : MsgSt S X) : Str :=
  let m := matchedNames s
  if m.isEmpty then c!"none" else join c!"," m

/-- `SymbolsCommand.extra_details` (oa/protocol/check.py 37-42). -/
def symbolsBody (s : MsgSt S X) : Str := join c!"," (matchedNames s)

/-- One line of `get_matched_report` (oa/rules/ruleset.py 251-254); `shw` is
Python's formatting of the score. -/
def reportLine (shw : S → Str) (r : Rule S X) (desc : Str) : Str :=
  c!"* " ++ shw r.base.score ++ c!" " ++ r.base.name ++ c!" " ++ r.rtype ++ desc

/-- The list built by `RuleSet.get_matched_report` (oa/rules/ruleset.py
244-257).  `none` is `KeyError`: an unknown rule or a missing description. -/
def reportLines (shw : S → Str) (st : RuleSt S X) (s : MsgSt S X) : Dict Str Int → Option (List Str)
  | [] => some []
  | (name, v) :: rest =>
    if v = 0 then reportLines shw st s rest
    else match getRule st name, Dict.get? s.descs name with
      | some r, some d =>
        (reportLines shw st s rest).map (fun ls => reportLine shw r d :: ls)
      | _, _ => none

/-- `RuleSet.get_matched_report` (oa/rules/ruleset.py 244-257). -/
def matchedReport (shw : S → Str) (st : RuleSt S X) (s : MsgSt S X) : Option Str :=
  (reportLines shw st s s.checked).map (fun ls => c!"\r\n" ++ join c!"\r\n" ls)

/-- `name.ljust(22)`. -/
def ljust (n : Nat) (s : Str) : Str := s ++ List.replicate (n - s.length) ' '

/-- One line of `get_summary_report` (oa/rules/ruleset.py 265-273); `shw4` is the
score formatting of lines 266-269. -/
def summaryLine (shw4 : S → Str) (r : Rule S X) : Str :=
  shw4 r.base.score ++ c!" " ++ ljust 22 r.base.name ++ c!" " ++ r.base.description

/-- The list built by `RuleSet.get_summary_report` (oa/rules/ruleset.py 259-274).
`none` is `KeyError`. -/
def summaryLines (shw4 : S → Str) (st : RuleSt S X) : Dict Str Int → Option (List Str)
  | [] => some []
  | (name, v) :: rest =>
    if v = 0 then summaryLines shw4 st rest
    else match getRule st name with
      | some r => (summaryLines shw4 st rest).map (fun ls => summaryLine shw4 r :: ls)
      | none => none

end Verif
