import Verif.Model.RuleSet

/-!
# Short-circuiting: `oa/plugins/short_circuit.py`

The plugin replaces the `match` method of rules before the meta rules are resolved
(oa/rules/parser.py 309-311), so meta rules call the replaced methods of their
sub-rules (oa/rules/meta.py 69).
-/

namespace Verif.ShortCircuit
open Verif Py

/-- The part of a message that is not in `MsgSt`: its plugin tags and everything else. -/
structure Rest (Y : Type) where
  tags : Dict Str Str
  other : Y

abbrev M (S Y : Type) := MsgSt S (Rest Y)

/-- A `match` method. -/
abbrev Run (S Y : Type) := M S Y → Outcome × M S Y

/-- Evaluation of the expression of a meta rule (oa/rules/meta.py 48-55, 70, 73-74): a tree of calls of sub-rules.
Simplification: the Python expression is represented by its evaluation strategy, which covers
`and`, `or`, `not` and arithmetic; `fail` is an exception in the expression itself. -/
inductive Prog where
  | ret (v : MatchValue)
  | fail
  | call (sub : Str) (k : MatchValue → Prog)

/-- What a rule's class does to match: a meta rule calls other rules. -/
inductive Body (S Y : Type) where
  | plain (run : Run S Y)
  | metaR (p : Prog)

/-- A rule object.  `wraps` are the types of the wrappers around its `match` method, innermost first
(oa/plugins/short_circuit.py 104-105). -/
structure SRule (S Y : Type) where
  base : BaseRule S
  rtype : Str
  body : Body S Y
  wraps : List Str

/-- `ruleset.checked` and `ruleset.not_checked` (oa/rules/ruleset.py 53-54). -/
structure SRules (S Y : Type) where
  checked : Dict Str (SRule S Y)
  notChecked : Dict Str (SRule S Y)

/-- The options `shortcircuit_spam_score` and `shortcircuit_ham_score` (oa/plugins/short_circuit.py 58-59). -/
structure Bonus (S : Type) where
  spam : S
  ham : S

variable {S Y : Type} [PyNum S]

/-- Truth of what a match method returned (oa/plugins/short_circuit.py 30). -/
def truthy : MatchValue → Bool
  | .text t => !t.isEmpty
  | .val v => decide (v ≠ 0)

/-- The value kept in `msg.rules_checked`.  Simplification: a non-empty text is kept as 1. -/
def kept : MatchValue → Int
  | .text _ => 1
  | .val v => v

/-- `ShortCircuitRule.__call__` (oa/plugins/short_circuit.py 24-47). -/
def wrap (b : BaseRule S) (bonus : Bonus S) (stype : Str) (run : Run S Y) : Run S Y := fun s =>
  match run s with
  | (.ret v, s') =>
    if !truthy v then (.ret v, s')
    else
      let tags := Dict.set (Dict.set (Dict.set s'.rest.tags c!"SCRULE" b.name) c!"SCTYPE" stype) c!"SC"
        (b.name ++ c!" (" ++ stype ++ c!")")
      let score := s'.score + b.score
      (.stop, { s' with
        rest := { s'.rest with tags := tags }
        checked := Dict.set s'.checked b.name (kept v)
        score := if stype = c!"spam" then score + bonus.spam
          else if stype = c!"ham" then score + bonus.ham else score })
  | (o, s') => (o, s')

/-- `ruleset.get_rule` (oa/rules/ruleset.py 276-287). -/
def SRules.get (st : SRules S Y) (name : Str) : Option (SRule S Y) :=
  match Dict.get? st.checked name with
  | some r => some r
  | none => Dict.get? st.notChecked name

/-- `rule.match = new_method` for the rule that `get_rule` returns (oa/plugins/short_circuit.py 105). -/
def SRules.put (st : SRules S Y) (name : Str) (r : SRule S Y) : SRules S Y :=
  match Dict.get? st.checked name with
  | some _ => { st with checked := Dict.set st.checked name r }
  | none => { st with notChecked := Dict.set st.notChecked name r }

/-- One round of the loop in `finish_parsing_end` (oa/plugins/short_circuit.py 84-105).  Not modelled: the
error messages. -/
def configLine (st : SRules S Y) (line : Str) : SRules S Y :=
  match splitNone 1 line with
  | [name, stype] =>
    match st.get name with
    | none => st
    | some r =>
      if stype = c!"off" then st
      else if stype ∉ [c!"on", c!"ham", c!"spam"] then st
      else st.put name { r with wraps := r.wraps ++ [stype] }
  | _ => st

/-- `finish_parsing_end` (oa/plugins/short_circuit.py 79-105). -/
def configure (lines : List Str) (st : SRules S Y) : SRules S Y := lines.foldl configLine st

/-- Evaluating the expression of a meta rule: exceptions of sub-rules propagate (oa/rules/meta.py 73-74). -/
def evalProg (call : Str → Run S Y) : Prog → Run S Y
  | .ret v, s => (.ret v, s)
  | .fail, s => (.raised, s)
  | .call n k, s =>
    match call n s with
    | (.ret v, s') => evalProg call (k v) s'
    | (o, s') => (o, s')

/-- The rule's own `match`, without wrappers; `call` runs a sub-rule. -/
def own (call : Str → Run S Y) (b : Body S Y) : Run S Y :=
  match b with
  | .plain run => run
  | .metaR p => evalProg call p

/-- `rule.match(msg)` of a rule object with its wrappers. -/
def SRule.run (bonus : Bonus S) (call : Str → Run S Y) (r : SRule S Y) : Run S Y :=
  r.wraps.foldl (fun f t => wrap r.base bonus t f) (own call r.body)

/-- The call of a sub-rule (oa/rules/meta.py 58-69).  The number bounds the nesting of meta rules, which
`postparsing` limits (`MAX_RECURSION`, oa/rules/meta.py 19, 40-43); it is not reached. -/
def callSub (bonus : Bonus S) (st : SRules S Y) : Nat → Str → Run S Y
  | 0, _ => fun s => (.raised, s)
  | d + 1, name => fun s =>
    match st.get name with
    | none => (.raised, s)
    | some r => r.run bonus (callSub bonus st d) s

/-- A rule as `RuleSet.match` sees it. -/
def link (bonus : Bonus S) (st : SRules S Y) (d : Nat) (r : SRule S Y) : Rule S (Rest Y) :=
  { base := r.base, rtype := r.rtype, run := r.run bonus (callSub bonus st d) }

/-- The rules `RuleSet.match` goes through (oa/rules/ruleset.py 344). -/
def linkAll (bonus : Bonus S) (st : SRules S Y) (d : Nat) (rules : Dict Str (SRule S Y)) :
    Dict Str (Rule S (Rest Y)) :=
  rules.map fun p => (p.1, link bonus st d p.2)

end Verif.ShortCircuit
