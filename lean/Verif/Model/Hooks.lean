import Verif.Model.Py

/-!
# The hooks of plugins during the check of a message: `oa/context.py` 111-124, 338-349, 376-392, `oa/message.py` 135-168, 429-490,
`oa/rules/ruleset.py` 341-366

`S` is the state of everything: message, context and plugins.  What the stages between the hooks do is the subject of other modules; here they
are functions that may raise.
-/

namespace Verif.Hooks
open Verif Py

variable {S : Type}

/-- The methods of a plugin that are called for a message (oa/plugins/base.py 142-176). -/
inductive Hook where
  | checkStart
  | extractMetadata (part : Nat)
  | parsedMetadata
  | checkEnd
  | autoLearn
deriving DecidableEq, Repr

/-- How such a call ends: it returns, it raises `InhibitCallbacks`, or it raises anything else. -/
inductive Out where
  | returned
  | inhibit
  | raised
deriving DecidableEq, Repr

structure Plugin (S : Type) where
  name : Str
  call : Hook → S → Out × S

/-- What happens, in order: a hook is called, the headers are read, a part is decoded, relays and sender are known, the rules are evaluated. -/
inductive Event where
  | hook (plugin : Str) (h : Hook)
  | headers
  | part (i : Nat)
  | relays
  | rules
deriving DecidableEq, Repr

/-- The loop over the plugins in a `_callback_chain` (oa/context.py 111-124, 338-349, 376-392); false if an exception leaves it. -/
def chain : List (Plugin S) → Hook → S → List Event × S × Bool
  | [], _, s => ([], s, true)
  | p :: ps, h, s =>
    match p.call h s with
    | (.returned, s) => let r := chain ps h s; (.hook p.name h :: r.1, r.2)
    | (.inhibit, s) => ([.hook p.name h], s, true)
    | (.raised, s) => ([.hook p.name h], s, false)

/-- A stage of the check: a hook, some work of the program itself (`none`: it raises), or the loop over the rules, in which no exception
gets out (C02). -/
inductive Stage (S : Type) where
  | hook (h : Hook)
  | work (e : Event) (f : S → Option S)
  | rules (f : S → S)

def runStages (ps : List (Plugin S)) : List (Stage S) → S → List Event × S × Bool
  | [], s => ([], s, true)
  | .hook h :: rest, s =>
    match chain ps h s with
    | (t, s, false) => (t, s, false)
    | (t, s, true) => let r := runStages ps rest s; (t ++ r.1, r.2)
  | .work e f :: rest, s =>
    match f s with
    | none => ([], s, false)
    | some s => let r := runStages ps rest s; (e :: r.1, r.2)
  | .rules f :: rest, s => let r := runStages ps rest (f s); (.rules :: r.1, r.2)

/-- The work of the program: headers, each part, and relays with sender; and the rules. -/
structure Work (S : Type) where
  headers : S → Option S
  part : Nat → S → Option S
  relays : S → Option S
  rules : S → S

/-- `Message(ctxt, raw_msg)` (oa/message.py 135-168 with `_parse_message`, 429-490) for a message with some parts. -/
def message (w : Work S) (parts : Nat) : List (Stage S) :=
  [.hook .checkStart, .work .headers w.headers] ++
  (List.range parts).flatMap (fun i => [.work (.part i) (w.part i), .hook (.extractMetadata i)]) ++
  [.work .relays w.relays, .hook .parsedMetadata]

/-- `RuleSet.match` (oa/rules/ruleset.py 341-366). -/
def matching (w : Work S) : List (Stage S) := [.rules w.rules, .hook .checkEnd, .hook .autoLearn]

/-- The check of a message. -/
def check (ps : List (Plugin S)) (w : Work S) (parts : Nat) (s : S) : List Event × S × Bool :=
  runStages ps (message w parts ++ matching w) s

end Verif.Hooks
