import Verif.Model.ShortCircuit

/-!
# Specification of short-circuiting
-/

namespace Verif.ShortCircuit
open Verif Py

variable {S Y : Type} [PyNum S]

/-- One `shortcircuit NAME TYPE` setting as written. -/
structure Setting where
  lead : Str
  name : Str
  gap : Str
  type : Str

/-- The value of the option for a setting. -/
def Setting.line (c : Setting) : Str := c.lead ++ c.name ++ c.gap ++ c.type

/-- Words separated by white space. -/
structure Setting.Written (c : Setting) : Prop where
  lead : ∀ x ∈ c.lead, isSpace x = true
  name : c.name ≠ [] ∧ ∀ x ∈ c.name, isSpace x = false
  gap : c.gap ≠ [] ∧ ∀ x ∈ c.gap, isSpace x = true
  type : c.type ≠ [] ∧ ∀ x ∈ c.type, isSpace x = false

/-- The types given to a rule that ask for short-circuiting, in order. -/
def asked (conf : List Setting) (name : Str) : List Str :=
  (conf.filter fun c => decide (c.name = name ∧ (c.type = c!"on" ∨ c.type = c!"ham" ∨ c.type = c!"spam"))).map
    Setting.type

/-- The rule matched, and not with an empty text. -/
def Hit (v : MatchValue) : Prop := v ≠ .val 0 ∧ v ≠ .text []

/-- The message right after the short-circuited rule matched: the rule is recorded, its score and the bonus of its
type are added, and the tags tell. -/
structure Counted (b : BaseRule S) (bonus : Bonus S) (type : Str) (v : MatchValue) (s t : M S Y) : Prop where
  score : t.score = match (type == c!"spam"), (type == c!"ham") with
    | true, _ => s.score + b.score + bonus.spam
    | false, true => s.score + b.score + bonus.ham
    | false, false => s.score + b.score
  result : Dict.get? t.checked b.name = some (match v with | .text _ => 1 | .val k => k)
  others : ∀ n, n ≠ b.name → Dict.get? t.checked n = Dict.get? s.checked n
  descs : t.descs = s.descs
  other : t.rest.other = s.rest.other
  tagRule : Dict.get? t.rest.tags c!"SCRULE" = some b.name
  tagType : Dict.get? t.rest.tags c!"SCTYPE" = some type
  tag : Dict.get? t.rest.tags c!"SC" = some (b.name ++ c!" (" ++ type ++ c!")")

/-- Going through rules none of which asks to stop. -/
inductive Passes : List (Str × Rule S (Rest Y)) → M S Y → M S Y → Prop
  | nil (s) : Passes [] s s
  | ret (n r rs s s' s'' v) : r.run s = (.ret v, s') → Passes rs (record n r v s') s'' → Passes ((n, r) :: rs) s s''
  | raised (n r rs s s' s'') : r.run s = (.raised, s') → Passes rs (record n r (.val 0) s') s'' →
      Passes ((n, r) :: rs) s s''

/-- Evaluating the expression of a meta rule comes to the call of a sub-rule, the calls before having returned. -/
inductive Reaches (call : Str → Run S Y) : Prog → M S Y → Str → M S Y → Prop
  | here (n k s) : Reaches call (.call n k) s n s
  | later (n k s v s' m s0) : call n s = (.ret v, s') → Reaches call (k v) s' m s0 → Reaches call (.call n k) s m s0

/-- No rule asks to stop of its own accord. -/
def NoOtherStop (st : SRules S Y) : Prop :=
  ∀ name r run, st.get name = some r → r.body = .plain run → ∀ s, (run s).1 ≠ .stop

/-- Rules as they are built, before the plugin has touched them: each is filed under its name, once. -/
structure Fresh (st : SRules S Y) : Prop where
  nodup : (Dict.keys st.checked).Nodup
  nodup' : (Dict.keys st.notChecked).Nodup
  name : ∀ p ∈ st.checked, p.2.base.name = p.1
  name' : ∀ p ∈ st.notChecked, p.2.base.name = p.1
  unwrapped : ∀ p ∈ st.checked, p.2.wraps = []
  unwrapped' : ∀ p ∈ st.notChecked, p.2.wraps = []

end Verif.ShortCircuit
