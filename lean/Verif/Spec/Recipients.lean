import Verif.Model.Recipients

/-!
# Specification of the rules about recipients
-/

namespace Verif.Recipients
open Verif Py

/-- The recipients with equal neighbours taken once. -/
def collapsed : List Str → List Str
  | [] => []
  | [a] => [a]
  | a :: b :: r => if a = b then collapsed (b :: r) else a :: collapsed (b :: r)

/-- What follows the last `@`, or the whole address. -/
def IsHost (addr host : Str) : Prop :=
  (∃ user, addr = user ++ '@' :: host ∧ '@' ∉ host) ∨ ('@' ∉ addr ∧ host = addr)

/-- How much two addresses are alike: one point for the same five characters at the beginning, one for different hosts
with the same two characters at the beginning. -/
def Alike (a b : Str) (n : Nat) : Prop :=
  ∀ ha hb : Str, IsHost a ha → IsHost b hb →
    n = (if a.take 5 = b.take 5 then 1 else 0) + (if ha.take 2 = hb.take 2 ∧ ha ≠ hb then 1 else 0)

/-- `n` is the sum of `f` over all pairs of entries of a list. -/
inductive PairSum (R : Str → Str → Nat → Prop) : List Str → Nat → Prop
  | nil : PairSum R [] 0
  | cons {a as n} {f : Str → Nat} : (∀ b ∈ as, R a b (f b)) → PairSum R as n → PairSum R (a :: as) ((as.map f).sum + n)

/-- A rule about recipients. -/
inductive Call
  | sorted
  | similar (minr maxr : Option (Option Rat))

/-- What the plugin keeps after a rule was evaluated. -/
def Call.keep (recipients : List Str) (l : Locals) : Call → Locals
  | .sorted => (sortedRecipients recipients l).2
  | .similar a b => (similarRecipients a b recipients l).2

/-- What the plugin keeps after rules were evaluated. -/
def after (recipients : List Str) (calls : List Call) : Locals := calls.foldl (Call.keep recipients) fresh

/-- A number lies within the bounds of a rule; a bound that is no number is met by none. -/
def Inside (minr maxr : Option (Option Rat)) (q : Rat) : Prop :=
  (∀ b, minr = some b → ∃ r, b = some r ∧ r < q) ∧ (∀ b, maxr = some b → ∃ r, b = some r ∧ q < r)

end Verif.Recipients
