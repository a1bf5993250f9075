import Verif.Model.Dates

/-!
# Specification of the rules about dates
-/

namespace Verif.Dates
open Verif Py

/-- The times of the `Received` headers; those without a date are passed over. -/
inductive Stamps (L : DateLib) : List (Option Str) → List Int → Prop
  | nil : Stamps L [] []
  | skip {r rs ts} : L.dateIn r = none → Stamps L rs ts → Stamps L (r :: rs) ts
  | cons {r rs t ts c s w o} : L.dateIn r = some (c :: s) → L.parsedateTz (some (c :: s)) = some (w, o) →
      L.mktime w = .ok t → Stamps L rs ts → Stamps L (r :: rs) (t :: ts)

/-- The dates of a message are understood: its `Date` is `t`, the dates of its `Received` headers are `ts`. -/
structure Dated (L : DateLib) (m : Mail) (t : Int) (ts : List Int) : Prop where
  resent : ∀ d ∈ m.resent, ∃ w o r, L.parsedateTz d = some (w, o) ∧ L.mktime w = .ok r
  date : ∃ d rest w o, m.date = d :: rest ∧ L.parsedateTz d = some (w, o) ∧ L.mktime w = .ok t
  received : Stamps L m.received ts

/-- The smallest distance from the date that is not zero; zero if there is none. -/
def Shift (t : Int) (ts : List Int) (d : Int) : Prop :=
  ((∃ r ∈ ts, r ≠ t ∧ d = max (r - t) (t - r)) ∧ ∀ r ∈ ts, r ≠ t → d ≤ max (r - t) (t - r)) ∨ (d = 0 ∧ ∀ r ∈ ts, r = t)

/-- A bound of a rule as a number, if it is one. -/
inductive IsBound : Option Str → Option Int → Prop
  | absent : IsBound none none
  | undef : IsBound (some c!"undef") none
  | empty : IsBound (some []) none
  | zero {s} : s ≠ c!"undef" → int? s = some 0 → IsBound (some s) none
  | num {s n} : s ≠ c!"undef" → s ≠ [] → int? s = some n → n ≠ 0 → IsBound (some s) (some n)

/-- A number is within bounds, the upper one not included. -/
def Within (a b : Option Int) (n : Int) : Prop := (∀ x, a = some x → x ≤ n) ∧ (∀ x, b = some x → n < x)

/-- A rule about dates. -/
inductive Call
  | shifted (min max : Option Str)
  | months (now : Int) (min max : Option Str)

/-- What is kept after a rule was evaluated, also if it raised. -/
def Call.keep (L : DateLib) (m : Mail) (l : Locals) : Call → Locals
  | .shifted a b => (shiftedDate L a b m l).2
  | .months now a b => (withinMonths L now a b m l).2

/-- What is kept after rules were evaluated. -/
def after (L : DateLib) (m : Mail) (calls : List Call) : Locals := calls.foldl (Call.keep L m) fresh

/-- The middle one of some times, of an even number the earlier one of the two in the middle. -/
def Median (ts : List Int) (x : Int) : Prop :=
  ∃ l : List Int, l.Perm ts ∧ l.Pairwise (fun a b => b ≤ a) ∧ l[ts.length / 2]? = some x

end Verif.Dates
