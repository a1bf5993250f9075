import Verif.Model.Dns

/-! # Specification vocabulary for DNS queries -/

namespace Verif.Spec
open Verif Py Dns

/-- `a` is the name `q` or one of its parent domains. -/
def Covers (a q : Str) : Prop := a = q ∨ ∃ x, q = x ++ '.' :: a

/-- `a` is the closest name covering `q` that the table lists, and `deny` what it says. -/
def Closest (t : Dict Str Bool) (q a : Str) (deny : Bool) : Prop :=
  Covers a q ∧ Dict.get? t a = some deny ∧
  ∀ b d, Covers b q → Dict.get? t b = some d → b.length ≤ a.length

/-- The clock of a history does not run backwards. -/
def ClockOk : List (Read × Str) → Prop
  | [] => True
  | [(r, _)] => r.now ≤ r.later
  | (r, _) :: (r', q') :: rest => r.now ≤ r.later ∧ r.later ≤ r'.now ∧ ClockOk ((r', q') :: rest)

/-- `allow name` / `deny name`. -/
def restrictionLine (deny : Bool) (name : Str) : Str := (if deny then c!"deny" else c!"allow") ++ ' ' :: name

end Verif.Spec
