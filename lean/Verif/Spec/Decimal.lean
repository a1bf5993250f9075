import Verif.Model.Py

/-! # Numbers in decimal -/

namespace Verif.Spec
open Verif Py

/-- The text is the number in decimal, without leading zeros. -/
def Decimal (t : Str) (n : Nat) : Prop :=
  t ≠ [] ∧ (∀ c ∈ t, '0' ≤ c ∧ c ≤ '9') ∧ t.foldl (fun v c => 10 * v + (c.toNat - '0'.toNat)) 0 = n ∧
    (t.head? = some '0' → t = c!"0")

end Verif.Spec
