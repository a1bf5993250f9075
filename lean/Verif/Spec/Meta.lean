import Verif.Model.Meta

namespace Verif.Spec
open Verif

/-- `n` refers to `m` in its expression. -/
def Refers (defs : Str → Option Def) (n m : Str) : Prop :=
  ∃ subs c, defs n = some (.metaR subs c) ∧ m ∈ subs

/-- A rule that is usable: it exists, and if it is a meta rule every rule it refers
to is usable.  (Inductive: no cycles, nothing undefined, at any depth.) -/
inductive Usable (defs : Str → Option Def) : Str → Prop
  | plain {n} : defs n = some .plain → Usable defs n
  | metaR {n subs c} : defs n = some (.metaR subs c) → (∀ m ∈ subs, Usable defs m) → Usable defs n

/-- Usable with at most `k` nested levels of meta rules. -/
inductive UsableWithin (defs : Str → Option Def) : Nat → Str → Prop
  | plain {k n} : defs n = some .plain → UsableWithin defs k n
  | metaR {k n subs c} : defs n = some (.metaR subs c) → (∀ m ∈ subs, UsableWithin defs k m) →
      UsableWithin defs (k + 1) n

/-- One or more reference steps. -/
inductive Reaches (defs : Str → Option Def) : Str → Str → Prop
  | step {a b} : Refers defs a b → Reaches defs a b
  | trans {a b c} : Refers defs a b → Reaches defs b c → Reaches defs a c

/-- Every meta rule's expression is accepted by the Python compiler. -/
def AllCompile (defs : Str → Option Def) : Prop :=
  ∀ n subs c, defs n = some (.metaR subs c) → c = true

end Verif.Spec
