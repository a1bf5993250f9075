import Verif.Model.Compile

/-!
# Specification of compiled rules
-/

namespace Verif.Compile
open Verif Py

/-- The versions of Python for which the warnings of the program say that compiling is available: not older than 2.7.11, and none of
3.0 to 3.4. -/
def Supported (major minor patch : Int) : Prop :=
  (major = 2 ∧ minor = 7 ∧ 11 ≤ patch) ∨ (major = 2 ∧ 7 < minor) ∨ (major = 3 ∧ 5 ≤ minor) ∨ 3 < major

/-- A world in which processes are about to write rulesets, process `p` the ruleset `rs p`. -/
def begin {R : Type} (k : Pickle R) (file : Option Bytes) (rs : Nat → R) : World := ⟨file, fun p => .waiting (k.dump (rs p))⟩

/-- No process opens the file while another writes to it. -/
def Alone : World → List Event → Prop
  | _, [] => True
  | w, e :: es => (∀ p, e = .open p → ∀ q off ps, w.procs q ≠ .writing off ps) ∧ Alone (step w e) es

/-- The ruleset that can be restored from a file. -/
def Holds {R : Type} (k : Pickle R) (file : Option Bytes) (r : R) : Prop := ∃ b, file = some b ∧ k.load b = .ok r

end Verif.Compile
