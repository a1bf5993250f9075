import Verif.Spec.NetText

/-!
# How nameservers are written (docs/configuration.rst 314-325)
-/

namespace Verif.Spec
open Verif Py

inductive ServerAddr where
  | v4 (a b c d : Nat)
  | v6 (f : V6Form)

def ServerAddr.text : ServerAddr → Str
  | .v4 a b c d => dotted a b c d
  | .v6 f => f.text

def ServerAddr.Ok : ServerAddr → Prop
  | .v4 a b c d => a ≤ 255 ∧ b ≤ 255 ∧ c ≤ 255 ∧ d ≤ 255
  | .v6 f => f.Ok

/-- An address with an optional port. -/
structure ServerEntry where
  addr : ServerAddr
  bracketed : Bool
  port : Option Str

/-- The port is a number, and an IPv6 address with a port is in brackets. -/
structure ServerEntry.Ok (e : ServerEntry) : Prop where
  addr : e.addr.Ok
  port : ∀ p, e.port = some p → p ≠ [] ∧ ∀ c ∈ p, '0' ≤ c ∧ c ≤ '9'
  brackets : ∀ f, e.addr = .v6 f → e.port ≠ none → e.bracketed = true

def ServerEntry.text (e : ServerEntry) : Str :=
  (if e.bracketed then c!"[" ++ e.addr.text ++ c!"]" else e.addr.text) ++
    (match e.port with | none => [] | some p => c!":" ++ p)

end Verif.Spec
