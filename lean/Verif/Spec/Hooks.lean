import Verif.Model.Hooks

/-!
# Specification of the hooks of plugins
-/

namespace Verif.Hooks
open Verif Py

/-- A hook called for all plugins, in the order in which they were loaded. -/
def forAll (names : List Str) (h : Hook) : List Event := names.map fun n => .hook n h

/-- Everything that is to happen during a check, in order. -/
def complete (names : List Str) (parts : Nat) : List Event :=
  forAll names .checkStart ++ [.headers] ++ (List.range parts).flatMap (fun i => .part i :: forAll names (.extractMetadata i)) ++
  [.relays] ++ forAll names .parsedMetadata ++
  [.rules] ++ forAll names .checkEnd ++ forAll names .autoLearn

/-- No call of a plugin ends in any other way than by returning. -/
def Quiet {S : Type} (p : Plugin S) : Prop := ∀ h s, (p.call h s).1 = .returned

/-- The work of the program does not raise. -/
def Sound {S : Type} (w : Work S) : Prop := ∀ s, (w.headers s).isSome ∧ (∀ i, (w.part i s).isSome) ∧ (w.relays s).isSome

end Verif.Hooks
