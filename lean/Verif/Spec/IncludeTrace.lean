import Verif.Spec.Parser
import Verif.Model.IncludeTrace

/-!
# What the list of a recursion error should say, for C176
-/

namespace Verif.Spec.Trace
open Verif Py Parser

/-- Line number `k` (from 1) of the file `f` is `raw`. -/
def LineOf {C : Type} (E : Env C) (f : Str) (k : Nat) (raw : Str) : Prop :=
  ∃ lines before after, E.files f = some lines ∧ lines = before ++ raw :: after ∧ k = before.length + 1

/-- Calls that lead from `f` down: a line of `f` that includes a file, then a line of that file, and so on.  Every call
shows the number and the text of the line, and the name of the file that the line includes. -/
inductive Path {C : Type} (E : Env C) : Str → List Call → Prop
  | nil (f : Str) : Path E f []
  | cons {f g raw : Str} {k : Nat} {cs : List Call} : LineOf E f k raw → includeTarget f raw = some g → Path E g cs →
      Path E f (⟨g, k, logical raw⟩ :: cs)

/-- Neither loading a plugin nor an option ends with the error for too many includes. -/
structure Quiet {C : Type} (E : Env C) : Prop where
  load : ∀ c n p, (E.loadPlugin c n p).2 ≠ some .maxRec
  config : ∀ c k v, (E.parseConfig c k v).2 ≠ .raised .maxRec

/-- A call shows the line that stands under that number in the file that it names. -/
def Accurate {C : Type} (E : Env C) (c : Call) : Prop := ∃ raw, LineOf E c.file c.number raw ∧ logical raw = c.line

end Verif.Spec.Trace
