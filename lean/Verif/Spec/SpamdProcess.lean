import Verif.Spec.SpamdReport

/-!
# What PROCESS and HEADERS answer
-/

namespace Verif.Spec
open Verif Py

/-- The headers after a change: added at the end, or removed whatever the case of the name. -/
def Change.on (h : List (Str × Str)) : Change → List (Str × Str)
  | .add n v => h ++ [(n, v)]
  | .remove n => h.filter (fun p => decide (¬ SameName p.1 n))

/-- The text of the report. -/
def IsReport (value : Str → Str) (ts : List TLine) (report : Str) : Prop :=
  (Something ts → report = join c!"\n" (ts.map (TLine.shown value)) ++ c!"\n") ∧
  (¬ Something ts → report = c!"\n(no report template found)\n")

/-- The text up to the first empty line and with it; an empty line is added if there is none. -/
def UpToEmptyLine (text head : Str) : Prop :=
  (∃ a b, text = a ++ c!"\n\n" ++ b ∧ ¬ c!"\n\n" <:+: a ++ c!"\n" ∧ head = a ++ c!"\n\n") ∨
  (¬ c!"\n\n" <:+: text ∧ head = text ++ c!"\n\n")

end Verif.Spec
