import Verif.Spec.IncludeTrace
import Verif.Model.ParserLog

/-!
# Which lines deserve a complaint, for C177
-/

namespace Verif.Spec.Log
open Verif Py Parser

/-- The line counts: it is not blank, not a comment, and not in a disabled section. -/
def Counts {C : Type} (s : State C) (raw : Str) : Prop := s.ignore = false ∧ ¬ Skipped raw ∧ ¬ Closer raw

/-- The line should have two arguments. -/
def Two {C : Type} (E : Env C) (s : State C) (raw : Str) : Prop :=
  Counts s raw ∧ keyword raw ∉ [c!"include", c!"ifplugin", c!"loadplugin"] ∧ (keyword raw ∈ known2 ∨ E.isCmd s.ctx (keyword raw) = true)

/-- The line is `lang L text`, for readers of the language. -/
def ForUs {C : Type} (E : Env C) (s : State C) (raw text : Str) : Prop :=
  Two E s raw ∧ ∃ l us, splitNone 2 (logical raw) = [c!"lang", l, text] ∧ E.lang = some us ∧ l <+: us

/-- The words are those of a priority that is not a number. -/
def BadPriority {C : Type} (E : Env C) (s : State C) (words : List Str) : Prop :=
  ∃ n v, words = [c!"priority", n, v] ∧ int? v = none ∧ E.isCmd s.ctx c!"priority" = false

/-- What there is to complain about in a line, when it is read in the state `s`: an argument is missing, no option has this name, or a priority is not a
number; for lines `lang L text` the same about the text. -/
inductive Deserves {C : Type} (E : Env C) (s : State C) (raw : Str) : Kind → Prop
  | missing : Two E s raw → (splitNone 2 (logical raw)).length ≠ 3 → Deserves E s raw .missing
  | missingOption (text : Str) : ForUs E s raw text → hasSub c!"report" text = true → (splitNone 1 text).length ≠ 2 → Deserves E s raw .missing
  | missingText (text : Str) : ForUs E s raw text → hasSub c!"report" text = false → (splitNone 2 text).length ≠ 3 → Deserves E s raw .missing
  | unknown : Counts s raw → keyword raw ∉ [c!"include", c!"ifplugin", c!"loadplugin"] → keyword raw ∉ known2 →
      E.isCmd s.ctx (keyword raw) = false → (E.parseConfig s.ctx (keyword raw) (argument raw)).2 = .done false → Deserves E s raw .unknown
  | unknownOption (text k v : Str) : ForUs E s raw text → hasSub c!"report" text = true → splitNone 1 text = [k, v] →
      (E.parseConfig s.ctx k v).2 = .done false → Deserves E s raw .unknown
  | priority : Two E s raw → BadPriority E s (splitNone 2 (logical raw)) → Deserves E s raw .priority
  | priorityText (text : Str) : ForUs E s raw text → hasSub c!"report" text = false → BadPriority E s (splitNone 2 text) → Deserves E s raw .priority

/-- Reading the file `f`, `n` levels of includes being left, from the state `s`, comes to line `k` of `file`, which is `raw`, in the state `s'`. -/
inductive Visits {C : Type} (E : Env C) : Nat → Str → State C → Str → Nat → Str → State C → Prop
  | here {n : Nat} {f raw : Str} {s s' : State C} {lines before rest : List Str} : E.files f = some lines → lines = before ++ raw :: rest →
      parseLines E (parseFile E n) f before s = (s', none) → Visits E (n + 1) f s f (before.length + 1) raw s'
  | inside {n : Nat} {f g raw file raw' : Str} {s s' s'' : State C} {k : Nat} {lines before rest : List Str} : E.files f = some lines →
      lines = before ++ raw :: rest → parseLines E (parseFile E n) f before s = (s', none) → includeTarget f raw = some g → s'.ignore = false →
      Visits E n g s' file k raw' s'' → Visits E (n + 1) f s file k raw' s''

end Verif.Spec.Log
