import Verif.Spec.Scan

/-!
# Files that load plugins and set options
-/

namespace Verif.Spec
open Verif Py Parser

/-- What a line that is not about rules does to the context: nothing, load a plugin (or fail to), or set an option. -/
inductive PreLine {C : Type} (E : Parser.Env C) : C → Str → C → Prop
  | skipped {c l} : ¬ Closer l → Skipped l → PreLine E c l c
  | plugin {c l n p c' r} : ¬ Closer l → ¬ Skipped l → keyword l = c!"loadplugin" → NamesPlugin E (argument l) n p → n ≠ [] →
      E.loadPlugin c n p = (c', r) → (r = none ∨ r = some .pluginLoad) → PreLine E c l c'
  | unavailable {c l w} : ¬ Closer l → ¬ Skipped l → keyword l = c!"loadplugin" →
      ((∃ path, splitNone 1 (argument l) = [w, path]) ∨ (splitNone 1 (argument l)).length ≠ 2 ∧ w = argument l) →
      hasSub c!"::" w = true → E.reimpl w = none → PreLine E c l c
  | option {c l c' b} : ¬ Closer l → ¬ Skipped l → keyword l ∉ [c!"include", c!"ifplugin", c!"loadplugin"] → keyword l ∉ known2 →
      E.isCmd c (keyword l) = false → E.parseConfig c (keyword l) (argument l) = (c', .done b) → PreLine E c l c'

/-- Such lines one after another. -/
inductive PreText {C : Type} (E : Parser.Env C) : C → List Str → C → Prop
  | nil {c} : PreText E c [] c
  | cons {c l c' ls c''} : PreLine E c l c' → PreText E c' ls c'' → PreText E c (l :: ls) c''

/-- Files of such lines, one after another; a file that is not there is passed over. -/
inductive PreFiles {C : Type} (E : Parser.Env C) : C → List Str → C → Prop
  | nil {c} : PreFiles E c [] c
  | file {c f text c' fs c''} : E.files f = some text → PreText E c text c' → PreFiles E c' fs c'' → PreFiles E c (f :: fs) c''
  | missing {c f fs c'} : E.files f = none → PreFiles E c fs c' → PreFiles E c (f :: fs) c'

/-- Lines about rules, between lines that load plugins and set options, from one context to another, and what they say about rules.
A line about a rule is read as the plugins that are loaded by then have it: a plugin can add kinds of rules.  No plugin takes the
keyword `tflags`. -/
inductive RuleText {C : Type} (E : Parser.Env C) : C → List Str → List (Str × Str × PVal) → C → Prop
  | nil {c} : RuleText E c [] [] c
  | other {c l c' ls as c''} : PreLine E c l c' → RuleText E c' ls as c'' → RuleText E c (l :: ls) as c''
  | rule {c l ls as c'} : Defining l → ¬ Skipped l → (keyword l ∈ known2 ∨ E.isCmd c (keyword l) = true) → E.isCmd c c!"tflags" = false →
      RuleText E c ls as c' → RuleText E c (l :: ls) (assigns (E.isCmd c) l ++ as) c'

end Verif.Spec
