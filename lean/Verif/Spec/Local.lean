import Verif.Spec.ScanPre

/-!
# Configurations that can be understood, and rules that have nothing to do with others
-/

namespace Verif.Spec
open Verif Py Parser Scan

/-- The rules of a configuration: those among the mentioned ones that are defined. -/
def rulesOf {S R : Type} (as : List (Str × Str × PVal)) (good : Str → Bool) (docs : Str → Doc S R) : Conds R :=
  fun n => if n ∈ (firstMentions (as.map (fun a => a.1))).filter good then some (docs n).cond else none

/-- What these files say can be understood: `as` is what their lines say about rules, `c` the context after them, `docs` what the rules
ask, score and when they are evaluated, and `good` which of the mentioned names are rules. -/
structure Understood {S R V C : Type} [PyNum S] (E : ScanEnv S R V C) (c0 : C) (files : List Str) (m : Facts) (c : C)
    (as : List (Str × Str × PVal)) (good : Str → Bool) (docs : Str → Doc S R) : Prop where
  tolerant : E.parser.paranoid = false
  text : ∃ lines, Lines E.parser ⟨[], false, c0⟩ [] files lines ∧ RuleText E.parser c0 lines as c
  says : ∀ n ∈ firstMentions (as.map (fun a => a.1)),
    (good n = true → Says E.float E.re (E.conf c) as n (docs n)) ∧ (good n = false → Broken E c as n)
  parts : ∀ n ∈ (firstMentions (as.map (fun a => a.1))).filter good, lastValue as n c!"type" = some (.str c!"mimeheader") → (docs n).priority = 0
  answers : ∀ n ∈ (firstMentions (as.map (fun a => a.1))).filter good, ∀ fn args t, (docs n).cond = .asks fn args t → Answers E c m fn args t
  depth : ∀ n k, Works (rulesOf as good docs) k n → Works (rulesOf as good docs) 11 n

/-- Two configurations say the same, in the same order, about these rules, and these rules mention only each other. -/
structure Agree {S R : Type} (K : Str → Bool) (as as' : List (Str × Str × PVal)) (good good' : Str → Bool) (docs docs' : Str → Doc S R) : Prop where
  lines : as.filter (fun a => K a.1) = as'.filter (fun a => K a.1)
  same : ∀ n, K n = true → docs' n = docs n ∧ good' n = good n
  closed : ∀ n e, K n = true → (docs n).cond = .combine e → ∀ y ∈ e.names, K y = true

/-- Two configurations define the same rules: with the same conditions, and with a score in one if with a score in the other. -/
structure SameRules {S R : Type} [PyNum S] (as as' : List (Str × Str × PVal)) (good good' : Str → Bool) (docs docs' : Str → Doc S R) : Prop where
  defined : ∀ n, ((∃ a ∈ as, a.1 = n) ∧ good n = true ↔ (∃ a ∈ as', a.1 = n) ∧ good' n = true)
  cond : ∀ a ∈ as, good a.1 = true → (docs' a.1).cond = (docs a.1).cond
  zero : ∀ a ∈ as, good a.1 = true → ((docs' a.1).score = 0 ↔ (docs a.1).score = 0)

end Verif.Spec
