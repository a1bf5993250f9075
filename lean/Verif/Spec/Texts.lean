import Verif.Model.Texts

/-!
# What the rules about languages, subjects and capital letters are to say
-/

namespace Verif.Texts
open Verif Py

/-- A language is found in a text, with more than the given probability. -/
def Found (rs : List (Str × Rat)) (prob : Rat) (l : Str) : Prop := ∃ p, (l, p) ∈ rs ∧ prob < p

/-- The expressions that a context has been given with a key. -/
def given (valid : Str → Bool) (ctx : Nat → Prop) (key : Str) (lines : List (Nat × Str × Str)) (item : Str) : Prop :=
  ∃ c, (c, key, item) ∈ lines ∧ ctx c ∧ valid (strip item) = true

/-- The paragraphs of a text: an empty line ends one. -/
def Paragraphs (s : Str) (ps : List Str) : Prop :=
  ps ≠ [] ∧ join c!"\n\n" ps = s ∧ (∀ p ∈ ps, ¬ c!"\n\n" <:+: p) ∧ ∀ p ∈ ps.dropLast, p.getLast? ≠ some '\n'

/-- Paragraphs of one word are not looked at. -/
def counted (p : Str) : Bool := p.contains ' ' || (stripChars c!"\n" p).contains '\n'

/-- Letters, marks and digits; other characters do not count. -/
def isLetter (u : Chars) (c : Char) : Bool := u.word c && decide (c ≠ '_')

/-- A character that changes with `upper`, or is a digit. -/
def isSmall (u : Chars) (c : Char) : Bool := decide (u.upper c ≠ [c]) || u.digit c

end Verif.Texts
