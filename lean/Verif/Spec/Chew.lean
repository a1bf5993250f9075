import Verif.Model.Py

/-!
# The words of a header
-/

namespace Verif.Spec
open Verif Py

/-- A letter or digit of ASCII, or an underscore. -/
def plainMark (c : Char) : Prop := c.isAlphanum = true ∨ c = '_'

instance (c : Char) : Decidable (plainMark c) := inferInstanceAs (Decidable (_ ∨ _))

/-- A text read character by character: letters, digits and underscores belong to a word, every other character ends it.  `cur` is what
was read of the current word. -/
def bareFrom (cur : Str) : Str → List Str
  | [] => if cur = [] then [] else [cur]
  | c :: s =>
    if plainMark c then bareFrom (cur ++ [c]) s
    else (if cur = [] then [] else [cur]) ++ bareFrom [] s

/-- The words of a text. -/
def bareWords (text : Str) : List Str := bareFrom [] text

/-- The text with blanks in place of everything that is not part of a word. -/
def blanked (text : Str) : Str := text.map fun c => if plainMark c then c else ' '

end Verif.Spec
