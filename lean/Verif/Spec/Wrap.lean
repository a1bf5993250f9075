import Verif.Model.Py

/-!
# Multipart messages, as a mail reader takes them apart (RFC 2046, 5.1)
-/

namespace Verif.Spec
open Verif Py

/-- The line that begins a part. -/
def Opens (b l : Str) : Prop := l = c!"--" ++ b

/-- The line that ends the last part. -/
def Closes (b l : Str) : Prop := l = c!"--" ++ b ++ c!"--"

/-- `lines` are the lines of `text`. -/
def LinesOf (text : Str) (lines : List Str) : Prop := lines ≠ [] ∧ (∀ l ∈ lines, '\n' ∉ l) ∧ text = join c!"\n" lines

/-- No line of the section is a delimiter. -/
def Inside (b : Str) (ls : List Str) : Prop := ∀ l ∈ ls, ¬ Opens b l ∧ ¬ Closes b l

/-- The parts, from the first line of the first. -/
inductive PartsFrom (b : Str) : List Str → List Str → Prop
  | last {part rest : List Str} {stop : Str} : Inside b part → Closes b stop →
      PartsFrom b (part ++ stop :: rest) [join c!"\n" part]
  | more {part rest ps : List Str} {next : Str} : Inside b part → Opens b next → PartsFrom b rest ps →
      PartsFrom b (part ++ next :: rest) (join c!"\n" part :: ps)

/-- The body of a multipart message with the boundary `b` has these parts: the text before the first delimiter
and after the last is not part of any. -/
def HasParts (b body : Str) (parts : List Str) : Prop :=
  ∃ lines pre first rest, LinesOf body lines ∧ lines = pre ++ first :: rest ∧ Inside b pre ∧ Opens b first ∧
    PartsFrom b rest parts

/-- A part or message: its header lines and its content, after the first empty line. -/
def HasContent (part : Str) (hdrs : List Str) (content : Str) : Prop :=
  (∀ h ∈ hdrs, h ≠ [] ∧ '\n' ∉ h) ∧ part = join c!"\n" hdrs ++ c!"\n\n" ++ content ∧ hdrs ≠ []

/-- The two texts have the same lines, and the lines of the second end in `\n`. -/
inductive SameLines : Str → Str → Prop
  | nil : SameLines [] []
  | char {c : Char} {s t : Str} : c ≠ '\r' → SameLines s t → SameLines (c :: s) (c :: t)
  | crlf {s t : Str} : SameLines s t → SameLines ('\r' :: '\n' :: s) ('\n' :: t)
  | cr {s t : Str} : s.head? ≠ some '\n' → SameLines s t → SameLines ('\r' :: s) ('\n' :: t)

end Verif.Spec
