import Verif.Spec.HeadEnd

/-!
# Specification of where a reader finds the end of the headers
-/

namespace Verif.Spec.HeadText
open Verif Py Spec.HeadEnd

/-- Of these lines, a reader takes the first ones for the headers: they are header lines, and the next one is none. -/
def Head (lines head rest : List Str) : Prop :=
  lines = head ++ rest ∧ (∀ l ∈ head, HeaderLine l) ∧ ∀ l ∈ rest.head?, ¬ HeaderLine l

/-- The name of a header. -/
def FieldName (n : Str) : Prop := ∀ c ∈ n, 33 ≤ c.toNat ∧ c.toNat ≤ 126 ∧ c ≠ ':'

/-- A text without line breaks of any kind. -/
def OneLine (v : Str) : Prop := ∀ c ∈ v, c ≠ '\n' ∧ c ≠ '\r' ∧ c.toNat ∉ oddBreaks

/-- A line that continues a header: a blank or a tab, and something after it. -/
def Continues (l : Str) : Prop := OneLine l ∧ ∃ c r, l = c :: r ∧ (c = ' ' ∨ c = '\t') ∧ ∃ x ∈ r, isSpace x = false

/-- A header: its name, the first line of its value and the lines that continue it. -/
structure Field where
  name : Str
  first : Str
  more : List Str

/-- A header as every message has them: a proper name, and a value that may be folded. -/
def Field.Proper (f : Field) : Prop := FieldName f.name ∧ OneLine f.first ∧ ∀ l ∈ f.more, Continues l

/-- The header with its value. -/
def Field.header (f : Field) : Str × Str := (f.name, join c!"\n" (f.first :: f.more))

/-- The lines of the header. -/
def Field.lines (f : Field) : List Str := (f.name ++ c!": " ++ f.first) :: f.more

end Verif.Spec.HeadText
