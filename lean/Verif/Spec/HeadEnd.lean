import Verif.Model.Py
import Verif.Spec.Header

/-!
# Specification of the end of the headers
-/

namespace Verif.Spec.HeadEnd
open Verif Py

/-- A line that belongs to the headers: the line that mail folders begin with, a name of printable characters and a colon, or
the continuation of the line before. -/
inductive HeaderLine : Str → Prop
  | envelope (r : Str) : HeaderLine (c!"From " ++ r)
  | field (name r : Str) : (∀ c ∈ name, 33 ≤ c.toNat ∧ c.toNat ≤ 126 ∧ c ≠ ':') → HeaderLine (name ++ ':' :: r)
  | folded (c : Char) (r : Str) : c = ' ' ∨ c = '\t' → HeaderLine (c :: r)

/-- Characters of Unicode other than `\n` and `\r` at which a text may be thought to begin a new line. -/
def oddBreaks : List Nat := [0x0B, 0x0C, 0x1C, 0x1D, 0x1E, 0x85, 0x2028, 0x2029]

/-- A line without such characters. -/
def Plain (l : Str) : Prop := ∀ c ∈ l, c.toNat ∉ oddBreaks

end Verif.Spec.HeadEnd
