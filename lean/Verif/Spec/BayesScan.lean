import Verif.Model.Py

/-!
# Addresses whose messages the classifier leaves alone
-/

namespace Verif.Spec
open Verif Py

/-- The entry is an address without wildcards. -/
def PlainEntry (entry : Str) : Prop := ∀ c ∈ entry, c ∉ c!"\\^$+?()[]{}|*"

/-- The documented meaning of an entry with the wildcards `*` (any characters) and `?` (any one character). -/
inductive Glob : Str → Str → Prop
  | nil : Glob [] []
  | char {c : Char} {p s : Str} : c ≠ '*' → c ≠ '?' → Glob p s → Glob (c :: p) (c :: s)
  | one {x : Char} {p s : Str} : Glob p s → Glob ('?' :: p) (x :: s)
  | none {p s : Str} : Glob p s → Glob ('*' :: p) s
  | more {x : Char} {p s : Str} : Glob ('*' :: p) s → Glob ('*' :: p) (x :: s)

/-- The piece of an address is the same as the entry, but a dot of the entry stands for any character of a line. -/
inductive DotSame : Str → Str → Prop
  | nil : DotSame [] []
  | same {c : Char} {p s : Str} : c ≠ '.' → DotSame p s → DotSame (c :: p) (c :: s)
  | dot {x : Char} {p s : Str} : x ≠ '\n' → DotSame p s → DotSame ('.' :: p) (x :: s)

end Verif.Spec
