import Verif.Model.DkimKey

/-!
# Specification of the keys of DKIM signatures
-/

namespace Verif.DkimKey
open Verif Py

/-- The text of the key in an answer: the strings of the first record of the first TXT set, joined. -/
def Key (sets : List RRset) (k : Str) : Prop :=
  ∃ before s after strings more, sets = before ++ s :: after ∧ (∀ b ∈ before, b.txt = false) ∧ s.txt = true ∧
    s.items = strings :: more ∧ k = strings.flatten

/-- All characters are ASCII. -/
def Ascii (name : Str) : Prop := ∀ c ∈ name, c.toNat < 128

end Verif.DkimKey
