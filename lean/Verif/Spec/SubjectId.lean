import Verif.Model.Py

/-! # Numbers at the end of a subject -/

namespace Verif.Spec
open Verif Py

/-- Some number: digits only. -/
def Number (s : Str) : Prop := s ≠ [] ∧ ∀ c ∈ s, c.isDigit = true

/-- A text with ordinary spacing: blanks are the only white space, never three in a row, and there are no lines, dots and dashes. -/
structure Calm (s : Str) : Prop where
  blank : ∀ c ∈ s, isSpace c = true → c = ' '
  few : ¬ c!"   " <:+: s
  marks : ∀ c ∈ s, c ∉ c!"-_."

/-- Words with which businesses announce numbers, in any case. -/
def Announces (w : Str) : Prop := lower w ∈ [c!"item", c!"invoice", c!"order", c!"number", c!"confirmation"]

/-- The number at the end of the text is announced: such a word is before it, with one to six characters between them. -/
def Announced (text number : Str) : Prop :=
  ∃ a w gap, text = a ++ w ++ gap ++ number ∧ Announces w ∧ 1 ≤ gap.length ∧ gap.length ≤ 6

/-! ### Subjects that end like one with an identifier -/

/-- Letters, digits and `_`. -/
def WordChars (s : Str) : Prop := ∀ c ∈ s, c.isAlphanum = true ∨ c = '_'

/-- Letters, digits and dashes. -/
def IdChars (s : Str) : Prop := ∀ c ∈ s, c.isAlphanum = true ∨ c = '-'

/-- White space. -/
def IdBlank (s : Str) : Prop := ∀ c ∈ s, isSpace c = true

/-- At least so many characters of white space, dots and lines. -/
def IdGap (n : Nat) (s : Str) : Prop := n ≤ s.length ∧ ∀ c ∈ s, isSpace c = true ∨ c = '.' ∨ c = '_'

/-- Words, each with a dash before it. -/
def dashed (ws : List Str) : Str := ws.flatMap (fun w => '-' :: w)

/-- Some words, none of them empty. -/
def IdWords (ws : List Str) : Prop := ∀ w ∈ ws, w ≠ [] ∧ WordChars w

/-- The ends of subjects that look like identifiers. -/
inductive IdEnd : Str → Prop
  /-- seven dashes, lines, dots or blanks -/
  | ruled (pre gap id : Str) (hg : 7 ≤ gap.length) (hc : ∀ c ∈ gap, isSpace c = true ∨ c ∈ c!"-_.") (h4 : 4 ≤ id.length)
      (hi : IdChars id) : IdEnd (pre ++ gap ++ id)
  /-- ten blanks, and perhaps a single character -/
  | far (pre gap o id : Str) (hg : 10 ≤ gap.length) (hb : IdBlank gap)
      (ho : o = [] ∨ ∃ x y, o = [x, y] ∧ isSpace x = false ∧ isSpace y = true) (h0 : id ≠ []) (hi : ∀ c ∈ id, isSpace c = false) :
      IdEnd (pre ++ gap ++ o ++ id)
  /-- three blanks, and brackets -/
  | bracketed (pre gap l id r : Str) (hg : 3 ≤ gap.length) (hb : IdBlank gap) (hl : l ≠ []) (hlc : ∀ c ∈ l, c ∈ c!"-:#([")
      (h4 : 4 ≤ id.length) (hi : IdChars id) (hr : r ≠ []) (hrc : ∀ c ∈ r, c ∈ c!"])") : IdEnd (pre ++ gap ++ l ++ id ++ r)
  /-- three blanks, and a mark -/
  | marked (pre gap id : Str) (x : Char) (hg : 3 ≤ gap.length) (hb : IdBlank gap) (hx : x ∈ c!"-:#") (h5 : 5 ≤ id.length)
      (hi : ∀ c ∈ id, c.isAlphanum = true) : IdEnd (pre ++ gap ++ [x] ++ id)
  /-- a gap, and some character and three digits -/
  | number (pre gap n : Str) (x : Char) (hg : IdGap 3 gap) (hx : x ≠ '0' ∧ isSpace x = false ∧ x ≠ '.' ∧ x ≠ '_') (h3 : 3 ≤ n.length)
      (hn : ∀ c ∈ n, c.isDigit = true) : IdEnd (pre ++ gap ++ [x] ++ n)
  /-- a gap, and square brackets -/
  | boxed (pre gap id : Str) (hg : IdGap 3 gap) (h0 : id ≠ []) (hi : ∀ c ∈ id, isSpace c = false) : IdEnd (pre ++ gap ++ c!"[" ++ id ++ c!"]")
  /-- something like an address in parentheses -/
  | address (pre id n : Str) (h7 : 7 ≤ id.length) (hi : ∀ c ∈ id, c.isAlphanum = true ∨ c = '_' ∨ c = '-') (hn : Number n) :
      IdEnd (pre ++ c!"(" ++ id ++ c!"@" ++ n ++ c!")")
  /-- a number of seven digits -/
  | seven (pre n z : Str) (hp : ∀ c, pre.getLast? = some c → c.isAlphanum = false ∧ c ≠ '_') (h7 : 7 ≤ n.length)
      (hn : ∀ c ∈ n, c.isDigit = true) (hz : IdBlank z) : IdEnd (pre ++ n ++ z)
  /-- a number after a mark -/
  | called (pre b n z : Str) (x : Char) (hx : x ∈ c!"!?") (hb : IdBlank b) (h4 : 4 ≤ n.length) (hn : ∀ c ∈ n, c.isDigit = true) (hz : IdBlank z) :
      IdEnd (pre ++ [x] ++ b ++ n ++ z)
  /-- words with dashes after a mark -/
  | calledWords (pre b z w : Str) (ws : List Str) (x : Char) (hx : x ∈ c!"!?") (hb : IdBlank b) (hw : IdWords (w :: ws)) (h0 : ws ≠ [])
      (hz : IdBlank z) : IdEnd (pre ++ [x] ++ b ++ w ++ dashed ws ++ z)
  /-- two long words with a dash, after another word, and perhaps more words -/
  | long (pre v b x y z : Str) (ws : List Str) (hv : v ≠ []) (hvw : WordChars v) (hb0 : b ≠ []) (hb : IdBlank b) (hx : 7 ≤ x.length)
      (hxw : WordChars x) (hy : 7 ≤ y.length) (hyw : WordChars y) (hw : IdWords ws) (hz : IdBlank z) :
      IdEnd (pre ++ v ++ b ++ x ++ c!"-" ++ y ++ dashed ws ++ z)
  /-- a number of base 16 after a number sign -/
  | hash (pre b n z : Str) (x : Char) (hx : isSpace x = true) (hb : IdBlank b) (h4 : 4 ≤ n.length)
      (hn : ∀ c ∈ n, ('0' ≤ c ∧ c ≤ '9') ∨ ('a' ≤ c ∧ c ≤ 'f') ∨ ('A' ≤ c ∧ c ≤ 'F')) (hz : IdBlank z) :
      IdEnd (pre ++ [x] ++ c!"#" ++ b ++ n ++ z)

end Verif.Spec
