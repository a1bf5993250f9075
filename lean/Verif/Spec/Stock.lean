import Verif.Model.Py

/-!
# Words about stocks
-/

namespace Verif.Spec
open Verif Py

/-- Terms of the stock market, as they are looked for. -/
def stockTerms : List Str :=
  [c!"company", c!"companyname", c!"target", c!"ticker", c!"openingp", c!"openingprice", c!"currentp", c!"currentprice", c!"projected",
   c!"position", c!"expectations", c!"weekhigh", c!"weekshigh", c!"marketperformance", c!"yeartarget", c!"yearestimate",
   c!"yearestimates", c!"weektarget", c!"weekestimate", c!"weekestimates", c!"monthtarget", c!"monthestimate", c!"monthestimates",
   c!"daytarget", c!"dayestimate", c!"dayestimates", c!"pricetarget", c!"priceestimate", c!"priceestimates", c!"sector",
   c!"recommendation", c!"rating"]

/-- Terms that are looked for at the beginning of lines. -/
def dateTerms : List Str := [c!"tradedate", c!"tradingdate"]

/-- A text spelled with at most one other character of a word between each two of its letters. -/
inductive Spelled (word : Char → Bool) : Str → Str → Prop
  | last {l c} : c.toLower = l → Spelled word [l] [c]
  | next {l c ls w} : c.toLower = l → Spelled word ls w → Spelled word (l :: ls) (c :: w)
  | filled {l c f ls w} : c.toLower = l → word f = true → Spelled word ls w → Spelled word (l :: ls) (c :: f :: w)

/-- A term of the stock market, in letters of any case. -/
def StockTerm (word : Char → Bool) (w : Str) : Prop :=
  w.map Char.toLower ∈ stockTerms ∨ Spelled word c!"stock" w ∨ Spelled word c!"sym" w ∨ Spelled word c!"symbol" w

/-- A term that stands after `before` in a word; `start`: the word is at the beginning of a line. -/
def TermAt (word : Char → Bool) (start : Bool) (before w : Str) : Prop :=
  StockTerm word w ∨ w.map Char.toLower ∈ dateTerms ∧ before = [] ∧ start = true

/-- A word with a term in it. -/
def HasTerm (word : Char → Bool) (p : Bool × Str) : Prop :=
  ∃ before w after, p.2 = before ++ w ++ after ∧ TermAt word p.1 before w

/-- A word in which no term follows on another. -/
def OneTerm (word : Char → Bool) (p : Bool × Str) : Prop :=
  ∀ before w between w' after, p.2 = before ++ w ++ between ++ w' ++ after → TermAt word p.1 before w → ¬ StockTerm word w'

/-- A text and its words, each with whether it is at the beginning of a line: between two of them is a character that belongs to
no word. -/
inductive WordsOf (word : Char → Bool) : Bool → Str → List (Bool × Str) → Prop
  | last {start w} : (∀ c ∈ w, word c = true) → WordsOf word start w [(start, w)]
  | more {start w z rest l} : (∀ c ∈ w, word c = true) → word z = false → WordsOf word (z == '\n') rest l →
      WordsOf word start (w ++ z :: rest) ((start, w) :: l)

end Verif.Spec
