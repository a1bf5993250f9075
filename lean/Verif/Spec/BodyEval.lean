import Verif.Model.BodyEval

/-! # Specification: the tree of parts, the words in it, and lines -/

namespace Verif.BodyEval
open Verif Py

/-- A message: a part with its identity, type and text, and the parts in it. -/
inductive Tree
  | node (id : Nat) (type : Str) (text : Option Str) (kids : List Tree)

/-- The identity of the outermost part. -/
def Tree.id : Tree → Nat
  | .node i _ _ _ => i

mutual
/-- The parts in the order of `Message.walk` (each part before the parts in it). -/
def Tree.walk : Tree → List Part
  | .node i type text kids => ⟨i, type, kids.map Tree.id, text⟩ :: walkAll kids
/-- The same for several trees. -/
def walkAll : List Tree → List Part
  | [] => []
  | t :: ts => t.walk ++ walkAll ts
end

mutual
/-- The texts of the parts of type `ty` that lie directly in a `multipart/alternative`; `alt` tells whether the outermost part
does. -/
def Tree.texts (ty : Str) (alt : Bool) : Tree → List Str
  | .node _ type text kids =>
    (if alt = true ∧ type = ty then text.toList else []) ++ textsAll ty (decide (type = c!"multipart/alternative")) kids
/-- The same for several trees. -/
def textsAll (ty : Str) (alt : Bool) : List Tree → List Str
  | [] => []
  | t :: ts => t.texts ty alt ++ textsAll ty alt ts
end

/-- A text read character by character: white space ends a word, letters, digits and underscores (`u` for those outside ASCII)
belong to it, in lower case, and other characters are passed over.  `cur` is what was read of the current word. -/
def wordsFrom (u : Char → Bool) (cur : Str) : Str → List Str
  | [] => if cur = [] then [] else [cur]
  | c :: s =>
    if isSpace c then (if cur = [] then [] else [cur]) ++ wordsFrom u [] s
    else if c.isAlphanum ∨ c = '_' ∨ 0x80 ≤ c.toNat ∧ u c = true then wordsFrom u (cur ++ [c.toLower]) s
    else wordsFrom u cur s

/-- The words of a text. -/
def wordsOf (u : Char → Bool) (text : Str) : List Str := wordsFrom u [] text

/-- The words of the plain alternatives. -/
def plainWords (u : Char → Bool) (t : Tree) : List Str := (t.texts c!"text/plain" false).flatMap (wordsOf u)

/-- The words of the HTML alternatives. -/
def htmlWords (u : Char → Bool) (t : Tree) : List Str := (t.texts c!"text/html" false).flatMap (wordsOf u)

/-- The identities of the parts are different from each other. -/
def Tree.Distinct (t : Tree) : Prop := (t.walk.map Part.id).Nodup

/-- The number that an argument of a rule stands for: it may be given as a number or as a text. -/
def Means (a : Arg) (x : Rat) : Prop := a = .num x ∨ a = .str (some x)

/-- The lines of a text that end with a line break. -/
def linesOf (raw : Str) : List Str := (splitChar '\n' raw).dropLast

end Verif.BodyEval
