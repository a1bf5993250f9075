import Verif.Model.Py

/-!
# Regular expressions

The part of Python's `re` that the expressions written in the code use: characters and classes, sequence, choice, `*` and `*?` of
classes, groups, `^`, `$`, `\b`, and looking one character ahead or behind.  Matching is by backtracking, in the order in which `re`
tries the alternatives.  Characters are compared one by one: classes are those of ASCII, except white space, which is that of
`Verif.Py.isSpace`.
-/

namespace Verif.Re
open Verif Py

/-- An expression. -/
inductive Re where
  | eps
  /-- one character of a class -/
  | chr (p : Char → Bool)
  | seq (a b : Re)
  /-- `a|b` -/
  | alt (a b : Re)
  /-- `p*`, or `p*?` if not greedy -/
  | star (greedy : Bool) (p : Char → Bool)
  /-- `(r)`, the group with that number -/
  | group (n : Nat) (r : Re)
  /-- `^` -/
  | bol
  /-- `$` -/
  | eol
  /-- `\b` -/
  | wordb
  /-- `(?<![p])` -/
  | nbehind (p : Char → Bool)
  /-- `(?![p])` -/
  | nahead (p : Char → Bool)

/-- Where matching has come to: the characters before, the last one first; the characters after; and the groups, the last one first. -/
structure St where
  before : Str
  after : Str
  groups : List (Nat × Str)
deriving DecidableEq, Repr

/-- `\w` -/
def isWord (c : Char) : Bool := c.isAlphanum || c == '_'

/-- Whether the first character is one of words. -/
def wordAt (s : Str) : Bool :=
  match s with
  | c :: _ => isWord c
  | [] => false

/-- Whether the first character is of a class. -/
def headIn (p : Char → Bool) (s : Str) : Bool :=
  match s with
  | c :: _ => p c
  | [] => false

/-- `p*` and then `k`. -/
def starGo (greedy : Bool) (p : Char → Bool) (gs : List (Nat × Str)) (k : St → Option St) : Str → Str → Option St
  | b, [] => k ⟨b, [], gs⟩
  | b, c :: cs =>
    if p c then
      if greedy then
        match starGo greedy p gs k (c :: b) cs with
        | some r => some r
        | none => k ⟨b, c :: cs, gs⟩
      else
        match k ⟨b, c :: cs, gs⟩ with
        | some r => some r
        | none => starGo greedy p gs k (c :: b) cs
    else k ⟨b, c :: cs, gs⟩

/-- Match an expression and then go on with `k`: the first way in which both succeed. -/
def m : Re → St → (St → Option St) → Option St
  | .eps, s, k => k s
  | .chr p, s, k =>
    match s.after with
    | c :: cs => if p c then k ⟨c :: s.before, cs, s.groups⟩ else none
    | [] => none
  | .seq a b, s, k => m a s (fun t => m b t k)
  | .alt a b, s, k =>
    match m a s k with
    | some r => some r
    | none => m b s k
  | .star greedy p, s, k => starGo greedy p s.groups k s.before s.after
  | .group n r, s, k => m r s (fun t => k { t with groups := (n, s.after.take (s.after.length - t.after.length)) :: t.groups })
  | .bol, s, k => if s.before = [] then k s else none
  | .eol, s, k => if s.after = [] ∨ s.after = ['\n'] then k s else none
  | .wordb, s, k => if wordAt s.before != wordAt s.after then k s else none
  | .nbehind p, s, k => if headIn p s.before then none else k s
  | .nahead p, s, k => if headIn p s.after then none else k s

/-- `re.match(r, text)`. -/
def matchRe (r : Re) (text : Str) : Option St := m r ⟨[], text, []⟩ some

/-- `re.search` from some place on. -/
def searchFrom (r : Re) : Str → Str → Option St
  | b, [] => m r ⟨b, [], []⟩ some
  | b, c :: cs =>
    match m r ⟨b, c :: cs, []⟩ some with
    | some t => some t
    | none => searchFrom r (c :: b) cs

/-- `re.search(r, text)`. -/
def search (r : Re) (text : Str) : Option St := searchFrom r [] text

/-- A group of a match; `none` if it has not taken part. -/
def St.get (t : St) (n : Nat) : Option Str := Dict.get? t.groups n

/-- `re.findall(r, text)` for an expression without groups that matches no empty text; `skip` characters belong to the match before. -/
def findGo (r : Re) : Nat → Str → Str → List Str
  | _, _, [] => []
  | skip + 1, b, c :: cs => findGo r skip (c :: b) cs
  | 0, b, c :: cs =>
    match m r ⟨b, c :: cs, []⟩ some with
    | none => findGo r 0 (c :: b) cs
    | some t =>
      let n := (c :: cs).length - t.after.length
      (c :: cs).take n :: findGo r (n - 1) (c :: b) cs

/-- `re.findall(r, text)`. -/
def findAll (r : Re) (text : Str) : List Str := findGo r 0 [] text

/-! ### Writing expressions -/

/-- A text. -/
def lit : Str → Re
  | [] => .eps
  | c :: cs => .seq (.chr (fun d => d == c)) (lit cs)

/-- A text with `re.I`. -/
def ilit : Str → Re
  | [] => .eps
  | c :: cs => .seq (.chr (fun d => d.toLower == c.toLower)) (ilit cs)

/-- `p+`, greedy. -/
def plus (p : Char → Bool) : Re := .seq (.chr p) (.star true p)

/-- `r?` -/
def opt (r : Re) : Re := .alt r .eps

/-- Choice among several. -/
def alts : List Re → Re
  | [] => .chr (fun _ => false)
  | [r] => r
  | r :: rs => .alt r (alts rs)

/-- Sequence of several. -/
def seqs : List Re → Re
  | [] => .eps
  | [r] => r
  | r :: rs => .seq r (seqs rs)

/-- At most `n` times. -/
def upTo (r : Re) : Nat → Re
  | 0 => .eps
  | n + 1 => .alt (.seq r (upTo r n)) .eps

/-- `r{n}` -/
def times (r : Re) : Nat → Re
  | 0 => .eps
  | n + 1 => .seq r (times r n)

/-- `r{lo,hi}` -/
def rep (r : Re) (lo hi : Nat) : Re := .seq (times r lo) (upTo r (hi - lo))

/-- `.` -/
def dot (c : Char) : Bool := c != '\n'

/-- `\S` -/
def nonSpace (c : Char) : Bool := !isSpace c

/-- `\d` -/
def digit (c : Char) : Bool := c.isDigit

/-- `\s` -/
def sp : Re := .chr isSpace

end Verif.Re
