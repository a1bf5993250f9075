import Verif.Model.MetaExpr

/-!
# What a meta expression says: the tokens of the documented (Perl-like) syntax, and
texts on which Perl and Python agree about the grouping of `!`.
-/

namespace Verif.MetaExpr
open Verif Py

/-- A finished word of the rule text: a number (without leading zeros, which make it octal in Perl)
or a rule name. -/
def ruleWord (w : Str) : Option (List Tok) :=
  if w = [] then some []
  else if w.all isDigit then if w = c!"0" ∨ w.head? ≠ some '0' then some [.num (numVal w)] else none
  else match w with
    | c :: _ => if isIdStart c then some [.name w] else none
    | [] => none

/-- What the signs mean. -/
def signs : List (Str × Tok) :=
  [(c!"(", .lp), (c!")", .rp), (c!"+", .op .add), (c!"-", .op .sub), (c!"*", .op .mul), (c!"<", .op (.cmp .lt)), (c!">", .op (.cmp .gt)),
   (c!"<=", .op (.cmp .le)), (c!">=", .op (.cmp .ge)), (c!"==", .op (.cmp .eq))]

/-- The meaning of a sign, if it has one. -/
def meant (s : Str) : Option Tok := (signs.find? fun p => p.1 == s).map Prod.snd

/-- The tokens of a rule text in the documented syntax (`&&`, `||`, `!`, …). -/
def ruleLex : Str → Str → Option (List Tok)
  | w, [] => ruleWord w
  | w, [c] =>
    if isWord c then ruleWord (w ++ [c])
    else if c = ' ' then ruleWord w
    else if c = '!' then andThen (ruleWord w) (some [.not])
    else andThen (ruleWord w) ((meant [c]).map ([·]))
  | w, c :: d :: cs =>
    if isWord c then ruleLex (w ++ [c]) (d :: cs)
    else if c = ' ' then andThen (ruleWord w) (ruleLex [] (d :: cs))
    else if c = '!' then
      (if d = '=' then none else andThen (ruleWord w) (andThen (some [.not]) (ruleLex [] (d :: cs))))
    else if c = '&' ∧ d = '&' then andThen (ruleWord w) (andThen (some [.op .and]) (ruleLex [] cs))
    else if c = '|' ∧ d = '|' then andThen (ruleWord w) (andThen (some [.op .or]) (ruleLex [] cs))
    else match meant [c, d] with
      | some t => andThen (ruleWord w) (andThen (some [t]) (ruleLex [] cs))
      | none =>
        match meant [c] with
        | some t => andThen (ruleWord w) (andThen (some [t]) (ruleLex [] (d :: cs)))
        | none => none

/-- The usual precedences, as in Perl and Python: `||` binds loosest, then `&&`, comparison,
sum and product. -/
def BinOp.prec : BinOp → Nat
  | .or => 0
  | .and => 1
  | .cmp _ => 3
  | .add => 4
  | .sub => 4
  | .mul => 5

/-- The precedence with which the left operand is written: chains group to the left, except that
comparisons do not chain. -/
def BinOp.leftPrec : BinOp → Nat
  | .cmp _ => 4
  | o => o.prec

def isNot : Expr → Bool
  | .not _ => true
  | _ => false

/-- Parentheses. -/
def paren (b : Bool) (ts : List Tok) : List Tok := if b then .lp :: (ts ++ [.rp]) else ts

/-- An expression written in the rule syntax, with the parentheses needed by the usual
precedences, around every compound operand of `!`, and around every `!` that is an operand
of a comparison or of arithmetic. -/
def written : Nat → Expr → List Tok
  | _, .num n => [.num n]
  | _, .rule s => [.name s]
  | l, .not e => paren (decide (2 < l)) (.not :: written (if isNot e then 2 else 6) e)
  | l, .bin o a b =>
    paren (decide (o.prec < l)) (written o.leftPrec a ++ .op o :: written (o.prec + 1) b)

/-- The documented value of an expression, given the results of the rules: numbers add, subtract
and multiply; a comparison and `!` give 1 or 0; `||` gives its first operand that is not 0 and
`&&` its first operand that is 0, or else the last. -/
inductive Value (env : Str → Int) : Expr → Int → Prop
  | num (n : Nat) : Value env (.num n) n
  | rule (s : Str) : Value env (.rule s) (env s)
  | not_zero {e} : Value env e 0 → Value env (.not e) 1
  | not_nonzero {e v} : Value env e v → v ≠ 0 → Value env (.not e) 0
  | or_first {a b v} : Value env a v → v ≠ 0 → Value env (.bin .or a b) v
  | or_second {a b v} : Value env a 0 → Value env b v → Value env (.bin .or a b) v
  | and_first {a b} : Value env a 0 → Value env (.bin .and a b) 0
  | and_second {a b u v} : Value env a u → u ≠ 0 → Value env b v → Value env (.bin .and a b) v
  | lt {a b u v} : Value env a u → Value env b v →
      Value env (.bin (.cmp .lt) a b) (if u < v then 1 else 0)
  | gt {a b u v} : Value env a u → Value env b v →
      Value env (.bin (.cmp .gt) a b) (if u > v then 1 else 0)
  | le {a b u v} : Value env a u → Value env b v →
      Value env (.bin (.cmp .le) a b) (if u ≤ v then 1 else 0)
  | ge {a b u v} : Value env a u → Value env b v →
      Value env (.bin (.cmp .ge) a b) (if u ≥ v then 1 else 0)
  | eq {a b u v} : Value env a u → Value env b v →
      Value env (.bin (.cmp .eq) a b) (if u = v then 1 else 0)
  | add {a b u v} : Value env a u → Value env b v → Value env (.bin .add a b) (u + v)
  | sub {a b u v} : Value env a u → Value env b v → Value env (.bin .sub a b) (u - v)
  | mul {a b u v} : Value env a u → Value env b v → Value env (.bin .mul a b) (u * v)

/-- The rule names in an expression. -/
def Expr.names : Expr → List Str
  | .num _ => []
  | .rule s => [s]
  | .not e => e.names
  | .bin _ a b => a.names ++ b.names

/-- The keywords of Python 3 other than `and`, `or` and `not`. -/
def pythonKeywords : List Str :=
  [c!"False", c!"None", c!"True", c!"as", c!"assert", c!"async", c!"await", c!"break", c!"class",
   c!"continue", c!"def", c!"del", c!"elif", c!"else", c!"except", c!"finally", c!"for", c!"from",
   c!"global", c!"if", c!"import", c!"in", c!"is", c!"lambda", c!"nonlocal", c!"pass", c!"raise",
   c!"return", c!"try", c!"while", c!"with", c!"yield"]

/-- Not a word with a meaning in Python, and not `msg` or `match`, which have a meaning in the code
that meta rules are compiled to. -/
def PlainName (s : Str) : Prop :=
  s ≠ c!"and" ∧ s ≠ c!"or" ∧ s ≠ c!"not" ∧ s ∉ pythonKeywords ∧ s ≠ c!"msg" ∧ s ≠ c!"match"

/-- A letter of the Latin alphabet. -/
def isLetter (c : Char) : Prop := ('a' ≤ c ∧ c ≤ 'z') ∨ ('A' ≤ c ∧ c ≤ 'Z')

/-- A rule name: a letter or underscore, then letters, digits and underscores. -/
def RuleName : Str → Prop
  | [] => False
  | c :: cs => (isLetter c ∨ c = '_') ∧ ∀ d ∈ cs, isLetter d ∨ d = '_' ∨ ('0' ≤ d ∧ d ≤ '9')

end Verif.MetaExpr
