import Verif.Model.Py

/-!
# Translating meta expressions to Python: `oa/rules/meta.py` 47-55, 70-74

`subNames` and `convertOps` model the translation performed by the code, on the
characters of the rule.  `pyLex` and `parse` stand for the part of Python that
`compile` and `exec` run on the result: the expression grammar for names called with
one argument, integers, parentheses, `or`, `and`, `not`, a single comparison, `+`, `-`
and `*`.  Text outside this fragment gives `none`.
-/

namespace Verif.MetaExpr
open Verif Py

/-- `[_a-zA-Z]`, the first character of a rule name (oa/rules/meta.py 21). -/
def isIdStart (c : Char) : Bool := c == '_' || c.isAlpha

/-- `\w`.  Simplification: ASCII. -/
def isWord (c : Char) : Bool := c == '_' || c.isAlphanum

/-- `"(msg)"` -/
def callSuffix : Str := c!"(msg)"

/-- `_SUBRULE_P.sub(r"\1(msg)", rule)` (oa/rules/meta.py 21, 48): inside a run of word
characters the match begins at the first `[_a-zA-Z]` and, being greedy and followed by
`(?=\W|$)`, ends where the run ends.  `inName` says that a match has begun. -/
def subNames (inName : Bool) : Str → Str
  | [] => if inName then callSuffix else []
  | c :: cs =>
    if isWord c then c :: subNames (inName || isIdStart c) cs
    else (if inName then callSuffix else []) ++ c :: subNames false cs

/-- `_SUBRULE_P.findall(rule)` (oa/rules/meta.py 48); `acc` is the match so far. -/
def findNames (acc : Str) : Str → List Str
  | [] => if acc = [] then [] else [acc]
  | c :: cs =>
    if isWord c then
      (if acc = [] && !isIdStart c then findNames [] cs else findNames (acc ++ [c]) cs)
    else (if acc = [] then [] else [acc]) ++ findNames [] cs

/-- `for operator, repl in CONVERT: rule = rule.replace(operator, repl)`
(oa/rules/meta.py 12-16, 50-51). -/
def convertOps (s : Str) : Str :=
  replace c!"!" c!" not " (replace c!"||" c!" or " (replace c!"&&" c!" and " s))

/-- The Python expression compiled for the rule (oa/rules/meta.py 49-52; the prefix
`match = lambda msg: ` makes it the body of a function of `msg`). -/
def translate (rule : Str) : Str := convertOps (subNames false rule)

/-! ### Expressions and tokens -/

inductive Cmp where
  | lt | gt | le | ge | eq
deriving DecidableEq, Repr

inductive BinOp where
  | or | and | cmp (c : Cmp) | add | sub | mul
deriving DecidableEq, Repr

/-- Tokens of both languages: `not` is `!` in the rule and `not` in Python, and so on. -/
inductive Tok where
  | lp | rp | not | op (o : BinOp) | num (n : Nat) | name (s : Str)
deriving DecidableEq, Repr

/-- Syntax trees. -/
inductive Expr where
  | num (n : Nat)
  | rule (s : Str)
  | not (e : Expr)
  | bin (o : BinOp) (a b : Expr)
deriving DecidableEq, Repr

def isDigit (c : Char) : Bool := c.isDigit

/-- The number written by a run of digits. -/
def numVal (s : Str) : Nat := s.foldl (fun n c => 10 * n + (c.toNat - '0'.toNat)) 0

/-- The reserved words of Python 3 (they cannot be used as names). -/
def pyReserved : List Str :=
  [c!"False", c!"None", c!"True", c!"as", c!"assert", c!"async", c!"await", c!"break", c!"class",
   c!"continue", c!"def", c!"del", c!"elif", c!"else", c!"except", c!"finally", c!"for", c!"from",
   c!"global", c!"if", c!"import", c!"in", c!"is", c!"lambda", c!"nonlocal", c!"pass", c!"raise",
   c!"return", c!"try", c!"while", c!"with", c!"yield"]

/-- A run of digits that is a number in Python 3: a number other than 0 has no leading zeros. -/
def pyNumber (w : Str) : Bool := w.all (fun c => c == '0') || w.head? != some '0'

/-- A finished run of word characters, in Python: a number, `and`/`or`/`not`, or a name. -/
def pyWord (w : Str) : Option (List Tok) :=
  if w = [] then some []
  else if w.all isDigit then if pyNumber w then some [.num (numVal w)] else none
  else if w = c!"and" then some [.op .and]
  else if w = c!"or" then some [.op .or]
  else if w = c!"not" then some [.not]
  else if pyReserved.contains w then none
  else match w with
    | c :: _ => if isIdStart c then some [.name w] else none
    | [] => none

/-- The one- and two-character tokens shared by the two languages. -/
def symTok : Char → Option Tok
  | '(' => some .lp
  | ')' => some .rp
  | '+' => some (.op .add)
  | '-' => some (.op .sub)
  | '*' => some (.op .mul)
  | '<' => some (.op (.cmp .lt))
  | '>' => some (.op (.cmp .gt))
  | _ => none

/-- `<=`, `>=` and `==`. -/
def symTok2 : Char → Char → Option Tok
  | '<', '=' => some (.op (.cmp .le))
  | '>', '=' => some (.op (.cmp .ge))
  | '=', '=' => some (.op (.cmp .eq))
  | _, _ => none

/-- Put tokens in front of the tokens of the rest. -/
def andThen (a b : Option (List Tok)) : Option (List Tok) :=
  match a, b with
  | some x, some y => some (x ++ y)
  | _, _ => none

/-- Python's tokens; `w` is the run of word characters read so far. -/
def pyLex : Str → Str → Option (List Tok)
  | w, [] => pyWord w
  | w, [c] =>
    if isWord c then pyWord (w ++ [c])
    else if c = ' ' then pyWord w
    else andThen (pyWord w) ((symTok c).map ([·]))
  | w, c :: d :: cs =>
    if isWord c then pyLex (w ++ [c]) (d :: cs)
    else if c = ' ' then andThen (pyWord w) (pyLex [] (d :: cs))
    else match symTok2 c d with
      | some t => andThen (pyWord w) (andThen (some [t]) (pyLex [] cs))
      | none =>
        match symTok c with
        | some t => andThen (pyWord w) (andThen (some [t]) (pyLex [] (d :: cs)))
        | none => none

/-- How tight an operator binds, loosest first (the same order in Perl and Python):
`or` < `and` < (`not` in Python) < comparison < sum < product. -/
def BinOp.level : BinOp → Nat
  | .or => 0
  | .and => 1
  | .cmp _ => 3
  | .add => 4
  | .sub => 4
  | .mul => 5

mutual
/-- Recursive-descent parser for one precedence level (0 `or`, 1 `and`, 2 `not`,
3 comparison, 4 sum, 5 product, 6 atom), with fuel.  `perl = true`: Perl's reading of a
rule, where `!` binds tighter than every other operator and a rule is a bare name.
`perl = false`: Python's reading, where `not` has its own level and a rule is a call
`NAME(msg)`. -/
def parse (perl : Bool) : Nat → Nat → List Tok → Option (Expr × List Tok)
  | 0, _, _ => none
  | f + 1, lvl, ts =>
    match lvl with
    | 0 => match parse perl f 1 ts with
      | some (a, r) => parseLoop perl f 0 a r
      | none => none
    | 1 => match parse perl f 2 ts with
      | some (a, r) => parseLoop perl f 1 a r
      | none => none
    | 2 =>
      match perl, ts with
      | false, .not :: r => match parse perl f 2 r with
        | some (a, r') => some (.not a, r')
        | none => none
      | _, _ => parse perl f 3 ts
    | 3 => match parse perl f 4 ts with
      | some (a, .op (.cmp c) :: r) => match parse perl f 4 r with
        | some (b, r') => some (.bin (.cmp c) a b, r')
        | none => none
      | res => res
    | 4 => match parse perl f 5 ts with
      | some (a, r) => parseLoop perl f 4 a r
      | none => none
    | 5 => match parse perl f 6 ts with
      | some (a, r) => parseLoop perl f 5 a r
      | none => none
    | _ =>
      match perl, ts with
      | _, .num n :: r => some (.num n, r)
      | _, .lp :: r => match parse perl f 0 r with
        | some (a, .rp :: r') => some (a, r')
        | _ => none
      | true, .not :: r => match parse perl f 6 r with
        | some (a, r') => some (.not a, r')
        | none => none
      | true, .name n :: r => some (.rule n, r)
      | false, .name n :: .lp :: .name m :: .rp :: r =>
        if m = c!"msg" then some (.rule n, r) else none
      | _, _ => none

/-- The rest of a left-associative chain of operators of level `lvl`. -/
def parseLoop (perl : Bool) : Nat → Nat → Expr → List Tok → Option (Expr × List Tok)
  | 0, _, _, _ => none
  | f + 1, lvl, a, ts =>
    match ts with
    | .op o :: r =>
      if o.level = lvl then
        match parse perl f (lvl + 1) r with
        | some (b, r') => parseLoop perl f lvl (.bin o a b) r'
        | none => none
      else some (a, ts)
    | _ => some (a, ts)
end

/-- A complete expression. -/
def parseAll (perl : Bool) (ts : List Tok) : Option Expr :=
  match parse perl (8 * ts.length + 16) 0 ts with
  | some (e, []) => some e
  | _ => none

/-- Python's truth value of an integer or bool. -/
def truthy (v : Int) : Bool := v ≠ 0

def ofBool (b : Bool) : Int := if b then 1 else 0

def Cmp.eval : Cmp → Int → Int → Bool
  | .lt, a, b => a < b
  | .gt, a, b => b < a
  | .le, a, b => a ≤ b
  | .ge, a, b => b ≤ a
  | .eq, a, b => a = b

/-- Evaluation.  `env` is the result of each sub-rule's `match(msg)`; rule results are
bools or integers (Python bools are the integers 0 and 1). -/
def eval (env : Str → Int) : Expr → Int
  | .num n => n
  | .rule s => env s
  | .not e => ofBool (!truthy (eval env e))
  | .bin .or a b => if truthy (eval env a) then eval env a else eval env b
  | .bin .and a b => if truthy (eval env a) then eval env b else eval env a
  | .bin (.cmp c) a b => ofBool (c.eval (eval env a) (eval env b))
  | .bin .add a b => eval env a + eval env b
  | .bin .sub a b => eval env a - eval env b
  | .bin .mul a b => eval env a * eval env b

/-- The names that do not stand for a rule in the compiled function `match = lambda msg: …`
(oa/rules/meta.py 52, 69-70): its own parameter, and the function itself, which `exec` puts in the
place of a rule called `match`. -/
def ownNames : List Str := [c!"msg", c!"match"]

/-- The compiled expression run by Python; `none` is an exception.  `and` and `or` evaluate their
second operand only if needed.  A message cannot be called (`TypeError`).  Simplification: calling
`match` from itself is an exception (the recursion ends with `RecursionError` unless a rule changes
its result while it goes on). -/
def pyEval (env : Str → Int) : Expr → Option Int
  | .num n => some n
  | .rule s => if s ∈ ownNames then none else some (env s)
  | .not e =>
    match pyEval env e with
    | some v => some (ofBool (!truthy v))
    | none => none
  | .bin o a b =>
    match pyEval env a with
    | none => none
    | some u =>
      match o with
      | .or => if truthy u then some u else pyEval env b
      | .and => if truthy u then pyEval env b else some u
      | .cmp c =>
        match pyEval env b with
        | some v => some (ofBool (c.eval u v))
        | none => none
      | .add =>
        match pyEval env b with
        | some v => some (u + v)
        | none => none
      | .sub =>
        match pyEval env b with
        | some v => some (u - v)
        | none => none
      | .mul =>
        match pyEval env b with
        | some v => some (u * v)
        | none => none

/-- `MetaRule.match` (oa/rules/meta.py 52-55, 70-74): run the translated expression; `none` is an
exception, when it is compiled or when it is run. -/
def metaMatch (rule : Str) (env : Str → Int) : Option Int :=
  match pyLex [] (translate rule) with
  | some ts =>
    match parseAll false ts with
    | some e => pyEval env e
    | none => none
  | none => none

end Verif.MetaExpr
