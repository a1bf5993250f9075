import Verif.Model.Rule

/-!
# Perl patterns: `oa/regex.py`

Python's `re` module is a parameter (`ReLib`).
-/

namespace Verif
open Py

/-- The combination of `re` flags that `FLAGS` (oa/regex.py 12-17) can produce. -/
structure ReFlags where
  /-- `re.IGNORECASE` -/
  i : Bool
  /-- `re.DOTALL` -/
  s : Bool
  /-- `re.MULTILINE` -/
  m : Bool
  /-- `re.VERBOSE` -/
  x : Bool
deriving DecidableEq, Repr

/-- Python's `re`: `compile` (`none` is `re.error`) and `bool(compiled.search(text))`. -/
structure ReLib (R : Type) where
  compile : Str → ReFlags → Option R
  search : R → Str → Bool

/-- `MatchPattern` / `NotMatchPattern` (oa/regex.py 60-81). -/
structure Pat (R : Type) where
  re : R
  neg : Bool
deriving DecidableEq

/-- `Pattern.match` (oa/regex.py 73-74, 80-81). -/
def Pat.test {R : Type} (L : ReLib R) (p : Pat R) (text : Str) : Bool :=
  if p.neg then !L.search p.re text else L.search p.re text

/-- `DELIMS` (oa/regex.py 19-29). -/
def delims : Dict Char Char :=
  [('/', '/'), ('{', '}'), ('%', '%'), ('<', '>'), ('\'', '\''), ('~', '~'), (',', ','),
   ('!', '!'), (';', ';')]

/-- One step of the `reduce` over the flag letters (oa/regex.py 104, 12-17). -/
def addFlag (f : ReFlags) (c : Char) : ReFlags :=
  if c = 'i' then { f with i := true }
  else if c = 's' then { f with s := true }
  else if c = 'm' then { f with m := true }
  else if c = 'x' then { f with x := true }
  else f

/-- `reduce(operator.or_, (FLAGS.get(flag, 0) for flag in flags_str), 0)` (oa/regex.py 104). -/
def flagsOf (s : Str) : ReFlags := s.foldl addFlag ⟨false, false, false, false⟩

/-- Length of the extension matched by the first substitution after `(?`: the longest run of
`[adlupimsx-]`, or `^` followed by a run of `[?^alupimsx]`, if a `:` follows; otherwise 0
(oa/regex.py 33-40). -/
def extLen (s : Str) : Nat :=
  let a := s.takeWhile (fun c => c!"adlupimsx-".contains c)
  if s.drop a.length |>.head? |> (· == some ':') then a.length
  else match s with
    | '^' :: t =>
      let b := t.takeWhile (fun c => c!"?^alupimsx".contains c)
      if t.drop b.length |>.head? |> (· == some ':') then b.length + 1 else 0
    | _ => 0

/-- First substitution (oa/regex.py 33-40): `(?i:` becomes `(?:`.  The number is how many
characters of an extension are still to be removed. -/
def convExt : Nat → Str → Str
  | _, [] => []
  | k + 1, _ :: cs => convExt k cs
  | 0, '(' :: '?' :: cs => '(' :: '?' :: convExt (extLen cs) cs
  | 0, c :: cs => c :: convExt 0 cs

/-- Second substitution (oa/regex.py 42-48): `\b?` becomes `(\b)?`. -/
def convWord : Str → Str
  | [] => []
  | '\\' :: b :: cs =>
    if (b = 'b' ∨ b = 'B') ∧ cs.head? = some '?' then '(' :: '\\' :: b :: ')' :: convWord cs
    else '\\' :: convWord (b :: cs)
  | c :: cs => c :: convWord cs

/-- Third substitution (oa/regex.py 50-56): `(?>` becomes `(?:`. -/
def convAtomic : Str → Str
  | [] => []
  | '(' :: '?' :: '>' :: cs => '(' :: '?' :: ':' :: convAtomic cs
  | c :: cs => c :: convAtomic cs

/-- `perl2re(pattern, match_op)` (oa/regex.py 84-111); `neg` is `match_op == "!~"`. -/
def perl2re {R : Type} (L : ReLib R) (pattern : Str) (neg : Bool) : Except RuleErr (Pat R) :=
  match lstripChars c!"mgs" (strip pattern) with
  | [] => .error .other
  | d :: rest =>
    match Dict.get? delims d with
    | none => .error .invalidRegex
    | some r =>
      match rsplit1 r (lstripChars [d] (d :: rest)) with
      | none => .error .invalidRegex
      | some (p, flags) =>
        match L.compile (convAtomic (convWord (convExt 0 p))) (flagsOf flags) with
        | none => .error .invalidRegex
        | some c => .ok { re := c, neg := neg }

end Verif
