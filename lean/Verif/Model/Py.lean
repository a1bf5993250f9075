/-!
# Python primitives used by the model

Python `str` is `List Char`.  These definitions transcribe the documented
behaviour of the CPython built-ins that `/repo/oa` calls; they are part of the
trusted base (they model Python itself, not a file of `/repo`).
-/

namespace Verif

/-- Python `str`. -/
abbrev Str := List Char

/-- `c!"abc"` is the list of characters `['a','b','c']`. -/
syntax:max "c!" str : term
macro_rules
  | `(c! $s:str) => do
    let cs := s.getString.toList.toArray.map (fun c => Lean.Syntax.mkCharLit c)
    `(([$cs,*] : List Char))

namespace Py

/-- Characters for which Python's `str.isspace` holds (used by `strip()` and
`split(None)`). -/
def isSpace (c : Char) : Bool :=
  let n := c.toNat
  (9 ≤ n && n ≤ 13) || (28 ≤ n && n ≤ 32) || n == 0x85 || n == 0xA0 || n == 0x1680 ||
  (0x2000 ≤ n && n ≤ 0x200A) || n == 0x2028 || n == 0x2029 || n == 0x202F ||
  n == 0x205F || n == 0x3000

/-- `s.lstrip(chars)` with the set of characters given by a predicate. -/
def lstripBy (p : Char → Bool) (s : Str) : Str := s.dropWhile p

/-- `s.rstrip(chars)`. -/
def rstripBy (p : Char → Bool) (s : Str) : Str := (s.reverse.dropWhile p).reverse

/-- `s.strip(chars)`. -/
def stripBy (p : Char → Bool) (s : Str) : Str := rstripBy p (lstripBy p s)

/-- `s.strip()`. -/
def strip (s : Str) : Str := stripBy isSpace s

/-- `s.lstrip(chars)`: NB Python strips any of the *characters*, not a prefix. -/
def lstripChars (chars : Str) (s : Str) : Str := lstripBy (fun c => chars.contains c) s

/-- `s.strip(chars)` for a string of characters. -/
def stripChars (chars : Str) (s : Str) : Str := stripBy (fun c => chars.contains c) s

/-- `s.startswith(pre)`. -/
def startsWith (pre s : Str) : Bool := pre.isPrefixOf s

/-- `s.endswith(suf)`. -/
def endsWith (suf s : Str) : Bool := suf.isSuffixOf s

/-- `s.lower()`, ASCII only (simplification: non-ASCII case folding is not modelled). -/
def lower (s : Str) : Str := s.map Char.toLower

/-- `s.upper()`, ASCII only (same simplification). -/
def upper (s : Str) : Str := s.map Char.toUpper

/-- `s.split(sep, 1)` for a non-empty separator: `none` when `sep` does not occur
(Python then returns the one-element list `[s]`), otherwise the parts before and
after the first occurrence. -/
def split1 (sep : Str) : Str → Option (Str × Str)
  | [] => if sep.isEmpty then some ([], []) else none
  | c :: cs =>
    if sep.isPrefixOf (c :: cs) then some ([], (c :: cs).drop sep.length)
    else match split1 sep cs with
      | none => none
      | some (a, b) => some (c :: a, b)

/-- `sub in s`. -/
def hasSub (sub s : Str) : Bool := (split1 sub s).isSome

/-- `s.rsplit(sep, 1)` for a one-character separator: split at the last occurrence. -/
def rsplit1 (sep : Char) (s : Str) : Option (Str × Str) :=
  match split1 [sep] s.reverse with
  | none => none
  | some (a, b) => some (b.reverse, a.reverse)

/-- `s.split(c)` for a one-character separator. Never returns the empty list. -/
def splitChar (sep : Char) : Str → List Str
  | [] => [[]]
  | c :: cs =>
    if c == sep then [] :: splitChar sep cs
    else match splitChar sep cs with
      | [] => [[c]]
      | w :: ws => (c :: w) :: ws

/-- `s.split()` : maximal runs of non-whitespace characters. -/
def splitWs (s : Str) : List Str :=
  (s.splitBy (fun a b => isSpace a == isSpace b)).filter
    (fun w => match w with | [] => false | c :: _ => !isSpace c)

/-- `s.split(None, n)`: at most `n` splits at whitespace runs; the remainder
keeps its trailing whitespace. -/
def splitNone : Nat → Str → List Str
  | 0, s => let r := s.dropWhile isSpace
            if r.isEmpty then [] else [r]
  | n+1, s =>
    let r := s.dropWhile isSpace
    if r.isEmpty then []
    else (r.takeWhile (fun c => !isSpace c)) :: splitNone n (r.dropWhile (fun c => !isSpace c))

/-- `s.replace(old, new)` for a non-empty `old` (fuel = length of `s`, which
always suffices because each step consumes at least one character). -/
def replaceAux (old new : Str) : Nat → Str → Str
  | 0, s => s
  | _+1, [] => []
  | n+1, c :: cs =>
    if old.isPrefixOf (c :: cs) then new ++ replaceAux old new n ((c :: cs).drop old.length)
    else c :: replaceAux old new n cs

def replace (old new s : Str) : Str := replaceAux old new s.length s

/-- `sep.join(parts)`. -/
def join (sep : Str) : List Str → Str
  | [] => []
  | [w] => w
  | w :: w' :: ws => w ++ sep ++ join sep (w' :: ws)

/-- Insertion into a sorted list, before the elements it does not exceed. -/
def insertBy {α : Type} (lt : α → α → Bool) (x : α) : List α → List α
  | [] => [x]
  | y :: ys => if lt y x then y :: insertBy lt x ys else x :: y :: ys

/-- `sorted(l)` with comparison `lt`: the stable sort (written as insertion sort;
the result of a stable sort is determined, so the algorithm is irrelevant). -/
def sortedBy {α : Type} (lt : α → α → Bool) : List α → List α
  | [] => []
  | x :: xs => insertBy lt x (sortedBy lt xs)

/-- Digits to number, `none` on a non-digit. -/
def digitsAux : Nat → Str → Option Nat
  | acc, [] => some acc
  | acc, c :: cs => if c.isDigit then digitsAux (acc * 10 + (c.toNat - 48)) cs else none

/-- `int(s)` on a string: `none` is `ValueError`.  ASCII digits with optional
sign and surrounding whitespace (simplification: digit-group underscores and
non-ASCII digits, which Python also accepts, are not modelled). -/
def int? (s : Str) : Option Int :=
  match strip s with
  | [] => none
  | '-' :: c :: cs => (digitsAux 0 (c :: cs)).map (fun n => - (n : Int))
  | '+' :: c :: cs => (digitsAux 0 (c :: cs)).map (fun n => (n : Int))
  | c :: cs => (digitsAux 0 (c :: cs)).map (fun n => (n : Int))

/-! ### Dictionaries (insertion ordered) -/

/-- Python `dict`/`OrderedDict`: association list in insertion order. -/
abbrev Dict (K V : Type) := List (K × V)

variable {K V : Type} [DecidableEq K]

/-- `d[k]`, `none` is `KeyError`. -/
def Dict.get? (d : Dict K V) (k : K) : Option V :=
  match d with
  | [] => none
  | (k', v) :: d' => if k' = k then some v else Dict.get? d' k

/-- `d[k] = v`: an existing key keeps its position. -/
def Dict.set (d : Dict K V) (k : K) (v : V) : Dict K V :=
  match d with
  | [] => [(k, v)]
  | (k', v') :: d' => if k' = k then (k', v) :: d' else (k', v') :: Dict.set d' k v

/-- `del d[k]` / `d.pop(k, None)` (removing an absent key leaves `d` unchanged;
whether that is an error is decided by the caller). -/
def Dict.del (d : Dict K V) (k : K) : Dict K V := d.filter (fun p => !(decide (p.1 = k)))

/-- `k in d`. -/
def Dict.has (d : Dict K V) (k : K) : Bool := (Dict.get? d k).isSome

/-- `d.keys()`. -/
def Dict.keys (d : Dict K V) : List K := d.map Prod.fst

/-- `d.values()`. -/
def Dict.values (d : Dict K V) : List V := d.map Prod.snd

end Py
end Verif
