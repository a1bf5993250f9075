import Verif.Model.Py

/-!
# Compiled rules: `scripts/compile.py`, `oa/common.py`, and `scripts/match.py` 115-151

Not modelled: `argparse`, and what parsing does (other modules).  `pickle` is a parameter with the two laws that its documentation
gives: see `Pickle`.
-/

namespace Verif.Compile
open Verif Py

abbrev Bytes := List UInt8

/-! ### Where compiling is supported -/

/-- What `platform` says: `python_implementation` and `python_version_tuple`. -/
structure Python where
  impl : Str
  major : Str
  minor : Str
  patch : Str

/-- `can_compile` (oa/common.py 7-21); `none`: `int` raises. -/
def canCompile (p : Python) : Option Bool :=
  if hasSub c!"pypy" (lower p.impl) then some false
  else
    match int? p.major with
    | none => none
    | some major =>
      match (if 3 ≤ major then (int? p.minor).map (fun m => decide (m < 5)) else some false) with
      | none => none
      | some true => some false
      | some false =>
        if major ≤ 2 then
          match int? p.minor with
          | none => none
          | some minor =>
            if minor < 7 then some false
            else (int? p.patch).map (fun q => !decide (q < 11))
        else some true

/-! ### Writing the file -/

/-- What reading a file gives. -/
inductive Loaded (R : Type) where
  | ok (r : R)
  | eof
  | error
deriving DecidableEq, Repr

/-- `pickle`: the pieces in which a ruleset is written, and how a file is read.  What was written is read as the same; no part
of it at the beginning is (a pickle ends with the operation that stops reading). -/
structure Pickle (R : Type) where
  dump : R → List Bytes
  load : Bytes → Loaded R
  loads : ∀ r, load (dump r).flatten = .ok r
  cut : ∀ r b, b <+: (dump r).flatten → b ≠ (dump r).flatten → ∀ x, load b ≠ .ok x

/-- How a process ends. -/
inductive End where
  | normal
  | exit1
  | raised
  | killed
deriving DecidableEq, Repr

/-- A process that runs `serialize`: before `open`; after some pieces, at an offset of the file, with more to come; or at its end. -/
inductive Proc where
  | waiting (pieces : List Bytes)
  | writing (off : Nat) (pieces : List Bytes)
  | ended (e : End)
deriving DecidableEq, Repr

/-- The file, if there is one, and the processes. -/
structure World where
  file : Option Bytes
  procs : Nat → Proc

/-- What can happen: `open(…, "wb")` succeeds, a piece is written, the file is closed; `open` or a write raises `OSError`;
`pickle.dump` raises something else; the process is killed. -/
inductive Event where
  | open (p : Nat)
  | write (p : Nat)
  | close (p : Nat)
  | refuse (p : Nat)
  | raise (p : Nat)
  | kill (p : Nat)
deriving DecidableEq, Repr

/-- `write` at an offset: a gap is filled with zeros. -/
def writeAt (f : Bytes) (off : Nat) (c : Bytes) : Bytes :=
  f.take off ++ List.replicate (off - f.length) 0 ++ c ++ f.drop (off + c.length)

def World.proc (w : World) (p : Nat) (x : Proc) : World := { w with procs := fun q => if q = p then x else w.procs q }

/-- `serialize` (scripts/compile.py 98-106), one step.  Opening for writing empties the file. -/
def step (w : World) : Event → World
  | .open p =>
    match w.procs p with
    | .waiting ps => { w.proc p (.writing 0 ps) with file := some [] }
    | _ => w
  | .write p =>
    match w.procs p with
    | .writing off (c :: ps) => { w.proc p (.writing (off + c.length) ps) with file := some (writeAt (w.file.getD []) off c) }
    | _ => w
  | .close p =>
    match w.procs p with
    | .writing _ [] => w.proc p (.ended .normal)
    | _ => w
  | .refuse p =>
    match w.procs p with
    | .ended _ => w
    | _ => w.proc p (.ended .exit1)
  | .raise p =>
    match w.procs p with
    | .writing _ _ => w.proc p (.ended .raised)
    | _ => w
  | .kill p =>
    match w.procs p with
    | .ended _ => w
    | _ => w.proc p (.ended .killed)

def run (w : World) (es : List Event) : World := es.foldl step w

/-! ### The two scripts -/

/-- What parsing the configuration files gives. -/
inductive Parsed (R : Type) where
  | ok (r : R)
  | recursion
  | parsing
  | other
deriving DecidableEq, Repr

variable {R : Type}

/-- `main` of the script that compiles (scripts/compile.py 109-128): the process that writes, or how it ends before that. -/
def compile (k : Pickle R) (can : Option Bool) (files : List Str) (parse : Parsed R) : Proc :=
  match can with
  | none => .ended .raised
  | some false => .ended .exit1
  | some true =>
    if files = [] then .ended .exit1
    else
      match parse with
      | .ok r => .waiting (k.dump r)
      | _ => .ended .raised

/-- With which ruleset the script that matches messages goes on, or how it ends. -/
inductive Start (R : Type) where
  | parsed (r : R)
  | restored (r : R)
  | ended (e : End)
deriving DecidableEq, Repr

/-- `main` of the script that matches messages up to the ruleset (scripts/match.py 115-151).  `post` is `call_post_parsing` (108-112),
`none` if it raises; `files` are the configuration files, `file` is the content of the compiled file. -/
def start (k : Pickle R) (files : List Str) (serialize : Bool) (can : Option Bool) (parse : Parsed R) (post : R → Option R)
    (file : Option Bytes) : Start R :=
  if files = [] then .ended .exit1
  else
    match (if serialize then can else some false) with
    | none => .ended .raised
    | some false =>
      match parse with
      | .ok r => .parsed r
      | .recursion => .ended .exit1
      | .parsing => .ended .exit1
      | .other => .ended .raised
    | some true =>
      match file with
      | none => .ended .raised
      | some b =>
        match k.load b with
        | .ok r =>
          match post r with
          | some r => .restored r
          | none => .ended .raised
        | .eof => .ended .exit1
        | .error => .ended .raised

end Verif.Compile
