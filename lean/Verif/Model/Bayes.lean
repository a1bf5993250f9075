import Verif.Model.Py

/-!
# Learning: `oa/plugins/bayes.py` 612-736 and the stores in `oa/db/bayes`
-/

namespace Verif.Bayes
open Verif Py

inductive Exn where
  /-- `TypeError` -/
  | typeError
  /-- an error of the database driver -/
  | db
deriving DecidableEq, Repr

/-- A computation on a database `D` that may raise. -/
abbrev M (D A : Type) := D → Except Exn A × D

def M.pure {D A : Type} (a : A) : M D A := fun d => (.ok a, d)

def M.bind {D A B : Type} (x : M D A) (f : A → M D B) : M D B := fun d =>
  match x d with
  | (.ok a, d') => f a d'
  | (.error e, d') => (.error e, d')

/-- The methods of a `Store` that learning uses.  `seenGet` gives `none` for Python's `None`. -/
structure Store (D : Type) where
  seenGet : Str → M D (Option Str)
  seenPut : Str → Str → M D Unit
  seenDelete : Str → M D Unit
  /-- `nspam_nham_change` -/
  nChange : Int → Int → M D Unit
  /-- `multi_tok_count_change` -/
  tokChange : Int → Int → List (Str × Str) → Int → M D Unit

/-- What learning uses of a message: its identifier, what `tokenise` yields for it (pairs of the
hash and the token, no hash twice), and the date of receipt.  Simplification: times are whole
seconds. -/
structure Mail where
  msgid : Str
  tokens : List (Str × Str)
  date : Int
deriving DecidableEq, Repr

variable {D : Type}

/-- Python truth of a flag: neither `None` nor the empty string. -/
def flagged : Option Str → Option Str
  | some [] => none
  | x => x

/-- Taking back a message (oa/plugins/bayes.py 726-736). -/
def unstore (st : Store D) (isspam : Bool) (m : Mail) : M D (Option Bool) :=
  (if isspam then
    (st.nChange (-1) 0).bind fun _ => st.tokChange (-1) 0 m.tokens m.date
  else
    (st.nChange 0 (-1)).bind fun _ => st.tokChange 0 (-1) m.tokens m.date).bind fun _ =>
  (st.seenDelete m.msgid).bind fun _ => M.pure (some true)

/-- `_forget_trapped` (oa/plugins/bayes.py 704-736). -/
def forgetTrapped (st : Store D) (m : Mail) : M D (Option Bool) :=
  (st.seenGet m.msgid).bind fun seen =>
  match flagged seen with
  | none => M.pure (some false)
  | some s =>
    if s = c!"s" then unstore st true m
    else if s = c!"h" then unstore st false m
    else M.pure (some false)

/-- `forget_message` (oa/plugins/bayes.py 692-702); connecting to the database always works. -/
def forgetMessage (st : Store D) (useBayes : Bool) (m : Mail) : M D (Option Bool) :=
  if !useBayes then M.pure none else forgetTrapped st m

/-- The second half of `_learn_trapped` (oa/plugins/bayes.py 671-690). -/
def storeMail (st : Store D) (now : Int) (isspam : Bool) (m : Mail) : M D (Option Bool) :=
  let atime := if m.date - now > 86400 then now else m.date
  (if isspam then
    (st.nChange 1 0).bind fun _ => st.tokChange 1 0 m.tokens atime
  else
    (st.nChange 0 1).bind fun _ => st.tokChange 0 1 m.tokens atime).bind fun _ =>
  (st.seenPut m.msgid (if isspam then c!"s" else c!"h")).bind fun _ => M.pure (some true)

/-- `_learn_trapped` (oa/plugins/bayes.py 624-690); `noRelearn` is `learn_no_relearn`. -/
def learnTrapped (st : Store D) (useBayes noRelearn : Bool) (now : Int) (isspam : Bool) (m : Mail) :
    M D (Option Bool) :=
  (st.seenGet m.msgid).bind fun seen =>
  match flagged seen with
  | none => storeMail st now isspam m
  | some s =>
    if (s = c!"s" ∧ isspam = true) ∨ (s = c!"h" ∧ isspam = false) then M.pure (some false)
    else if (s = c!"h" ∨ s = c!"s") ∧ noRelearn = true then M.pure (some false)
    else (forgetMessage st useBayes m).bind fun fatal =>
      match fatal with
      | none => M.pure none
      | some _ => storeMail st now isspam m

/-- `learn_message` (oa/plugins/bayes.py 612-622).  `learn_no_relearn` is false (line 464). -/
def learnMessage (st : Store D) (useBayes : Bool) (now : Int) (isspam : Bool) (m : Mail) : M D (Option Bool) :=
  if !useBayes then M.pure none else learnTrapped st useBayes false now isspam m

/-! ### The stores -/

/-- The tables `bayes_seen`, `bayes_vars` (spam and ham count of every row) and `bayes_token` (spam
count, ham count and access time).  Simplification: one row per message and per token. -/
structure Db where
  seen : Dict Str Str
  vars : List (Int × Int)
  toks : Dict Str (Int × Int × Int)
deriving DecidableEq, Repr

def Db.empty : Db := ⟨[], [(0, 0)], []⟩

/-- `UPDATE ... WHERE key=...`: nothing happens without such a row. -/
def update {V : Type} (d : Dict Str V) (k : Str) (v : V) : Dict Str V :=
  if Dict.has d k then Dict.set d k v else d

/-- The store in oa/db/bayes/mysql.py (55-62: `fetchone()` is `None` if there is no row; 72-79,
95-101, 103-112).  What `tokenise` yields is a pair, and a pair is no valid parameter of
`WHERE token=%s`: the driver raises (`Operand should contain 1 column(s)`).  Simplification: the
deletion in `seen_delete` (64-70), which is not committed, is taken to be effective. -/
def mysqlStore : Store Db where
  seenGet := fun m d => match Dict.get? d.seen m with
    | none => (.error .typeError, d)
    | some f => (.ok (some f), d)
  seenPut := fun m f d => (.ok (), { d with seen := update d.seen m f })
  seenDelete := fun m d => (.ok (), { d with seen := Dict.del d.seen m })
  nChange := fun s h d => (.ok (), { d with vars := d.vars.map fun _ => (s, h) })
  tokChange := fun _ _ tokens _ d => match tokens with
    | [] => (.ok (), d)
    | _ :: _ => (.error .db, d)

/-- The store in oa/db/bayes/sqlalchemy.py (132-149, 161-182): the same, but `seen_delete` is called
with one argument and has two parameters. -/
def alchemyStore : Store Db :=
  { mysqlStore with seenDelete := fun _ d => (.error .typeError, d) }

/-- A history of learning and forgetting. -/
inductive Op where
  | learn (isspam : Bool) (m : Mail)
  | forget (m : Mail)
deriving DecidableEq, Repr

def Op.mail : Op → Mail
  | .learn _ m => m
  | .forget m => m

/-- One call; what it returns or raises is dropped. -/
def step (st : Store D) (now : Int) (d : D) : Op → D
  | .learn b m => (learnMessage st true now b m d).2
  | .forget m => (forgetMessage st true m d).2

def run (st : Store D) (now : Int) (d : D) (ops : List Op) : D := ops.foldl (step st now) d

end Verif.Bayes
