import Verif.Model.Py

/-!
# The auto-whitelist: `oa/plugins/awl.py`
-/

namespace Verif.Awl
open Verif Py

/-- The primary key of the table (oa/plugins/awl.py 64-77). -/
structure Key where
  username : Str
  email : Str
  signedby : Str
  ip : Str
deriving DecidableEq, Repr

/-- A row: how many messages and the sum of their scores.  Simplification: exact rational numbers. -/
structure Entry where
  count : Int
  totscore : Rat
deriving DecidableEq, Repr

/-- The `awl` table (oa/plugins/awl.py 64-77). -/
abbrev Table := Dict Key Entry

/-- What the check uses of a message: sender address, signing domain, the network of the origin (`none` in
quotes if there is none) and the score so far (oa/plugins/awl.py 109-152, 324-332). -/
structure Mail where
  email : Str
  signedby : Str
  ip : Str
  score : Rat
deriving DecidableEq, Repr

/-- The key an entry for this message is filed under (oa/plugins/awl.py 199-203, 220-223). -/
def Mail.key (user : Str) (m : Mail) : Key := ⟨user, m.email, m.signedby, m.ip⟩

/-- `get_sqlalch_entry` (oa/plugins/awl.py 197-224): the entry and the row it was read from, if any. -/
def getEntry (db : Table) (user : Str) (m : Mail) : Entry × Option Key :=
  match Dict.get? db (m.key user) with
  | some e => (e, some (m.key user))
  | none =>
    match Dict.get? db ⟨user, m.email, m.signedby, c!"none"⟩ with
    | some e => (e, some ⟨user, m.email, m.signedby, c!"none"⟩)
    | none => (⟨0, 0⟩, none)

/-- `mean` (oa/plugins/awl.py 228-241): `none` is `None`. -/
def mean (e : Entry) : Option Rat := if e.count = 0 then none else some (e.totscore / e.count)

/-- The adjusted score (oa/plugins/awl.py 244-252): a mean of 0 counts as false. -/
def adjust (factor : Rat) (e : Entry) (score : Rat) : Rat :=
  match mean e with
  | none => score
  | some mu => if mu = 0 then score else score + (mu - score) * factor

/-- The entry with one more message (oa/plugins/awl.py 254-255, 304-305). -/
def bump (e : Entry) (score : Rat) : Entry := ⟨e.count + 1, e.totscore + score⟩

/-- `session.merge(entry)` (oa/plugins/awl.py 257-260): the row the entry was read from is written, with
its new key; without one a row is added. -/
def merge (db : Table) (src : Option Key) (k : Key) (e : Entry) : Table :=
  match src with
  | none => Dict.set db k e
  | some k' => Dict.set (if k' = k then db else Dict.del db k') k e

/-- `check_from_in_auto_whitelist` with SQLAlchemy (oa/plugins/awl.py 318-346): the table and the score
after it. -/
def check (user : Str) (factor : Rat) (db : Table) (m : Mail) : Table × Rat :=
  let (e, src) := getEntry db user m
  (merge db src (m.key user) (bump e m.score), adjust factor e m.score)

/-- The table after a history of messages. -/
def run (user : Str) (factor : Rat) (db : Table) (ms : List Mail) : Table :=
  ms.foldl (fun d m => (check user factor d m).1) db

/-- `get_mysql_entry` (oa/plugins/awl.py 163-195): a row is added if there is none. -/
def mysqlGet (user : Str) (db : Table) (m : Mail) : Table :=
  match Dict.get? db (m.key user) with
  | some _ => db
  | none => db ++ [(m.key user, ⟨0, 0⟩)]

/-- `check_from_in_auto_whitelist` with MySQL (oa/plugins/awl.py 262-346): the first row of the table is
read and every row is written. -/
def mysqlCheck (user : Str) (factor : Rat) (db : Table) (m : Mail) : Table × Rat :=
  let db := mysqlGet user db m
  match db with
  | [] => (db, m.score)
  | (_, e) :: _ => (db.map fun x => (x.1, bump e m.score), adjust factor e m.score)

end Verif.Awl
