import Verif.Model.Awl

/-!
# Several processes using one auto-whitelist

`PreForkServer` (oa/server.py 116-121) answers requests in several processes.  `check_from_in_auto_whitelist` reads the entry in one
session (oa/plugins/awl.py 198-214) and writes it in another (257-260), and between them other processes may read and write.  A
process that dies takes no more steps.  Simplification: `session.merge` and `session.commit` together are one step of the database.
-/

namespace Verif.Awl
open Verif Py

/-- The check of one message for a user.  A process that checks several messages one after the other appears once for each. -/
structure Job where
  user : Str
  mail : Mail
deriving DecidableEq, Repr

def Job.key (j : Job) : Key := j.mail.key j.user

/-- How far a check has come. -/
inductive Phase where
  /-- before oa/plugins/awl.py 198 -/
  | waiting
  /-- between 214 and 257, with the entry and the row it was read from -/
  | holding (e : Entry) (src : Option Key)
  /-- after 260, with the adjusted score -/
  | done (score : Rat)
  /-- the database refused the entry, an exception in the rule; the score is adjusted before (252) -/
  | failed (score : Rat)
deriving DecidableEq, Repr

/-- `session.merge(entry); session.commit()` (oa/plugins/awl.py 257-259) on the table as it is now.  An entry whose key is changed
(212) is refused if there is a row with the new key; sequentially that cannot be. -/
def commit (db : Table) (src : Option Key) (k : Key) (e : Entry) : Option Table :=
  match src with
  | some k' => if k' ≠ k ∧ Dict.has db k = true then none else some (merge db src k e)
  | none => some (merge db none k e)

/-- The table and all checks. -/
structure World where
  db : Table
  phase : Nat → Phase

/-- The next step of the check with that number: reading (oa/plugins/awl.py 197-224) or writing (226-260). -/
def stepOf (factor : Rat) (jobs : Nat → Job) (w : World) (p : Nat) : World :=
  match w.phase p with
  | .waiting =>
    let r := getEntry w.db (jobs p).user (jobs p).mail
    { w with phase := fun q => if q = p then .holding r.1 r.2 else w.phase q }
  | .holding e src =>
    match commit w.db src (jobs p).key (bump e (jobs p).mail.score) with
    | some db => ⟨db, fun q => if q = p then .done (adjust factor e (jobs p).mail.score) else w.phase q⟩
    | none => { w with phase := fun q => if q = p then .failed (adjust factor e (jobs p).mail.score) else w.phase q }
  | _ => w

/-- The checks take their steps in the order of the schedule. -/
def play (factor : Rat) (jobs : Nat → Job) (db : Table) (schedule : List Nat) : World :=
  schedule.foldl (stepOf factor jobs) ⟨db, fun _ => .waiting⟩

end Verif.Awl
