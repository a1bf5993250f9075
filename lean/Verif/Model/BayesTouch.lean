import Verif.Model.BayesScan

/-!
# A scan with its database: `tok_get_all`, `tok_touch_all`, and `oa/plugins/bayes.py` 1140-1248
-/

namespace Verif.BayesScan
open Verif Py BayesScore

/-- A row of the table `bayes_token` (oa/db/bayes/sqlalchemy.py 47-60). -/
structure DbRow where
  id : Int
  row : Row
  atime : Int
deriving DecidableEq, Repr

/-- The tables `bayes_vars` (the two counts) and `bayes_token`. -/
structure Db where
  vars : List (Nat × Nat)
  tokens : List DbRow
deriving DecidableEq, Repr

/-- The two implementations of the store. -/
inductive Kind where
  | mysql
  | sqlalchemy
deriving DecidableEq, Repr

/-- The row of a token, if there is one (oa/db/bayes/mysql.py 43-53: `fetchone`; oa/db/bayes/sqlalchemy.py 116-126: `one`, which raises
if there are several). -/
def findRow (k : Kind) (db : Db) (tok : Str) : Option (Option Row) :=
  match db.tokens.filter (fun r => r.row.token = tok) with
  | [] => some none
  | [r] => some (some r.row)
  | r :: _ :: _ => match k with
    | .mysql => some (some r.row)
    | .sqlalchemy => none

/-- `list(d for d in self.store.tok_get_all(msgtokens) if d is not None)` (oa/plugins/bayes.py 1156). -/
def findRows (k : Kind) (db : Db) : List Str → Option (List Row)
  | [] => some []
  | t :: ts =>
    match findRow k db t with
    | none => none
    | some r => (findRows k db ts).map (fun rs => r.toList ++ rs)

/-- What a scan sees of the database.  A closed `pymysql` connection cannot be closed again. -/
def baseOf (k : Kind) (tie touch : Bool) (db : Db) : Base :=
  ⟨tie, db.vars.head?, findRows k db, touch, decide (k = .sqlalchemy)⟩

/-- `UPDATE bayes_token SET atime=… WHERE token=…`. -/
def touchOne (t : Int) (db : Db) (tok : Str) : Db :=
  { db with tokens := db.tokens.map fun r => if r.row.token = tok then { r with atime := t } else r }

/-- `tok_touch_all` (oa/db/bayes/mysql.py 114-121, oa/db/bayes/sqlalchemy.py 184-190). -/
def touchAll (t : Int) (db : Db) (toks : List Str) : Db := toks.foldl (touchOne t) db

/-- The message, its receive date and the time of the scan. -/
structure Check where
  msg : Msg
  date : Int
  now : Int

/-- `scan` (oa/plugins/bayes.py 1140-1248) with the database it leaves: the branches are those of `scan`.  An update that raises is not
committed. -/
def scanDb (E : Dkim.Engine) (comb : Nat → Nat → List Rat → Option Rat) (o : Opts) (k : Kind) (tieOk touchOk : Bool) (db : Db) (c : Check)
    (p : Plug) (l : Loc) : (Res (Option Rat) × Loc) × Db :=
  let b := baseOf k tieOk touchOk db
  if !o.useLearner then (((some none, p), l), db)
  else
    let caller := p.willUntie
    let p := { p with willUntie := true }
    match ignoreMessage E o.ignores c.msg.addrs with
    | none => (((none, p), l), db)
    | some true => ((skip b none caller p, l), db)
    | some false =>
      match available o b p with
      | (none, p) => (((none, p), l), db)
      | (some false, p) => ((skip b none caller p, l), db)
      | (some true, p) =>
        match b.counts with
        | none => (((none, p), l), db)
        | some (ns, nn) =>
          match c.msg.tokens with
          | none => (((none, p), l), db)
          | some ts =>
            let toks := msgTokens ts
            match b.rows (toks.map Prod.fst) with
            | none => (((none, p), l), db)
            | some rows =>
              match table o.hapaxes ns nn rows with
              | none => (((none, p), l), db)
              | some pw =>
                if pw.isEmpty then ((skip b none caller p, l), db)
                else
                  let msgatime := if c.date > c.now then c.now else c.date
                  let sig := chosen pw
                  let shown := sig.map (fun x => ((Dict.get? toks x.1).getD c!"(unknown)", x.2))
                  let l := { l with count := toks.length, learned := pw.length,
                                    hammy := shown.filter (fun x => decide (x.2 < 1 / 2)),
                                    spammy := shown.filter (fun x => !decide (x.2 < 1 / 2)) }
                  if sig.isEmpty then ((skip b none caller p, l), db)
                  else match comb ns nn (sig.map Prod.snd) with
                    | none => (((none, p), l), db)
                    | some score =>
                      if !b.touch then (((none, p), l), db)
                      else ((skip b (some score) caller p, { l with corpus := some (ns, nn) }), touchAll msgatime db (sig.map Prod.fst))

/-- One call of the rule on one message by some process: its options, whether connecting and updating work, and its state. -/
structure Call where
  opts : Opts
  tieOk : Bool
  touchOk : Bool
  check : Check
  plug : Plug
  loc : Loc

/-- The database after some calls, in the order of their updates. -/
def afterCalls (E : Dkim.Engine) (comb : Nat → Nat → List Rat → Option Rat) (k : Kind) (db : Db) (calls : List Call) : Db :=
  calls.foldl (fun db x => (scanDb E comb x.opts k x.tieOk x.touchOk db x.check x.plug x.loc).2) db

end Verif.BayesScan
