import Verif.Model.Bayes

/-!
# Learning step by step: `oa/plugins/bayes.py` 612-736 in several processes, any of which may die

Every method of a store commits on its own (oa/db/bayes/sqlalchemy.py 132-182, oa/db/bayes/mysql.py 55-112), so between two of them
other processes see the database and the process may end.  Simplification: one method of the store is one step.
-/

namespace Verif.Bayes
open Verif Py

/-- A computation in steps.  A step changes the database to `f d`, and `next d` is what is left to do. -/
inductive Prog (D A : Type) where
  | ret (r : Except Exn A)
  | step (f : D → D) (next : D → Prog D A)

variable {D A B : Type}

/-- One call of a method of the store. -/
def Prog.call (x : M D A) : Prog D A := .step (fun d => (x d).2) fun d => .ret (x d).1

def Prog.bind : Prog D A → (A → Prog D B) → Prog D B
  | .ret (.ok a), g => g a
  | .ret (.error e), _ => .ret (.error e)
  | .step f n, g => .step f fun d => (n d).bind g

/-- All the steps without interruption. -/
def Prog.runAll : Prog D A → M D A
  | .ret r => fun d => (r, d)
  | .step f n => fun d => (n d).runAll (f d)

/-- Taking back a message (oa/plugins/bayes.py 726-736), in steps. -/
def unstoreSteps (st : Store D) (isspam : Bool) (m : Mail) : Prog D (Option Bool) :=
  (if isspam then
    (Prog.call (st.nChange (-1) 0)).bind fun _ => Prog.call (st.tokChange (-1) 0 m.tokens m.date)
  else
    (Prog.call (st.nChange 0 (-1))).bind fun _ => Prog.call (st.tokChange 0 (-1) m.tokens m.date)).bind fun _ =>
  (Prog.call (st.seenDelete m.msgid)).bind fun _ => .ret (.ok (some true))

/-- `_forget_trapped` (oa/plugins/bayes.py 704-736), in steps. -/
def forgetSteps (st : Store D) (m : Mail) : Prog D (Option Bool) :=
  (Prog.call (st.seenGet m.msgid)).bind fun seen =>
  match flagged seen with
  | none => .ret (.ok (some false))
  | some s =>
    if s = c!"s" then unstoreSteps st true m
    else if s = c!"h" then unstoreSteps st false m
    else .ret (.ok (some false))

/-- The second half of `_learn_trapped` (oa/plugins/bayes.py 671-690), in steps. -/
def storeSteps (st : Store D) (now : Int) (isspam : Bool) (m : Mail) : Prog D (Option Bool) :=
  let atime := if m.date - now > 86400 then now else m.date
  (if isspam then
    (Prog.call (st.nChange 1 0)).bind fun _ => Prog.call (st.tokChange 1 0 m.tokens atime)
  else
    (Prog.call (st.nChange 0 1)).bind fun _ => Prog.call (st.tokChange 0 1 m.tokens atime)).bind fun _ =>
  (Prog.call (st.seenPut m.msgid (if isspam then c!"s" else c!"h"))).bind fun _ => .ret (.ok (some true))

/-- `_learn_trapped` (oa/plugins/bayes.py 624-690), in steps; `learn_no_relearn` is false (line 464) and `use_bayes` true. -/
def learnSteps (st : Store D) (now : Int) (isspam : Bool) (m : Mail) : Prog D (Option Bool) :=
  (Prog.call (st.seenGet m.msgid)).bind fun seen =>
  match flagged seen with
  | none => storeSteps st now isspam m
  | some s =>
    if (s = c!"s" ∧ isspam = true) ∨ (s = c!"h" ∧ isspam = false) then .ret (.ok (some false))
    else (forgetSteps st m).bind fun fatal =>
      match fatal with
      | none => .ret (.ok none)
      | some _ => storeSteps st now isspam m

/-- `learn_message` or `forget_message` (oa/plugins/bayes.py 612-622, 692-702), in steps. -/
def opSteps (st : Store D) (now : Int) : Op → Prog D (Option Bool)
  | .learn b m => learnSteps st now b m
  | .forget m => forgetSteps st m

/-- The database and what every call has left to do. -/
structure Calls (D : Type) where
  db : D
  left : Nat → Prog D (Option Bool)

/-- The next step of the call with that number. -/
def Calls.step (w : Calls D) (p : Nat) : Calls D :=
  match w.left p with
  | .ret _ => w
  | .step f n => ⟨f w.db, fun q => if q = p then n w.db else w.left q⟩

/-- The calls take their steps in the order of the schedule.  A process that dies takes no more. -/
def Calls.play (st : Store D) (now : Int) (ops : Nat → Op) (db : D) (schedule : List Nat) : Calls D :=
  schedule.foldl Calls.step ⟨db, fun p => opSteps st now (ops p)⟩

end Verif.Bayes
