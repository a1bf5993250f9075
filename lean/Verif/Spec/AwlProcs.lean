import Verif.Model.AwlProcs

/-!
# What is expected of an auto-whitelist that several processes use
-/

namespace Verif.Awl
open Verif Py

/-- The checks that take their second step in a part of a schedule, in that order, after `before`. -/
def finishedAfter : List Nat → List Nat → List Nat
  | _, [] => []
  | before, p :: rest => (if before.count p = 1 then [p] else []) ++ finishedAfter (before ++ [p]) rest

/-- The checks that are finished after a schedule, in the order in which they finished. -/
def finished (schedule : List Nat) : List Nat := finishedAfter [] schedule

/-- Two checks are about the same sender. -/
def SameSender (a b : Job) : Prop := a.user = b.user ∧ a.mail.email = b.mail.email ∧ a.mail.signedby = b.mail.signedby

/-- Between the first and the second step of a check no other check about the same sender finishes. -/
def Undisturbed (jobs : Nat → Job) (schedule : List Nat) : Prop :=
  ∀ before p between after, schedule = before ++ p :: (between ++ p :: after) → p ∉ before → p ∉ between →
    ∀ q ∈ finished (before ++ p :: between), SameSender (jobs p) (jobs q) → q ∈ finished before

/-- The table after checks one after the other. -/
def oneByOne (factor : Rat) (db : Table) (jobs : List Job) : Table :=
  jobs.foldl (fun d j => (check j.user factor d j.mail).1) db

end Verif.Awl
