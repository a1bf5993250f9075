import Verif.Model.CopSend

/-!
# Specification of sending a report
-/

namespace Verif.CopSend
open Verif Py

/-- A mail server of a domain, with its preference: a smaller number is to be tried first. -/
structure Mx where
  pref : Nat
  digits : Str
  host : Str

/-- The record as DNS shows it. -/
def Mx.text (x : Mx) : Str := x.digits ++ c!" " ++ x.host ++ c!"."

/-- The preference is written without blanks, and the host is a name with a dot. -/
def Mx.Ok (x : Mx) : Prop :=
  x.digits ≠ [] ∧ (∀ c ∈ x.digits, isSpace c = false) ∧ (∀ c ∈ x.host, isSpace c = false) ∧ '.' ∈ x.host

/-- The address `local@domain`, with no other at sign. -/
def Address (to name domain : Str) : Prop := to = name ++ '@' :: domain ∧ '@' ∉ name ∧ '@' ∉ domain

end Verif.CopSend
