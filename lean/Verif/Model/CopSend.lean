import Verif.Model.Services

/-!
# Sending a report: `send_mail_method` in `oa/plugins/spam_cop.py`

What DNS has for a domain and what a mail server does are parameters.  Every exception makes the result false
(oa/plugins/spam_cop.py 77-79).
-/

namespace Verif.CopSend
open Verif Py Services

/-- A connection: the server, the name given in `HELO`, and what is sent. -/
structure Attempt where
  host : Str
  helo : Str
  report : Report
deriving DecidableEq

/-- The domain of the receiver (oa/plugins/spam_cop.py 66-67).  Simplification: the address is one line. -/
def domainOf (receiver : Str) : Option Str :=
  match splitChar '@' receiver with
  | _ :: d :: _ => some d
  | _ => none

/-- The host in a record such as `0 mail.domain.com.` (oa/plugins/spam_cop.py 69-70). -/
def hostOf (mx : Str) : Option Str :=
  match splitWs mx with
  | _ :: h :: _ => some h.dropLast
  | _ => none

/-- The name for `HELO` (oa/plugins/spam_cop.py 74). -/
def heloOf (host : Str) : Option Str :=
  match splitChar '.' host with
  | _ :: x :: _ => some x
  | _ => none

/-- `send_mail_method` (oa/plugins/spam_cop.py 58-80): the result, and the sending that was tried.  `mx` gives the records of a
domain (`none`: an exception; no records if there is no answer), `smtp` says whether the server does all that is asked of it.
Simplification: a connection that ends before `HELO` because the host has no dot is left out. -/
def send (mx : Str → Option (List Str)) (smtp : Attempt → Bool) (r : Report) : Bool × Option Attempt :=
  match domainOf r.receiver with
  | none => (false, none)
  | some d =>
    match mx d with
    | none => (false, none)
    | some [] => (false, none)
    | some (first :: _) =>
      match hostOf first with
      | none => (false, none)
      | some host =>
        match heloOf host with
        | none => (false, none)
        | some helo => (smtp ⟨host, helo, r⟩, some ⟨host, helo, r⟩)

/-- `plugin_report` (oa/plugins/spam_cop.py 82-131) with this way to send: the result, and the sending that was tried. -/
def report (s : Cop) (mktime : Str → Option Int) (now : Int) (mx : Str → Option (List Str)) (smtp : Attempt → Bool)
    (received : List (Option Str)) (raw : Str) : Option (Bool × Option Attempt) :=
  match copReport s mktime now (fun r => (send mx smtp r).1) received raw with
  | none => none
  | some (ok, sent) => some (ok, sent.bind fun r => (send mx smtp r).2)

end Verif.CopSend
