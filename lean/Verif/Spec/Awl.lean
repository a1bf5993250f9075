import Verif.Model.Awl

/-!
# Specification of the auto-whitelist
-/

namespace Verif.Awl
open Verif Py

/-- The messages of a sender: an address and a signing domain. -/
def ofSender (email signedby : Str) (ms : List Mail) : List Mail :=
  ms.filter fun m => decide (m.email = email ∧ m.signedby = signedby)

/-- The messages of a sender from one network. -/
def fromNet (email signedby ip : Str) (ms : List Mail) : List Mail :=
  (ofSender email signedby ms).filter fun m => decide (m.ip = ip)

/-- How many messages and the sum of their scores, as they were before any adjustment. -/
def summary (ms : List Mail) : Entry := ⟨ms.length, (ms.map Mail.score).sum⟩

/-- The rows of a sender in the table. -/
def rowsOf (user email signedby : Str) (db : Table) : List (Key × Entry) :=
  db.filter fun r => decide (r.1.username = user ∧ r.1.email = email ∧ r.1.signedby = signedby)

/-- All the rows of a sender taken together. -/
def total (rows : List (Key × Entry)) : Entry :=
  ⟨(rows.map fun r => r.2.count).sum, (rows.map fun r => r.2.totscore).sum⟩

end Verif.Awl
