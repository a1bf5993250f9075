import Verif.Model.Py

/-!
# The script that matches messages: `scripts/match.py`

`M` is the type of texts of messages.  What matching a message, reporting it and so on do is the subject of other modules:
here they are events.
-/

namespace Verif.Script
open Verif

variable {M : Type}

/-- A path of the command line (scripts/match.py 26-34): a file, or the files of a directory, in the order of `os.listdir`.  `none`
is an entry that cannot be opened or read as text, such as a directory in a directory. -/
inductive Source (M : Type)
  | file (m : Option M)
  | dir (ms : List (Option M))

/-- The generator `MessageList.__call__` (scripts/match.py 26-34). -/
def Source.messages : Source M → List (Option M)
  | .file m => [m]
  | .dir ms => ms

/-- The options that choose what is done with a message (scripts/match.py 74-77, 94-99). -/
structure Options where
  revoke : Bool
  report : Bool
  reportOnly : Bool
  testMode : Bool

/-- What the script does. -/
inductive Event (M : Type)
  | revoked (m : M)
  | reported (m : M)
  | matched (m : M)
  | printedReport (m : M)
  | printedMessage (m : M)
  | printedCount (n : Nat)
deriving DecidableEq

/-- What is done with a message (scripts/match.py 162-173). -/
def one (o : Options) (m : M) : List (Event M) :=
  if o.revoke then [.revoked m]
  else if o.report then [.reported m]
  else if o.reportOnly then [.matched m, .printedReport m]
  else [.matched m, .printedMessage m] ++ if o.testMode then [.printedReport m] else []

/-- The inner loop (scripts/match.py 155-173); false if an exception ends the script.  `ok` tells which messages are processed
without one. -/
def list (o : Options) (ok : M → Bool) : List (Option M) → List (Event M) × Bool
  | [] => ([], true)
  | none :: _ => ([], false)
  | some m :: ms =>
    if ok m then
      let (es, b) := list o ok ms
      (one o m ++ es, b)
    else ([], false)

/-- The outer loop (scripts/match.py 153-176). -/
def loop (o : Options) (ok : M → Bool) : List (Source M) → Nat → List (Event M) × Bool
  | [], count => (if o.revoke || o.report then [.printedCount count] else [], true)
  | s :: ss, count =>
    match list o ok s.messages with
    | (es, false) => (es, false)
    | (es, true) =>
      let (es', b) := loop o ok ss (count + 1)
      (es ++ es', b)

/-- The loops of `main` (scripts/match.py 153-176). -/
def main (o : Options) (ok : M → Bool) (ss : List (Source M)) : List (Event M) × Bool := loop o ok ss 0

end Verif.Script
