import Verif.Model.Bayes
import Verif.Model.Context
import Verif.Model.Services
import Verif.Model.Protocol

/-!
# What reporting a message does: `hook_report`, `hook_revoke` (`oa/context.py` 356-366), the plugins that implement them, and the TELL
command (`oa/protocol/tell.py`)
-/

namespace Verif.Tell
open Verif Py Context

/-- What leaves the host. -/
inductive Deed where
  /-- a Pyzor server is told -/
  | pyzor (s : Services.Sent)
  /-- a program of Razor is run -/
  | ran (program : Str)
  /-- a mail to SpamCop -/
  | mailed (r : Services.Report)
deriving DecidableEq, Repr

/-- The classifier's database and what has left the host so far. -/
structure World (D : Type) where
  db : D
  deeds : List Deed
deriving DecidableEq, Repr

/-- The plugins that have a `plugin_report` or `plugin_revoke` of their own, with their options and with what the outside does to them;
`other` is any other plugin, which inherits `plugin_report` and `plugin_revoke` (oa/plugins/base.py 178-189), which do nothing. -/
inductive Plug (D : Type) where
  | bayes (st : Bayes.Store D) (use : Bool)
  /-- `ok`: whether a server can be told; `stored`: the digest kept by a check -/
  | pyzor (use : Bool) (ok : Str → Bool) (stored : Option Str) (servers : List Str)
  /-- whether the programs can be started -/
  | razor (starts : Bool)
  | spamcop (s : Services.Cop) (mktime : Str → Option Int) (send : Services.Report → Bool)
  | other

/-- The message, as far as the plugins look at it. -/
structure Letter where
  mail : Bayes.Mail
  digest : Str
  received : List (Option Str)
  raw : Str

variable {D : Type}

/-- The result of a plugin's callback, as the hook sees it. -/
def ended (ok : Bool) : Cb := if ok then .ret false else .raised

/-- `plugin_report` and `plugin_revoke` (oa/plugins/bayes.py 602-610, oa/plugins/pyzor.py 56-64, oa/plugins/razor2.py 80-116,
oa/plugins/spam_cop.py 82-131, oa/plugins/base.py 178-189).  Simplifications: the text of the message can be encoded; what the programs
of Razor answer is not looked at, and neither is it in the code. -/
def callback (now : Int) (m : Letter) (revoke : Bool) (p : Plug D) (w : World D) : World D × Cb :=
  match p with
  | .bayes st use =>
    match Bayes.learnMessage st use now (!revoke) m.mail w.db with
    | (.ok _, d) => ({ w with db := d }, .ret false)
    | (.error _, d) => ({ w with db := d }, .raised)
  | .pyzor use ok stored servers =>
    let r := Services.pyzorReport use ok stored m.digest (!revoke) servers
    ({ w with deeds := w.deeds ++ r.1.map .pyzor }, ended r.2)
  | .razor starts =>
    ({ w with deeds := w.deeds ++ if starts then [.ran (if revoke then c!"razor-revoke" else c!"razor-report")] else [] }, .ret false)
  | .spamcop s mktime send =>
    if revoke then (w, .ret false)
    else match Services.copReport s mktime now send m.received m.raw with
      | none => (w, .raised)
      | some (b, none) => (w, .ret b)
      | some (b, some r) => ({ w with deeds := w.deeds ++ [.mailed r] }, .ret b)
  | .other => (w, .ret false)

/-- `hook_report` and `hook_revoke` (oa/context.py 356-366). -/
def hook (ps : List (Plug D)) (now : Int) (m : Letter) (a : Protocol.Action) (w : World D) : World D × Hook :=
  chain (callback now m a.revoke) ps w

/-- One half of `TellCommand.handle` (oa/protocol/tell.py 18-23, 24-29): the world, the answers so far, and whether an exception has ended it. -/
def half (ps : List (Plug D)) (now : Int) (m : Letter) (options : Dict Str Str) (key did : Str) (revoke spam : Bool)
    (s : World D × List Str × Bool) : World D × List Str × Bool :=
  if s.2.2 then s
  else match Dict.get? options key with
    | none => s
    | some v =>
      let targets := splitChar ',' v
      match hook ps now m ⟨revoke, spam, decide (c!"local" ∈ targets), decide (c!"remote" ∈ targets)⟩ s.1 with
      | (w, .raised) => (w, [], true)
      | (w, .result _) => (w, s.2.1 ++ [did ++ c!": " ++ v ++ c!"\r\n"], false)

/-- `TellCommand.handle` (oa/protocol/tell.py 15-31): the world afterwards, the answers, and whether an exception has ended it. -/
def tell (ps : List (Plug D)) (now : Int) (m : Letter) (options : Dict Str Str) (w : World D) : World D × List Str × Bool :=
  let spam := decide (lower ((Dict.get? options c!"message-class").getD c!"spam") = c!"spam")
  half ps now m options c!"remove" c!"DidRemove" true spam
    (half ps now m options c!"set" c!"DidSet" false spam (w, [], false))

end Verif.Tell
