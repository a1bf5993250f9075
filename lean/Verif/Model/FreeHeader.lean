import Verif.Model.FreeMail

/-!
# Rules about free mail in named headers, on messages: `oa/plugins/free_mail.py` 106-180, 235-287
-/

namespace Verif.FreeHeader
open Verif Py FreeMail

/-- `msg.msg.get(name)` and `msg.msg[name]` of `email.message.Message`: the value of the first header called so, in capital or small
letters, as it stands in the message (oa/plugins/free_mail.py 132-142, 257-262). -/
def first : List (Str × Str) → Str → Option Str
  | [], _ => none
  | (k, v) :: rest, name => if lower k = lower name then some v else first rest name

/-- `check_freemail_header` (oa/plugins/free_mail.py 235-287) on the headers of a message; `find` is `email_re.findall`.  An exception is
`False` (oa/rules/eval_.py 70-77). -/
def namedRule (find : Str → List Str) (c : Conf) (rx : Rx) (name : Str) (hs : List (Str × Str)) : Bool :=
  if name = [] then false
  else match first hs name with
    | none => false
    | some v => if v = [] then false else checkHeader c rx (find v)

/-- `email_re.search(msg.msg[name]).group()`, and `''` if there is no such header or no address in it (oa/plugins/free_mail.py
132-142); `search` finds what `findall` finds first. -/
def addressOf (find : Str → List Str) (hs : List (Str × Str)) (name : Str) : Str :=
  match first hs name with
  | none => []
  | some v => (find v).headD []

/-- `check_freemail_replyto` (oa/plugins/free_mail.py 106-180) on the headers of a message. -/
def replyRule (find : Str → List Str) (c : Conf) (option sender : Option Str) (hs : List (Str × Str)) (b : Body) : Bool × Body :=
  checkReplyto c option sender (addressOf find hs c!"From") (addressOf find hs c!"Reply-To") b

end Verif.FreeHeader
