import Verif.Model.Headers
import Verif.Model.FreeMail

/-!
# The senders of a message: `get_all_from_headers_addr` in `oa/message.py`, and `check_freemail_from` with it
-/

namespace Verif.AllFrom
open Verif Py Mail

/-- The headers (oa/message.py 276-278). -/
def keys : List Str :=
  [c!"From", c!"Envelope-Sender", c!"Resent-Sender", c!"X-Envelope-From", c!"EnvelopeFrom", c!"Resent-From"]

/-- The loop over the headers (oa/message.py 280-285), run to its end as `sorted(set(...))` does (oa/plugins/free_mail.py
205-206); `none` is an exception. -/
def loop (L : MailLib) (sender : Str) : List Str → Msg → Option (List Str) × Msg
  | [], m => (some [], m)
  | k :: ks, m =>
    if k = c!"EnvelopeFrom" ∧ sender ≠ [] then
      match loop L sender ks m with
      | (some r, m2) => (some (sender :: r), m2)
      | (none, m2) => (none, m2)
    else
      match getAllAddr L k m with
      | (some a, m1) =>
        match loop L sender ks m1 with
        | (some r, m2) => (some (a ++ r), m2)
        | (none, m2) => (none, m2)
      | (none, m1) => (none, m1)

/-- `get_all_from_headers_addr` (oa/message.py 275-285); an empty sender is no sender. -/
def allFrom (L : MailLib) (sender : Str) (m : Msg) : Option (List Str) × Msg := loop L sender keys m

/-- `check_freemail_from` (oa/plugins/free_mail.py 182-233) on a message; an exception is `False` (oa/rules/eval_.py 70-77).  An
expression that does not compile is noticed before the headers are read. -/
def rule (L : MailLib) (c : FreeMail.Conf) (rx : FreeMail.Rx) (sender : Str) (m : Msg) : Bool :=
  match (allFrom L sender m).1 with
  | none => false
  | some addrs => FreeMail.checkFrom c rx addrs

end Verif.AllFrom
