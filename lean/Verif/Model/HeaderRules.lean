import Verif.Model.Headers
import Verif.Model.Content

/-!
# More rules of `oa/plugins/header_eval.py`: presence, subjects, senders and providers

Results are `none` if the code raises (the rule then does not hold, oa/rules/eval_.py 70-77).
-/

namespace Verif.HeaderRules
open Verif Py Mail

/-- `EvalRule.match` (oa/rules/eval_.py 70-77). -/
def holds (r : Option Bool) : Bool := r.getD false

/-- `check_for_missing_to_header` (oa/plugins/header_eval.py 445-451). -/
def missingTo (m : Msg) : Bool :=
  if getRaw m c!"To" ≠ [] then false
  else if getRaw m c!"Apparently-To" ≠ [] then false
  else true

/-- `check_header_count_range` (oa/plugins/header_eval.py 644-654); `int(minr)` and `int(maxr)` are parameters, `none` if they
raise. -/
def countRange (m : Msg) (header : Str) (minr maxr : Option Int) : Option Bool :=
  let n : Int := ((getRaw m header).eraseDups.length : Int)
  match minr with
  | none => none
  | some lo =>
    if lo ≤ n then
      match maxr with
      | none => none
      | some hi => some (decide (n ≤ hi))
    else some false

/-! ### Subjects -/

/-- `Re|Fwd|Fw|Aw|Antwort|Sv` and the colon (oa/plugins/header_eval.py 556), in lower case. -/
def marks : List Str := [c!"re:", c!"fwd:", c!"fw:", c!"aw:", c!"antwort:", c!"sv:"]

/-- `Regex(r"^(Re|Fwd|Fw|Aw|Antwort|Sv):", re.I).sub("", subject)` (oa/plugins/header_eval.py 556-557), for ASCII letters. -/
def dropMark (s : Str) : Str :=
  match marks.find? (fun k => startsWith k (lower s)) with
  | some k => s.drop k.length
  | none => s

/-- `subject.isupper()`: `up` and `low` tell which characters are letters in upper case, and in another case. -/
def isUpperText (up low : Char → Bool) (s : Str) : Bool := s.any up && s.all (fun c => !low c)

/-- `subject_is_all_caps` (oa/plugins/header_eval.py 548-567) on the decoded subjects, where `None` is one that cannot be decoded:
the expression then raises `TypeError`. -/
def allCaps (up low : Char → Bool) : List (Option Str) → Option Bool
  | [] => some false
  | none :: _ => none
  | some s :: rest =>
    let t := strip (dropMark s)
    if t.length < 10 then allCaps up low rest
    else if (splitWs t).length = 1 then allCaps up low rest
    else if isUpperText up low t then some true
    else allCaps up low rest

/-- `re.match("(\S+)@.*", to)`: the user of an address (oa/plugins/header_eval.py 586-588). -/
def userOf (to : Str) : Option Str :=
  match rsplit1 '@' (to.takeWhile (fun c => !isSpace c)) with
  | some (c :: a, _) => some (c :: a)
  | _ => none

/-- `[,:;!?-]`. -/
def isPunct (c : Char) : Bool := c == ',' || c == ':' || c == ';' || c == '!' || c == '?' || c == '-'

/-- `\s*(?:\w+\s+)?` for a whole text. -/
def gap (u : Char → Bool) (q : Str) : Bool :=
  let r := q.dropWhile isSpace
  let w := r.takeWhile (Content.isWord u)
  let a := r.dropWhile (Content.isWord u)
  r.isEmpty || (!w.isEmpty && !a.isEmpty && a.all isSpace)

/-- `e$` after a text that `before` accepts. -/
def endsWithText (before : Str → Bool) (e s : Str) : Bool :=
  [e, e ++ c!"\n"].any fun x => x.isSuffixOf s && before (s.take (s.length - x.length))

/-- All the ends of a text, where an expression can begin to match. -/
def tailsOf : Str → List Str
  | [] => [[]]
  | c :: s => (c :: s) :: tailsOf s

/-- The four expressions for a user (oa/plugins/header_eval.py 589-599). -/
def userInSubject (u : Char → Bool) (user subject : Str) : Bool :=
  endsWithText (fun q => q.isEmpty) user subject ||
  (tailsOf subject).any (fun s => (startsWith c!"re:" s || startsWith c!"fw:" s) && endsWithText (gap u) user (s.drop 3)) ||
  [c!",", c!":", c!";", c!"!", c!"?", c!"-"].any (fun p => endsWithText (fun _ => true) (user ++ p) subject) ||
  (startsWith user subject &&
    match (subject.drop user.length).dropWhile isSpace with
    | p :: c :: _ => isPunct p && isSpace c
    | _ => false)

/-- `check_for_to_in_subject` (oa/plugins/header_eval.py 569-600): the addresses of the `To` headers, and the first `Subject`
header as it is written, or an empty text. -/
def toInSubject (u : Char → Bool) (test : Str) (tos : List Str) (subject : Str) : Bool :=
  tos.any fun to =>
    if test = c!"address" then hasSub (lower to) (lower subject)
    else if test = c!"user" then
      match userOf to with
      | some user => userInSubject u user subject
      | none => false
    else false

/-! ### Senders -/

/-- `address.rsplit("@", 1)[-1]`. -/
def domainOf (addr : Str) : Str :=
  match rsplit1 '@' addr with
  | some (_, d) => d
  | none => addr

/-- `check_equal_from_domains` (oa/plugins/header_eval.py 735-755): the addresses of the `From` headers and the envelope sender,
which is empty if it is unknown. -/
def differentDomains (froms : List Str) (sender : Str) : Bool :=
  let addr := froms.flatten
  if sender = [] ∨ addr = [] then false
  else if !hasSub (lower (domainOf sender)) (lower (domainOf addr)) then true
  else false

/-- `check_for_matching_env_and_hdr_from` (oa/plugins/header_eval.py 358-365): the envelope senders that the relays, trusted ones
first, are known to have been given (`none` or empty if they are not). -/
def matchingFrom (froms : List Str) (relays : List (Option Str)) : Bool :=
  let env := ((relays.filterMap id).find? (fun e => !e.isEmpty)).getD []
  hasSub env froms.flatten

/-! ### Providers -/

/-- The values of the headers that the rules join, and the expressions they are searched for.  The expressions are parameters. -/
structure Mailing where
  /-- `''.join(msg.get_decoded_header("Received"))` -/
  rcvd : Str
  /-- `contact … run by ezmlm` in `Mailing-List`, `mailing list …` in `Delivered-To`, and qmail in `Received` -/
  ezmlm : Bool
  /-- `from groups\.msn\.com \(\S+\.msn\.com ` in `Received` -/
  msnGroups : Bool

/-- `gated_through_received_hdr_remover` (oa/plugins/header_eval.py 718-733). -/
def gated (m : Mailing) : Bool :=
  if m.ezmlm then true
  else if m.rcvd = [] then true
  else if m.msnGroups then true
  else false

/-- `check_for_forged_eudoramail_received_headers` (oa/plugins/header_eval.py 273-288); `whowhere` is the expression for the
`Received` headers, `ip` whether an address is in `X-Sender-Ip`. -/
def forgedEudora (froms : List Str) (m : Mailing) (whowhere : Str → Bool) (ip : Bool) : Bool :=
  if domainOf froms.flatten ≠ c!"eudoramail.com" then false
  else if gated m then false
  else if whowhere m.rcvd && ip then false
  else true

/-- `check_for_forged_yahoo_received_headers` (oa/plugins/header_eval.py 290-323): `resent` is whether there are `Resent-From` and
`Resent-To` headers, `xrcvd` the joined `X-Received` headers, `rdns` the names of the relays, untrusted ones first, `known` the
expressions that are searched for in any case, `bulk` the one for `reply.yahoo.com`. -/
def forgedYahoo (froms : List Str) (m : Mailing) (resent : Bool) (xrcvd : Str) (rdns : List (Option Str))
    (known bulk : Str → Bool) : Bool :=
  let addr := froms.flatten
  if !hasSub c!"yahoo.com" addr then false
  else
    let rcvd := if resent then (if xrcvd ≠ [] then xrcvd else m.rcvd) else m.rcvd
    if gated m then false
    else if rdns.any (fun r => match r with
      | none => false
      | some n => hasSub c!"yahoo.com" n) then false
    else if known rcvd then false
    else if bulk rcvd && decide (domainOf addr = c!"reply.yahoo.com") then false
    else true

/-- `check_for_forged_juno_received_headers` (oa/plugins/header_eval.py 325-356): `xorig` and `xmailer` are the joined headers;
`juno` tells whether one of the two expressions of the first case is found, `mailCom` and `untd` are the expressions of the
second, and `mailer`, `webmail` those for `X-Mailer`. -/
def forgedJuno (froms : List Str) (m : Mailing) (xorig xmailer : Str) (juno mailCom untd mailer webmail : Str → Bool) : Bool :=
  if !(endsWith c!"juno.com" (domainOf froms.flatten)) then false
  else if gated m then false
  else if xorig ≠ [] then
    if !juno m.rcvd then true
    else if !hasSub c!"Juno " xmailer then true
    else false
  else if mailCom m.rcvd && !mailer xmailer then true
  else if untd m.rcvd && !webmail xmailer then true
  else true

end Verif.HeaderRules
