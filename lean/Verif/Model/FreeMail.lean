import Verif.Model.Py

/-!
# Free mail addresses: `oa/plugins/free_mail.py`

The regular expressions of the file and the one that finds addresses are parameters; an exception is `none`.
-/

namespace Verif.FreeMail
open Verif Py

/-- The settings (oa/plugins/free_mail.py 44-55) after `check_start`. -/
structure Conf where
  maxEmails : Int
  maxFree : Int
  skipOver : Bool
  skipBulk : Bool
  domains : List Str
  whitelist : List Str
  /-- `freemail_domains_re`: `none` if it is not set, `some none` if it does not compile -/
  wild : Option (Option (Str → Bool))
  /-- `EMAIL_WHITELIST.search` (15-24) -/
  standard : Str → Bool
  /-- `SKIP_REPLYTO_FROM.search` (25-34) -/
  bulk : Str → Bool

/-- `^[a-z0-9.*?-]+$` (oa/plugins/free_mail.py 60).  Simplification: `$` is the end of the text. -/
def validDomain (d : Str) : Bool :=
  !d.isEmpty && d.all fun c => decide ('a' ≤ c ∧ c ≤ 'z') || decide ('0' ≤ c ∧ c ≤ '9') || c == '.' || c == '*' || c == '?' || c == '-'

/-- The domains that are kept (oa/plugins/free_mail.py 63-65, 76). -/
def keptDomains (domains : List Str) : List Str := domains.filter validDomain

/-- The expression for a domain with wildcards (oa/plugins/free_mail.py 69-71). -/
def wildRe (d : Str) : Str := replace c!"*" c!"[^.]*" (replace c!"?" c!"." (replace c!"." c!"\\." d))

/-- The expression for all of them (oa/plugins/free_mail.py 68-75). -/
def wildAll (domains : List Str) : Option Str :=
  let ws := (domains.filter fun d => d.contains '*').map wildRe
  if ws.isEmpty then none else some (c!"\\@(?:" ++ join c!"|" ws ++ c!")$")

/-- `check_start` (oa/plugins/free_mail.py 57-95), as far as domains are concerned; `compile` is `re.compile`, which is only
called when the expression is used.  The settings are changed for the messages to come as well. -/
def start (compile : Str → Option (Str → Bool)) (c : Conf) : Conf :=
  { c with
    domains := keptDomains c.domains
    wild := match wildAll c.domains with
      | none => c.wild
      | some re => some (compile re) }

/-- `_is_freemail` (oa/plugins/free_mail.py 363-393). -/
def isFreemail (c : Conf) (email : Str) : Option Bool :=
  if email = [] then some false
  else match splitChar '@' email with
    | _ :: domain :: _ =>
      if email ∈ c.whitelist then some false
      else if domain ∈ c.whitelist then some false
      else if c.standard email then some false
      else if domain ∈ c.domains then some true
      else match c.wild with
        | none => some false
        | some none => none
        | some (some search) => some (search email)
    | _ => none

/-- An optional regular expression of a rule: `some none` does not compile. -/
abbrev Rx := Option (Option (Str → Bool))

/-- The loop of `check_freemail_from` and `check_freemail_header` (oa/plugins/free_mail.py 213-233, 266-287); whether the
returned text is empty is all that counts. -/
def firstFree (c : Conf) (rx : Option (Str → Bool)) : List Str → Option Bool
  | [] => some false
  | e :: es =>
    match isFreemail c e with
    | none => none
    | some true => match rx with
      | none => some true
      | some m => some (m e)
    | some false => firstFree c rx es

/-- `a < b` for texts. -/
def strLt (a b : Str) : Bool := decide (a < b)

/-- `check_freemail_from` (oa/plugins/free_mail.py 182-233) for the addresses of the From headers; an exception is `False`
(oa/rules/eval_.py 70-77). -/
def checkFrom (c : Conf) (rx : Rx) (addrs : List Str) : Bool :=
  match rx with
  | some none => false
  | some (some m) => (firstFree c (some m) (sortedBy strLt addrs.eraseDups)).getD false
  | none => (firstFree c none (sortedBy strLt addrs.eraseDups)).getD false

/-- `check_freemail_header` (oa/plugins/free_mail.py 235-287) for the addresses found in the header, in order. -/
def checkHeader (c : Conf) (rx : Rx) (addrs : List Str) : Bool :=
  match rx with
  | some none => false
  | some (some m) => (firstFree c (some m) addrs).getD false
  | none => (firstFree c none addrs).getD false

/-- What is remembered about the body of the message (oa/plugins/free_mail.py 94-95, 359-360). -/
structure Body where
  /-- `body_emails`, in some order -/
  emails : List Str
  parsed : Bool
  free : List Str

/-- The body at the start of a message: `free` keeps what it was before (oa/plugins/free_mail.py 94-95). -/
def Body.reset (old : Body) : Body := { old with emails := [], parsed := false }

/-- `set.add`.  A set has no order, so a new element may be put anywhere; here it comes last. -/
def addTo (es : List Str) (e : Str) : List Str := if e ∈ es then es else es ++ [e]

/-- `extract_metadata` (oa/plugins/free_mail.py 97-104) with the addresses of a text part. -/
def Body.extract (b : Body) (found : List Str) : Body := { b with emails := found.foldl addTo b.emails }

/-- The loop of `_parse_body` (oa/plugins/free_mail.py 349-358): `some none` is `return False`. -/
def countFree (c : Conf) : List Str → Int → List Str → Option (Option (List Str))
  | [], _, acc => some (some acc)
  | e :: es, n, acc =>
    match isFreemail c e with
    | none => none
    | some f =>
      let n' := if f then n + 1 else n
      let acc' := if f then acc ++ [e] else acc
      if n' ≥ c.maxFree then some none else countFree c es n' acc'

/-- `_parse_body` (oa/plugins/free_mail.py 335-361): the result and what is remembered. -/
def parseBody (c : Conf) (b : Body) : Option (Bool × Body) :=
  if b.parsed then some (true, b)
  else if (b.emails.length : Int) ≥ c.maxEmails ∧ c.skipOver = true then some (false, b)
  else match countFree c b.emails 0 [] with
    | none => none
    | some none => some (false, b)
    | some (some fs) => some (true, { b with free := fs, parsed := true })

/-- `check_freemail_body` (oa/plugins/free_mail.py 289-333), with what is remembered after it. -/
def checkBody (c : Conf) (rx : Rx) (b : Body) : Bool × Body :=
  if b.emails = [] then (false, b)
  else match rx with
    | some none => (false, b)
    | _ => match parseBody c b with
      | none => (false, b)
      | some (false, b') => (false, b')
      | some (true, b') => match rx with
        | some (some m) => (b'.free.any m, b')
        | _ => (!b'.free.isEmpty, b')

/-- The end of `check_freemail_replyto` (oa/plugins/free_mail.py 165-180). -/
def differs (c : Conf) (check : Str) (b : Body) : Bool × Body :=
  match parseBody c b with
  | none => (false, b)
  | some (false, b') => (false, b')
  | some (true, b') => (b'.free.any fun e => decide (e ≠ check), b')

/-- `check_freemail_replyto` after the checks of option and sender (oa/plugins/free_mail.py 131-180): `reply` is whether
the option is `reply`; the addresses are `''` if there is none. -/
def replyCore (c : Conf) (reply : Bool) (from_ replyTo : Str) (b : Body) : Bool × Body :=
  match isFreemail c from_, isFreemail c replyTo with
  | some ff, some rf =>
    if ff && rf && decide (from_ ≠ replyTo) then (true, b)
    else if !reply && !rf then (false, b)
    else if reply && (decide (replyTo ≠ []) && !rf || !ff) then (false, b)
    else differs c (if !reply then replyTo else if rf then replyTo else from_) b
  | _, _ => (false, b)

/-- The option, `replyto` if there is none (oa/plugins/free_mail.py 115-120). -/
def optionOf : Option Str → Str
  | none => c!"replyto"
  | some o => if o = [] then c!"replyto" else o

/-- `check_freemail_replyto` (oa/plugins/free_mail.py 106-180).  Without sender, `search(None)` raises. -/
def checkReplyto (c : Conf) (option : Option Str) (sender : Option Str) (from_ replyTo : Str) (b : Body) : Bool × Body :=
  if optionOf option ≠ c!"replyto" ∧ optionOf option ≠ c!"reply" then (false, b)
  else if c.skipBulk then
    match sender with
    | none => (false, b)
    | some s => if c.bulk s then (false, b) else replyCore c (decide (optionOf option = c!"reply")) from_ replyTo b
  else replyCore c (decide (optionOf option = c!"reply")) from_ replyTo b

end Verif.FreeMail
