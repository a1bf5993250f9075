import Verif.Model.Headers

/-!
# Services: `oa/plugins/pyzor.py`, `razor2.py`, `relay_country.py`, `spam_cop.py` and the databases of `base.py`

The services themselves are parameters.  Results are `none` if the code raises; a rule then does not hold
(oa/rules/eval_.py 70-77).
-/

namespace Verif.Services
open Verif Py

/-- `EvalRule.match` (oa/rules/eval_.py 70-77). -/
def holds (r : Option Bool) : Bool := r.getD false

/-! ### Pyzor -/

/-- What a server answers: `Count` and `WL-Count`; `none` if the client raises or the answer is no pair of numbers. -/
abbrev Answer := Option (Int × Int)

/-- The state of a check: the tags `PYZOR_COUNT` and `PYZOR_WL_COUNT`, and the servers that have been asked. -/
structure Asked where
  tags : Option (Int × Int)
  servers : List Str
deriving DecidableEq, Repr

/-- The loop over the servers (oa/plugins/pyzor.py 44-54).  Simplification: a server is its text, not the pair that `rsplit` gives. -/
def pyzorLoop (ask : Str → Answer) (max : Int) : List Str → Asked → Option Bool × Asked
  | [], st => (some false, st)
  | s :: rest, st =>
    let st := { st with servers := st.servers ++ [s] }
    match ask s with
    | none => (none, st)
    | some (count, white) =>
      let st := { st with tags := some (count, white) }
      if max ≤ count ∧ white = 0 then (some true, st) else pyzorLoop ask max rest st

/-- `check_pyzor` (oa/plugins/pyzor.py 27-54). -/
def checkPyzor (use : Bool) (ask : Str → Answer) (max : Int) (servers : List Str) : Option Bool × Asked :=
  if !use then (some false, ⟨none, []⟩) else pyzorLoop ask max servers ⟨none, []⟩

/-- What is sent to a server: its name, the digest, and whether the message is reported as spam. -/
structure Sent where
  server : Str
  digest : Str
  spam : Bool
deriving DecidableEq, Repr

/-- The loop of `_pyzor_report` (oa/plugins/pyzor.py 78-82): what is sent, and whether it comes to its end; `ok` tells whether a server
can be told. -/
def reportLoop (ok : Str → Bool) (digest : Str) (spam : Bool) : List Str → List Sent × Bool
  | [] => ([], true)
  | s :: rest =>
    if ok s then
      let r := reportLoop ok digest spam rest
      (⟨s, digest, spam⟩ :: r.1, r.2)
    else ([⟨s, digest, spam⟩], false)

/-- `_pyzor_report` (oa/plugins/pyzor.py 66-82); `stored` is the digest that a check has kept. -/
def pyzorReport (use : Bool) (ok : Str → Bool) (stored : Option Str) (digest : Str) (spam : Bool) (servers : List Str) :
    List Sent × Bool :=
  if !use then ([], true) else reportLoop ok (stored.getD digest) spam servers

/-! ### Razor -/

/-- How running `razor-check` ends: it cannot be started, the talk with it fails, or it ends with a return code, which is negative if
the timer has killed it. -/
inductive Run where
  | cannotStart
  | broken
  | code (n : Int)
deriving DecidableEq, Repr

/-- `check_razor2` (oa/plugins/razor2.py 35-78): whether the result is true, the result that is kept for the message, and whether the
program has been run. -/
def checkRazor (use : Bool) (kept : Option Int) (run : Run) : Option Bool × Option Int × Bool :=
  if !use then (some false, kept, false)
  else match kept with
    | some r => (some (r != 0), kept, false)
    | none =>
      match run with
      | .cannotStart => (some false, some 0, true)
      | .broken => (none, some 0, true)
      | .code n => (some (n == 0), if n = 1 ∨ n = 0 then some n else some 0, true)

/-- The checks of one message, one after the other: their results, and how often the program has been run.  `runs` says how running
the program would end at each check. -/
def checkAll (use : Bool) : Option Int → List Run → List (Option Bool) × Nat
  | _, [] => ([], 0)
  | kept, r :: rest =>
    let c := checkRazor use kept r
    let t := checkAll use c.2.1 rest
    (c.1 :: t.1, (if c.2.2 then 1 else 0) + t.2)

/-! ### Countries of relays -/

/-- What is used of an address: `is_private`, `version` and the text. -/
structure Ip where
  priv : Bool
  v4 : Bool
  text : Str
deriving DecidableEq, Repr

/-- A loaded database: `country_code_by_addr`; `none` if the database is not loaded. -/
abbrev Geo := Option (Str → Str)

/-- `get_country` (oa/plugins/relay_country.py 57-75). -/
def country (geo4 geo6 : Geo) (ip : Ip) : Str :=
  if ip.priv then c!"**"
  else match (if ip.v4 then geo4 else geo6) with
    | none => c!"XX"
    | some f => if f ip.text = [] then c!"XX" else f ip.text

/-- `get_header_ips` (oa/message.py 249-253): the addresses of the relays; `parse` is `ipaddress.ip_address`, which raises for texts
that are no addresses, and so for a relay without address. -/
def headerIps (parse : Str → Option Ip) : List Str → Option (List Ip)
  | [] => some []
  | t :: ts =>
    match parse t, headerIps parse ts with
    | some ip, some r => some (ip :: r)
    | _, _ => none

/-- `parsed_metadata` (oa/plugins/relay_country.py 77-90): the message with its new header, and the tag `RELAYCOUNTRY`. -/
def addCountries (parse : Str → Option Ip) (geo4 geo6 : Geo) (relays : List Str) (m : Mail.Msg) : Option (Mail.Msg × Option Str) :=
  match headerIps parse relays with
  | none => none
  | some [] => some (m, none)
  | some ips =>
    let result := join c!" " (ips.map (country geo4 geo6))
    some ({ m with headers := m.headers.append c!"X-Relay-Countries" (some result) }, some result)

/-! ### SpamCop -/

/-- The options (oa/plugins/spam_cop.py 20-25).  Simplification: the size is not negative. -/
structure Cop where
  dont : Bool
  fromAddr : Str
  toAddr : Str
  maxSize : Nat
deriving DecidableEq, Repr

/-- `re.match(".+@.+", to)` (oa/plugins/spam_cop.py 89), for one line. -/
def usableTo (to : Str) : Bool := ((to.drop 1).dropLast).contains '@'

/-- `get_mail_date` (oa/plugins/spam_cop.py 48-56); `mktime` is `time.mktime(email.utils.parsedate(...))`. -/
def mailDate (mktime : Str → Option Int) (received : List (Option Str)) : Option Int :=
  match received with
  | some r :: _ =>
    match splitChar ';' r with
    | _ :: t :: _ => mktime t
    | _ => none
  | _ => none

/-- The message as it is reported (oa/plugins/spam_cop.py 113-115). -/
def cut (max : Nat) (original : Str) : Str :=
  if max * 1024 < original.length then original.take (max * 1024) ++ c!"\n[truncated by OrangeAssassin]\n" else original

/-- What is sent: sender and receiver of the envelope, and the message in it; the rest of the report is not modelled. -/
structure Report where
  sender : Str
  receiver : Str
  original : Str
deriving DecidableEq, Repr

/-- `plugin_report` (oa/plugins/spam_cop.py 82-131): the result and what has been sent; `send` is `send_mail_method`. -/
def copReport (s : Cop) (mktime : Str → Option Int) (now : Int) (send : Report → Bool) (received : List (Option Str)) (raw : Str) :
    Option (Bool × Option Report) :=
  if !usableTo s.toAddr then some (false, none)
  else match mailDate mktime received with
    | none => none
    | some date =>
      if date = 0 ∨ date < now - 2 * 86400 then some (false, none)
      else
        let r : Report := ⟨s.fromAddr, s.toAddr, cut s.maxSize raw⟩
        some (send r, some r)

/-- `_spamcop_report` (oa/plugins/spam_cop.py 27-38), which nothing calls. -/
def spamcopReport (s : Cop) (mktime : Str → Option Int) (now : Int) (send : Report → Bool) (received : List (Option Str)) (raw : Str) :
    Option (Bool × Option Report) :=
  if s.dont then some (false, none) else copReport s mktime now send received raw

/-! ### Databases -/

/-- `dict(item.split("=") for item in connection.split(";"))` (oa/plugins/base.py 44, 52). -/
def pairs : List Str → Option (Dict Str Str)
  | [] => some []
  | item :: rest =>
    match splitChar '=' item, pairs rest with
    | [k, v], some d => some (if Dict.has d k then d else (k, v) :: d)
    | _, _ => none

/-- `dsn.split(":", 2)` into three (oa/plugins/base.py 22, 38). -/
def dsnParts (dsn : Str) : Option (Str × Str × Str) :=
  match split1 [':'] dsn with
  | none => none
  | some (a, r) =>
    match split1 [':'] r with
    | none => none
    | some (b, c) => some (a, b, c)

/-- The end of `dbi_to_alchemy` (oa/plugins/base.py 56-58). -/
def url (driver user password hostname db : Str) : Str :=
  if user = [] ∨ password = [] then driver ++ c!"://" ++ hostname ++ c!"/" ++ db
  else driver ++ c!"://" ++ user ++ c!":" ++ password ++ c!"@" ++ hostname ++ c!"/" ++ db

/-- `dbi_to_alchemy` (oa/plugins/base.py 36-58). -/
def toAlchemy (dsn user password : Str) : Option Str :=
  match dsnParts dsn with
  | none => none
  | some (_, driver, connection) =>
    if lower driver = c!"mysql" then
      match split1 [':'] connection with
      | none => none
      | some (db, host) => some (url c!"mysql+pymysql" user password host db)
    else if lower driver = c!"pg" then
      match pairs (splitChar ';' connection) with
      | none => none
      | some values =>
        let db := (Dict.get? values c!"dbname").getD c!"spamassassin"
        let host := (Dict.get? values c!"host").getD c!"localhost"
        let host := match Dict.get? values c!"port" with
          | some port => host ++ c!":" ++ port
          | none => host
        some (url c!"postgresql" user password host db)
    else if lower driver = c!"sqlite" then
      match pairs (splitChar ';' connection) with
      | none => none
      | some values =>
        match Dict.get? values c!"dbname" with
        | none => none
        | some db => some (url c!"sqlite" [] [] [] db)
    else some []

/-- What `dbi_to_mysql` collects: driver is always `mysql`; user and password are missing unless both are given. -/
structure MySql where
  host : Str
  db : Str
  user : Option Str
  password : Option Str
deriving DecidableEq, Repr

/-- `dbi_to_mysql` (oa/plugins/base.py 20-33); `none` inside is `None`, for another driver. -/
def toMysql (dsn user password : Str) : Option (Option MySql) :=
  match dsnParts dsn with
  | none => none
  | some (_, driver, connection) =>
    if lower driver = c!"mysql" then
      match split1 [':'] connection with
      | none => none
      | some (db, host) =>
        if user = [] ∨ password = [] then some (some ⟨host, db, none, none⟩)
        else some (some ⟨host, db, some user, some password⟩)
    else some none

/-- What a plugin has as its database. -/
inductive Engine where
  | none
  | mysql (m : MySql)
  | url (s : Str)
deriving DecidableEq, Repr

/-- `finish_parsing_end` (oa/plugins/base.py 109-132); `alchemy` tells whether SQLAlchemy is installed.  `none` if it raises, as it
does for a URL without SQLAlchemy. -/
def engine (alchemy : Bool) (dsn user password : Str) : Option Engine :=
  if dsn = [] then some .none
  else if startsWith c!"DBI" (upper dsn) then
    if !alchemy then
      match toMysql dsn user password with
      | .none => none
      | some .none => some .none
      | some (some m) => some (.mysql m)
    else match toAlchemy dsn user password with
      | .none => none
      | some s => some (.url s)
  else if alchemy then some (.url dsn)
  else none

end Verif.Services
