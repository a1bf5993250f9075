import Verif.Model.Relays
import Verif.Model.Content

/-!
# `Received` headers: `oa/received_parser.py` 361-374, 462-477, 529-553, 642-697,
the tags of `oa/message.py` 406-427, and `oa/plugins/relay_eval.py` 47-143, 150-180

The regular expressions that pick fields out of a header are parameters.
-/

namespace Verif.Received
open Verif Py

/-- The regular expressions of oa/received_parser.py as functions on the header. -/
structure Rx where
  /-- some expression of `check_for_skip` (376-460) matches -/
  skip : Str → Bool
  /-- `IP_ADDRESS.findall` -/
  ips : Str → List Str
  /-- the IPv6 alternatives of `IP_PRIVATE` -/
  private6 : Str → Bool
  rdns : Str → Str
  by_ : Str → Str
  helo : Str → Str
  ident : Str → Str
  id_ : Str → Str
  /-- the group of `ENVFROM_RE` -/
  envfrom : Str → Option Str
  /-- the group of `AUTH_RE` -/
  auth : Str → Option Str
  /-- `AUTH_RE3` -/
  auth3 : Str → Bool
  /-- the groups of `AUTH_VC_RE` -/
  authVc : Str → Option (Str × Str)
  /-- `AUTH_RE2` -/
  auth2 : Str → Bool
  /-- groups 0 and 3 of `AUTH_RE4` -/
  auth4 : Str → Option (Str × Str)
  /-- `AUTH_RE5` -/
  auth5 : Str → Bool

/-- `re.sub(r'\s+', ' ', header)`; the flag tells whether the last character was white space
(oa/received_parser.py 367). -/
def collapse : Bool → Str → Str
  | _, [] => []
  | prev, c :: cs =>
    if isSpace c then (if prev then collapse true cs else ' ' :: collapse true cs)
    else c :: collapse false cs

/-- `header.replace('from ', '', 1)` (oa/received_parser.py 368). -/
def dropFrom (h : Str) : Str :=
  match split1 c!"from " h with
  | some (a, b) => a ++ b
  | none => h

/-- `header.split(';')[0]` (oa/received_parser.py 369). -/
def firstField (h : Str) : Str := h.takeWhile (· ≠ ';')

/-- The constructor's treatment of one header (oa/received_parser.py 365-372). -/
def prepare (h : Str) : Option Str :=
  if startsWith c!"from" h then some (firstField (dropFrom (collapse false h)))
  else if startsWith c!"X-ORIGINATING-IP" h then some h
  else none

/-- The networks in the IPv4 part of `IP_PRIVATE` (oa/received_parser.py 88-96). -/
def privatePrefixes : List Str :=
  [c!"10.", c!"127.", c!"169.254.", c!"192.168."] ++
    (List.range 64).map (fun i => c!"100." ++ (toString (64 + i)).toList ++ c!".")

/-- `IP_PRIVATE.search(ip)`, which is anchored at the beginning (oa/received_parser.py 88-168). -/
def isPrivate (R : Rx) (ip : Str) : Bool := privatePrefixes.any (fun p => startsWith p ip) || R.private6 ip

/-- `clean_ip` (oa/received_parser.py 542-544). -/
def cleanIp (s : Str) : Str :=
  replace c!"::ffff:" [] (lower (replace c!"ipv6:" [] (lower (stripChars c!"[ ]();\n" s))))

/-- The loop of `get_ip` (oa/received_parser.py 541-550): the last public address and the private ones. -/
def scanIps (R : Rx) : List Str → Str × List Str → Str × List Str
  | [], acc => acc
  | i :: is, (ip, priv) =>
    if isPrivate R (cleanIp i) then scanIps R is (ip, priv ++ [cleanIp i]) else scanIps R is (cleanIp i, priv)

/-- `header.split(" by ")[0]`. -/
def beforeBy (h : Str) : Str :=
  match split1 c!" by " h with
  | some (a, _) => a
  | none => h

/-- `get_ip` (oa/received_parser.py 529-553). -/
def getIp (R : Rx) (h : Str) : Str :=
  let ips := R.ips (beforeBy h)
  let (ip, priv) := scanIps R ips ([], [])
  if ips.length ≠ 0 ∧ priv.length = ips.length then priv.headD [] else ip

/-- `get_envfrom` (oa/received_parser.py 462-477). -/
def getEnvfrom (R : Rx) (h : Str) : Str :=
  let e := match R.envfrom h with
    | some e => stripChars c!"><[]" e
    | none => []
  match rsplit1 '=' e with
  | some (_, b) => b
  | none => e

/-- `get_auth` (oa/received_parser.py 642-675). -/
def getAuth (R : Rx) (h : Str) : Str :=
  let rest : Str :=
    if R.auth3 h then c!"Postfix"
    else if hasSub c!" by mx.google.com with ESMTPS id " h then
      match R.authVc h with
      | some (v, c) => c!"GMail - transport=" ++ v ++ c!" cipher=" ++ c
      | none => []
    else if hasSub c!"SquirrelMail authenticated " h then c!"SquirrelMail"
    else if hasSub c!"authenticated" h && R.auth2 h then c!"CriticalPath"
    else if hasSub c!"authenticated" h then c!"Sendmail"
    else match R.auth4 h with
      | some (a, b) => c!"GMX (" ++ b ++ c!" / " ++ a ++ c!")"
      | none => if R.auth5 h then c!"Communigate" else []
  if hasSub c!" by " h then
    match R.auth h with
    | some a => a
    | none => rest
  else rest

/-- The fields of a parsed header. -/
structure Fields where
  rdns : Str
  ip : Str
  by_ : Str
  helo : Str
  ident : Str
  id_ : Str
  envfrom : Str
  auth : Str
deriving DecidableEq, Repr

/-- The body of the loop of `_parse_message` (oa/received_parser.py 677-697). -/
def parseHeader (R : Rx) (h : Str) : Option Fields :=
  if R.skip h then none
  else if startsWith c!"X-ORIGINATING-IP" h then some ⟨[], getIp R h, [], [], [], [], [], []⟩
  else some ⟨R.rdns h, getIp R h, R.by_ h, R.helo h, R.ident h, R.id_ h, getEnvfrom R h, getAuth R h⟩

/-- `ReceivedParser(headers).received` (oa/received_parser.py 361-374, 677-697); `none` is the
`AttributeError` of a header that is `None` because it could not be decoded. -/
def parseReceived (R : Rx) (hs : List (Option Str)) : Option (List Fields) :=
  if hs.contains none then none
  else some (((hs.filterMap id).filterMap prepare).filterMap (parseHeader R))

/-- The relays `_parse_relays` walks through (oa/message.py 368-375): `addr` is `ipaddress.ip_address`, and
`none` its exception.  Simplification: the exception of a later relay is raised before the earlier ones are
sorted, which nothing can observe because the message is lost. -/
def toRelays {A : Type} (addr : Str → Option A) : List Fields → Option (List (Relay.Relay A))
  | [] => some []
  | f :: fs =>
    match toRelays addr fs with
    | none => none
    | some rs =>
      if f.ip = [] then some (⟨none, decide (f.auth ≠ []), f.envfrom, f.helo⟩ :: rs)
      else match addr f.ip with
        | none => none
        | some a => some (⟨some a, decide (f.auth ≠ []), f.envfrom, f.helo⟩ :: rs)

/-! ## Tags -/

/-- A relay with the marks `_parse_relays` writes. -/
structure Marked where
  f : Fields
  intl : Bool
  msa : Bool
deriving DecidableEq, Repr

/-- `tag_template.format(**relay)` (oa/message.py 406-408). -/
def tagText (m : Marked) : Str :=
  let bit (b : Bool) : Str := if b then c!"1" else c!"0"
  c!"[ ip=" ++ m.f.ip ++ c!" rdns=" ++ m.f.rdns ++ c!" helo=" ++ m.f.helo ++ c!" by=" ++ m.f.by_ ++ c!" ident=" ++
    m.f.ident ++ c!" envfrom=" ++ m.f.envfrom ++ c!" intl=" ++ bit m.intl ++ c!" id=" ++ m.f.id_ ++ c!" auth=" ++
    m.f.auth ++ c!" msa=" ++ bit m.msa ++ c!" ]"

/-- The tags made from the relay lists (oa/message.py 406-427). -/
def relayTags (trusted untrusted internal external : List Marked) : Dict Str Str :=
  let line (l : List Marked) : Str := join c!" " (l.map tagText)
  [(c!"RELAYSTRUSTED", line trusted), (c!"RELAYSUNTRUSTED", line untrusted), (c!"RELAYSINTERNAL", line internal),
   (c!"RELAYSEXTERNAL", line external)] ++
    match external.getLast? with
    | some m => [(c!"LASTEXTERNALIP", m.f.ip), (c!"LASTEXTERNALRDNS", m.f.rdns), (c!"LASTEXTERNALHELO", m.f.helo)]
    | none => []

/-! ## Rules about relays -/

/-- `ipaddress.IPv4Address(helo)` as a number; `none` for a text that is no IPv4 address. -/
structure V4 where
  addr : Str → Option Nat

/-- `_check_helo` (oa/plugins/relay_eval.py 50-58). -/
def checkHelo (R : Rx) (V : V4) (r : Fields) : Bool :=
  decide (r.helo ≠ []) && (V.addr r.helo).isSome && !isPrivate R r.helo

/-- `check_for_numeric_helo` (oa/plugins/relay_eval.py 60-66). -/
def numericHelo (R : Rx) (V : V4) (untrusted : List Fields) : Bool := untrusted.any (checkHelo R V)

/-- `check_all_trusted` (oa/plugins/relay_eval.py 74-78). -/
def allTrusted (trusted untrusted : List Fields) : Bool := decide (trusted ≠ []) && decide (untrusted = [])

/-- `check_no_relays` (oa/plugins/relay_eval.py 80-84). -/
def noRelays (trusted untrusted : List Fields) : Bool := decide (trusted = []) && decide (untrusted = [])

/-- `check_for_sender_no_reverse` (oa/plugins/relay_eval.py 90-105). -/
def senderNoReverse (R : Rx) (untrusted : List Fields) : Bool :=
  match untrusted.getLast? with
  | none => false
  | some r => r.rdns.contains '.' && !isPrivate R r.ip

/-- `addr.rsplit("@", 1)[-1]`. -/
def domainPart (a : Str) : Str :=
  match rsplit1 '@' a with
  | some (_, b) => b
  | none => a

/-- `check_for_from_domain_in_received_headers` (oa/plugins/relay_eval.py 107-124); `froms` is
`get_addr_header("from")`. -/
def fromDomain (domain desired : Str) (froms : List Str) (trusted untrusted : List Fields) : Bool :=
  if !(froms.map domainPart).contains domain then false
  else if (trusted ++ untrusted).any (fun r => hasSub domain r.rdns && hasSub domain r.by_) then
    decide (desired = c!"true")
  else decide (desired ≠ c!"true")

/-- `helo_ip_mismatch` (oa/plugins/relay_eval.py 152-167). `IPv4Network(a).supernet(8)` is the /24 of the
address. -/
def heloMismatch (R : Rx) (V : V4) : List Fields → Bool
  | [] => false
  | r :: rs =>
    if !checkHelo R V r then heloMismatch R V rs
    else match V.addr r.helo, V.addr r.ip with
      | some h, some i => if decide (r.helo ≠ r.ip) && decide (h / 256 ≠ i / 256) then true else heloMismatch R V rs
      | _, _ => heloMismatch R V rs

/-- The providers of oa/plugins/relay_eval.py 174-178. -/
def bigIsps : List Str :=
  [c!"lycos.com", c!"lycos.co.uk", c!"hotmail.com", c!"localhost.com", c!"excite.com", c!"caramail.com", c!"cs.com",
   c!"aol.com", c!"msn.com", c!"yahoo.com", c!"drizzle.com"]

/-- `.*(?:\.|^)(…)$` against a name without line breaks (oa/plugins/relay_eval.py 174-179). -/
def isBigIsp (h : Str) : Bool := bigIsps.any (fun d => decide (h = d) || endsWith ('.' :: d) h)

/-- `check_for_no_rdns_dotcom_helo` (oa/plugins/relay_eval.py 169-190). -/
def noRdnsDotcom (R : Rx) : List Fields → Bool → Bool
  | [], b => b
  | r :: rs, b =>
    if isPrivate R r.ip then noRdnsDotcom R rs b
    else if r.helo = [] then noRdnsDotcom R rs b
    else noRdnsDotcom R rs (isBigIsp r.helo && decide (r.rdns = []))

end Verif.Received
