import Verif.Model.Re
import Verif.Model.Received

/-!
# The expressions of `oa/received_parser.py`
-/

namespace Verif.ReceivedRe
open Verif Py Re

/-- `[a-f0-9]`; the expression has no `re.I`. -/
def hex (c : Char) : Bool := c.isDigit || ('a' ≤ c && c ≤ 'f')

/-- `[a-f0-9:]` -/
def hexColon (c : Char) : Bool := hex c || c == ':'

/-- A digit between two. -/
def between (a b c : Char) : Bool := a ≤ c && c ≤ b

/-- `(?:1\d\d|2[0-4]\d|25[0-5]|\d\d|\d)` (oa/received_parser.py 176). -/
def octet : Re :=
  alts [seqs [lit c!"1", .chr digit, .chr digit], seqs [lit c!"2", .chr (between '0' '4'), .chr digit],
    seqs [lit c!"25", .chr (between '0' '5')], seqs [.chr digit, .chr digit], .chr digit]

/-- Four numbers (oa/received_parser.py 176-179). -/
def quad : Re := seqs [octet, lit c!".", octet, lit c!".", octet, lit c!".", octet]

/-- `[a-f0-9]{1,4}` -/
def h4 : Re := rep (.chr hex) 1 4

/-- `[a-f0-9]{1,4}:` -/
def h4c : Re := .seq h4 (lit c!":")

/-- `:[a-f0-9]{1,4}` -/
def ch4 : Re := .seq (lit c!":") h4

/-- The IPv6 alternatives without prefix and end (oa/received_parser.py 186-251). -/
def ipv6 : Re :=
  alts [
    .seq (alts [times h4c 6, .seq (lit c!"::") (rep h4c 0 5), .seq (rep h4c 1 5) (lit c!":"),
      seqs [h4, lit c!"::", rep h4c 1 4], seqs [times h4c 2, lit c!":", rep h4c 1 3], seqs [times h4c 3, lit c!":", rep h4c 1 2],
      seqs [times h4c 4, lit c!":", h4c]]) quad,
    .seq (times h4c 7) h4,
    .seq (lit c!":") (rep ch4 1 7),
    .seq (rep h4c 1 7) (lit c!":"),
    seqs [h4, lit c!":", rep ch4 1 6],
    .seq (times h4c 2) (rep ch4 1 5),
    .seq (times h4c 3) (rep ch4 1 4),
    .seq (times h4c 4) (rep ch4 1 3),
    .seq (times h4c 5) (rep ch4 1 2),
    seqs [times h4c 6, lit c!":", h4],
    lit c!"::"]

/-- The IPv4 alternative (oa/received_parser.py 174-179). -/
def ipv4 : Re := seqs [.wordb, .nbehind (fun c => c == ':'), quad, .wordb]

/-- `IP_ADDRESS` (oa/received_parser.py 172-253). -/
def ipAddress : Re :=
  .alt ipv4 (seqs [.alt (lit c!"IPv6:") (.nbehind hexColon), ipv6, .nahead hexColon])

/-- `IP_ADDRESS` with groups outside of it: it has none itself. -/
abbrev ip : Re := ipAddress

/-- `[0{1,4}:]` and the like, of `LOCALHOST` and `IP_PRIVATE`. -/
def z4 : Re := rep (lit c!"0") 1 4
/-- `0{1,4}:` -/
def z4c : Re := .seq z4 (lit c!":")
/-- `:0{1,4}` -/
def cz4 : Re := .seq (lit c!":") z4
/-- `0{0,3}1` -/
def one : Re := .seq (rep (lit c!"0") 0 3) (lit c!"1")

/-- Twelve bytes of an IPv4 address in IPv6 (oa/received_parser.py 33-54, 106-127). -/
def mapped : Re :=
  .seq (alts [times z4c 5, .seq (lit c!"::") (rep z4c 0 4), .seq (rep z4c 1 4) (lit c!":"), seqs [z4, lit c!"::", rep z4c 1 3],
    seqs [times z4c 2, lit c!":", rep (lit c!"0") 1 2, lit c!":"], seqs [times z4c 3, lit c!":0:"], .seq (times z4c 4) (lit c!":")])
    (ilit c!"ffff:")

/-- `::1` in all its forms (oa/received_parser.py 60-82, 143-165). -/
def loop6 : Re :=
  alts [.seq (times z4c 7) one, seqs [lit c!":", rep cz4 0 6, lit c!":", one], seqs [z4, lit c!":", rep cz4 0 5, lit c!":", one],
    seqs [times z4c 2, rep cz4 0 4, lit c!":", one], seqs [times z4c 3, rep cz4 0 3, lit c!":", one],
    seqs [times z4c 4, rep cz4 0 2, lit c!":", one], seqs [times z4c 5, rep cz4 0 1, lit c!":", one],
    seqs [times z4c 6, lit c!":", one]]

/-- `[a-f0-9:]` with `re.I`. -/
def ihexColon (c : Char) : Bool := hexColon c.toLower

/-- `LOCALHOST` (oa/received_parser.py 16-86). -/
def localhost : Re :=
  alts [.seq (ilit c!"localhost") (opt (ilit c!".localdomain")),
    seqs [.wordb, .nbehind (fun c => c == ':'), lit c!"127.0.0.1", .wordb],
    seqs [.alt (ilit c!"IPv6:") (.nbehind ihexColon), .alt (.seq mapped (lit c!"127.0.0.1")) loop6, .nahead ihexColon]]

/-- The private networks of IPv4 addresses in IPv6 (oa/received_parser.py 129-136). -/
def privateNet : Re :=
  alts [lit c!"10", lit c!"127", lit c!"169.254",
    .seq (lit c!"172.") (alts [.seq (lit c!"1") (.chr (between '6' '9')), .seq (lit c!"2") (.chr (between '0' '9')),
      .seq (lit c!"3") (.chr (between '0' '1'))]),
    lit c!"192.168",
    .seq (lit c!"100.") (alts [.seq (lit c!"6") (.chr (between '4' '9')), .seq (.chr (between '7' '9')) (.chr (between '0' '9')),
      seqs [lit c!"1", .chr (between '0' '1'), .chr (between '0' '9')], .seq (lit c!"12") (.chr (between '0' '7'))])]

/-- The IPv6 part of `IP_PRIVATE` (oa/received_parser.py 98-168). -/
def private6 : Re :=
  seqs [.bol, .alt (ilit c!"IPv6:") (.nbehind ihexColon),
    alts [seqs [mapped, privateNet, lit c!".", .star true dot],
      seqs [ilit c!"fe", .chr (fun c => c == '8' || c == '9' || c.toLower == 'a' || c.toLower == 'b'), .chr (fun c => hex c.toLower),
        lit c!":", .star true dot],
      loop6],
    .nahead ihexColon]

/-- `\S+` as a group. -/
def word (n : Nat) : Re := .group n (plus nonSpace)

/-- `\S+` -/
def words : Re := plus nonSpace

/-- `.*` and `.*?` -/
def dots : Re := .star true dot
/-- `.*?` -/
def dotsLazy : Re := .star false dot

/-- `FETCHMAIL` (oa/received_parser.py 257-260). -/
def fetchmail : Re :=
  seqs [dotsLazy, sp, word 0, sp, opt (seqs [lit c!"[", .group 1 ip, lit c!"]", sp]), lit c!"by", sp, word 2, sp, lit c!"with", sp, words,
    sp, lit c!"(fetchmail"]

/-- `LOCALHOST_RE` (oa/received_parser.py 262-264). -/
def localhostRe : Re :=
  seqs [.bol, words, sp, lit c!"(", plus (fun c => !isSpace c && c != '@'), lit c!"@", localhost, lit c!")", sp, ilit c!"by", sp, words, sp,
    lit c!"("]

/-- `UNKNOWN_RE_RDNS` (oa/received_parser.py 266-268). -/
def unknownRdns : Re :=
  seqs [.bol, word 0, sp, lit c!"(", .group 1 (lit c!"unknown"), sp, lit c!"[", .group 2 ip, lit c!"])", sp, lit c!"("]

/-- `WITH_LOCAL_RE` (oa/received_parser.py 271). -/
def withLocal : Re := seqs [.wordb, ilit c!"with local", opt (.seq (lit c!"-") words), lit c!" "]
/-- `BSMTP_RE` (oa/received_parser.py 272). -/
def bsmtp : Re := seqs [.bol, words, ilit c!" by ", words, ilit c!" with BSMTP"]
/-- `CONTENT_TECH_RE` (oa/received_parser.py 273-274). -/
def contentTech : Re :=
  seqs [.bol, words, sp, lit c!"(", words, lit c!")", sp, ilit c!"by", sp, words, sp, ilit c!"(Content", sp, ilit c!"Technologies", sp]
/-- `AVG_SMTP_RE` (oa/received_parser.py 275). -/
def avgSmtp : Re := seqs [.bol, lit c!"127.0.0.1 (AVG SMTP ", words, lit c!" [", words, lit c!"])"]
/-- `QMAIL_RE` (oa/received_parser.py 276). -/
def qmail : Re := seqs [.bol, words, lit c!"@", words, lit c!" by ", words, lit c!" by uid ", words, lit c!" "]
/-- `FROM_RE` (oa/received_parser.py 277). -/
def fromRe : Re := seqs [.bol, words, lit c!"@", words, lit c!" by ", words, lit c!" "]
/-- `UNKNOWN_RE` (oa/received_parser.py 278). -/
def unknownRe : Re := seqs [.bol, lit c!"Unknown/Local ("]
/-- `AUTH_SKIP_RE` (oa/received_parser.py 279). -/
def authSkip : Re := seqs [.bol, lit c!"(AUTH: ", words, lit c!") by ", words, lit c!" with "]
/-- `LOCAL_SKIP_RE` (oa/received_parser.py 280-281). -/
def localSkip : Re :=
  seqs [.bol, lit c!"localhost", sp, lit c!"(localhost", sp, lit c!"[[UNIX:", sp, lit c!"localhost]])", sp, lit c!"by", sp]
/-- `AMAZON_RE` (oa/received_parser.py 282-284). -/
def amazon : Re :=
  seqs [.bol, words, lit c!".amazon.com", sp, lit c!"by", sp, words, lit c!".amazon.com", sp, lit c!"with", sp, lit c!"ESMTP", sp,
    lit c!"(peer", sp, lit c!"crosscheck:", sp]
/-- `NOVELL_RE` (oa/received_parser.py 285). -/
def novell : Re := seqs [.bol, plus (fun c => c != '.'), lit c!" by ", words, lit c!" with Novell_GroupWise"]
/-- `NO_NAME_RE` (oa/received_parser.py 286). -/
def noName : Re := seqs [.bol, lit c!"no.name.available by ", words, lit c!" via smtpd (for "]
/-- `SMTPSVC_RE` (oa/received_parser.py 287-288). -/
def smtpsvc : Re :=
  seqs [.bol, lit c!"mail", sp, lit c!"pickup", sp, lit c!"service", sp, lit c!"by", sp, word 0, sp, lit c!"with", sp, lit c!"Microsoft", sp,
    lit c!"SMTPSVC", .eol]

/-- `check_for_skip` (oa/received_parser.py 376-460). -/
def skip (h : Str) : Bool :=
  (search withLocal h).isSome ||
  (hasSub c!"fetchmail" h && (search fetchmail h).isSome) ||
  (hasSub c!" with BSMTP" h && (search bsmtp h).isSome) ||
  (search contentTech h).isSome || (search localhostRe h).isSome || (search avgSmtp h).isSome || (search qmail h).isSome ||
  (search fromRe h).isSome || (search unknownRe h).isSome || (search authSkip h).isSome || (search localSkip h).isSome ||
  (search amazon h).isSome || (search novell h).isSome || (search noName h).isSome || (search smtpsvc h).isSome

/-- `ENVFROM_RE` (oa/received_parser.py 293-294). -/
def envfromRe : Re :=
  seqs [dotsLazy,
    .alt (seqs [lit c!"return-path", opt (lit c!":"), sp])
      (seqs [lit c!"envelope-", .alt (lit c!"sender") (lit c!"from"), .chr (fun c => isSpace c || c == '=')]),
    word 0, .wordb]
/-- `RDNS_RE` (oa/received_parser.py 295). -/
def rdnsRe : Re := seqs [.bol, word 0, lit c!" "]
/-- `RDNS_RE2` (oa/received_parser.py 296). -/
def rdnsRe2 : Re := seqs [.bol, word 0, lit c!"("]
/-- `HEADER_RE` (oa/received_parser.py 297-299). -/
def headerRe : Re := seqs [.bol, opt (lit c!"("), opt (lit c!"["), .group 0 ip, opt (lit c!"]"), opt (lit c!")"), sp, lit c!"by"]
/-- `RDNS_IP_RE` (oa/received_parser.py 300-302). -/
def rdnsIp : Re := seqs [.bol, lit c!"[", .group 0 ip, lit c!"]"]
/-- `RDNS_SMTP` (oa/received_parser.py 303-305). -/
def rdnsSmtp : Re :=
  seqs [.bol, word 0, sp, lit c!"(", opt sp, ip, lit c!")", sp, lit c!"by", dots, lit c!"(", ip, lit c!")", sp, lit c!"with", dots,
    .group 1 (.alt (lit c!"ESMTP") (lit c!"SMTP"))]
/-- `RDNS_SMTP1` (oa/received_parser.py 306-308). -/
def rdnsSmtp1 : Re :=
  seqs [.bol, word 0, sp, lit c!"(", opt sp, lit c!"[", ip, lit c!"])", sp, lit c!"by", dots, word 1, sp, lit c!"with", dots,
    .group 2 (alts [lit c!"esmtp", lit c!"smtp", lit c!"ESMTP", lit c!"SMTP"])]
/-- `RDNS_RE4` (oa/received_parser.py 309-311). -/
def rdnsRe4 : Re :=
  seqs [.bol, .group 0 (seqs [word 1, sp, lit c!"([", ip]), opt (.seq (.chr (fun c => c == '.' || c == ':')) (plus digit)), lit c!"])",
    dotsLazy, sp, lit c!"by", sp, word 2]
/-- `RDNS_RE1` (oa/received_parser.py 312-314). -/
def rdnsRe1 : Re := seqs [.bol, lit c!"([", .group 0 ip, lit c!"])", sp, lit c!"by", sp, word 1]
/-- `RDNS_RE3` (oa/received_parser.py 315-317). -/
def rdnsRe3 : Re :=
  seqs [.bol, word 0, sp, lit c!"[", .group 1 ip, lit c!"]", sp, lit c!"by", sp, word 2, sp, lit c!"[", .group 3 ip, lit c!"]"]
/-- `BY_RE` (oa/received_parser.py 318). -/
def byRe : Re := seqs [dotsLazy, lit c!" by ", word 0, lit c!" ", dots]
/-- `HELO_RE` (oa/received_parser.py 319). -/
def heloRe : Re :=
  seqs [dotsLazy, lit c!"(", .alt (ilit c!"HELO") (ilit c!"EHLO"), lit c!" ", .group 0 (.star true nonSpace), lit c!")"]
/-- `HELO_RE10` (oa/received_parser.py 320). -/
def heloRe10 : Re :=
  seqs [dots, lit c!"(", dots, lit c!" ", .group 0 (.alt (ilit c!"HELO") (ilit c!"EHLO")), lit c!" ", word 1, lit c!")"]
/-- `HELO_RE2` (oa/received_parser.py 321-323). -/
def heloRe2 : Re := seqs [dotsLazy, lit c!"(", word 0, sp, lit c!"[", ip, lit c!"])"]
/-- `HELO_RE3` (oa/received_parser.py 324). -/
def heloRe3 : Re := seqs [dotsLazy, ilit c!"helo=", word 0, lit c!")"]
/-- `HELO_RE4` (oa/received_parser.py 325-327). -/
def heloRe4 : Re := seqs [.bol, opt (lit c!"("), word 0, sp, opt (lit c!"("), opt sp, lit c!"[", ip, lit c!"])"]
/-- `HELO_RE5` (oa/received_parser.py 328-330). -/
def heloRe5 : Re := seqs [.bol, word 0, sp, lit c!"(", opt sp, ip, lit c!")"]
/-- `HELO_RE6` (oa/received_parser.py 331-333). -/
def heloRe6 : Re := seqs [.bol, word 0, sp, lit c!"([", ip, lit c!"]", sp, lit c!"[", ip, lit c!"])"]
/-- `HELO_RE7` (oa/received_parser.py 334-336). -/
def heloRe7 : Re := seqs [.bol, word 0, sp, lit c!"(", word 1, opt sp, lit c!"[", ip, lit c!"]", dots, lit c!")"]
/-- `HELO_RE8` (oa/received_parser.py 337-339). -/
def heloRe8 : Re := seqs [.bol, opt (lit c!"("), word 0, sp, lit c!"[", opt sp, ip, lit c!"]"]
/-- `HELO_RE9` (oa/received_parser.py 340-342); the blank in it does not count. -/
def heloRe9 : Re := seqs [.bol, opt (lit c!"("), word 0, sp, opt (lit c!"("), opt sp, lit c!"[", ip, lit c!"]", opt sp, word 1, lit c!")"]
/-- `IDENT_RE` (oa/received_parser.py 343). -/
def identRe : Re := seqs [dots, lit c!"ident=", word 0, lit c!")"]
/-- `IDENT_RE2` (oa/received_parser.py 344). -/
def identRe2 : Re := seqs [dots, lit c!"(", word 0, lit c!"@"]
/-- `ID_RE` (oa/received_parser.py 345). -/
def idRe : Re := seqs [dots, lit c!"id ", word 0]
/-- `AUTH_RE` (oa/received_parser.py 346-347). -/
def authRe : Re :=
  seqs [dotsLazy, sp, ilit c!"with", sp,
    .group 0 (alts [seqs [alts [ilit c!"ES", ilit c!"L", ilit c!"UTF8S", ilit c!"UTF8L"], ilit c!"MTP", opt (ilit c!"S"), ilit c!"A"],
      ilit c!"ASMTP", .seq (ilit c!"HTTP") (opt (ilit c!"U"))]),
    alts [sp, lit c!";", .eol]]
/-- `AUTH_VC_RE` (oa/received_parser.py 348). -/
def authVc : Re :=
  seqs [dotsLazy, lit c!" (version=", .group 0 (plus (fun c => c != ' ')), lit c!" cipher=", .group 1 (plus (fun c => c != ')')), lit c!")"]
/-- `AUTH_RE2` (oa/received_parser.py 349). -/
def authRe2 : Re := seqs [dotsLazy, lit c!" (authenticated as ", word 0, lit c!")"]
/-- `AUTH_RE3` (oa/received_parser.py 350-351). -/
def authRe3 : Re :=
  seqs [lit c!")", sp, lit c!"(Authenticated", sp, lit c!"sender:", sp, words, lit c!")", sp, lit c!"by", sp, words, sp, lit c!"(Postfix)", sp,
    lit c!"with", sp]
/-- `AUTH_RE4` (oa/received_parser.py 352). -/
def authRe4 : Re :=
  seqs [dots, lit c!" by ", .group 0 (.seq (lit c!"mail.gmx.") (.group 1 (.alt (lit c!"net") (lit c!"com")))), lit c!" (",
    plus (fun c => c != ')'), lit c!") with ", .group 2 (.group 3 (.alt (lit c!"ESMTP") (lit c!"SMTP")))]
/-- `AUTH_RE5` (oa/received_parser.py 353-354). -/
def authRe5 : Re :=
  seqs [dots, lit c!" (account ", dots, lit c!" by ", dots, lit c!" (CommuniGate Pro ", .group 0 (.alt (lit c!"HTTP") (lit c!"SMTP"))]

/-- Group `n` of `r.match(h)`. -/
def field (r : Re) (n : Nat) (h : Str) : Option Str :=
  match matchRe r h with
  | some t => t.get n
  | none => none

/-- Whether `r.match(h)` is a match. -/
def isMatch (r : Re) (h : Str) : Bool := (matchRe r h).isSome

/-- What `get_rdns` first finds (oa/received_parser.py 486-516). -/
def rdnsFirst (h : Str) : Str :=
  if isMatch heloRe7 h then
    let rdns := (field heloRe7 1 h).getD []
    if rdns = c!"softdnserr" then [] else rdns
  else if isMatch heloRe5 h then
    if hasSub c!"(Scalix SMTP Relay" h then [] else (field heloRe5 0 h).getD []
  else if isMatch heloRe4 h && !hasSub c!"Exim" h then
    if isMatch rdnsSmtp h then (field rdnsSmtp 0 h).getD [] else []
  else if isMatch headerRe h then []
  else if isMatch rdnsRe2 h then (field rdnsRe2 0 h).getD []
  else if isMatch rdnsSmtp1 h && !hasSub c!"Exim" h then []
  else if isMatch rdnsRe1 h || isMatch rdnsRe3 h then []
  else if isMatch rdnsRe4 h && !hasSub c!"Exim" h then []
  else (field rdnsRe 0 h).getD []

/-- `get_rdns` (oa/received_parser.py 479-527). -/
def getRdns (h : Str) : Str :=
  let rdns := rdnsFirst h
  let rdns := if rdns.contains '@' then [] else rdns
  let rdns := if hasSub c!"(Postfix)" h && isMatch unknownRdns h then (field unknownRdns 1 h).getD [] else rdns
  let rdns := if isMatch rdnsIp rdns then [] else rdns
  let rdns := if hasSub c!"unknown" rdns || rdns == c!"UnknownHost" then [] else rdns
  stripChars c!"[]" rdns

/-- `get_by` (oa/received_parser.py 555-570). -/
def getBy (h : Str) : Str :=
  if isMatch rdnsRe3 h then (field rdnsRe3 3 h).getD [] else (field byRe 0 h).getD []

/-- `get_helo` (oa/received_parser.py 572-608). -/
def getHelo (h : Str) : Str :=
  let helo := if isMatch heloRe2 h then (if (field heloRe2 0 h).getD [] = c!"unknown" then [] else (field heloRe2 0 h).getD []) else []
  let helo := if isMatch heloRe7 h then (field heloRe7 0 h).getD [] else helo
  if isMatch heloRe h then (field heloRe 0 h).getD []
  else if isMatch heloRe3 h then stripChars c!"[ ]();\n" ((field heloRe3 0 h).getD [])
  else if isMatch heloRe4 h then (field heloRe4 0 h).getD []
  else if isMatch heloRe5 h then (field heloRe5 0 h).getD []
  else if isMatch heloRe6 h then (field heloRe6 0 h).getD []
  else if isMatch heloRe8 h then (field heloRe8 0 h).getD []
  else if isMatch heloRe9 h then (field heloRe9 0 h).getD []
  else if isMatch rdnsRe4 h then (field rdnsRe4 1 h).getD []
  else if isMatch heloRe10 h then stripChars c!"[]" ((field heloRe10 1 h).getD [])
  else helo

/-- `get_ident` (oa/received_parser.py 610-625). -/
def getIdent (h : Str) : Str :=
  if isMatch identRe h then (field identRe 0 h).getD []
  else if isMatch identRe2 h then (field identRe2 0 h).getD []
  else []

/-- `get_id` (oa/received_parser.py 627-640). -/
def getId (h : Str) : Str :=
  match field idRe 0 h with
  | some i => stripChars c!"<>" i
  | none => []

/-- Two groups of a match. -/
def two (t : Option St) (i j : Nat) : Option (Str × Str) :=
  match t with
  | some t => some ((t.get i).getD [], (t.get j).getD [])
  | none => none

/-- The expressions as they are. -/
def rx : Received.Rx where
  skip := skip
  ips := findAll ipAddress
  private6 := fun s => (search private6 s).isSome
  rdns := getRdns
  by_ := getBy
  helo := getHelo
  ident := getIdent
  id_ := getId
  envfrom := field envfromRe 0
  auth := field authRe 0
  auth3 := fun h => (search authRe3 h).isSome
  authVc := fun h => two (matchRe authVc h) 0 1
  auth2 := fun h => (search authRe2 h).isSome
  auth4 := fun h => two (search authRe4 h) 0 3
  auth5 := fun h => (search authRe5 h).isSome

end Verif.ReceivedRe
