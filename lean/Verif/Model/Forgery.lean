import Verif.Model.Re

/-!
# Rules about forged headers: `oa/plugins/header_eval.py` 64-74, 197-271, 453-468, 602-642, 656-716

Results are `none` if the code raises (the rule then does not hold, oa/rules/eval_.py 70-77).  A header that is `none` in a list is one
that cannot be decoded; a single header that is `none` is missing.  Searching either raises `TypeError`.
-/

namespace Verif.Forgery
open Verif Py Re

/-- `[a-z]`, with `re.I` -/
def letter (c : Char) : Bool := c.isAlpha

/-- `r{2}` and the like for a class. -/
def chars (n : Nat) (p : Char → Bool) : Re := times (.chr p) n

/-! ### Fake relays -/

/-- ` rly-[a-z][a-z]\d\d\.` with `re.I` (oa/plugins/header_eval.py 67). -/
def relayRe : Re := seqs [ilit c!" rly-", .chr letter, .chr letter, .chr digit, .chr digit, lit c!"."]

/-- `\/AOL-\d+\.\d+\.\d+\)` (oa/plugins/header_eval.py 69). -/
def versionRe : Re := seqs [lit c!"/AOL-", plus digit, lit c!".", plus digit, lit c!".", plus digit, lit c!")"]

/-- `ESMTP id (?:RELAY|MAILRELAY|MAILIN)` (oa/plugins/header_eval.py 71). -/
def relayIdRe : Re := seqs [lit c!"ESMTP id ", alts [lit c!"RELAY", lit c!"MAILRELAY", lit c!"MAILIN"]]

/-- `check_for_fake_aol_relay_in_rcvd` (oa/plugins/header_eval.py 64-74) on the `Received` headers. -/
def fakeAol : List (Option Str) → Option Bool
  | [] => some false
  | none :: _ => none
  | some h :: rest =>
    if (search relayRe h).isNone then fakeAol rest
    else if (search versionRe h).isSome then fakeAol rest
    else if (search relayIdRe h).isSome then fakeAol rest
    else some true

/-- The expression of `check_for_forged_gw05_received_headers` (oa/plugins/header_eval.py 454-456), with `re.I` and `re.X`. -/
def gw05Re : Re :=
  seqs [ilit c!"from", sp, .group 1 (plus nonSpace), sp, ilit c!"by", sp, .group 2 (plus nonSpace), sp, ilit c!"with", sp, ilit c!"ESMTP;",
    plus isSpace, chars 3 nonSpace, lit c!",", plus isSpace, plus digit, plus isSpace, chars 3 nonSpace, plus isSpace, chars 4 digit,
    plus isSpace, chars 2 digit, lit c!":", chars 2 digit, lit c!":", chars 2 digit, plus isSpace,
    .star true (fun c => c == '-' || c == '+'), chars 4 digit]

/-- `check_for_forged_gw05_received_headers` (oa/plugins/header_eval.py 453-468) on the `Received` headers. -/
def gw05 : List (Option Str) → Option Bool
  | [] => some false
  | none :: _ => none
  | some h :: rest =>
    match matchRe gw05Re h with
    | none => gw05 rest
    | some t =>
      let h1 := (t.get 1).getD []
      let h2 := (t.get 2).getD []
      if h1 ≠ [] ∧ h2 ≠ [] ∧ h2 ≠ c!"." then some true else gw05 rest

/-! ### Unresolved templates -/

/-- `%[A-Z][A-Z_-]` (oa/plugins/header_eval.py 660). -/
def templateRe : Re := seqs [lit c!"%", .chr Char.isUpper, .chr (fun c => c.isUpper || c == '_' || c == '-')]

/-- The names of headers that may have anything in them (oa/plugins/header_eval.py 661-663). -/
def excluded : List Str :=
  [c!"x-vms-to", c!"x-uidl", c!"x-face", c!"to", c!"cc", c!"from", c!"subject", c!"references", c!"in-reply-to", c!"x-message-id",
   c!"resent-message-id", c!"x-original-message-id", c!"message-id"]

/-- `^(?:…):` for these names. -/
def excludedRe : Re := seqs [.bol, alts (excluded.map lit), lit c!":"]

/-- `check_unresolved_template` (oa/plugins/header_eval.py 656-665) on the message as it has been received. -/
def unresolved (raw : Str) : Bool :=
  (splitChar '\n' raw).any fun line => (search templateRe line).isSome && (search excludedRe (lower line)).isNone

/-! ### Ratware -/

/-- Characters with a meaning in expressions, other than `.`. -/
def special : Str := c!"\\^$*+?()[]{}|"

/-- Whether a text put into an expression means itself, but for its dots. -/
def plain (s : Str) : Bool := s.all (fun c => !special.contains c)

/-- A plain text in an expression. -/
def dotted : Str → Re
  | [] => .eps
  | c :: cs => .seq (.chr (fun d => if c == '.' then dot d else d == c)) (dotted cs)

/-- Python's `re.search` for expressions with other texts in them, written in full: `none` if the expression cannot be compiled. -/
abbrev Engine := Str → Str → Option Bool

/-- `<[A-Z]{28}\.([^>]+?)>` (oa/plugins/header_eval.py 673). -/
def ratwareRe : Re :=
  seqs [lit c!"<", chars 28 Char.isUpper, lit c!".", .group 1 (.seq (.chr (fun c => c != '>')) (.star false (fun c => c != '>'))), lit c!">"]

/-- `\"[^\"]+\"\s*<…>` (oa/plugins/header_eval.py 675). -/
def namedRe (g : Str) : Re := seqs [lit c!"\"", plus (fun c => c != '"'), lit c!"\"", .star true isSpace, lit c!"<", dotted g, lit c!">"]

/-- The same, for any text. -/
def searchNamed (E : Engine) (g text : Str) : Option Bool :=
  if plain g then some (search (namedRe g) text).isSome else E (c!"\\\"[^\\\"]+\\\"\\s*<" ++ g ++ c!">") text

/-- A header that is missing or empty. -/
def blank (h : Option Str) : Bool := (h.getD []).isEmpty

/-- `check_ratware_name_id` (oa/plugins/header_eval.py 667-678) on the first `Message-Id` and `From`. -/
def ratwareName (E : Engine) (mid from_ : Option Str) : Option Bool :=
  if blank mid && blank from_ then some false
  else match mid with
    | none => none
    | some mid =>
      match search ratwareRe mid with
      | none => some false
      | some t =>
        match from_ with
        | none => none
        | some f => searchNamed E ((t.get 1).getD []) f

/-- `is_domain_valid` and `check_in_TL_TLDS` (oa/plugins/header_eval.py 680-698): the names in the three options. -/
def validDomain (tlds : List Str) (domain : Str) : Bool :=
  let domain := lower domain
  if domain.contains ' ' then false
  else
    let parts := splitChar '.' domain
    if parts.length ≤ 1 then false
    else tlds.contains (join c!"." (parts.drop 1))

/-- `^SRS\d=` (oa/plugins/header_eval.py 706). -/
def srsRe : Re := seqs [.bol, lit c!"SRS", .chr digit, lit c!"="]

/-- `^([^@]+)@(.+)$` (oa/plugins/header_eval.py 708). -/
def toRe : Re := seqs [.bol, .group 1 (plus (fun c => c != '@')), lit c!"@", .group 2 (plus dot), .eol]

/-- `\b` + domain + `.` + user + `@` (oa/plugins/header_eval.py 714). -/
def envelopeRe (dom user : Str) : Re := seqs [.wordb, dotted dom, .chr dot, dotted user, lit c!"@"]

/-- `check_ratware_envelope_from` (oa/plugins/header_eval.py 700-716) on the first `To` and the sender of the envelope. -/
def ratwareEnvelope (E : Engine) (tlds : List Str) (to : Option Str) (sender : Str) : Option Bool :=
  if blank to || sender.isEmpty then some false
  else if (search srsRe sender).isSome then some false
  else match search toRe (to.getD []) with
    | none => some false
    | some t =>
      let user := (t.get 1).getD []
      let dom := (t.get 2).getD []
      if !validDomain tlds dom then some false
      else if plain dom && plain user then some (search (envelopeRe dom user) sender).isSome
      else E (c!"\\b" ++ dom ++ c!"." ++ user ++ c!"@") sender

/-! ### Hotmail and MSN -/

/-- `<(\S+)\@groups\.msn\.com>` (oa/plugins/header_eval.py 248, 250). -/
def groupRe : Re := seqs [lit c!"<", .group 1 (plus nonSpace), lit c!"@groups.msn.com>"]

/-- `from mail pickup service by ((?:p\d\d\.)groups\.msn\.com)\b` (oa/plugins/header_eval.py 251-252). -/
def serverRe : Re :=
  seqs [lit c!"from mail pickup service by ", .group 1 (seqs [lit c!"p", .chr digit, .chr digit, lit c!".groups.msn.com"]), .wordb]

/-- The loop over the `Received` headers (oa/plugins/header_eval.py 254-257); the server is empty if there is none. -/
def findServer : List (Option Str) → Option Str
  | [] => some []
  | none :: _ => none
  | some h :: rest =>
    match search serverRe h with
    | some t => some ((t.get 1).getD [])
    | none => findServer rest

/-- `check_for_msn_groups_headers` (oa/plugins/header_eval.py 245-271): the `To` and `Message-Id` headers joined (`none` if one cannot
be decoded), the `Received` headers, the sender of the envelope. -/
def msnGroups (E : Engine) (to mid : Option Str) (rcvd : List (Option Str)) (sender : Str) : Option Bool :=
  match to with
  | none => none
  | some to =>
    if (search groupRe to).isNone then some false
    else match matchRe groupRe to with
      | none => none
      | some t =>
        let listname := (t.get 1).getD []
        match findServer rcvd with
        | none => none
        | some server =>
          if server.isEmpty then some false
          else match mid with
            | none => none
            | some mid =>
              if listname = c!"notifications" then
                some (search (seqs [.bol, lit c!"<", plus nonSpace, lit c!"@", dotted server]) mid).isSome
              else
                let found := if plain listname then
                    some (search (seqs [.bol, lit c!"<", dotted listname, lit c!"-", plus nonSpace, lit c!"@groups.msn.com>"]) mid).isSome
                  else E (c!"^<" ++ listname ++ c!"-\\S+\\@groups\\.msn\\.com>") mid
                match found with
                | none => none
                | some false => some false
                | some true => some (sender == listname ++ c!"-bounce@groups.msn.com")

/-- `from mail pickup service by hotmail\.com with Microsoft SMTPSVC;` (oa/plugins/header_eval.py 213-214). -/
def pickupRe : Re := lit c!"from mail pickup service by hotmail.com with Microsoft SMTPSVC;"

/-- `(?:from |HELO |helo=)\S*hotmail\.com\b` (oa/plugins/header_eval.py 234). -/
def heloRe : Re := seqs [alts [lit c!"from ", lit c!"HELO ", lit c!"helo="], .star true nonSpace, lit c!"hotmail.com", .wordb]

/-- What the rules about Hotmail look at. -/
structure Hotmail where
  /-- the first `Received` -/
  rcvd : Option Str
  /-- the first `From` -/
  from_ : Option Str
  /-- the first `X-Originating-IP` -/
  ip : Option Str
  /-- what `check_for_msn_groups_headers` answers -/
  groups : Option Bool
  /-- what `gated_through_received_hdr_remover` answers -/
  gated : Option Bool

/-- What `_check_for_forged_hotmail_received_headers` finds (oa/plugins/header_eval.py 207-243): whether the header is forged, whether
it is missing.  Parameters: whether a text has an address of a host in it, and whether it has one of the forms in lines 221-228. -/
def hotmail (hasIp genuine : Str → Bool) (m : Hotmail) : Option (Bool × Bool) :=
  if blank m.rcvd then some (false, false)
  else
    let rcvd := m.rcvd.getD []
    if (search pickupRe rcvd).isSome then some (false, false)
    else match m.groups with
      | none => none
      | some true => some (false, false)
      | some false =>
        if !blank m.ip && hasIp (m.ip.getD []) && genuine rcvd then some (false, false)
        else match m.gated with
          | none => none
          | some true => some (false, false)
          | some false =>
            if (search heloRe rcvd).isSome then some (true, false)
            else if hasSub c!"hotmail.com" (m.from_.getD []) then some (false, true)
            else some (false, false)

/-! ### Message-IDs -/

/-- `[0-9a-f]` -/
def hex (c : Char) : Bool := c.isDigit || ('a' ≤ c && c ≤ 'f')

/-- `^<[0-9a-f]{4}([0-9a-f]{8})\$[0-9a-f]{8}\$[0-9a-f]{8}\@` (oa/plugins/header_eval.py 606-607). -/
def outlookRe : Re :=
  seqs [.bol, lit c!"<", chars 4 hex, .group 1 (chars 8 hex), lit c!"$", chars 8 hex, lit c!"$", chars 8 hex, lit c!"@"]

/-- `(\s.?\d+ \S\S\S \d+ \d+:\d+:\d+ \S+).*?$`, all of which is used (oa/plugins/header_eval.py 621-625). -/
def stampRe : Re :=
  .group 0 (seqs [sp, opt (.chr dot), plus digit, lit c!" ", chars 3 nonSpace, lit c!" ", plus digit, lit c!" ", plus digit, lit c!":",
    plus digit, lit c!":", plus digit, lit c!" ", plus nonSpace, .star false dot, .eol])

/-- The value of a digit in `int(…, 16)`. -/
def hexDigit (c : Char) : Nat := if c.isDigit then c.toNat - '0'.toNat else c.toNat - 'a'.toNat + 10

/-- `int(s, 16)` -/
def hexValue (s : Str) : Nat := s.foldl (fun n c => 16 * n + hexDigit c) 0

/-- `abs(a - b) < 250` -/
def near (a : Nat) (b : Int) : Bool := decide (((a : Int) - b).natAbs < 250)

/-- `check_outlook_message_id` (oa/plugins/header_eval.py 602-627) on the first `Message-ID`, `Date` and `Received`.  Parameters:
`time.mktime(email.utils.parsedate(…))`, which raises for what is no date, and the number expected for a time. -/
def outlook (time : Str → Option Int) (expected : Int → Int) (mid date rcvd : Option Str) : Option Bool :=
  if blank mid then some false
  else match search outlookRe (mid.getD []) with
    | none => some false
    | some t =>
      let token := hexValue ((t.get 1).getD [])
      match date.bind time with
      | none => none
      | some d =>
        if near token (expected d) then some false
        else match rcvd with
          | none => none
          | some r =>
            match search stampRe r with
            | none => some (!near token (expected 0))
            | some t =>
              match time ((t.get 0).getD []) with
              | none => none
              | some d => some (!near token (expected d))

/-- `<mailto:(?:leave-\S+|\S+-unsubscribe)\@\S+>$` (oa/plugins/header_eval.py 632). -/
def listRe : Re :=
  seqs [lit c!"<mailto:", alts [.seq (lit c!"leave-") (plus nonSpace), .seq (plus nonSpace) (lit c!"-unsubscribe")], lit c!"@", plus nonSpace,
    lit c!">", .eol]

/-- `check_messageid_not_usable` (oa/plugins/header_eval.py 629-642) on the first `List-Unsubscribe` and `Received`, and what
`gated_through_received_hdr_remover` answers. -/
def notUsable (list rcvd : Option Str) (gated : Option Bool) : Option Bool :=
  if !blank list && (search listRe (list.getD [])).isSome then some true
  else match gated with
    | none => none
    | some true => some true
    | some false =>
      match rcvd with
      | none => none
      | some r =>
        if (search (lit c!"/CWT/DCE)") r).isSome then some true
        else some (search (lit c!"iPlanet Messaging Server") r).isSome

end Verif.Forgery
