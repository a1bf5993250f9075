import Verif.Model.Py

/-!
# White and black lists: `oa/plugins/wlbl_eval.py`, and the whitelists of `oa/plugins/spf.py`

Regular expressions made from list entries are kept as tokens; `pm` and `search` say what Python's `re` does with
them.
-/

namespace Verif.Wlbl
open Verif Py

/-- What an expression made from an entry consists of: a literal character, `.`, `.*` and `.?`. -/
inductive Tok where
  | lit (c : Char)
  | one
  | star
  | opt
deriving DecidableEq, Repr

/-- `escape_addr`: everything but `*` and `?` is literal (oa/plugins/wlbl_eval.py 101-102, 122; oa/plugins/spf.py
153-154). -/
def escapeAddr (s : Str) : List Tok :=
  s.map fun c => if c = '*' then .star else if c = '?' then .opt else .lit c

/-- `.*` and what comes after it. -/
def starPm (rest : Str → Bool) : Str → Bool
  | [] => rest []
  | x :: xs => rest (x :: xs) || (x != '\n' && starPm rest xs)

/-- `re.match`: a prefix of the text matches (`.` does not match a line break). -/
def pm : List Tok → Str → Bool
  | [], _ => true
  | .lit _ :: _, [] => false
  | .lit c :: ts, x :: xs => c == x && pm ts xs
  | .one :: _, [] => false
  | .one :: ts, x :: xs => x != '\n' && pm ts xs
  | .opt :: ts, [] => pm ts []
  | .opt :: ts, x :: xs => pm ts (x :: xs) || (x != '\n' && pm ts xs)
  | .star :: ts, s => starPm (pm ts) s

/-- `re.search`: the expression matches somewhere. -/
def search (ts : List Tok) : Str → Bool
  | [] => pm ts []
  | x :: xs => pm ts (x :: xs) || search ts xs

/-- `check_input` (oa/plugins/wlbl_eval.py 97-99): the entry contains one of `?`, `@`, `.`, `*@`. -/
def checkInput (entry : Str) : Bool := '?' ∈ entry || '@' ∈ entry || '.' ∈ entry || hasSub c!"*@" entry

/-- One round of `parse_list` (oa/plugins/wlbl_eval.py 117-127; oa/plugins/spf.py 148-159). -/
def parseEntry (entry : Str) : Option (List Tok) :=
  if checkInput entry then
    if '@' ∈ entry then some (escapeAddr entry) else some (.star :: .lit '@' :: escapeAddr entry)
  else none

/-- `parse_list` (oa/plugins/wlbl_eval.py 117-127; oa/plugins/spf.py 148-159). -/
def parseList (entries : List Str) : List (List Tok) := entries.filterMap parseEntry

/-- `check_address_in_list` (oa/plugins/wlbl_eval.py 212-219), the work of `check_to_in_whitelist`,
`check_from_in_blacklist`, `check_to_in_blacklist`, `check_from_in_list`, `check_to_in_list`,
`check_to_in_all_spam` and `check_to_in_more_spam`. -/
def addressInList (addresses : List Str) (list : List (List Tok)) : Bool :=
  addresses.any fun a => list.any fun r => search r a

/-- `check_spf_whitelist` (oa/plugins/spf.py 138-146); `pass` is `check_for_spf_pass`. -/
def spfWhitelist (pass : Bool) (entries : List Str) (sender : Str) : Bool :=
  if !entries.isEmpty && !pass then false
  else (parseList entries).any fun r => pm r sender

/-! ## Whitelists with relays -/

/-- What is looked at of a relay. -/
structure WRelay where
  ip : Str
  rdns : Str
deriving DecidableEq, Repr

/-- The relays of a message. -/
structure WMsg where
  /-- `msg.get_from_addresses()` -/
  froms : List Str
  untrusted : List WRelay
  trusted : List WRelay
deriving DecidableEq, Repr

/-- `ipaddress`: is the second argument in the network given by the first (`none`: `ValueError`, the first is not a
network or the second not an address; oa/plugins/wlbl_eval.py 417-421). -/
abbrev InNet := Str → Str → Option Bool

/-- `parse_input` (oa/plugins/wlbl_eval.py 104-115): entry and domain, one pair for each domain.  The dictionary of
the code groups the pairs of an entry; the order does not matter for the result. -/
def parseInput (lines : List Str) : List (Str × Str) :=
  lines.flatMap fun line => match splitNone 1 line with
    | [entry, doms] => if checkInput entry then (splitWs doms).map fun d => (entry, d) else []
    | _ => []

/-- The expression of `check_whitelist_rcvd` (oa/plugins/wlbl_eval.py 400): in the escaped entry `*` is replaced by
`.*` once more, so that `.*` becomes `..*`. -/
def rcvdExpr (entry : Str) : List Tok :=
  (escapeAddr entry).flatMap fun t => if t = .star then [.one, .star] else [t]

/-- `domain.strip("[ ").rstrip(" ]")` (oa/plugins/wlbl_eval.py 416). -/
def bareDomain (d : Str) : Str := rstripBy (fun c => c == ' ' || c == ']') (stripChars c!"[ " d)

/-- One relay in `check_rcvd` (oa/plugins/wlbl_eval.py 416-428). -/
def relayMatches (N : InNet) (domain : Str) (r : WRelay) : Bool :=
  let wl := bareDomain domain
  match N wl r.ip with
  | some b => b
  | none => let rdns := lower r.rdns
            wl == rdns || endsWith ('.' :: wl) rdns

/-- `check_rcvd` (oa/plugins/wlbl_eval.py 410-429). -/
def checkRcvd (N : InNet) (domain : Str) (relays : List WRelay) : Int :=
  if relays.any (relayMatches N domain) then 1 else -1

/-- The relays that are looked at (oa/plugins/wlbl_eval.py 391-395): the first untrusted one, or else the trusted
ones. -/
def relaysOf (m : WMsg) : List WRelay :=
  match m.untrusted with
  | r :: _ => [r]
  | [] => m.trusted

/-- The loops of `check_whitelist_rcvd` (oa/plugins/wlbl_eval.py 398-406): `none` is `return 1`. -/
def rcvdLoop (N : InNet) (relays : List WRelay) (address : Str) : List (Str × Str) → Int → Option Int
  | [], found => some found
  | (entry, dom) :: rest, _ =>
    if search (rcvdExpr entry) address ∧ checkRcvd N dom relays = 1 then none
    else rcvdLoop N relays address rest (-1)

/-- `check_found_forged` (oa/plugins/wlbl_eval.py 431-439). -/
def foundForged (allow : List (List Tok)) (address : Str) (found : Int) : Int :=
  if found ≠ 0 then if allow.any fun r => search r address then 0 else found else found

/-- `check_whitelist_rcvd` (oa/plugins/wlbl_eval.py 386-408). -/
def whitelistRcvd (N : InNet) (m : WMsg) (list : List (Str × Str)) (allow : List (List Tok)) (address : Str) : Int :=
  if m.untrusted.length + m.trusted.length = 0 then 0
  else
    let address := lower address
    match rcvdLoop N (relaysOf m) address list 0 with
    | none => 1
    | some found => foundForged allow address found

/-- The lists of the configuration. -/
structure Lists where
  from_ : List (List Tok)
  rcvd : List (Str × Str)
  defRcvd : List (Str × Str)
  allow : List (List Tok)

/-- `check_in_list` (oa/plugins/wlbl_eval.py 193-210): the value `from_in_whitelist` ends with. -/
def checkInList (N : InNet) (L : Lists) (m : WMsg) : List Str → Int → Int
  | [], v => v
  | a :: as, v =>
    if L.from_.any fun r => search r a then 1
    else
      let wh := whitelistRcvd N m L.rcvd L.allow a
      if wh = 1 then 1 else checkInList N L m as (if wh = -1 then -1 else v)

/-- `check_in_default_whitelist` (oa/plugins/wlbl_eval.py 221-235): the value `from_in_default_whitelist` ends
with. -/
def checkInDefault (N : InNet) (L : Lists) (m : WMsg) : List Str → Int → Int
  | [], v => v
  | a :: as, v =>
    let wh := whitelistRcvd N m L.defRcvd L.allow a
    if wh = 1 then 1 else checkInDefault N L m as (if wh = -1 then -1 else v)

/-- What a message has stored: `from_in_whitelist` and `from_in_default_whitelist`, both 0 at first
(oa/plugins/wlbl_eval.py 73-74). -/
structure WSt where
  white : Int
  dflt : Int
deriving DecidableEq, Repr

/-- `check_start` (oa/plugins/wlbl_eval.py 73-74). -/
def WSt.init : WSt := ⟨0, 0⟩

/-- `check_from_in_whitelist` (oa/plugins/wlbl_eval.py 261-279). -/
def fromInWhitelist (N : InNet) (L : Lists) (m : WMsg) (s : WSt) : Bool × WSt :=
  let s := if s.white = 0 then { s with white := checkInList N L m m.froms 0 } else s
  (decide (s.white > 0), s)

/-- `check_from_in_default_whitelist` (oa/plugins/wlbl_eval.py 267-279, 334-336). -/
def fromInDefault (N : InNet) (L : Lists) (m : WMsg) (s : WSt) : Bool × WSt :=
  let s := if s.dflt = 0 then { s with dflt := checkInDefault N L m m.froms 0 } else s
  (decide (s.dflt > 0), s)

/-- `check_forged_in_whitelist` (oa/plugins/wlbl_eval.py 364-373). -/
def forgedInWhitelist (N : InNet) (L : Lists) (m : WMsg) (s : WSt) : Bool × WSt :=
  let s := (fromInWhitelist N L m s).2
  let s := (fromInDefault N L m s).2
  (decide (s.white < 0) && decide (s.dflt = 0), s)

/-- `check_forged_in_default_whitelist` (oa/plugins/wlbl_eval.py 375-384). -/
def forgedInDefault (N : InNet) (L : Lists) (m : WMsg) (s : WSt) : Bool × WSt :=
  let s := (fromInWhitelist N L m s).2
  let s := (fromInDefault N L m s).2
  (decide (s.white = 0) && decide (s.dflt < 0), s)

/-! ## The sender's domain and the relay -/

/-- `str.isdigit` (ASCII only). -/
def isDigits (s : Str) : Bool := !s.isEmpty && s.all Char.isDigit

/-- `parts[-n:]`. -/
def lastN (n : Nat) (parts : List Str) : List Str := parts.drop (parts.length - n)

/-- `base_domain` (oa/plugins/wlbl_eval.py 246-259); `tlds` holds the three lists of top-level domains. -/
def baseDomain (tlds : List Str) (address : Str) : Str :=
  let parts := splitChar '.' address
  if parts.length < 3 then join c!"." parts
  else if parts.all isDigits then join c!"." parts.reverse
  else if join c!"." (lastN 3 parts) ∈ tlds then join c!"." (lastN 4 parts)
  else if join c!"." (lastN 2 parts) ∈ tlds then join c!"." (lastN 3 parts)
  else join c!"." (lastN 2 parts)

/-- `check_mailfrom_matches_rcvd` (oa/plugins/wlbl_eval.py 338-362); `none`: `IndexError`, the address has no `@`. -/
def mailfromMatches (tlds : List Str) (sender : Str) (m : WMsg) : Option Bool :=
  if sender.isEmpty then some false
  else match splitChar '@' sender with
    | _ :: dom :: _ => some ((relaysOf m).any fun r => endsWith (baseDomain tlds dom) r.rdns)
    | _ => none

/-! ## Lists of URI hosts -/

/-- `uri_host_list[0].strip("( ").rstrip(" )")` (oa/plugins/wlbl_eval.py 140, 183). -/
def listName (w : Str) : Str := rstripBy (fun c => c == ' ' || c == ')') (stripChars c!"( " w)

/-- `parse_delist_uri` (oa/plugins/wlbl_eval.py 132-146): pairs of list and host. -/
def parseDelist (lines : List Str) : List (Str × Str) :=
  lines.flatMap fun x =>
    let ws := splitWs x
    if '(' ∈ x then match ws with
      | k :: hosts => hosts.map fun h => (listName k, stripChars c!"." h)
      | [] => []
    else ws.map fun h => (c!"ALL", stripChars c!"!" h)

/-- The options of the URI host lists. -/
structure UriConf where
  enlist : List Str
  delist : List Str
  white : List Str
  black : List Str

/-- `parse_list_uri` (oa/plugins/wlbl_eval.py 174-191) with `parse_wlbl_uri` (166-172) and `add_in_dict` (157-164):
the words of all lists that are not delisted, as pairs of list and word.  Simplification: an `enlist_uri_host` line without
any word, for which the code raises, is skipped. -/
def parseUris (c : UriConf) : List (Str × Str) :=
  let delist := parseDelist c.delist
  let raw := (c.enlist.flatMap fun x => match splitWs x with
      | k :: hosts => hosts.map fun h => (listName k, h)
      | [] => []) ++
    (c.white.flatMap splitWs).map (fun h => (c!"WHITE", h)) ++
    (c.black.flatMap splitWs).map (fun h => (c!"BLACK", h))
  raw.filter fun p => decide ((p.1, p.2) ∉ delist ∧ (c!"ALL", p.2) ∉ delist)

/-- `add_in_list` (oa/plugins/wlbl_eval.py 148-155): words with `!` go to `not_in_list`. -/
def excluded (c : UriConf) (list : Str) : List Str :=
  (parseUris c).filterMap fun p => if p.1 = list ∧ startsWith c!"!" p.2 then some (stripChars c!"!" p.2) else none

/-- `in_list` (oa/plugins/wlbl_eval.py 148-155). -/
def listed (c : UriConf) (list : Str) : List Str :=
  (parseUris c).filterMap fun p => if p.1 = list ∧ startsWith c!"!" p.2 = false then some p.2 else none

/-- `check_uri_host_listed` (oa/plugins/wlbl_eval.py 441-452); `uris` is `msg.uri_list`, the URIs found in the
text. -/
def uriListed (c : UriConf) (list : Str) (uris : List Str) : Bool :=
  uris.any fun u => decide (u ∉ excluded c list) && (listed c list).any fun h => endsWith h u

end Verif.Wlbl
