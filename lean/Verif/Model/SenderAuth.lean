import Verif.Model.Py

/-!
# Sender authentication: `oa/plugins/spf.py`, `oa/plugins/dkim.py`, and the forged Received trail of
`oa/plugins/relay_eval.py`

Plugins live as long as the server and keep these attributes from message to message.
-/

namespace Verif.SenderAuth
open Verif Py

/-! ## SPF -/

/-- What the SPF plugin sees of a message. -/
structure SpfMsg where
  /-- decoded `Received-SPF` headers, top first -/
  receivedSpf : List Str
  /-- `Authentication-Results` -/
  authres : Option Str
  /-- the message has `Received` headers -/
  hasReceived : Bool
  /-- `msg.sender_address` (empty: unknown) -/
  sender : Str
  /-- `helo` and `ip` of the first external relay -/
  relay : Option (Str × Str)
deriving DecidableEq, Repr

/-- Externals: the regular expressions of oa/plugins/spf.py 13-23 and the library's DNS check.
`received` gives the result and, if present, the identity; `authres` likewise. -/
structure SpfLib where
  received : Str → Option (Str × Option Str)
  authres : Str → Option (Str × Option Str)
  query : (ip helo sender : Str) → Str

/-- The options (oa/plugins/spf.py 54-55). -/
structure SpfConf where
  ignoreHeaders : Bool
  newest : Bool

/-- The state: `check_result` is a class attribute, shared by all instances and never reset; the others become
attributes of the instance (oa/plugins/spf.py 27-29, 57-74). -/
structure SpfSt where
  results : Dict Str Int
  spfCheck : Bool
  helo : Bool
  noValid : Bool
deriving DecidableEq, Repr

/-- The keys of `check_result` (oa/plugins/spf.py 57-74). -/
def spfKeys : List Str :=
  [c!"check_spf_pass", c!"check_spf_neutral", c!"check_spf_none", c!"check_spf_fail", c!"check_spf_softfail",
   c!"check_spf_permerror", c!"check_spf_temperror", c!"check_spf_helo_pass", c!"check_spf_helo_neutral",
   c!"check_spf_helo_none", c!"check_spf_helo_fail", c!"check_spf_helo_softfail", c!"check_spf_helo_permerror",
   c!"check_spf_helo_temperror", c!"check_spf_whitelist_from", c!"check_def_spf_whitelist_from"]

/-- A new process (oa/plugins/spf.py 27-29, 57-74). -/
def SpfSt.init : SpfSt := ⟨spfKeys.map fun k => (k, 0), false, false, false⟩

/-- `self.check_result[key] = 1` (oa/plugins/spf.py 220, 245, 259, 263). -/
def SpfSt.mark (s : SpfSt) (key : Str) : SpfSt := { s with results := Dict.set s.results key 1 }

/-- `received_headers` (oa/plugins/spf.py 247-265). -/
def receivedHeaders (L : SpfLib) (m : SpfMsg) (sender : Str) (s : SpfSt) : SpfSt :=
  match m.relay with
  | none => s
  | some (mx, ip) =>
    let r := L.query ip mx sender
    let r := if r = c!"error" then c!"temperror" else r
    if s.helo then s.mark (c!"check_spf_" ++ r)
    else if '.' ∈ mx then { s.mark (c!"check_spf_helo_" ++ r) with helo := true }
    else { s with helo := true }

/-- One round of the loop in `check_spf_received_header` (oa/plugins/spf.py 182-222); the `replace` in line 214
has no effect. -/
def spfHeader (L : SpfLib) (s : SpfSt) (h : Str) : SpfSt :=
  match L.received h with
  | none => s
  | some (result, ident) =>
    let plain : SpfSt := { s with noValid := true, spfCheck := true }
    match ident with
    | none => if s.spfCheck then s else plain.mark (c!"check_spf_" ++ result)
    | some i =>
      if lower i = c!"none" then s
      else if i.isEmpty then if s.spfCheck then s else plain.mark (c!"check_spf_" ++ result)
      else if lower i ∈ [c!"mfrom", c!"mailfrom"] then
        if s.spfCheck then s else plain.mark (c!"check_spf_" ++ result)
      else if i = c!"helo" then
        if s.helo then s else { s with helo := true }.mark (c!"check_spf_" ++ i ++ c!"_" ++ result)
      else s

/-- `check_spf_received_header` (oa/plugins/spf.py 182-222). -/
def spfHeaders (L : SpfLib) (hs : List Str) (s : SpfSt) : SpfSt := hs.foldl (spfHeader L) s

/-- `check_authres_header` (oa/plugins/spf.py 224-245). -/
def spfAuthres (L : SpfLib) (h : Str) (s : SpfSt) : SpfSt :=
  match L.authres h with
  | none => s
  | some (result, ident) =>
    let result := if result = c!"hardfail" then c!"fail" else result
    match ident with
    | none => s.mark (c!"check_spf_" ++ result)
    | some i =>
      if i ∈ [c!"mfrom", c!"mailfrom", c!"None"] then s.mark (c!"check_spf_" ++ result)
      else s.mark (c!"check_spf_" ++ i ++ c!"_" ++ result)

/-- `check_spf_header` (oa/plugins/spf.py 161-180). -/
def checkSpfHeader (L : SpfLib) (c : SpfConf) (m : SpfMsg) (s : SpfSt) : SpfSt :=
  let hs := if c.newest then m.receivedSpf else m.receivedSpf.reverse
  let s :=
    if !hs.isEmpty then
      let s := spfHeaders L hs s
      if !s.noValid then receivedHeaders L m [] s else s
    else match m.authres with
      | some h => spfAuthres L h s
      | none => s
  if m.hasReceived then
    let s := if hs.isEmpty then receivedHeaders L m [] s else s
    if !m.sender.isEmpty then
      if s.helo then receivedHeaders L m m.sender s else receivedHeaders L m [] s
    else s
  else s

/-- `parsed_metadata` (oa/plugins/spf.py 76-88). -/
def spfMetadata (L : SpfLib) (c : SpfConf) (m : SpfMsg) (s : SpfSt) : SpfSt :=
  if c.ignoreHeaders then
    if m.hasReceived then
      let s := receivedHeaders L m [] s
      if !m.sender.isEmpty then receivedHeaders L m m.sender s else s
    else s
  else checkSpfHeader L c m s

/-- `check_for_spf_pass` and its like (oa/plugins/spf.py 90-130). -/
def spfRule (key : Str) (s : SpfSt) : Bool := Dict.get? s.results key == some 1

/-- What can happen in a server: a message is checked, or a new instance of the plugin is made (for another
user's context). -/
inductive SpfOp where
  | check (m : SpfMsg)
  | newInstance
deriving DecidableEq, Repr

/-- One step of a server's life (oa/plugins/spf.py 26-29, 57-76). -/
def spfStep (L : SpfLib) (c : SpfConf) (s : SpfSt) : SpfOp → SpfSt
  | .check m => spfMetadata L c m s
  | .newInstance => { s with spfCheck := false, helo := false, noValid := false }

/-- A server's life: a list of steps (oa/plugins/spf.py 76-88). -/
def spfHistory (L : SpfLib) (c : SpfConf) (s : SpfSt) (ops : List SpfOp) : SpfSt := ops.foldl (spfStep L c) s

/-! ## DKIM -/

/-- How the library's verification of the message ended (oa/plugins/dkim.py 289-303). -/
inductive Verify where
  | good
  | bad
  /-- `MessageFormatError`, `ValidationError` or `KeyFormatError` -/
  | libError
  /-- any other exception, such as a DNS time-out -/
  | otherError
deriving DecidableEq, Repr

/-- What the DKIM plugin sees of a message. -/
structure DkimMsg where
  addrs : List Str
  /-- the domains of the author addresses (oa/plugins/dkim.py 228-232) -/
  domains : List Str
  /-- the message has a `DKIM-Signature` header -/
  hasSig : Bool
  /-- parsing the header (`none`: the library raises an exception): its `d` tag if it has one -/
  parsed : Option (Option Str)
  verify : Verify
  /-- `validate_signature_fields` accepts the fields (otherwise it raises `ValidationError`) -/
  fieldsOk : Bool
deriving DecidableEq, Repr

/-- The state of the plugin (oa/plugins/dkim.py 19-30).  `domains` is a list of the class, only ever extended
(line 232). -/
structure DkimSt where
  addrs : List Str
  domains : List Str
  checked : Bool
  signed : Bool
  valid : Bool
  authorSig : Bool
  dependable : Bool
  isValid : Bool
deriving DecidableEq, Repr

/-- A new process (oa/plugins/dkim.py 19-30). -/
def DkimSt.init : DkimSt := ⟨[], [], false, false, false, false, false, true⟩

/-- A new instance of the plugin in the same process: lists of the class stay (oa/plugins/dkim.py 21-22). -/
def DkimSt.newInstance (s : DkimSt) : DkimSt := { DkimSt.init with domains := s.domains }

/-- `_get_authors` (oa/plugins/dkim.py 226-232). -/
def getAuthors (m : DkimMsg) (s : DkimSt) : DkimSt := { s with addrs := m.addrs, domains := s.domains ++ m.domains }

/-- `check_dkim_signature` (oa/plugins/dkim.py 262-303): the state, and whether it ended without an exception. -/
def checkSignature (m : DkimMsg) (s : DkimSt) : Bool × DkimSt :=
  let s := { s with checked := true, signed := true, valid := true, dependable := true, authorSig := true }
  let s := if s.domains.isEmpty then getAuthors m s else s
  let s := if !m.hasSig then { s with signed := false } else s
  match m.parsed with
  | none => (false, s)
  | some d =>
    let s := match d with
      | none => { s with valid := false }
      | some d =>
        if d ∉ s.domains then { s with valid := false, signed := false, authorSig := false, dependable := false }
        else s
    let fields (s : DkimSt) : DkimSt := if m.fieldsOk then s else { s with valid := false, authorSig := false }
    match m.verify with
    | .good => (true, fields s)
    | .bad => (true, fields { s with isValid := false, valid := false })
    | .libError => (true, { s with valid := false, authorSig := false })
    | .otherError => (false, s)

/-- The eval rules without arguments. -/
inductive DkimRule where
  | signed
  | valid
  | authorSig
  | dependable
deriving DecidableEq, Repr

/-- `check_dkim_signed`, `check_dkim_valid`, `check_dkim_valid_author_sig`, `check_dkim_dependable` without
arguments (oa/plugins/dkim.py 149-197).  An exception makes the rule false (oa/rules/eval_.py 70-77). -/
def dkimRule (r : DkimRule) (m : DkimMsg) (s : DkimSt) : Bool × DkimSt :=
  let answer (s : DkimSt) : Bool := match r with
    | .signed => s.signed
    | .valid => s.valid
    | .authorSig => s.authorSig
    | .dependable => s.dependable
  if s.checked then (answer s, s)
  else match checkSignature m s with
    | (true, s) => (answer s, s)
    | (false, s) => (false, s)

/-- What can happen: a rule is evaluated on a message, or a new instance is made. -/
inductive DkimOp where
  | eval (r : DkimRule) (m : DkimMsg)
  | newInstance
deriving DecidableEq, Repr

/-- One step of a server's life (oa/plugins/dkim.py 149-197, 18-30). -/
def dkimStep (s : DkimSt) : DkimOp → DkimSt
  | .eval r m => (dkimRule r m s).2
  | .newInstance => s.newInstance

/-- A server's life: a list of steps (oa/plugins/dkim.py 149-197). -/
def dkimHistory (s : DkimSt) (ops : List DkimOp) : DkimSt := ops.foldl dkimStep s

/-! ## Forged Received trail -/

/-- What the check looks at of a relay (oa/plugins/relay_eval.py 198-201). -/
structure Hop where
  ip : Str
  rdns : Str
  byHost : Str
  helo : Str
deriving DecidableEq, Repr

/-- Externals: the regular expressions of oa/plugins/relay_eval.py 33, 36, 195 and `IP_PRIVATE`, and
`ipaddress.IPv4Network(x).supernet(16)`. -/
structure HopLib where
  letterFirst : Str → Bool
  longTld : Str → Bool
  isHost : Str → Bool
  isPrivate : Str → Bool
  net16 : Str → Option Nat

/-- `hostname_to_domain` (oa/plugins/relay_eval.py 31-41). -/
def toDomain (L : HopLib) (h : Str) : Str :=
  if !L.letterFirst h then h
  else
    let parts := splitChar '.' h
    if parts.length > 1 ∧ L.longTld (parts.getLastD []) then join c!"." (parts.drop (parts.length - 2))
    else if parts.length > 2 then join c!"." (parts.drop (parts.length - 3))
    else h

/-- The two counters (oa/plugins/relay_eval.py 193-194). -/
structure Mism where
  from_ : Nat
  ipHelo : Nat
deriving DecidableEq, Repr

/-- The comparison of address and HELO name (oa/plugins/relay_eval.py 211-225). -/
def hopHelo (L : HopLib) (h : Hop) (c : Mism) : Mism :=
  let helo := toDomain L h.helo
  match L.net16 h.ip, L.net16 helo with
  | some a, some b =>
    if h.ip ≠ helo ∧ a ≠ b ∧ L.isPrivate helo = false then { c with ipHelo := c.ipHelo + 1 } else c
  | _, _ => c

/-- One round of the loop in `_check_for_forged_received` (oa/plugins/relay_eval.py 197-235); `prev` is the
relay before, if any. -/
def hop (L : HopLib) (prev : Option Hop) (h : Hop) (c : Mism) : Mism :=
  let by_ := toDomain L h.byHost
  if by_.isEmpty || !L.isHost by_ then c
  else
    let c := hopHelo L h c
    match prev with
    | none => c
    | some p =>
      if L.isHost p.rdns = true ∧ by_ ≠ p.rdns ∧ ¬ (by_ = c!"msn.com" ∧ p.rdns = c!"hotmail.com") then
        { c with from_ := c.from_ + 1 }
      else c

/-- The loop (oa/plugins/relay_eval.py 192-237). -/
def hops (L : HopLib) : Option Hop → List Hop → Mism → Mism
  | _, [], c => c
  | prev, h :: hs, c => hops L (some h) hs (hop L prev h c)

/-- The plugin's global data: `none` until the first message (oa/plugins/relay_eval.py 129-132, 236-237). -/
abbrev TrailSt := Option Mism

/-- `check_for_forged_received_trail` (oa/plugins/relay_eval.py 126-137). -/
def forgedTrail (L : HopLib) (relays : List Hop) (s : TrailSt) : Bool × TrailSt :=
  match s with
  | some c => (decide (c.from_ > 1), s)
  | none => let c := hops L none relays ⟨0, 0⟩
            (decide (c.from_ > 1), some c)

/-- `check_for_forged_received_ip_helo` (oa/plugins/relay_eval.py 139-150). -/
def forgedIpHelo (L : HopLib) (relays : List Hop) (s : TrailSt) : Bool × TrailSt :=
  match s with
  | some c => (decide (c.ipHelo > 0), s)
  | none => let c := hops L none relays ⟨0, 0⟩
            (decide (c.ipHelo > 0), some c)

end Verif.SenderAuth
