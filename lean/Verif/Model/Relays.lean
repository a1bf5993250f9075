import Verif.Model.Networks

/-!
# Relays and envelope sender: `oa/message.py` 325-408
-/

namespace Verif.Relay
open Verif Py Net

/-- The fields of a parsed `Received` header that the code decides on.  Simplification: the
address is already parsed (`ip = none` is an empty `ip` field), so that `ip_address` does not
raise; the remaining text fields are in `info`. -/
structure Relay (A : Type) where
  ip : Option A
  /-- truth value of `relay.get("auth", None)` -/
  auth : Bool
  /-- `relay.get("envfrom")`; `[]` also stands for a missing field -/
  envfrom : Str
  info : Str
deriving DecidableEq

/-- `is_trusted`, `is_internal`, `found_msa` (oa/message.py 364-366). -/
structure Walk where
  trusted : Bool
  internal : Bool
  msa : Bool
deriving DecidableEq

/-- The relay lists of the message (oa/message.py 394-405), and the fields `msa` and `intl` the
loop writes to each relay with an address. -/
structure Lists (A : Type) where
  internal : List (Relay A)
  external : List (Relay A)
  trusted : List (Relay A)
  untrusted : List (Relay A)
  marks : List (Bool × Bool)
deriving DecidableEq

variable {A N : Type}

/-- The change of the flags by one relay with an address (oa/message.py 371-392), given whether it
is in the internal, trusted and MSA networks; the second result is `relay['msa']`. -/
def advance (configured isPrivate auth inInternal inTrusted inMsa : Bool) (w : Walk) : Walk × Bool :=
  if w.trusted && !w.msa then
    if configured then
      if !inTrusted && !auth then ({ w with trusted := false, internal := false }, false)
      else
        let w1 := if w.internal && !auth && !inInternal then { w with internal := false } else w
        if inMsa then ({ w1 with msa := true }, true) else (w1, false)
    else if !isPrivate && !auth then ({ w with internal := false, trusted := false }, false)
    else (w, false)
  else (w, false)

/-- The rest of the loop body (oa/message.py 394-405). -/
def Lists.add (l : Lists A) (r : Relay A) (w : Walk) (msa : Bool) : Lists A :=
  { internal := if w.internal then l.internal ++ [r] else l.internal
    external := if w.internal then l.external else l.external ++ [r]
    trusted := if w.trusted then l.trusted ++ [r] else l.trusted
    untrusted := if w.trusted then l.untrusted else l.untrusted ++ [r]
    marks := l.marks ++ [(msa, w.internal)] }

/-- The loop of `_parse_relays` (oa/message.py 368-405); `none` is the exception of a lookup in a
list with an invalid network. -/
def walk (L : NetLib A N) (isPrivate : A → Bool) (s : Nets N) : List (Relay A) → Walk → Lists A → Option (Lists A)
  | [], _, l => some l
  | r :: rs, w, l =>
    match r.ip with
    | none => walk L isPrivate s rs w l
    | some ip =>
      match contains L ip s.internal, contains L ip s.trusted, contains L ip s.msa with
      | some i, some t, some m =>
        let a := advance s.configured (isPrivate ip) r.auth i t m w
        walk L isPrivate s rs a.1 (l.add r a.1 a.2)
      | _, _, _ => none

/-- `_parse_relays` (oa/message.py 361-405). The tags (406-427) are `Received.relayTags`. -/
def parseRelays (L : NetLib A N) (isPrivate : A → Bool) (s : Nets N) (rs : List (Relay A)) : Option (Lists A) :=
  walk L isPrivate s rs ⟨true, true, false⟩ ⟨[], [], [], [], []⟩

/-- The loop over the sender headers (oa/message.py 349-358); `addrs h` is
`get_addr_header(h)`. -/
def senderFromHeaders (addrs : Str → List Str) : List Str → Option Str
  | [] => none
  | h :: hs =>
    match addrs h with
    | [] => senderFromHeaders addrs hs
    | a :: _ => if a ≠ [] then some (strip a) else senderFromHeaders addrs hs

/-- `DEFAULT_SENDERH` (oa/message.py 125-127). -/
def defaultSenderHeaders : List Str := [c!"X-Sender", c!"X-Envelope-From", c!"Envelope-Sender", c!"Return-Path"]

/-- `_parse_sender` (oa/message.py 325-359); `none` leaves `sender_address` unset.
Simplification: `get_addr_header` does not raise. -/
def parseSender (addrs : Str → List Str) (alwaysTrust : Bool) (conf : List Str) (l : Lists A) : Option Str :=
  let headers := if conf = [] then defaultSenderHeaders else conf
  match l.external with
  | r :: _ => if r.envfrom ≠ [] then some (strip r.envfrom) else none
  | [] =>
    let fromTrusted : Option Str :=
      if alwaysTrust then none
      else match l.trusted.getLast? with
        | some r => if r.envfrom ≠ [] then some (strip r.envfrom) else none
        | none => none
    match fromTrusted with
    | some a => some a
    | none =>
      match l.untrusted with
      | r :: _ => if r.envfrom ≠ [] then some (strip r.envfrom) else senderFromHeaders addrs headers
      | [] => senderFromHeaders addrs headers

end Verif.Relay
