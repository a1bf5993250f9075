import Verif.Model.Py

/-!
# Header access: `oa/message.py` 77-122, 192-316, 440-443, 471-475

`_decode_header` and `email.utils.getaddresses` are parameters (`MailLib`).  The five
`_Headers` dictionaries of a message are state, because the accessors cache in them.
-/

namespace Verif.Mail
open Verif Py

structure MailLib where
  /-- `Message._decode_header` (oa/message.py 195-216); `none` is `None`, returned for a header
  that cannot be parsed. -/
  decode : Str → Option Str
  /-- `email.utils.getaddresses([value])` as (name, address) pairs; `none` is an exception. -/
  addresses : Option Str → Option (List (Str × Str))
  /-- `oa.config.LAZY_MODE` -/
  lazy : Bool

/-- `_Headers` (oa/message.py 77-95): keys are lower-cased by every access. -/
abbrev Headers (V : Type) := Dict Str (List V)

/-- `_Headers.get(name)` (oa/message.py 85-86). -/
def Headers.find {V : Type} (h : Headers V) (name : Str) : Option (List V) := Dict.get? h (lower name)

/-- `h[name] = values` (oa/message.py 88-89). -/
def Headers.put {V : Type} (h : Headers V) (name : Str) (vs : List V) : Headers V :=
  Dict.set h (lower name) vs

/-- `h[name].append(value)`: `defaultdict.__getitem__` creates the list (oa/message.py 91-92). -/
def Headers.append {V : Type} (h : Headers V) (name : Str) (v : V) : Headers V :=
  h.put name ((h.find name).getD [] ++ [v])

/-- `name in h` (oa/message.py 94-95). -/
def Headers.mem {V : Type} (h : Headers V) (name : Str) : Bool := Dict.has h (lower name)

/-- The header dictionaries of a `Message` (oa/message.py 142-148). -/
structure Msg where
  raw : Headers Str
  /-- `headers`: the cache of decoded headers, into which plugins also add headers -/
  headers : Headers (Option Str)
  addr : Headers Str
  name : Headers Str
  rawMime : Headers Str
  mime : Headers (Option Str)
deriving DecidableEq

/-- `for name, raw_value in msg._headers: raw_headers[name].append(raw_value)`
(oa/message.py 443-444). -/
def collect (hs : List (Str × Str)) : Headers Str :=
  hs.foldl (fun (h : Headers Str) (p : Str × Str) => h.append p.1 p.2) []

/-- The header dictionaries after `_parse_message` collected the headers `hs` of the message
and `mhs` of all its parts, before any access (oa/message.py 443-444, 455-456). -/
def Msg.ofHeaders (hs mhs : List (Str × Str)) : Msg :=
  { raw := collect hs, headers := [], addr := [], name := [], rawMime := collect mhs, mime := [] }

/-- `get_raw_header` (oa/message.py 218-222). -/
def getRaw (m : Msg) (n : Str) : List Str := (m.raw.find n).getD []

/-- `get_decoded_header` with its `_memoize` wrapper (oa/message.py 98-122, 228-237). -/
def getDecoded (L : MailLib) (n : Str) (m : Msg) : List (Option Str) × Msg :=
  let values := (getRaw m n).map L.decode ++ (m.headers.find n).getD []
  if L.lazy then (values, m)
  else match m.headers.find n with
    | some vs => (vs, m)
    | none => (values, { m with headers := m.headers.put n values })

/-- The first non-empty address, or name, of every value; `none` is an exception
(oa/message.py 258-264, 290-296). -/
def firstOf (addresses : Option Str → Option (List (Str × Str))) (pick : Str × Str → Str) :
    List (Option Str) → Option (List Str)
  | [] => some []
  | v :: vs =>
    match addresses v, firstOf addresses pick vs with
    | some l, some r =>
      match (l.map pick).find? (fun a => a ≠ []) with
      | some a => some (a :: r)
      | none => some r
    | _, _ => none

/-- `get_addr_header` (oa/message.py 255-264), memoised. -/
def getAddr (L : MailLib) (n : Str) (m : Msg) : Option (List Str) × Msg :=
  let (vs, m1) := getDecoded L n m
  let r := firstOf L.addresses Prod.snd vs
  if L.lazy then (r, m1)
  else match m.addr.find n with
    | some a => (some a, m)
    | none => match r with
      | some a => (some a, { m1 with addr := m1.addr.put n a })
      | none => (none, m1)

/-- `get_name_header` (oa/message.py 287-296), memoised. -/
def getName (L : MailLib) (n : Str) (m : Msg) : Option (List Str) × Msg :=
  let (vs, m1) := getDecoded L n m
  let r := firstOf L.addresses Prod.fst vs
  if L.lazy then (r, m1)
  else match m.name.find n with
    | some a => (some a, m)
    | none => match r with
      | some a => (some a, { m1 with name := m1.name.put n a })
      | none => (none, m1)

/-- Every non-empty address of every value; `none` is an exception (oa/message.py 268-273). -/
def allAddrs (addresses : Option Str → Option (List (Str × Str))) : List (Option Str) → Option (List Str)
  | [] => some []
  | v :: vs =>
    match addresses v, allAddrs addresses vs with
    | some l, some r => some ((l.map Prod.snd).filter (fun a => a ≠ []) ++ r)
    | _, _ => none

/-- `get_all_addr_header` (oa/message.py 266-273). -/
def getAllAddr (L : MailLib) (n : Str) (m : Msg) : Option (List Str) × Msg :=
  let (vs, m1) := getDecoded L n m
  (allAddrs L.addresses vs, m1)

/-- `get_raw_mime_header` (oa/message.py 298-302). -/
def getRawMime (m : Msg) (n : Str) : List Str := (m.rawMime.find n).getD []

/-- `get_decoded_mime_header` (oa/message.py 304-310), memoised. -/
def getMime (L : MailLib) (n : Str) (m : Msg) : List (Option Str) × Msg :=
  let values := (getRawMime m n).map L.decode
  if L.lazy then (values, m)
  else match m.mime.find n with
    | some vs => (vs, m)
    | none => (values, { m with mime := m.mime.put n values })

/-- The loop of `iter_decoded_headers` over the remaining names (oa/message.py 312-319);
`None` is formatted as `None`. -/
def iterFrom (L : MailLib) : List Str → Msg → List Str × Msg
  | [], m => ([], m)
  | n :: ns, m =>
    let (vs, m1) := getDecoded L n m
    let (rest, m2) := iterFrom L ns m1
    (vs.map (fun v => n ++ c!": " ++ v.getD c!"None") ++ rest, m2)

/-- `iter_decoded_headers` (oa/message.py 312-319).  Simplification: the generator is run to
its end even if its consumer stops early. -/
def iterDecoded (L : MailLib) (m : Msg) : List Str × Msg := iterFrom L (Dict.keys m.raw) m

/-- One pass of the loop over `originating_ip_headers` (oa/message.py 475-478).  The list
returned by `get_decoded_header("Received")` is the cached object, so extending it changes the
cache. -/
def origStep (L : MailLib) (acc : List (Option Str) × Msg) (h : Str) : List (Option Str) × Msg :=
  let r := getDecoded L h acc.2
  let vs := acc.1 ++ r.1.map (fun x => some (c!"X-ORIGINATING-IP: " ++ x.getD c!"None"))
  (vs, if L.lazy then r.2 else { r.2 with headers := r.2.headers.put c!"Received" vs })

/-- `_parse_message`'s collection of the `Received` headers and the pseudo headers of
`originating_ip_headers` (oa/message.py 474-478). -/
def receivedHeaders (L : MailLib) (hdrs : List Str) (m : Msg) : List (Option Str) × Msg :=
  hdrs.foldl (origStep L) (getDecoded L c!"Received" m)

/-- A plugin adding a header: `msg.headers[name].append(value)` (oa/plugins/relay_country.py 88). -/
def pluginHeader (n v : Str) (m : Msg) : Msg := { m with headers := m.headers.append n (some v) }

/-- `FROM_HEADERS` (oa/message.py 598-599). -/
def fromHeaders : List Str :=
  [c!"From", c!"Envelope-Sender", c!"Resent-From", c!"X-Envelope-From", c!"EnvelopeFrom"]

/-- `TO_HEADERS` (oa/message.py 600-604). -/
def toHeaders : List Str :=
  [c!"To", c!"Resent-To", c!"Resent-Cc", c!"Apparently-To", c!"Delivered-To",
   c!"Envelope-Recipients", c!"Apparently-Resent-To", c!"X-Envelope-To", c!"Envelope-To",
   c!"X-Delivered-To", c!"X-Original-To", c!"X-Rcpt-To", c!"X-Real-To", c!"Cc"]

/-- `for key in keys: for address in self.get_all_addr_header(key): yield address`. -/
def addrsOfKeys (L : MailLib) : List Str → Msg → Option (List Str) × Msg
  | [], m => (some [], m)
  | k :: ks, m =>
    match getAllAddr L k m with
    | (some a, m1) =>
      match addrsOfKeys L ks m1 with
      | (some r, m2) => (some (a ++ r), m2)
      | (none, m2) => (none, m2)
    | (none, m1) => (none, m1)

/-- `get_from_addresses` run to its end (oa/message.py 520-532). -/
def fromAddresses (L : MailLib) (m : Msg) : Option (List Str) × Msg :=
  match getAllAddr L c!"Resent-From" m with
  | (some [], m1) => addrsOfKeys L fromHeaders m1
  | (some a, m1) => (some a, m1)
  | (none, m1) => (none, m1)

/-- `get_to_addresses` run to its end (oa/message.py 534-547). -/
def toAddresses (L : MailLib) (m : Msg) : Option (List Str) × Msg :=
  match addrsOfKeys L [c!"Resent-To", c!"Resent-Cc"] m with
  | (some [], m1) => addrsOfKeys L toHeaders m1
  | (some a, m1) => (some a, m1)
  | (none, m1) => (none, m1)

/-- `translate_line_breaks` (oa/message.py 175-179). -/
def translateLineBreaks (text : Str) : Str :=
  replace c!"\r" c!"\n" (replace c!"\r\n" c!"\n" text)

end Verif.Mail
