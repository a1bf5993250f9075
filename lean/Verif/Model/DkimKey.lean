import Verif.Model.Dns
import Verif.Model.SenderAuth

/-!
# Keys of DKIM signatures: `get_txt` in `oa/plugins/dkim.py`

The name is what the library asks for, as characters of its bytes.  Exceptions are `none`.
-/

namespace Verif.DkimKey
open Verif Py Dns SenderAuth

/-- A set of records in an answer: whether its type is TXT, and the strings of each record. -/
structure RRset where
  txt : Bool
  items : List (List Str)
deriving DecidableEq

/-- What `_query` gives (oa/dns_interface.py 183-200). -/
inductive Reply where
  /-- an answer of the resolver -/
  | answer (sets : List RRset)
  /-- the empty list, in place of no answer, no servers, no such name, a time-out and malformed answers -/
  | nothing
  /-- any other exception -/
  | raises
deriving DecidableEq

/-- `self.ctxt.dns.query(name, TXT)` (oa/dns_interface.py 164-181): the empty list if the name is restricted or DNS is not
available. -/
def asked (r : Read) (d : Iface) (dns : Str → Reply) (name : Str) : Reply := if (query r name d).1 then dns name else .nothing

/-- `get_txt_dnspython` (oa/plugins/dkim.py 74-83).  A list has no attribute `response`; `NXDOMAIN` never gets here
(oa/dns_interface.py 191-194).  `bytes`: the library gives byte strings, which `"".join` does not take. -/
def getTxtDnspython (bytes : Bool) (reply : Reply) : Option (Option Str) :=
  match reply with
  | .nothing => none
  | .raises => none
  | .answer sets =>
    match sets.find? RRset.txt with
    | none => some none
    | some s =>
      match s.items with
      | [] => none
      | strings :: _ => if bytes && !strings.isEmpty then none else some (some strings.flatten)

/-- `get_txt` (oa/plugins/dkim.py 60-72).  Simplification: texts are compared with their UTF-8 encodings. -/
def getTxt (bytes : Bool) (r : Read) (d : Iface) (dns : Str → Reply) (name : Str) : Option (Option Str) :=
  if name.all (fun c => decide (c.toNat < 128)) then getTxtDnspython bytes (asked r d dns name) else some none

/-- `dkim.verify` of a message whose signature has its key at `name` (oa/plugins/dkim.py 289-290): `lib` is what the library
does with the key it is given; exceptions of `get_txt` pass through it. -/
def verifyWith (lib : Option Str → Verify) (key : Option (Option Str)) : Verify :=
  match key with
  | none => .otherError
  | some k => lib k

/-- A message and the name of the key of its signature. -/
structure Signed where
  msg : DkimMsg
  name : Str
  lib : Option Str → Verify

/-- What the plugin sees of the message, with these answers of DNS. -/
def seen (bytes : Bool) (r : Read) (d : Iface) (dns : Str → Reply) (m : Signed) : DkimMsg :=
  { m.msg with verify := verifyWith m.lib (getTxt bytes r d dns m.name) }

end Verif.DkimKey
