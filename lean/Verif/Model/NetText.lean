import Verif.Model.Networks
import Verif.Model.Re

/-!
# How networks are written: `_NETWORK_RE`, `_format_network_str` and `_extract_network` of `oa/networks.py`

With the part of Python's `ipaddress` that is used: `ip_network(text)` and `address in network`.
-/

namespace Verif.Net
open Verif Py Re

/-! ### The expression -/

/-- `[0-9.]` -/
def v4Char (c : Char) : Bool := c.isDigit || c == '.'

/-- `[0-9a-f:]` with `re.I` -/
def v6Char (c : Char) : Bool := c.isDigit || ('a' ≤ c && c ≤ 'f') || ('A' ≤ c && c ≤ 'F') || c == ':'

/-- What follows the address in `_NETWORK_RE` (oa/networks.py 16-18). -/
def afterRe : Re := seqs [opt (lit c!"]"), opt (lit c!"/"), .group 3 (upTo (.chr digit) 5), .eol]

/-- `_NETWORK_RE` (oa/networks.py 9-19).  Simplification: with `re.M`, `$` also matches before a line
break in the middle; the values of options contain none. -/
def networkRe : Re :=
  seqs [.bol, .group 1 (opt (lit c!"!")), opt (lit c!"["), .group 2 (.alt (plus v4Char) (.star true v6Char)), afterRe]

/-! ### `ipaddress` -/

/-- An address. -/
inductive Addr where
  | v4 (n : Nat)
  | v6 (n : Nat)
deriving DecidableEq

/-- A network: its version, its first address, and the length of its prefix. -/
structure Network where
  isV6 : Bool
  first : Nat
  len : Nat
deriving DecidableEq

/-- The address without the bits after the prefix: `ip & netmask`, where an address has `width` bits. -/
def masked (width len n : Nat) : Nat := (n >>> (width - len)) <<< (width - len)

/-- `IPv4Address._parse_octet`, of Python 3.9.5 and later: leading zeros are not permitted. -/
def octet? (s : Str) : Option Nat :=
  if s = [] ∨ ¬ s.all Char.isDigit ∨ 3 < s.length then none
  else if s.head? = some '0' ∧ s ≠ c!"0" then none
  else
    let n := s.foldl (fun v c => v * 10 + (c.toNat - '0'.toNat)) 0
    if 255 < n then none else some n

/-- `IPv4Address._ip_int_from_string`. -/
def v4? (s : Str) : Option Nat :=
  let octets := splitChar '.' s
  if octets.length ≠ 4 then none
  else (octets.mapM octet?).map (fun l => l.foldl (fun v n => v * 256 + n) 0)

/-- A digit of base 16. -/
def hexVal (c : Char) : Nat :=
  if c.isDigit then c.toNat - '0'.toNat else c.toLower.toNat - 'a'.toNat + 10

/-- `IPv6Address._parse_hextet`. -/
def hextet? (s : Str) : Option Nat :=
  if s = [] ∨ ¬ s.all (fun c => c.isDigit || ('a' ≤ c && c ≤ 'f') || ('A' ≤ c && c ≤ 'F')) ∨ 4 < s.length then none
  else some (s.foldl (fun v c => v * 16 + hexVal c) 0)

/-- The numbers of several parts, as one number. -/
def hextets? (l : List Str) : Option Nat := (l.mapM hextet?).map (fun l => l.foldl (fun v n => v * 65536 + n) 0)

/-- `IPv6Address._ip_int_from_string`.  Simplification: no IPv4 address as the last part, since the
expression admits no text with both `:` and `.`. -/
def v6? (s : Str) : Option Nat :=
  let parts := splitChar ':' s
  let n := parts.length
  if n < 3 ∨ 9 < n then none
  else
    let empty := (List.range n).filter (fun i => 0 < i && i + 1 < n && parts[i]? == some [])
    match empty with
    | _ :: _ :: _ => none
    | [skip] =>
      let hi := if parts.head? = some [] then skip - 1 else skip
      let lo := if parts.getLast? = some [] then n - skip - 2 else n - skip - 1
      if parts.head? = some [] ∧ hi ≠ 0 then none
      else if parts.getLast? = some [] ∧ lo ≠ 0 then none
      else if 8 < hi + lo + 1 then none
      else
        match hextets? (parts.take hi), hextets? (parts.drop (n - lo)) with
        | some a, some b => some (a * 65536 ^ (8 - (hi + lo)) * 65536 ^ lo + b)
        | _, _ => none
    | [] => if n ≠ 8 then none else hextets? parts

/-- `_prefix_from_prefix_string`; a netmask written with dots cannot occur. -/
def prefix? (max : Nat) (s : Str) : Option Nat :=
  if s = [] ∨ ¬ s.all Char.isDigit then none
  else
    let n := s.foldl (fun v c => v * 10 + (c.toNat - '0'.toNat)) 0
    if max < n then none else some n

/-- `IPv4Network(text)` and `IPv6Network(text)`: `none` if the address or the mask is not valid,
`some none` for the other `ValueError`, when bits after the prefix are set. -/
def network? (v6 : Bool) (address? : Str → Option Nat) (width : Nat) (text : Str) : Option (Option Network) :=
  let parsed := match splitChar '/' text with
    | [a] => (address? a).map (fun n => (n, width))
    | [a, p] => (address? a).bind (fun n => (prefix? width p).map (fun p => (n, p)))
    | _ => none
  parsed.map (fun (n, p) => if masked width p n ≠ n then none else some ⟨v6, n, p⟩)

/-- `ipaddress.ip_network(text)`; `none` is the `ValueError`. -/
def ipNetwork (text : Str) : Option Network :=
  match network? false v4? 32 text with
  | some r => r
  | none =>
    match network? true v6? 128 text with
    | some r => r
    | none => none

/-- `address in network`. -/
def Network.mem (n : Network) : Addr → Bool
  | .v4 a => !n.isV6 && masked 32 n.len a == n.first
  | .v6 a => n.isV6 && masked 128 n.len a == n.first

/-! ### Entries -/

/-- `str(n)` -/
def dec (n : Nat) : Str := (toString n).toList

/-- `_extract_network` (oa/networks.py 86-93): `none` is the `AttributeError` if the expression does not
match. -/
def extract (text : Str) : Option (Bool × Option Network) :=
  match matchRe networkRe text with
  | none => none
  | some t =>
    let excluded := (t.get 1).getD []
    let network := (t.get 2).getD []
    let mask := (t.get 3).getD []
    some (excluded ≠ [], ipNetwork (formatNetwork dec network mask))

/-- `ipaddress` and `_extract_network` for the network lists; the networks accepted always
(oa/networks.py 60-63). -/
def ipNets : NetLib Addr Network where
  mem := Network.mem
  loop4 := ⟨false, 127 * 2 ^ 24, 8⟩
  loop6 := ⟨true, 1, 128⟩
  extract := extract

end Verif.Net
