import Verif.Model.Awl
import Verif.Model.NetText

/-!
# Which entry of the auto-whitelist a message uses: `oa/plugins/awl.py` 109-152, 318-334

With the part of Python's `ipaddress` that writes addresses.
-/

namespace Verif.Awl
open Verif Py Net

/-! ### `str(address)` -/

/-- The four bytes of an IPv4 address: `ip_int.to_bytes(4, 'big')`. -/
def bytesOf (n : Nat) : List Nat := [n / 2 ^ 24 % 256, n / 2 ^ 16 % 256, n / 2 ^ 8 % 256, n % 256]

/-- `IPv4Address._string_from_ip_int`. -/
def v4Text (n : Nat) : Str := join c!"." ((bytesOf n).map dec)

/-- The eight parts of an IPv6 address. -/
def hextetsOf (n : Nat) : List Nat :=
  [n / 65536 ^ 7 % 65536, n / 65536 ^ 6 % 65536, n / 65536 ^ 5 % 65536, n / 65536 ^ 4 % 65536, n / 65536 ^ 3 % 65536,
   n / 65536 ^ 2 % 65536, n / 65536 % 65536, n % 65536]

/-- `'%x' % n` -/
def hexText (n : Nat) : Str := Nat.toDigits 16 n

/-- The variables of `IPv6Address._compress_hextets`: where the loop is, the longest row of zeros so far, and the row it is in
(`none`: -1). -/
structure Zeros where
  index : Nat
  bestStart : Nat
  bestLen : Nat
  start : Option Nat
  len : Nat

/-- One round of its loop. -/
def zeroStep (z : Zeros) (hextet : Str) : Zeros :=
  if hextet = c!"0" then
    let start := z.start.getD z.index
    if z.bestLen < z.len + 1 then ⟨z.index + 1, start, z.len + 1, some start, z.len + 1⟩
    else ⟨z.index + 1, z.bestStart, z.bestLen, some start, z.len + 1⟩
  else ⟨z.index + 1, z.bestStart, z.bestLen, none, 0⟩

/-- `IPv6Address._compress_hextets`. -/
def compress (hextets : List Str) : List Str :=
  let z := hextets.foldl zeroStep ⟨0, 0, 0, none, 0⟩
  if 1 < z.bestLen then
    let stop := z.bestStart + z.bestLen
    let h := if stop = hextets.length then hextets ++ [[]] else hextets
    let h := h.take z.bestStart ++ [] :: h.drop stop
    if z.bestStart = 0 then [] :: h else h
  else hextets

/-- `IPv6Address._string_from_ip_int`. -/
def v6Text (n : Nat) : Str := join c!":" (compress ((hextetsOf n).map hexText))

/-! ### The key -/

/-- `IPV4SUFFIXRE.sub("", text)`, `(\.0){1,3}$` (oa/plugins/awl.py 46, 152): removed from the first place on from which only
one to three `.0` follow.  Addresses have no line breaks. -/
def dropZeros : Str → Str
  | [] => []
  | c :: cs =>
    if c :: cs = c!".0" ∨ c :: cs = c!".0.0" ∨ c :: cs = c!".0.0.0" then []
    else c :: dropZeros cs

/-- `ip_to_awl_key` (oa/plugins/awl.py 144-152); `none` is the `ValueError` of a mask that does not fit.  Simplification: the
address is not written and read again. -/
def ipToKey (mask4 mask6 : Int) : Addr → Option Str
  | .v4 n => if 0 ≤ mask4 ∧ mask4 ≤ 32 then some (dropZeros (v4Text (masked 32 mask4.toNat n))) else none
  | .v6 n => if 0 ≤ mask6 ∧ mask6 ≤ 128 then some (dropZeros (v6Text (masked 128 mask6.toNat n))) else none

/-- `_get_origin_ip` (oa/plugins/awl.py 109-119).  The relays in the two lists all have an address (oa/message.py 370);
`isPrivate` is `ip.is_private`. -/
def originIp (isPrivate : Addr → Bool) (trusted untrusted : List Addr) : Option Addr :=
  ((trusted ++ untrusted).reverse).find? (fun ip => !isPrivate ip)

/-- `_get_signed_by` (oa/plugins/awl.py 121-126); `none`: the message has no such header. -/
def signedBy (header : Option Str) : Str :=
  match (splitChar ';' (header.getD [])).find? (fun param => startsWith c!"d=" (strip param)) with
  | some param =>
    match split1 c!"=" param with
    | some (_, v) => stripChars c!" ;\r\n" v
    | none => []
  | none => []

/-- What the plugin looks at: the addresses `get_addr_header("From")` gives, the first `DKIM-Signature`, the addresses of the
relays, and the score so far. -/
structure Msg where
  froms : List Str
  dkim : Option Str
  trusted : List Addr
  untrusted : List Addr
  score : Rat

/-- `parsed_metadata` and the beginning of `check_from_in_auto_whitelist` (oa/plugins/awl.py 128-142, 318-334); `none`: an
exception. -/
def toMail (isPrivate : Addr → Bool) (mask4 mask6 : Int) (m : Msg) : Option Mail :=
  let ip := match originIp isPrivate m.trusted m.untrusted with
    | some ip => ipToKey mask4 mask6 ip
    | none => some c!"none"
  ip.map (fun ip => ⟨m.froms.headD [], signedBy m.dkim, ip, m.score⟩)

end Verif.Awl
