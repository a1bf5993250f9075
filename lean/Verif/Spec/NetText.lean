import Verif.Model.NetText
import Verif.Spec.ReceivedRe

/-!
# How networks are written in the configuration (docs/configuration.rst 193-216)
-/

namespace Verif.Spec
open Verif Py

/-- A number from its bytes, the first one the most significant. -/
def fromBytes (l : List Nat) : Nat := l.foldl (fun v n => v * 256 + n) 0

/-- Two addresses of `width` bits agree in the first `len` bits. -/
def SamePrefix (width len x y : Nat) : Prop := x / 2 ^ (width - len) = y / 2 ^ (width - len)

instance (w l x y : Nat) : Decidable (SamePrefix w l x y) := inferInstanceAs (Decidable (_ = _))

/-- An entry for IPv4: `[!]IP_ADDRESS[/MASKLEN]`, the address optionally in square brackets. -/
structure V4Entry where
  excluded : Bool
  bracketed : Bool
  octets : List Nat
  maskLen : Option Nat

/-- One to four octets, and a possible length of a mask. -/
structure V4Entry.Ok (e : V4Entry) : Prop where
  some_octets : e.octets ≠ []
  at_most_four : e.octets.length ≤ 4
  bytes : ∀ n ∈ e.octets, n ≤ 255
  mask : ∀ m, e.maskLen = some m → m ≤ 32

/-- What is written around the address and after it. -/
def around (excluded bracketed : Bool) (ip : Str) (maskLen : Option Nat) : Str :=
  (if excluded then c!"!" else []) ++ (if bracketed then c!"[" ++ ip ++ c!"]" else ip) ++
    (match maskLen with | none => [] | some m => c!"/" ++ decimal m)

/-- How an entry is written: fewer than four octets end with a dot. -/
def V4Entry.text (e : V4Entry) : Str :=
  around e.excluded e.bracketed
    (join c!"." (e.octets.map decimal) ++ if e.octets.length < 4 then c!"." else []) e.maskLen

/-- The documented length of the prefix: "if the ip has less than 4 octets and ends with a trailing dot
then the masklen is num_octets * 8, if there is no trailing dot then the mask will be 32". -/
def V4Entry.len (e : V4Entry) : Nat := e.maskLen.getD (e.octets.length * 8)

/-- The address, with zeros for the octets not written. -/
def V4Entry.address (e : V4Entry) : Nat := fromBytes (e.octets ++ List.replicate (4 - e.octets.length) 0)

/-- The address as written has no bit set after the prefix. -/
def V4Entry.NoHostBits (e : V4Entry) : Prop := 2 ^ (32 - e.len) ∣ e.address

/-- A part of an IPv6 address: one to four digits of base 16. -/
def Hextet (s : Str) : Prop :=
  s ≠ [] ∧ s.length ≤ 4 ∧ ∀ c ∈ s, ('0' ≤ c ∧ c ≤ '9') ∨ ('a' ≤ c ∧ c ≤ 'f') ∨ ('A' ≤ c ∧ c ≤ 'F')

/-- Its number. -/
def hexDigit (c : Char) : Nat :=
  if '0' ≤ c ∧ c ≤ '9' then c.toNat - 48 else if 'a' ≤ c ∧ c ≤ 'f' then c.toNat - 87 else c.toNat - 55

def hexNumber (s : Str) : Nat := s.foldl (fun v c => 16 * v + hexDigit c) 0

/-- An IPv6 address: eight parts, or fewer with `::` for the ones in between that are zero. -/
inductive V6Form where
  | full (parts : List Str)
  | short (hi lo : List Str)

def V6Form.Ok : V6Form → Prop
  | .full parts => parts.length = 8 ∧ ∀ p ∈ parts, Hextet p
  | .short hi lo => hi.length + lo.length ≤ 7 ∧ (∀ p ∈ hi, Hextet p) ∧ ∀ p ∈ lo, Hextet p

def V6Form.text : V6Form → Str
  | .full parts => join c!":" parts
  | .short hi lo => join c!":" hi ++ c!"::" ++ join c!":" lo

/-- Its eight parts as numbers. -/
def V6Form.numbers : V6Form → List Nat
  | .full parts => parts.map hexNumber
  | .short hi lo => hi.map hexNumber ++ List.replicate (8 - (hi.length + lo.length)) 0 ++ lo.map hexNumber

def V6Form.address (f : V6Form) : Nat := f.numbers.foldl (fun v n => v * 65536 + n) 0

/-- An entry for IPv6. -/
structure V6Entry where
  excluded : Bool
  bracketed : Bool
  form : V6Form
  maskLen : Option Nat

structure V6Entry.Ok (e : V6Entry) : Prop where
  form : e.form.Ok
  mask : ∀ m, e.maskLen = some m → m ≤ 128

def V6Entry.text (e : V6Entry) : Str := around e.excluded e.bracketed e.form.text e.maskLen

/-- The documented length of the prefix: 128 if none is given. -/
def V6Entry.len (e : V6Entry) : Nat := e.maskLen.getD 128

def V6Entry.NoHostBits (e : V6Entry) : Prop := 2 ^ (128 - e.len) ∣ e.form.address

/-- An entry of a network option. -/
inductive NetEntry where
  | v4 (e : V4Entry)
  | v6 (e : V6Entry)

/-- It is well formed, and its address has no bit set after the prefix. -/
def NetEntry.Ok : NetEntry → Prop
  | .v4 e => e.Ok ∧ e.NoHostBits
  | .v6 e => e.Ok ∧ e.NoHostBits

def NetEntry.text : NetEntry → Str
  | .v4 e => e.text
  | .v6 e => e.text

def NetEntry.excluded : NetEntry → Bool
  | .v4 e => e.excluded
  | .v6 e => e.excluded

/-- The entry is about the address. -/
def NetEntry.covers : NetEntry → Net.Addr → Bool
  | .v4 e, .v4 q => SamePrefix 32 e.len q e.address
  | .v6 e, .v6 q => SamePrefix 128 e.len q e.form.address
  | _, _ => false

/-- `127.0.0.0/8` and `::1`. -/
def loopback : Net.Addr → Bool
  | .v4 q => q / 2 ^ 24 = 127
  | .v6 q => q = 1

/-- "The networks are searched sequentially with the first match stopping the search": listed unless that
one is excluded. -/
def listed (es : List NetEntry) (q : Net.Addr) : Bool :=
  match es.find? (fun e => e.covers q) with
  | some e => !e.excluded
  | none => false

end Verif.Spec
