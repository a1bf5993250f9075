import Verif.Model.Py

/-!
# UTF-8, as used by `bytes.decode("utf8")` and `str.encode("utf8")`

These definitions model Python itself, not a file of `/repo`.  A byte is a `Nat`; the decoder
rejects values that are not bytes.  Lone surrogates, which Python strings can hold but which
neither side of the codec accepts, do not occur in `Char`.
-/

namespace Verif
namespace Utf8

/-- A byte string. -/
abbrev Bytes := List Nat

/-- The encoding of one character. -/
def encChar (c : Char) : Bytes :=
  let n := c.toNat
  if n < 0x80 then [n]
  else if n < 0x800 then [0xC0 + n / 64, 0x80 + n % 64]
  else if n < 0x10000 then [0xE0 + n / 4096, 0x80 + n / 64 % 64, 0x80 + n % 64]
  else [0xF0 + n / 262144, 0x80 + n / 4096 % 64, 0x80 + n / 64 % 64, 0x80 + n % 64]

/-- `s.encode("utf8")`. -/
def encode (s : Str) : Bytes := s.flatMap encChar

/-- The character with code `n`, unless it is none or is below `low` (an overlong encoding). -/
def charOf (low n : Nat) : Option Char :=
  if h : n.isValidChar then (if low ≤ n then some (Char.ofNatAux n h) else none) else none

/-- A continuation byte. -/
def isCont (b : Nat) : Bool := 0x80 ≤ b && b < 0xC0

/-- The first character of a byte string and the bytes after it. -/
def next (bytes : Bytes) : Option (Char × Bytes) :=
  match bytes with
  | [] => none
  | a :: rest =>
    if a < 0x80 then (charOf 0 a).map (·, rest)
    else if a < 0xC0 then none
    else if a < 0xE0 then
      match rest with
      | b :: rest =>
        if isCont b then (charOf 0x80 ((a - 0xC0) * 64 + (b - 0x80))).map (·, rest) else none
      | _ => none
    else if a < 0xF0 then
      match rest with
      | b :: c :: rest =>
        if isCont b && isCont c then
          (charOf 0x800 ((a - 0xE0) * 4096 + (b - 0x80) * 64 + (c - 0x80))).map (·, rest)
        else none
      | _ => none
    else if a < 0xF8 then
      match rest with
      | b :: c :: d :: rest =>
        if isCont b && isCont c && isCont d then
          (charOf 0x10000
            ((a - 0xF0) * 262144 + (b - 0x80) * 4096 + (c - 0x80) * 64 + (d - 0x80))).map (·, rest)
        else none
      | _ => none
    else none

/-- Decoding at most `k` characters, which must be all. -/
def decodeN : Nat → Bytes → Option Str
  | _, [] => some []
  | 0, _ => none
  | k + 1, b => match next b with
    | some (c, rest) => (decodeN k rest).map (c :: ·)
    | none => none

/-- `b.decode("utf8")`; `none` is `UnicodeDecodeError`. -/
def decode (b : Bytes) : Option Str := decodeN b.length b

end Utf8
end Verif
