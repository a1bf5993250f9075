import Verif.Spec.NetText

/-!
# IPv6 addresses in `Received` headers

Words of the statements about them.
-/

namespace Verif.Spec
open Verif Py

/-- The address is written in small letters. -/
def V6Form.LowerCase (f : V6Form) : Prop := ∀ c ∈ f.text, c.isUpper = false

/-- What may stand between the bracket and the address (RFC 5321, section 4.1.3). -/
def V6Tag (p : Str) : Prop := p = [] ∨ p = c!"IPv6:"

/-- The loopback address `::1`. -/
def LoopbackV6 (n : Nat) : Prop := n = 1

/-- The addresses of one link, `fe80::/10`. -/
def LinkLocalV6 (n : Nat) : Prop := 0xfe80 * 2 ^ 112 ≤ n ∧ n < 0xfec0 * 2 ^ 112

/-- No address begins or ends here. -/
def NoAddress (s : Str) : Prop := ∀ c ∈ s, c ≠ '.' ∧ c ≠ ':'

/-- The private networks of IPv4 that are to be recognised inside an IPv6 address. -/
def PrivateNet (a b : Nat) : Prop :=
  a = 10 ∨ a = 127 ∨ (a = 169 ∧ b = 254) ∨ (a = 172 ∧ 16 ≤ b ∧ b ≤ 31) ∨ (a = 192 ∧ b = 168) ∨ (a = 100 ∧ 64 ≤ b ∧ b ≤ 127)

/-- A part that is zero, of one to four digits. -/
def ZeroPart (s : Str) : Prop := s ≠ [] ∧ s.length ≤ 4 ∧ ∀ c ∈ s, c = '0'

/-- What stands before the IPv4 address in `::ffff:10.1.2.3` and its longer forms: five parts that are zero, of which some in a row may be
left out, and `ffff`. -/
inductive MappedHead : Str → Prop
  | full (zs : List Str) (h5 : zs.length = 5) (hz : ∀ z ∈ zs, ZeroPart z) : MappedHead (join c!":" zs ++ c!":ffff:")
  | leading (lo : List Str) (h4 : lo.length ≤ 4) (hz : ∀ z ∈ lo, ZeroPart z) : MappedHead (c!"::" ++ join c!":" (lo ++ [c!"ffff"]) ++ c!":")
  | trailing (hi : List Str) (h0 : hi ≠ []) (h4 : hi.length ≤ 4) (hz : ∀ z ∈ hi, ZeroPart z) : MappedHead (join c!":" hi ++ c!"::ffff:")
  | second (z : Str) (lo : List Str) (h0 : lo ≠ []) (h3 : lo.length ≤ 3) (hz : ∀ x ∈ z :: lo, ZeroPart x) :
      MappedHead (z ++ c!"::" ++ join c!":" (lo ++ [c!"ffff"]) ++ c!":")

/-- Two more forms, of which only those with short zeros are known: two parts, a gap and one part, or three parts, a gap and a part of one
zero. -/
inductive NarrowHead : Str → Prop
  | two (z₁ z₂ z : Str) (h₁ : ZeroPart z₁) (h₂ : ZeroPart z₂) (h : ZeroPart z) (hs : z.length ≤ 2) :
      NarrowHead (z₁ ++ c!":" ++ z₂ ++ c!"::" ++ z ++ c!":ffff:")
  | three (z₁ z₂ z₃ : Str) (h₁ : ZeroPart z₁) (h₂ : ZeroPart z₂) (h₃ : ZeroPart z₃) :
      NarrowHead (z₁ ++ c!":" ++ z₂ ++ c!":" ++ z₃ ++ c!"::0:ffff:")

end Verif.Spec
