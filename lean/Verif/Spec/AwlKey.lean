import Verif.Model.Py
import Verif.Spec.NetText

/-!
# Specification of senders and networks for the auto-whitelist
-/

namespace Verif.Spec.AwlKey
open Verif Py Net

/-- A number that is an address. -/
def Valid : Addr → Prop
  | .v4 n => n < 2 ^ 32
  | .v6 n => n < 2 ^ 128

/-- Two origins are in one network, or both messages have none. -/
def SameNet (mask4 mask6 : Nat) : Option Addr → Option Addr → Prop
  | none, none => True
  | some (.v4 a), some (.v4 b) => SamePrefix 32 mask4 a b
  | some (.v6 a), some (.v6 b) => SamePrefix 128 mask6 a b
  | _, _ => False

/-- The origin of a message: the last public one of the addresses it came through, which are listed from the nearest to the
farthest. -/
inductive Origin (isPrivate : Addr → Bool) (relays : List Addr) : Option Addr → Prop
  | unknown : (∀ a ∈ relays, isPrivate a = true) → Origin isPrivate relays none
  | known (near : List Addr) (a : Addr) (far : List Addr) : relays = near ++ a :: far → isPrivate a = false →
      (∀ b ∈ far, isPrivate b = true) → Origin isPrivate relays (some a)

/-- White space. -/
def Blank (w : Str) : Prop := ∀ c ∈ w, isSpace c = true

/-- A tag of a signature that names the signing domain, with no blanks before the `=`. -/
def NamesDomain (tag : Str) : Prop := ∃ w v, Blank w ∧ tag = w ++ c!"d=" ++ v

/-- The domain named in a signature (RFC 6376, 3.5): tags with semicolons between them, among them `d=` and the domain,
possibly with blanks around it. -/
inductive Signed : Option Str → Str → Prop
  | unsigned : Signed none []
  | domain (before after : List Str) (w v dom w' : Str) :
      (∀ t ∈ before, ';' ∉ t ∧ ¬ NamesDomain t) → (∀ t ∈ after, ';' ∉ t) → Blank w →
      (∀ c ∈ v, c = ' ' ∨ c = '\r' ∨ c = '\n') → (∀ c ∈ w', c = ' ' ∨ c = '\r' ∨ c = '\n') → dom ≠ [] → (∀ c ∈ dom, isSpace c = false ∧ c ≠ ';') →
      Signed (some (join c!";" (before ++ (w ++ c!"d=" ++ v ++ dom ++ w') :: after))) dom

end Verif.Spec.AwlKey
