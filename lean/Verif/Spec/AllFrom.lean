import Verif.Model.AllFrom
import Verif.Spec.Header

/-!
# Specification of the senders of a message
-/

namespace Verif.AllFrom
open Verif Py Mail Spec

/-- The headers that name a sender; the sender of the envelope replaces the header about it. -/
def Names (sender key : Str) : Prop :=
  key = c!"From" ∨ key = c!"Envelope-Sender" ∨ key = c!"Resent-Sender" ∨ key = c!"X-Envelope-From" ∨ key = c!"Resent-From" ∨
  (key = c!"EnvelopeFrom" ∧ sender = [])

/-- An address of a header called `key`, in capital or small letters. -/
def InHeader (L : MailLib) (hs : List (Str × Str)) (key a : Str) : Prop :=
  ∃ h ∈ hs, lower h.1 = lower key ∧ ∃ l n, L.addresses (L.decode h.2) = some l ∧ (n, a) ∈ l ∧ a ≠ []

/-- A sender of the message. -/
def Sender (L : MailLib) (hs : List (Str × Str)) (sender a : Str) : Prop :=
  (a = sender ∧ sender ≠ []) ∨ ∃ key, Names sender key ∧ InHeader L hs key a

/-- All headers about senders can be read. -/
def Readable (L : MailLib) (hs : List (Str × Str)) (sender : Str) : Prop :=
  ∀ h ∈ hs, ∀ key, Names sender key → lower h.1 = lower key → L.addresses (L.decode h.2) ≠ none

end Verif.AllFrom
