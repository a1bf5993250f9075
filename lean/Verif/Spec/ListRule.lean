import Verif.Model.ListRule
import Verif.Spec.Wlbl
import Verif.Spec.AllFrom

/-!
# Specification of the rules about lists of addresses
-/

namespace Verif.ListRule
open Verif Py Mail Wlbl AllFrom

/-- An entry of the list stands for a part of the address (what the entries mean, and what they should: C66). -/
def OnList (entries : List Str) (a : Str) : Prop := ∃ e ∈ entries, Usable e ∧ Within 0 (whole e) a

/-- The header can be read. -/
def HeaderOk (L : MailLib) (hs : List (Str × Str)) (key : Str) : Prop :=
  ∀ h ∈ hs, lower h.1 = lower key → L.addresses (L.decode h.2) ≠ none

/-- The headers with the author. -/
def Author (key : Str) : Prop :=
  key = c!"From" ∨ key = c!"Envelope-Sender" ∨ key = c!"X-Envelope-From" ∨ key = c!"EnvelopeFrom"

/-- The headers with recipients. -/
def Recipient (key : Str) : Prop :=
  key ∈ [c!"To", c!"Cc", c!"Apparently-To", c!"Delivered-To", c!"Envelope-Recipients", c!"Apparently-Resent-To", c!"X-Envelope-To",
    c!"Envelope-To", c!"X-Delivered-To", c!"X-Original-To", c!"X-Rcpt-To", c!"X-Real-To"]

end Verif.ListRule
