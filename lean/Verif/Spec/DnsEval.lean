import Verif.Model.DnsEval

/-!
# Specification of rules about DNS lists
-/

namespace Verif.DnsEval
open Verif Py

/-- The name under which a list knows an address: its numbers (digits) backwards, then the list. -/
def Ip.nameIn (server : Str) : Ip → Str
  | .v4 a b c d => join c!"." [dec d, dec c, dec b, dec a, server]
  | .v6 ds => join c!"." (ds.reverse.map (fun c => [c]) ++ [server])

/-- Records that count: any, or one that passes the subtest. -/
def Counts (subtest : Option (Str → Option Bool)) (records : List Str) : Prop :=
  match subtest with
  | none => records ≠ []
  | some m => ∃ r ∈ records, m r = some true

/-- The subtest can be applied to anything. -/
def Applies (subtest : Option (Str → Option Bool)) : Prop :=
  ∀ m, subtest = some m → ∀ r, m r ≠ none

/-- The domain of an address: what follows the last `@`, without blanks around it. -/
def DomainOf (addr d : Str) : Prop :=
  (∃ local_ dom, addr = local_ ++ '@' :: dom ∧ '@' ∉ dom ∧ d = strip dom) ∨ ('@' ∉ addr ∧ d = strip addr)

/-- The rules that ask a list, and thereby define a zone. -/
def ZoneRule (fn : Str) : Prop :=
  fn = c!"check_rbl" ∨ fn = c!"check_rbl_txt" ∨ fn = c!"check_rbl_envfrom" ∨ fn = c!"check_rbl_from_host" ∨
  fn = c!"check_rbl_from_domain" ∨ fn = c!"check_rbl_accreditor"

/-- An address of the loopback network, in which lists answer. -/
def Loopback (n : Nat) : Prop := 127 * 2 ^ 24 ≤ n ∧ n < 128 * 2 ^ 24

end Verif.DnsEval
