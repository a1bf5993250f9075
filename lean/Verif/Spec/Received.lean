import Verif.Model.Received

/-!
# Specification of what is read from `Received` headers
-/

namespace Verif.Received
open Verif Py

/-- The addresses of the sending side in the order in which they stand in the header. -/
def senderAddresses (R : Rx) (h : Str) : List Str := (R.ips (beforeBy h)).map cleanIp

/-- The last public address; should all be private, the first; should there be none, nothing. -/
def chosenAddress (R : Rx) (h : Str) : Str :=
  match ((senderAddresses R h).filter (fun a => !isPrivate R a)).getLast? with
  | some a => a
  | none => (senderAddresses R h).headD []

/-- A relay says a public IPv4 address as its name. -/
def SaysAddress (R : Rx) (V : V4) (r : Fields) : Prop := (V.addr r.helo).isSome ∧ isPrivate R r.helo = false

/-- The providers the rule is about. -/
def providers : List Str :=
  [c!"aol.com", c!"caramail.com", c!"cs.com", c!"drizzle.com", c!"excite.com", c!"hotmail.com", c!"localhost.com",
   c!"lycos.co.uk", c!"lycos.com", c!"msn.com", c!"yahoo.com"]

/-- A host in the domain of a large provider. -/
def OfProvider (h : Str) : Prop := ∃ d ∈ providers, h = d ∨ ∃ a, h = a ++ c!"." ++ d

/-- The private and local IPv4 networks, but for `172.16.0.0/12`. -/
def PrivateV4 (ip : Str) : Prop :=
  c!"10." <+: ip ∨ c!"127." <+: ip ∨ c!"169.254." <+: ip ∨ c!"192.168." <+: ip ∨
    ∃ n : Nat, 64 ≤ n ∧ n ≤ 127 ∧ c!"100." ++ (toString n).toList ++ c!"." <+: ip

/-- No field but `auth` has a space in it. -/
def NoSpaces (f : Fields) : Prop :=
  ' ' ∉ f.ip ∧ ' ' ∉ f.rdns ∧ ' ' ∉ f.helo ∧ ' ' ∉ f.by_ ∧ ' ' ∉ f.ident ∧ ' ' ∉ f.envfrom ∧ ' ' ∉ f.id_

/-- How a relay is described in the tags: its fields, each with its name, between brackets and with one space between. -/
def description (m : Marked) : Str :=
  join c!" " [c!"[", c!"ip=" ++ m.f.ip, c!"rdns=" ++ m.f.rdns, c!"helo=" ++ m.f.helo, c!"by=" ++ m.f.by_, c!"ident=" ++ m.f.ident,
    c!"envfrom=" ++ m.f.envfrom, c!"intl=" ++ [if m.intl then '1' else '0'], c!"id=" ++ m.f.id_, c!"auth=" ++ m.f.auth,
    c!"msa=" ++ [if m.msa then '1' else '0'], c!"]"]

end Verif.Received
