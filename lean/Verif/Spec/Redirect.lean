import Verif.Model.Links

/-!
# Addresses with addresses in them
-/

namespace Verif.Spec
open Verif Py

/-- The schemes of the web, with a colon. -/
def webSchemes : List Str := [c!"http:", c!"https:"]

/-- Not one of `/`, `:` and `?`. -/
def InHost (c : Char) : Prop := c ≠ '/' ∧ c ≠ ':' ∧ c ≠ '?'

/-- The beginning of an address: a scheme, two slashes, a character of a host and at least one more. -/
def Source (s : Str) : Prop := ∃ scheme ∈ webSchemes, ∃ c d rest, s = scheme ++ c!"//" ++ c :: d :: rest ∧ InHost c

/-- An address, in which one or both of the slashes may be missing. -/
def Target (s : Str) : Prop :=
  ∃ scheme ∈ webSchemes, ∃ slashes ∈ [c!"", c!"/", c!"//"], ∃ c rest, s = scheme ++ slashes ++ c :: rest ∧ InHost c

/-- An address with another one in it. -/
def Within (u src dest : Str) : Prop := u = src ++ dest ∧ Source src ∧ Target dest

/-- Reaches past the name of the host. -/
def PastHost (s : Str) : Prop :=
  ∃ scheme ∈ webSchemes, ∃ host c rest, s = scheme ++ c!"//" ++ host ++ c :: rest ∧ host ≠ [] ∧ (∀ x ∈ host, InHost x) ∧ ¬ InHost c

/-- The address that counts as the redirection: the first one after the name of the host.  Only if there is none, one that begins
within the name counts. -/
def Hop (u src dest : Str) : Prop :=
  Within u src dest ∧ ∀ src' dest', Within u src' dest' → PastHost src' → PastHost src ∧ src.length ≤ src'.length

/-- The host of an address. -/
def hostOf (U : Links.UrlLib) (s : Str) : Option Str := (U.parse s).map Prod.snd

/-- An address leads to another through redirections within one host; `net` tells the host of an address. -/
inductive Led (net : Str → Option Str) : Str → Str → Prop where
  | here (u : Str) : Led net u u
  | step (u src dest v : Str) : Hop u src dest → net src = net dest → Led net dest v → Led net u v

end Verif.Spec
