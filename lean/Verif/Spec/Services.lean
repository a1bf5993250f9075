import Verif.Model.Services

/-!
# Specification of the services
-/

namespace Verif.Services
open Verif Py

/-- A server lists a message: it has been reported often enough and nobody has called it good. -/
def Lists (max : Int) (a : Answer) : Prop := ∃ n, a = some (n, 0) ∧ max ≤ n

/-- A server answers. -/
def Answers (a : Answer) : Prop := a ≠ none

/-- The servers that a check asks: all up to the first that fails or lists the message. -/
inductive Upto (ask : Str → Answer) (max : Int) : List Str → List Str → Prop
  | done : Upto ask max [] []
  | stop {s rest} : ask s = none ∨ Lists max (ask s) → Upto ask max (s :: rest) [s]
  | step {s rest l} : ask s ≠ none → ¬ Lists max (ask s) → Upto ask max rest l → Upto ask max (s :: rest) (s :: l)

/-- The code of a country for an address, as the documentation has it. -/
inductive Code (geo4 geo6 : Geo) : Ip → Str → Prop
  | priv {ip} : ip.priv = true → Code geo4 geo6 ip c!"**"
  | known4 {ip f} : ip.priv = false → ip.v4 = true → geo4 = some f → f ip.text ≠ [] → Code geo4 geo6 ip (f ip.text)
  | known6 {ip f} : ip.priv = false → ip.v4 = false → geo6 = some f → f ip.text ≠ [] → Code geo4 geo6 ip (f ip.text)
  | unknown4 {ip} : ip.priv = false → ip.v4 = true → (∀ f, geo4 = some f → f ip.text = []) → Code geo4 geo6 ip c!"XX"
  | unknown6 {ip} : ip.priv = false → ip.v4 = false → (∀ f, geo6 = some f → f ip.text = []) → Code geo4 geo6 ip c!"XX"

/-- The codes for addresses, in order. -/
inductive Codes (geo4 geo6 : Geo) : List Ip → List Str → Prop
  | nil : Codes geo4 geo6 [] []
  | cons {ip c ips cs} : Code geo4 geo6 ip c → Codes geo4 geo6 ips cs → Codes geo4 geo6 (ip :: ips) (c :: cs)

/-- The addresses of the relays in order. -/
def Addresses (parse : Str → Option Ip) (relays : List Str) (ips : List Ip) : Prop := relays.map parse = ips.map some

/-- What a report carries of a message: all of it, or what is allowed and a remark. -/
def Carries (max : Nat) (original sent : Str) : Prop :=
  (original.length ≤ max * 1024 ∧ sent = original) ∨
  (max * 1024 < original.length ∧ ∃ rest, original = original.take (max * 1024) ++ rest ∧ (original.take (max * 1024)).length = max * 1024 ∧
    sent = original.take (max * 1024) ++ c!"\n[truncated by OrangeAssassin]\n")

/-- An address that can be written to: something, `@`, something. -/
def Usable (to : Str) : Prop := ∃ a b, a ≠ [] ∧ b ≠ [] ∧ to = a ++ '@' :: b

/-- The date of the message, as the first `Received` header has it after its first semicolon. -/
def Stamped (mktime : Str → Option Int) (received : List (Option Str)) (t : Int) : Prop :=
  ∃ by_ date rest more, ';' ∉ by_ ∧ ';' ∉ date ∧ (rest = [] ∨ ∃ r, rest = ';' :: r) ∧
    received = some (by_ ++ ';' :: (date ++ rest)) :: more ∧ mktime date = some t

/-- The value of a key in settings, the last one if there are several. -/
def Setting (kvs : List (Str × Str)) (k : Str) : Option Str → Prop
  | none => ∀ p ∈ kvs, p.1 ≠ k
  | some v => ∃ a b, kvs = a ++ (k, v) :: b ∧ ∀ p ∈ b, p.1 ≠ k

/-- Settings as they are written: `key=value;key=value`. -/
def written (kvs : List (Str × Str)) : Str := join c!";" (kvs.map fun p => p.1 ++ c!"=" ++ p.2)

/-- Settings that can be written. -/
def Plain (kvs : List (Str × Str)) : Prop := ∀ p ∈ kvs, '=' ∉ p.1 ∧ ';' ∉ p.1 ∧ '=' ∉ p.2 ∧ ';' ∉ p.2

/-- User and password in a URL. -/
def credentials (user password : Str) : Str := if user = [] ∨ password = [] then [] else user ++ c!":" ++ password ++ c!"@"

end Verif.Services
