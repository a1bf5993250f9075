import Verif.Model.Py

/-!
# Rules about DNS lists: `oa/plugins/dns_eval.py`, and `reverse_ip` of `oa/dns_interface.py`

Exceptions are `none`: `EvalRule.match` (oa/rules/eval_.py 70-77) turns them into `False`.  The resolver is a parameter.
Every rule gives its result and the queries it made, in order.
-/

namespace Verif.DnsEval
open Verif Py

/-- An `ipaddress` object: the four numbers of an address of version 4, the 32 digits of one of version 6. -/
inductive Ip where
  | v4 (a b c d : Nat)
  | v6 (digits : List Char)
deriving DecidableEq

/-- `str(n)`. -/
def dec (n : Nat) : Str := (toString n).toList

/-- `str(dns.reversename.from_address(ip.exploded))`: a library function. -/
def reverseName : Ip → Str
  | .v4 a b c d => dec d ++ c!"." ++ dec c ++ c!"." ++ dec b ++ c!"." ++ dec a ++ c!".in-addr.arpa."
  | .v6 ds => join c!"." (ds.reverse.map fun c => [c]) ++ c!".ip6.arpa."

/-- `s.rsplit(".", 2)[0]`. -/
def rsplit2 (s : Str) : Str :=
  match rsplit1 '.' s with
  | none => s
  | some (a, _) => match rsplit1 '.' a with
    | none => a
    | some (b, _) => b

/-- `reverse_ip` (oa/dns_interface.py 199-201). -/
def reverseIp (ip : Ip) : Str := rsplit2 (rstripBy (· == '.') (reverseName ip))

/-- A query: the name and the type of record. -/
abbrev Query := Str × Str

/-- `DNSInterface.query` (oa/dns_interface.py 164-197): the records as text; `none` if the library raises something that is
not caught there. -/
abbrev Resolver := Query → Option (List Str)

/-- A result and the queries made. -/
abbrev Run := Option Bool × List Query

/-- The loop over the names to ask, with the test of the records found (oa/plugins/dns_eval.py 88-98, 124-135, 159-172).
The test may raise. -/
def ask (R : Resolver) (test : List Str → Option Bool) : List Query → Run
  | [] => (some false, [])
  | q :: qs =>
    match R q with
    | none => (none, [q])
    | some results =>
      match test results with
      | none => (none, [q])
      | some true => (some true, [q])
      | some false => let r := ask R test qs; (r.1, q :: r.2)

/-- `for result in results: if match(result): return True` for a test that may raise (oa/plugins/dns_eval.py 95-97). -/
def anyOf (match_ : Str → Option Bool) : List Str → Option Bool
  | [] => some false
  | r :: rs => match match_ r with
    | none => none
    | some true => some true
    | some false => anyOf match_ rs

/-- The test of the records with a subtest, or without (oa/plugins/dns_eval.py 92-97, 166-171).  A subtest is what
`Regex(subtest).match` does, `none` if the expression is invalid: it is compiled when it is first used. -/
def subtestOf : Option (Str → Option Bool) → List Str → Option Bool
  | none, results => some (decide (results ≠ []))
  | some m, results => anyOf m results

/-- `_check_rbl` (oa/plugins/dns_eval.py 65-98).  `ips` are the addresses that are not trusted, `none` if one of the
headers has no valid one (oa/message.py 239-253). -/
def checkIps (R : Resolver) (skip : Bool) (ips : Option (List Ip)) (server qtype : Str) (subtest : Option (Str → Option Bool)) :
    Run :=
  if skip then (some false, [])
  else match ips with
    | none => (none, [])
    | some ips => ask R (subtestOf subtest) (ips.map fun ip => (reverseIp ip ++ c!"." ++ server, qtype))

/-- `n & m` of Python's integers, for `n` that is not negative. -/
def band (n : Nat) : Int → Nat
  | .ofNat m => n &&& m
  | .negSucc k => n ^^^ (n &&& k)

/-- The mask (oa/plugins/dns_eval.py 114-122): a number or an address; `addr` is `int(ipaddress.ip_address(s))`. -/
def maskOf (addr : Str → Option Nat) (mask : Str) : Option Int :=
  match int? mask with
  | some n => some n
  | none => (addr mask).map fun n => (n : Int)

/-- The test of `_check_multi_rbl` (oa/plugins/dns_eval.py 128-134). -/
def maskTest (addr : Str → Option Nat) (mask : Int) (results : List Str) : Option Bool :=
  if results ≠ [] ∧ mask = 0 then some true
  else anyOf (fun r => (addr r).map fun n => decide (band n mask ≠ 0)) results

/-- `_check_multi_rbl` (oa/plugins/dns_eval.py 100-135) with a mask. -/
def checkMulti (R : Resolver) (addr : Str → Option Nat) (skip : Bool) (ips : Option (List Ip)) (server mask : Str) : Run :=
  if skip then (some false, [])
  else match maskOf addr mask with
    | none => (some false, [])
    | some m => match ips with
      | none => (none, [])
      | some ips => ask R (maskTest addr m) (ips.map fun ip => (reverseIp ip ++ c!"." ++ server, c!"A"))

/-- The domain of an address (oa/plugins/dns_eval.py 160-163). -/
def domainOf (addr : Str) : Str :=
  match rsplit1 '@' addr with
  | some (_, d) => strip d
  | none => strip addr

/-- `_check_rbl_addr` (oa/plugins/dns_eval.py 137-172). -/
def checkAddrs (R : Resolver) (skip : Bool) (addrs : List Str) (server : Str) (subtest : Option (Str → Option Bool)) : Run :=
  if skip then (some false, [])
  else ask R (subtestOf subtest) (addrs.map fun a => (domainOf a ++ c!"." ++ server, c!"A"))

/-- `check_rbl_envfrom` (oa/plugins/dns_eval.py 285-304). -/
def envFrom (R : Resolver) (skip : Bool) (sender server : Str) (subtest : Option (Str → Option Bool)) : Run :=
  if sender = [] then (some false, []) else checkAddrs R skip [sender] server subtest

/-- `check_rbl_from_domain` and `check_rbl_from_host` (oa/plugins/dns_eval.py 306-326); `froms` are the addresses of
`get_addr_header("From")`. -/
def fromDomain (R : Resolver) (skip : Bool) (froms : List Str) (server : Str) (subtest : Option (Str → Option Bool)) : Run :=
  if froms = [] then (some false, []) else checkAddrs R skip froms server subtest

/-- The domain of the sender (oa/plugins/dns_eval.py 272-275). -/
def senderDomain (sender : Str) : Str :=
  match rsplit1 '@' sender with
  | some (_, d) => d
  | none => sender

/-- `check_dns_sender` (oa/plugins/dns_eval.py 262-283). -/
def dnsSender (R : Resolver) (sender : Str) : Run :=
  if sender = [] then (some false, [])
  else
    let domain := senderDomain sender
    match R (domain, c!"A") with
    | none => (none, [(domain, c!"A")])
    | some (_ :: _) => (some false, [(domain, c!"A")])
    | some [] => match R (domain, c!"MX") with
      | none => (none, [(domain, c!"A"), (domain, c!"MX")])
      | some (_ :: _) => (some false, [(domain, c!"A"), (domain, c!"MX")])
      | some [] => (some true, [(domain, c!"A"), (domain, c!"MX")])

/-- The tags of an `Accreditor` header (oa/plugins/dns_eval.py 216-219). -/
def headerTags (h : Str) : List Str :=
  (splitChar ';' h).map fun part => strip ((splitChar ',' part).headD [])

/-- `check_rbl_accreditor` (oa/plugins/dns_eval.py 188-228).  `tag` is what `ACCREDITOR_RE` finds in the sender's
address. -/
def accreditor (R : Resolver) (skip : Bool) (ips : Option (List Ip)) (server : Str) (subtest : Option (Str → Option Bool))
    (acc : Str) (tag : Option Str) (headers : List Str) : Run :=
  if (tag.toList ++ headers.flatMap headerTags).contains acc then checkIps R skip ips server c!"A" subtest
  else (some false, [])

/-- An eval rule: the name of its function and its arguments. -/
structure Rule where
  fn : Str
  args : List Str
deriving DecidableEq

/-- The functions that define a zone: `eval_rules` without `ignore_evals` (oa/plugins/dns_eval.py 20-31, 46-49, 56). -/
def zoneFns : List Str :=
  [c!"check_rbl", c!"check_rbl_txt", c!"check_rbl_envfrom", c!"check_rbl_from_host", c!"check_rbl_from_domain",
   c!"check_rbl_accreditor"]

/-- The identifier of a zone (oa/plugins/dns_eval.py 60). -/
def zoneId (arg : Str) : Str := strip ((splitChar '-' arg).headD [])

/-- `finish_parsing_end` (oa/plugins/dns_eval.py 33-63): the rules that are checked, then the others; `none` is the
`IndexError` for a rule without arguments. -/
def zonesFrom (z : Dict Str Str) : List Rule → Option (Dict Str Str)
  | [] => some z
  | r :: rs =>
    if zoneFns.contains r.fn then
      match r.args with
      | id :: server :: _ => zonesFrom (Dict.set z (zoneId id) server) rs
      | _ => none
    else zonesFrom z rs

/-- The zones of a configuration. -/
def zones (rules : List Rule) : Option (Dict Str Str) := zonesFrom [] rules

/-- `check_rbl_sub` (oa/plugins/dns_eval.py 245-260). -/
def checkSub (R : Resolver) (addr : Str → Option Nat) (skip : Bool) (ips : Option (List Ip)) (z : Dict Str Str) (zone mask : Str) :
    Run :=
  match Dict.get? z zone with
  | none => (some false, [])
  | some server => checkMulti R addr skip ips server mask

/-- What the rule gives: an exception is `False` (oa/rules/eval_.py 70-77). -/
def hit (r : Run) : Bool := r.1.getD false

end Verif.DnsEval
