import Verif.Model.Py

/-!
# DNS interface: `oa/dns_interface.py`, and its configuration in `oa/rules/ruleset.py` 307-320

Times are integers in some unit.  The resolver, the clock and the random sample are inputs.
-/

namespace Verif.Dns
open Verif Py

/-- The attributes of `DNSInterface` that decide about queries (oa/dns_interface.py 40-49). -/
structure Iface where
  restrictions : Dict Str Bool
  test : Bool
  nextTest : Int
  interval : Int
  avail : Bool
deriving DecidableEq

/-- `DNSInterface.__init__` (oa/dns_interface.py 40-49); the interval is 600 seconds. -/
def Iface.init (now : Int) : Iface :=
  { restrictions := [], test := false, nextTest := now, interval := 600, avail := true }

/-- The loop of `is_query_restricted` (oa/dns_interface.py 155-162).  The fuel is the number of
rounds allowed; `none` means that it did not suffice. -/
def climb (t : Dict Str Bool) : Nat → Str → Option Bool
  | 0, _ => none
  | k + 1, q =>
    match Dict.get? t q with
    | some b => some b
    | none =>
      match split1 c!"." q with
      | some (_, parent) => climb t k parent
      | none => some false

/-- `is_query_restricted` (oa/dns_interface.py 142-162) with `k` rounds. -/
def restricted (d : Iface) (k : Nat) (q : Str) : Option Bool :=
  if d.restrictions = [] then some false else climb d.restrictions k q

/-- The setter of `available` (oa/dns_interface.py 134-140), without the choice of test names. -/
def setAvailable (value : Str) (d : Iface) : Iface :=
  { d with avail := value = c!"yes", test := d.test || startsWith c!"test" value }

/-- One read of `available`: the clock at the check, the clock after the test, and the answers the
resolver gives for the sampled names (oa/dns_interface.py 118-131). -/
structure Read where
  now : Int
  later : Int
  answers : List Bool
deriving DecidableEq

/-- `available` (oa/dns_interface.py 118-131): the value, whether a test was made, and the new
state. -/
def available (r : Read) (d : Iface) : Bool × Bool × Iface :=
  if d.test && d.nextTest ≤ r.now then
    let a := r.answers.any id
    (a, true, { d with avail := a, nextTest := r.later + d.interval })
  else (d.avail, false, d)

/-- `query` (oa/dns_interface.py 164-181): whether the resolver is asked for the name, whether an
availability test was made, and the new state. -/
def query (r : Read) (q : Str) (d : Iface) : Bool × Bool × Iface :=
  match restricted d (q.length + 1) q with
  | some false =>
    let a := available r d
    (a.1, a.2.1, a.2.2)
  | _ => (false, false, d)

/-- A history of queries; for each, whether the resolver was asked and whether a test was made. -/
def queries : List (Read × Str) → Iface → List (Bool × Bool) × Iface
  | [], d => ([], d)
  | (r, q) :: rest, d =>
    let a := query r q d
    let b := queries rest a.2.2
    ((a.1, a.2.1) :: b.1, b.2)

/-- The loop over `dns_query_restriction` (oa/rules/ruleset.py 308-319).  The variables keep their
values from the previous round when a value has no blank; in the first round they are unbound,
and the exception (`none`) ends `post_parsing`. -/
def readRestrictions : List Str → Option (Str × Str) → Dict Str Bool → Option (Dict Str Bool)
  | [], _, t => some t
  | v :: vs, prev, t =>
    match (match split1 c!" " v with | some p => some p | none => prev) with
    | none => none
    | some (option, qname) =>
      if option = c!"allow" ∨ option = c!"deny" then
        readRestrictions vs (some (option, qname)) (Dict.set t qname (option = c!"deny"))
      else readRestrictions vs (some (option, qname)) t

/-! ### Configuration of the resolver -/

/-- The settings of the resolver library that the code can reach, and the interval between
availability tests (oa/dns_interface.py 40-49; `lifetime` and `timeout` are the library's own
values until set).  Times are in milliseconds. -/
structure Resolver where
  nameservers : List Str
  port : Int
  rotate : Bool
  payload : Int
  lifetime : Int
  timeout : Int
  testInterval : Int
deriving DecidableEq

/-- The options read from the configuration (oa/conf.py 205-225).  A `dns_server` value is given by
what `DSN_SERVER_RE` (oa/context.py 35-44) extracts: `none` if it does not match, else the address
and the port. -/
structure Options where
  servers : List (Option (Str × Option Str))
  lifetime : Int
  timeout : Int
  options : Str
  testInterval : Str
deriving DecidableEq

/-- One round of the loop over `dns_server` (oa/context.py 303-315): port seen so far and
nameservers. -/
def addServer (s : Option Str × List Str) : Option (Str × Option Str) → Option Str × List Str
  | none => s
  | some (addr, port) =>
    if s.1.isSome ∧ port.isSome ∧ s.1 ≠ port then s
    else (match port with | some p => some p | none => s.1, s.2 ++ [addr])

/-- `_configure_dns` (oa/context.py 294-323).  `lifetime` and `timeout` are set on the wrapper object,
which has no such properties, so the resolver keeps its own.  `none`: `int(cport)` fails. -/
def configureDns (o : Options) (r : Resolver) : Option Resolver :=
  let s := o.servers.foldl addServer (none, [])
  if s.2 = [] then some r
  else match int? (s.1.getD c!"53") with
    | some p => some { r with nameservers := s.2, port := p }
    | none => none

/-- The end of `post_parsing` (oa/rules/ruleset.py 320-327).  `_DNS_OPTIONS_RE` (23-29) is one
character class and has no groups, so `groupdict()` is empty and the defaults remain; `rotate` is
set on the wrapper, whose property is called `rotate_nameservers`.  `dns_test_interval` is not
read anywhere. -/
def applyDnsOptions (_o : Options) (r : Resolver) : Resolver := { r with payload := 4096 }

/-- The setter of `test_interval` (oa/dns_interface.py 91-105), in milliseconds. -/
def setInterval (value : Str) : Option Int :=
  let body (k : Int) := (int? value.dropLast).map (fun n => n * k)
  match value.getLast? with
  | some 's' => body 1000
  | some 'm' => body 60000
  | some 'h' => body 3600000
  | some 'd' => body 86400000
  | some 'w' => body 604800000
  | _ => (int? value).map (fun n => n * 1000)

end Verif.Dns
