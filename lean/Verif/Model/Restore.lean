import Verif.Model.ShortCircuit
import Verif.Model.Networks
import Verif.Model.Dns
import Verif.Model.DnsEval
import Verif.Model.Meta

/-!
# Rules as parsed, and rules as restored: `oa/rules/parser.py` 309-312, `scripts/match.py` 108-112, 149-156

`GlobalContext.hook_parsing_end` (oa/context.py 333-342), `RuleSet.post_parsing` (oa/rules/ruleset.py 289-327) and
`DNSInterface.__getstate__`, `__setstate__` (oa/dns_interface.py 51-58).

Simplifications: the plugins `ShortCircuit` and `DNSEval` are loaded; what other plugins do in `finish_parsing_end`
(a new store, client, engine or data base object, made from options that are saved) is left out, and so are the
report and header options, which are saved as they are.  Saving and loading with `pickle` gives back every
attribute of the objects but those that `__getstate__` leaves out and those of classes (oa/networks.py 74-77).
-/

namespace Verif.Restore
open Verif Py ShortCircuit

/-- What a rule is, as far as the two hooks distinguish it. -/
inductive Kind where
  /-- an `EvalRule` with its function and its arguments (oa/rules/eval_.py 31-39) -/
  | evalR (r : DnsEval.Rule)
  /-- a `MetaRule` (oa/rules/meta.py 24-34) -/
  | metaR (subs : List Str) (compiles : Bool)
  | other

/-- The definition `postparsing` sees. -/
def Kind.toDef : Kind → Def
  | .metaR subs compiles => .metaR subs compiles
  | _ => .plain

/-- The rule if it is an `EvalRule` (oa/plugins/dns_eval.py 53-54). -/
def Kind.evalRule : Kind → Option DnsEval.Rule
  | .evalR r => some r
  | _ => none

/-- The configuration (`conf`, all of it saved), and the values of a new resolver of the library. -/
structure Site (A N : Type) where
  net : Net.NetLib A N
  trusted : List Str
  internal : List Str
  msa : List Str
  dns : Dns.Options
  available : Str
  restrictions : List Str
  lib : Dns.Resolver
  lines : List Str
  kind : Str → Kind
  paranoid : Bool

/-- What the hooks change. -/
structure State (S Y N : Type) where
  rules : SRules S Y
  /-- the rules whose `match` methods the meta rules hold (oa/rules/meta.py 69) -/
  linked : SRules S Y
  /-- the meta rules that have been processed (oa/rules/meta.py 44-46) -/
  done : List Str
  nets : Net.Nets N
  iface : Dns.Iface
  resolver : Dns.Resolver
  zones : Dict Str Str

variable {S Y A N : Type} [PyNum S]

/-- `_add_networks` (oa/context.py 325-331); `none` is the `AttributeError` of an entry that is not understood. -/
def addNetworks (c : Site A N) (s : Net.Nets N) : Option (Net.Nets N) :=
  match c.trusted.foldlM (fun s t => Net.addTrusted c.net t s) s with
  | none => none
  | some s1 =>
    match c.internal.foldlM (fun s t => Net.addInternal c.net t s) s1 with
    | none => none
    | some s2 => c.msa.foldlM (fun s t => Net.addMsa c.net t s) s2

/-- The eval rules in the order `DNSEval.finish_parsing_end` goes through them (oa/plugins/dns_eval.py 51-57). -/
def evals (c : Site A N) (rs : SRules S Y) : List DnsEval.Rule :=
  (Dict.keys rs.checked ++ Dict.keys rs.notChecked).filterMap fun n => (c.kind n).evalRule

/-- `hook_parsing_end` (oa/context.py 333-342). -/
def hookEnd (c : Site A N) (st : State S Y N) : Option (State S Y N) :=
  match Dns.configureDns c.dns st.resolver with
  | none => none
  | some resolver =>
    match addNetworks c st.nets with
    | none => none
    | some nets =>
      match DnsEval.zones (evals c st.rules) with
      | none => none
      | some zones =>
        some { st with resolver := resolver, iface := Dns.setAvailable c.available st.iface, nets := nets,
                       rules := configure c.lines st.rules, zones := zones }

/-- The rules as `call_postparsing` sees them. -/
def defs (c : Site A N) (rs : SRules S Y) : DefSet where
  checked := rs.checked.map fun p => (p.1, (c.kind p.1).toDef)
  notChecked := rs.notChecked.map fun p => (p.1, (c.kind p.1).toDef)

/-- `RuleSet.call_postparsing` (oa/rules/ruleset.py 329-339) when some meta rules have been processed before. -/
def resolveAll (paranoid : Bool) (rs : DefSet) (done : List Str) : PPRes × DefSet × List Str :=
  match postItems paranoid true rs.checked rs done with
  | (.ok, rs1, done1) => postItems paranoid false rs1.notChecked rs1 done1
  | r => r

/-- The rules that `call_postparsing` left (`del rule_list[name]`, oa/rules/ruleset.py 339). -/
def keep (ds : DefSet) (rs : SRules S Y) : SRules S Y where
  checked := rs.checked.filter fun p => decide (p.1 ∈ Dict.keys ds.checked)
  notChecked := rs.notChecked.filter fun p => decide (p.1 ∈ Dict.keys ds.notChecked)

/-- The rules in order of priority (oa/rules/ruleset.py 291-292, oa/rules/base.py 148-149). -/
def sorted (rs : SRules S Y) : SRules S Y :=
  { rs with checked := sortedBy (fun a b => decide (b.2.base.priority < a.2.base.priority)) rs.checked }

/-- `post_parsing` (oa/rules/ruleset.py 289-327). -/
def postParsing (c : Site A N) (st : State S Y N) : Option (State S Y N) :=
  match resolveAll c.paranoid (defs c (sorted st.rules)) st.done with
  | (.ok, ds, done) =>
    match Dns.readRestrictions c.restrictions none st.iface.restrictions with
    | none => none
    | some t => some { st with rules := keep ds (sorted st.rules), linked := sorted st.rules, done := done,
                               iface := { st.iface with restrictions := t },
                               resolver := Dns.applyDnsOptions c.dns st.resolver }
  | _ => none

/-- A new process with the rules built from the files: `GlobalContext.__init__` (oa/context.py 125-160),
`DNSInterface.__init__` (oa/dns_interface.py 40-49), the class attributes of `NetworkList` as the module makes
them. -/
def start (c : Site A N) (rules : SRules S Y) (now : Int) : State S Y N where
  rules := rules
  linked := ⟨[], []⟩
  done := []
  nets := Net.Nets.init c.net
  iface := Dns.Iface.init now
  resolver := { c.lib with rotate := false, testInterval := 600000 }
  zones := []

/-- The end of `get_ruleset` (oa/rules/parser.py 309-312). -/
def parsed (c : Site A N) (rules : SRules S Y) (now : Int) : Option (State S Y N) :=
  match hookEnd c (start c rules now) with
  | none => none
  | some st => postParsing c st

/-- Saving and loading in another process: the resolver is a new one (oa/dns_interface.py 51-58), and the networks
are those of the class (oa/networks.py 74-77). -/
def thaw (c : Site A N) (st : State S Y N) : State S Y N :=
  { st with nets := Net.Nets.init c.net, resolver := { c.lib with testInterval := st.resolver.testInterval } }

/-- Restoring compiled rules: `pickle.load` and `call_post_parsing` (scripts/match.py 108-112, 149-156).
Simplification: a meta rule that is processed only now would get new methods; there is none. -/
def restored (c : Site A N) (st : State S Y N) : Option (State S Y N) :=
  match hookEnd c (thaw c st) with
  | none => none
  | some st1 =>
    match resolveAll c.paranoid (defs c st1.rules) st1.done with
    | (.ok, ds, done) => some { st1 with rules := keep ds st1.rules, done := done }
    | _ => none

/-- `ruleset.match(msg)` (oa/rules/ruleset.py 341-365) with these rules. -/
def check (bonus : Bonus S) (st : State S Y N) (depth : Nat) (m : M S Y) : M S Y :=
  runRules (st.rules.checked.map fun p => (p.1, link bonus st.linked depth p.2)) m

end Verif.Restore
