import Verif.Model.Wlbl
import Verif.Model.Conf

/-!
# White and black lists, from the lines of the configuration to the rules: `oa/plugins/wlbl_eval.py`

What the lists mean for an address, a relay or a URI is in `Verif.Model.Wlbl`; here is which list a rule looks at, and what is on it.
-/

namespace Verif.Wlbl
open Verif Py Conf

/-- `WLBLEvalPlugin.options` (oa/plugins/wlbl_eval.py 28-48). -/
def wlblOptions {F : Type} : Cls F :=
  [ (c!"blacklist_from", .appendSplit, .list []),
    (c!"whitelist_from", .appendSplit, .list []),
    (c!"whitelist_to", .appendSplit, .list []),
    (c!"blacklist_to", .appendSplit, .list []),
    (c!"all_spam_to", .appendSplit, .list []),
    (c!"more_spam_to", .appendSplit, .list []),
    (c!"def_whitelist_from_rcvd", .list, .list []),
    (c!"whitelist_from_rcvd", .list, .list []),
    (c!"whitelist_allow_relays", .appendSplit, .list []),
    (c!"enlist_uri_host", .list, .list []),
    (c!"delist_uri_host", .list, .list []),
    (c!"blacklist_uri_host", .list, .list []),
    (c!"whitelist_uri_host", .list, .list []),
    (c!"util_rb_tld", .appendSplit, .list []),
    (c!"util_rb_2tld", .appendSplit, .list []),
    (c!"util_rb_3tld", .appendSplit, .list []) ]

/-- `self[list_name]` for an option (oa/conf.py 46-47). -/
def option {F : Type} (s : St F) (k : Str) : List Str :=
  match s.read k with
  | some (.list l) => l
  | _ => []

/-- What is stored under the names that begin with `parsed_` (oa/plugins/wlbl_eval.py 69-95). -/
inductive Parsed where
  /-- a list of expressions (`parse_list`) -/
  | exprs (l : List (List Tok))
  /-- a dictionary of entries, each with its domains (`parse_input`), as pairs -/
  | rcvd (l : List (Str × Str))
  /-- a set of words (`parse_wlbl_uri`) -/
  | words (l : List Str)
  /-- a dictionary of names of lists, each with its hosts (`parse_delist_uri`, `parse_list_uri`), as pairs.  Simplification: a name without
  hosts is not kept -/
  | hosts (l : List (Str × Str))
deriving DecidableEq, Repr

/-- The plugin's part of `ctxt.plugin_data`, without the options. -/
abbrev Globals := Dict Str Parsed

/-- `parse_wlbl_uri` (oa/plugins/wlbl_eval.py 166-172); the order of the set does not matter. -/
def parseWords (lines : List Str) : List Str := lines.flatMap splitWs

/-- `self[...]` for a dictionary of hosts. -/
def hostsOf (g : Globals) (k : Str) : List (Str × Str) :=
  match Dict.get? g k with
  | some (.hosts l) => l
  | _ => []

/-- `self[...]` for a set of words. -/
def wordsOf (g : Globals) (k : Str) : List Str :=
  match Dict.get? g k with
  | some (.words l) => l
  | _ => []

/-- `self[...]` for a list of expressions. -/
def exprsOf (g : Globals) (k : Str) : List (List Tok) :=
  match Dict.get? g k with
  | some (.exprs l) => l
  | _ => []

/-- `self[...]` for a dictionary of entries and domains. -/
def rcvdOf (g : Globals) (k : Str) : List (Str × Str) :=
  match Dict.get? g k with
  | some (.rcvd l) => l
  | _ => []

/-- `add_in_dict` (oa/plugins/wlbl_eval.py 157-164): the items that are not taken off this list or off all lists. -/
def addInDict (g : Globals) (items : List Str) (key : Str) : List (Str × Str) :=
  let delist := hostsOf g c!"parsed_delist_uri_host"
  (items.filter fun i => decide ((key, i) ∉ delist ∧ (c!"ALL", i) ∉ delist)).map fun i => (key, i)

/-- The loop of `parse_list_uri` (oa/plugins/wlbl_eval.py 181-184): `none` is `IndexError`, an element without a word. -/
def enlist (g : Globals) : List Str → Option (List (Str × Str))
  | [] => some []
  | x :: xs =>
    match splitWs x with
    | [] => none
    | k :: hosts => (enlist g xs).map fun r => addInDict g hosts (listName k) ++ r

/-- `parse_list_uri` (oa/plugins/wlbl_eval.py 174-191). -/
def parseListUri (g : Globals) (lines : List Str) : Option (List (Str × Str)) :=
  (enlist g lines).map fun r =>
    r ++ addInDict g (wordsOf g c!"parsed_whitelist_uri_host") c!"WHITE" ++
      addInDict g (wordsOf g c!"parsed_blacklist_uri_host") c!"BLACK"

/-- `check_start` (oa/plugins/wlbl_eval.py 69-95) without the values of the message (`WSt.init`): false if it raises. -/
def checkStart {F : Type} (s : St F) (g : Globals) : Globals × Bool :=
  let g := Dict.set g c!"parsed_whitelist_from" (.exprs (parseList (option s c!"whitelist_from")))
  let g := Dict.set g c!"parsed_whitelist_to" (.exprs (parseList (option s c!"whitelist_to")))
  let g := Dict.set g c!"parsed_blacklist_from" (.exprs (parseList (option s c!"blacklist_from")))
  let g := Dict.set g c!"parsed_blacklist_to" (.exprs (parseList (option s c!"blacklist_to")))
  let g := Dict.set g c!"parsed_all_spam_to" (.exprs (parseList (option s c!"all_spam_to")))
  let g := Dict.set g c!"parsed_more_spam_to" (.exprs (parseList (option s c!"more_spam_to")))
  let g := Dict.set g c!"parsed_def_whitelist_from_rcvd" (.rcvd (parseInput (option s c!"def_whitelist_from_rcvd")))
  let g := Dict.set g c!"parsed_whitelist_from_rcvd" (.rcvd (parseInput (option s c!"whitelist_from_rcvd")))
  let g := Dict.set g c!"parsed_whitelist_allow_relays" (.exprs (parseList (option s c!"whitelist_allow_relays")))
  let g := Dict.set g c!"parsed_delist_uri_host" (.hosts (parseDelist (option s c!"delist_uri_host")))
  let g := Dict.set g c!"parsed_whitelist_uri_host" (.words (parseWords (option s c!"whitelist_uri_host")))
  let g := Dict.set g c!"parsed_blacklist_uri_host" (.words (parseWords (option s c!"blacklist_uri_host")))
  match parseListUri g (option s c!"enlist_uri_host") with
  | some l => (Dict.set g c!"parsed_enlist_uri_host" (.hosts l), true)
  | none => (g, false)

/-- What the rules see of a message.  Simplification: the addresses are there before the first one is looked at, and getting them does
not raise. -/
structure Seen where
  /-- addresses of the author and relays -/
  w : WMsg
  /-- `msg.get_to_addresses()` -/
  tos : List Str
  /-- `msg.sender_address` -/
  sender : Str
  /-- `msg.uri_list` -/
  uris : List Str
deriving DecidableEq, Repr

/-- `re.search` with a text that has not been escaped (`none`: it is not an expression). -/
abbrev RawSearch := Str → Str → Option Bool

/-- The elements of what is stored, as expressions: iterating over a dictionary gives its keys. -/
def searches (R : RawSearch) : Parsed → List (Str → Option Bool)
  | .exprs l => l.map fun r a => some (search r a)
  | .rcvd l => l.map fun p a => some (search (escapeAddr p.1) a)
  | .words l => l.map R
  | .hosts l => l.map fun p => R p.1

/-- The inner loop of `check_address_in_list` (oa/plugins/wlbl_eval.py 216-218). -/
def anySearch (a : Str) : List (Str → Option Bool) → Option Bool
  | [] => some false
  | f :: fs =>
    match f a with
    | some true => some true
    | some false => anySearch a fs
    | none => none

/-- `check_address_in_list` (oa/plugins/wlbl_eval.py 212-219): the list is looked up for each address; `none` is an exception. -/
def addressIn (R : RawSearch) (g : Globals) (name : Str) : List Str → Option Bool
  | [] => some false
  | a :: as =>
    match Dict.get? g name with
    | none => none
    | some p =>
      match anySearch a (searches R p) with
      | some false => addressIn R g name as
      | r => r

/-- The lists with relays, as the rules read them. -/
def listsOf (g : Globals) : Lists :=
  ⟨exprsOf g c!"parsed_whitelist_from", rcvdOf g c!"parsed_whitelist_from_rcvd", rcvdOf g c!"parsed_def_whitelist_from_rcvd",
    exprsOf g c!"parsed_whitelist_allow_relays"⟩

/-- `check_uri_host_listed` (oa/plugins/wlbl_eval.py 441-452) with `add_in_list` (148-155). -/
def hostListed (g : Globals) (list : Str) (uris : List Str) : Bool :=
  let l := ((hostsOf g c!"parsed_enlist_uri_host").filter fun p => p.1 = list).map Prod.snd
  let notIn := (l.filter fun h => startsWith c!"!" h).map (stripChars c!"!")
  let isIn := l.filter fun h => !startsWith c!"!" h
  uris.any fun u => decide (u ∉ notIn) && isIn.any fun h => endsWith h u

/-- `check_in_TL_TLDS` looks in three lists (oa/plugins/wlbl_eval.py 237-244). -/
def tldsOf {F : Type} (s : St F) : List Str :=
  option s c!"util_rb_tld" ++ option s c!"util_rb_2tld" ++ option s c!"util_rb_3tld"

/-- A rule is evaluated: the function it names is called with its arguments (oa/plugins/wlbl_eval.py 18-27, 261-384, 441-462;
oa/rules/eval_.py 18-24).  `none` is an exception; a wrong number of arguments is one. -/
def evalRule {F : Type} (R : RawSearch) (N : InNet) (s : St F) (g : Globals) (m : Seen) (v : WSt) (name : Str) (args : List Str) :
    Option Bool × WSt :=
  match args with
  | [] =>
    if name = c!"check_from_in_whitelist" then let r := fromInWhitelist N (listsOf g) m.w v; (some r.1, r.2)
    else if name = c!"check_to_in_whitelist" then (addressIn R g c!"parsed_whitelist_to" m.tos, v)
    else if name = c!"check_from_in_blacklist" then (addressIn R g c!"parsed_blacklist_from" m.w.froms, v)
    else if name = c!"check_to_in_blacklist" then (addressIn R g c!"parsed_blacklist_to" m.tos, v)
    else if name = c!"check_to_in_all_spam" then (addressIn R g c!"parsed_all_spam_to" m.tos, v)
    else if name = c!"check_to_in_more_spam" then (addressIn R g c!"parsed_more_spam_to" m.tos, v)
    else if name = c!"check_from_in_default_whitelist" then let r := fromInDefault N (listsOf g) m.w v; (some r.1, r.2)
    else if name = c!"check_mailfrom_matches_rcvd" then (mailfromMatches (tldsOf s) m.sender m.w, v)
    else if name = c!"check_forged_in_whitelist" then let r := forgedInWhitelist N (listsOf g) m.w v; (some r.1, r.2)
    else if name = c!"check_forged_in_default_whitelist" then let r := forgedInDefault N (listsOf g) m.w v; (some r.1, r.2)
    else if name = c!"check_uri_host_in_whitelist" then (some (hostListed g c!"WHITE" m.uris), v)
    else if name = c!"check_uri_host_in_blacklist" then (some (hostListed g c!"BLACK" m.uris), v)
    else (none, v)
  | [list] =>
    if name = c!"check_from_in_list" then
      (if list = [] then some false else addressIn R g (c!"parsed_" ++ list) m.w.froms, v)
    else if name = c!"check_to_in_list" then (addressIn R g (c!"parsed_" ++ list) m.tos, v)
    else if name = c!"check_uri_host_listed" then (some (hostListed g list m.uris), v)
    else (none, v)
  | _ => (none, v)

/-- A process: it reads the lines of its configuration, has checked messages before (`earlier`), and now checks one with some rules.
`none`: the check of the message raises before any rule is evaluated. -/
def before {F : Type} (fe : FloatEnv F) (lines : List (Str × Str)) (earlier : Nat) : St F × Globals :=
  let s := runLines fe ⟨wlblOptions, init wlblOptions⟩ lines
  (s, (List.range earlier).foldl (fun g _ => (checkStart s g).1) [])

/-- The rules of one message, one after the other. -/
def evalRules {F : Type} (R : RawSearch) (N : InNet) (s : St F) (g : Globals) (m : Seen) : WSt → List (Str × List Str) → List (Option Bool)
  | _, [] => []
  | v, r :: rs => let o := evalRule R N s g m v r.1 r.2; o.1 :: evalRules R N s g m o.2 rs

/-- The check of a message (oa/message.py 431, oa/rules/ruleset.py 341-366): results of the rules about lists. -/
def checkMsg {F : Type} (R : RawSearch) (N : InNet) (fe : FloatEnv F) (lines : List (Str × Str)) (earlier : Nat) (m : Seen)
    (rules : List (Str × List Str)) : Option (List (Option Bool)) :=
  let p := before fe lines earlier
  match checkStart p.1 p.2 with
  | (g, true) => some (evalRules R N p.1 g m WSt.init rules)
  | (_, false) => none

end Verif.Wlbl
