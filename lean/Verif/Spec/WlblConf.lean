import Verif.Spec.Wlbl
import Verif.Model.WlblConf

/-!
# Specification of white and black lists in the configuration
-/

namespace Verif.Wlbl
open Verif Py

/-- A line of the configuration has the word among those it gives for the option. -/
def Given (lines : List (Str × Str)) (key word : Str) : Prop := ∃ v, (key, v) ∈ lines ∧ word ∈ splitWs v

/-- The elements, separated by commas, of the last line for an option. -/
def elements (lines : List (Str × Str)) (key : Str) : List Str :=
  match (lines.filter (fun l => l.1 = key)).getLast? with
  | some l => splitChar ',' l.2
  | none => []

/-- Whose addresses a rule is about. -/
inductive Who where
  | authors
  | recipients
deriving DecidableEq

/-- The addresses of a message. -/
def Seen.addresses (m : Seen) : Who → List Str
  | .authors => m.w.froms
  | .recipients => m.tos

/-- The documented rules about addresses, and the options they are about. -/
def addressRules : List (Str × Who × Str) :=
  [ (c!"check_to_in_whitelist", .recipients, c!"whitelist_to"),
    (c!"check_from_in_blacklist", .authors, c!"blacklist_from"),
    (c!"check_to_in_blacklist", .recipients, c!"blacklist_to"),
    (c!"check_to_in_all_spam", .recipients, c!"all_spam_to"),
    (c!"check_to_in_more_spam", .recipients, c!"more_spam_to") ]

/-- The rules that name a list. -/
def namingRules : List (Str × Who) := [(c!"check_from_in_list", .authors), (c!"check_to_in_list", .recipients)]

/-- The options with addresses. -/
def addressOptions : List Str :=
  [c!"whitelist_from", c!"whitelist_to", c!"blacklist_from", c!"blacklist_to", c!"all_spam_to", c!"more_spam_to",
    c!"whitelist_allow_relays"]

/-- The options of which only one line counts. -/
def lineOptions : List Str :=
  [c!"whitelist_from_rcvd", c!"def_whitelist_from_rcvd", c!"enlist_uri_host", c!"delist_uri_host", c!"whitelist_uri_host",
    c!"blacklist_uri_host"]

/-- The rules about URIs and the lists they are about, which the third has as its argument. -/
def UriRule (f : Str) (args : List Str) (list : Str) : Prop :=
  (f = c!"check_uri_host_in_whitelist" ∧ args = [] ∧ list = c!"WHITE") ∨
  (f = c!"check_uri_host_in_blacklist" ∧ args = [] ∧ list = c!"BLACK") ∨
  (f = c!"check_uri_host_listed" ∧ args = [list])

/-- The lists of URI hosts of a configuration. -/
def uriLists (lines : List (Str × Str)) : UriConf :=
  ⟨elements lines c!"enlist_uri_host", elements lines c!"delist_uri_host", elements lines c!"whitelist_uri_host",
    elements lines c!"blacklist_uri_host"⟩

end Verif.Wlbl
