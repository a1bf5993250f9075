import Verif.Model.Headers
import Verif.Model.Wlbl

/-!
# The rules about lists of addresses, on messages: `oa/plugins/wlbl_eval.py` with `oa/message.py`
-/

namespace Verif.ListRule
open Verif Py Mail Wlbl

/-- `check_address_in_list` (oa/plugins/wlbl_eval.py 212-219) on the generator's loop over headers (oa/message.py 530-532,
545-547): a header is read only if no address of an earlier one is on the list.  `none` is an exception. -/
def inKeys (L : MailLib) (list : List (List Tok)) : List Str → Msg → Option Bool
  | [], _ => some false
  | k :: ks, m =>
    match getAllAddr L k m with
    | (some a, m1) => if addressInList a list then some true else inKeys L list ks m1
    | (none, _) => none

/-- The rules: first the headers of a message that was sent again, and only if there is no address in them the others (oa/message.py
520-532, 534-547).  An exception is `False` (oa/rules/eval_.py 70-77). -/
def rule (L : MailLib) (first others : List Str) (entries : List Str) (m : Msg) : Bool :=
  match addrsOfKeys L first m with
  | (some [], m1) => (inKeys L (parseList entries) others m1).getD false
  | (some a, _) => addressInList a (parseList entries)
  | (none, _) => false

/-- `check_from_in_blacklist` (oa/plugins/wlbl_eval.py 288-293), and `check_from_in_list` (oa/plugins/wlbl_eval.py 302-310) with the
entries of that list. -/
def fromInList (L : MailLib) (entries : List Str) (m : Msg) : Bool := rule L [c!"Resent-From"] fromHeaders entries m

/-- `check_to_in_blacklist` and `check_to_in_whitelist` (oa/plugins/wlbl_eval.py 281-286, 295-300), `check_to_in_list`,
`check_to_in_all_spam`, `check_to_in_more_spam` (oa/plugins/wlbl_eval.py 312-332) with the entries of that list. -/
def toInList (L : MailLib) (entries : List Str) (m : Msg) : Bool := rule L [c!"Resent-To", c!"Resent-Cc"] toHeaders entries m

end Verif.ListRule
