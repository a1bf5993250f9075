import Verif.Model.Server

/-!
# Similar and sorted recipients: `oa/plugins/header_eval.py` 367-443

Numbers are exact where Python uses floating point.  The recipients are the addresses of the headers `To`, `Cc`, `Bcc`
and `ToCc` in this order (lines 387-389).
-/

namespace Verif.Recipients
open Verif Py Server

/-- The values the plugin keeps for a message (oa/plugins/header_eval.py 392-393, 397, 406, 420). -/
structure Locals where
  similar : Option Rat
  sorted : Option Bool
deriving DecidableEq

/-- A message of which nothing is kept yet. -/
def fresh : Locals := { similar := none, sorted := none }

/-- `_parse_rcpt` (oa/plugins/header_eval.py 367-374) with `tocc_similar_count` and `tocc_similar_length`
(lines 25-26): user, host name and the beginning of the host name. -/
def parseRcpt (addr : Str) : Str × Str × Str :=
  let fqhn := match rsplit1 '@' addr with
    | some (_, d) => d
    | none => addr
  (addr.take 5, fqhn, fqhn.take 2)

/-- Neighbours that are equal are taken once (oa/plugins/header_eval.py 399-403). -/
def dedupe : List Str → List Str
  | [] => []
  | r :: rs => r :: (((r :: rs).zip rs).filter fun p => !decide (p.1 = p.2)).map Prod.snd

/-- `itertools.combinations(addresses, 2)`. -/
def combinations : List Str → List (Str × Str)
  | [] => []
  | a :: as => as.map (fun b => (a, b)) ++ combinations as

/-- The hits of one pair (oa/plugins/header_eval.py 412-418). -/
def hitsOf (p : Str × Str) : Nat :=
  let (user1, fqhn1, host1) := parseRcpt p.1
  let (user2, fqhn2, host2) := parseRcpt p.2
  (if user1 = user2 then 1 else 0) + (if host1 = host2 ∧ fqhn1 ≠ fqhn2 then 1 else 0)

/-- `_check_recipients` (oa/plugins/header_eval.py 376-421); `none` is `None`. -/
def checkRecipients (recipients : List Str) (l : Locals) : Option Rat × Locals :=
  match l.similar with
  | some r => (some r, l)
  | none =>
    if recipients = [] then (none, { similar := some 0, sorted := some false })
    else
      let l := { l with sorted := some (decide (sortedStr recipients = recipients)) }
      let addresses := dedupe recipients
      if addresses.length < 5 then (none, { l with similar := some 0 })
      else
        let pairs := combinations addresses
        let ratio : Rat := ((pairs.map hitsOf).sum : Rat) / (pairs.length : Rat)
        (some ratio, { l with similar := some ratio })

/-- `sorted_recipients` (oa/plugins/header_eval.py 423-426); `none` is a `KeyError`. -/
def sortedRecipients (recipients : List Str) (l : Locals) : Option Bool × Locals :=
  let l := (checkRecipients recipients l).2
  (l.sorted, l)

/-- `similar_recipients` (oa/plugins/header_eval.py 428-443): a bound is absent (`none`), no number (`some none`) or a
number.  Every exception is answered by `False`. -/
def similarRecipients (minr maxr : Option (Option Rat)) (recipients : List Str) (l : Locals) : Bool × Locals :=
  let (ratio, l) := checkRecipients recipients l
  let lo := match minr, ratio with
    | none, _ => true
    | some (some r), some q => decide (r < q)
    | _, _ => false
  let hi := match maxr, ratio with
    | none, _ => true
    | some (some r), some q => decide (q < r)
    | _, _ => false
  (lo && hi, l)

end Verif.Recipients
