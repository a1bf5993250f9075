import Verif.Model.Headers

/-!
# Illegal characters in headers: `oa/plugins/header_eval.py` 142-195

Numbers are exact where Python uses floating point.  The value of an option that is no number is `none`.
-/

namespace Verif.HeaderChars
open Verif Py Mail

/-- The loop that takes `Subject` and `From` away (oa/plugins/header_eval.py 160-169). -/
def withoutSubject (raw : Headers Str) : Headers Str :=
  (Dict.keys raw).foldl (fun (h : Headers Str) k => if lower k = c!"subject" ∨ lower k = c!"from" then Dict.del h k else h) raw

/-- `i if ord(i) < 128 else ''` (oa/plugins/header_eval.py 182). -/
def isAscii (c : Char) : Bool := decide (c.toNat < 128)

/-- The number of signs present among cent, pound and registered (oa/plugins/header_eval.py 185-189). -/
def signs (text : Str) : Nat :=
  ((['¢', '£', '®'] : Str).filter fun c => decide (c ∈ text)).length

/-- `illegal` (oa/plugins/header_eval.py 182-191). -/
def illegalCount (header text : Str) : Nat :=
  let illegal := text.length - (text.filter isAscii).length
  if illegal > 0 ∧ lower header = c!"subject" then
    if signs text = 1 then illegal - 1 else illegal
  else illegal

/-- `check_illegal_chars` (oa/plugins/header_eval.py 142-195).  `raw_headers` is the dictionary of the message, not a
copy. -/
def checkIllegal (header : Str) (ratio : Option Rat) (count : Option Int) (m : Msg) : Bool × Msg :=
  match ratio with
  | none => (false, m)
  | some ratio =>
    match count with
    | none => (false, m)
    | some count =>
      let m' := if header = c!"ALL" then { m with raw := withoutSubject m.raw } else m
      let text := if header = c!"ALL" then ((Dict.values m'.raw).map List.flatten).flatten else (getRaw m header).flatten
      let illegal := illegalCount header text
      if text ≠ [] then
        (decide (ratio ≤ (illegal : Rat) / (text.length : Rat)) && decide (count ≤ (illegal : Int)), m')
      else (false, m')

end Verif.HeaderChars
