import Verif.Model.Regex
import Verif.Model.Headers

/-!
# Header rules: `oa/rules/header.py`
-/

namespace Verif
open Py Mail

/-- Which accessor a `_Pattern*HeaderRule` uses (oa/rules/header.py 132-185). -/
inductive HView where
  | decoded
  | raw
  | addr
  | name
deriving DecidableEq, Repr

/-- The header rule classes with their parameters. -/
inductive HRule (R : Type) where
  /-- `_ExistsHeaderRule` (119-129) -/
  | exists_ (header : Str)
  /-- `_PatternHeaderRule`, `_PatternRawHeaderRule`, `_PatternAddrHeaderRule`,
  `_PatternNameHeaderRule` (132-190) -/
  | pattern (view : HView) (header : Str) (p : Pat R)
  /-- `_ToCcHeaderRule`, `_MessageIDHeaderRule` (193-226) -/
  | multi (headers : List Str) (p : Pat R)
  /-- `_AllHeaderRule` (229-246) -/
  | all (p : Pat R)
  /-- `_PatternMimeHeaderRule` (41-58), `_PatternMimeRawHeaderRule` (61-70) -/
  | mime (raw : Bool) (header : Str) (p : Pat R)
deriving DecidableEq

/-- The part of `HeaderRule.get_rule` that looks at the value (oa/rules/header.py 80-116).
`none` is the implicit `return None`. -/
def headerRule {R : Type} (L : ReLib R) (value : Str) : Except RuleErr (Option (HRule R)) :=
  let op : Option (Str × Bool) :=
    if hasSub c!"=~" value then some (c!"=~", false)
    else if hasSub c!"!~" value then some (c!"!~", true)
    else none
  match op with
  | some (o, neg) =>
    match split1 o value with
    | none => .error .other
    | some (h, pat) =>
      let h := strip h
      match perl2re L pat neg with
      | .error e => .error e
      | .ok p =>
        if h = c!"ALL" then .ok (some (.all p))
        else if h = c!"ToCc" then .ok (some (.multi [c!"To", c!"Cc"] p))
        else if h = c!"MESSAGEID" then
          .ok (some (.multi [c!"Message-Id", c!"Resent-Message-Id", c!"X-Message-Id"] p))
        else match rsplit1 ':' h with
          | some (h', mod) =>
            if mod = c!"raw" then .ok (some (.pattern .raw (strip h') p))
            else if mod = c!"addr" then .ok (some (.pattern .addr (strip h') p))
            else if mod = c!"name" then .ok (some (.pattern .name (strip h') p))
            else .ok none
          | none => .ok (some (.pattern .decoded (strip h) p))
  | none =>
    if startsWith c!"exists:" value then
      .ok (some (.exists_ (strip (lstripChars c!"exists:" value))))
    else .ok none

/-- The part of `MimeHeaderRule.get_rule` that looks at the value (oa/rules/header.py 16-38). -/
def mimeHeaderRule {R : Type} (L : ReLib R) (value : Str) : Except RuleErr (Option (HRule R)) :=
  let value := strip value
  let op : Option (Str × Bool) :=
    if hasSub c!"=~" value then some (c!"=~", false)
    else if hasSub c!"!~" value then some (c!"!~", true)
    else none
  match op with
  | none => .error .invalidRule
  | some (o, neg) =>
    match split1 o value with
    | none => .error .other
    | some (h, pat) =>
      let h := strip h
      match perl2re L pat neg with
      | .error e => .error e
      | .ok p =>
        match rsplit1 ':' h with
        | some (h', mod) =>
          if mod = c!"raw" then .ok (some (.mime true (strip h') p)) else .ok none
        | none => .ok (some (.mime false (strip h) p))

/-- `for value in values: if self._pattern.match(value): return True` … `return False`;
searching `None` raises `TypeError` (`none`). -/
def anyValue {R : Type} (L : ReLib R) (p : Pat R) : List (Option Str) → Option Bool
  | [] => some false
  | none :: _ => none
  | some v :: vs => if p.test L v then some true else anyValue L p vs

/-- The nested loop of `_MultiplePatternHeaderRule.match` (oa/rules/header.py 200-205). -/
def anyHeader {R : Type} (ML : MailLib) (L : ReLib R) (p : Pat R) : List Str → Msg → Option Bool × Msg
  | [], m => (some false, m)
  | h :: hs, m =>
    let (vs, m1) := getDecoded ML h m
    match anyValue L p vs with
    | some false => anyHeader ML L p hs m1
    | r => (r, m1)

/-- `match(msg)` of the header rules; `none` is an exception (oa/rules/header.py 53-57, 65-69,
128-129, 145-149, 157-161, 169-173, 181-185, 200-205, 234-238). -/
def HRule.run {R : Type} (ML : MailLib) (L : ReLib R) (m : Msg) : HRule R → Option Bool × Msg
  | .exists_ h => (some (m.raw.mem h), m)
  | .pattern .decoded h p => let (vs, m1) := getDecoded ML h m; (anyValue L p vs, m1)
  | .pattern .raw h p => (anyValue L p ((getRaw m h).map some), m)
  | .pattern .addr h p =>
    match getAddr ML h m with
    | (some vs, m1) => (anyValue L p (vs.map some), m1)
    | (none, m1) => (none, m1)
  | .pattern .name h p =>
    match getName ML h m with
    | (some vs, m1) => (anyValue L p (vs.map some), m1)
    | (none, m1) => (none, m1)
  | .multi hs p => anyHeader ML L p hs m
  | .all p => let (vs, m1) := iterDecoded ML m; (anyValue L p (vs.map some), m1)
  | .mime true h p => (anyValue L p ((getRawMime m h).map some), m)
  | .mime false h p => let (vs, m1) := getMime ML h m; (anyValue L p vs, m1)

end Verif
