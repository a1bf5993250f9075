import Verif.Model.Py

/-!
# Rules about dates: `oa/plugins/header_eval.py` 470-546, 757-823

Times are whole seconds.  What the libraries do with a date is a parameter.  In results `none` is an exception.
-/

namespace Verif.Dates
open Verif Py

/-- What comes of `time.mktime` and `datetime.utcfromtimestamp`: a time, a `ValueError`, or another exception. -/
inductive Clock
  | ok (t : Int)
  | value
  | other

structure DateLib where
  /-- `email.utils.parsedate_tz`: the time on the clock and the offset from UTC, in seconds; `parsedate` is the same
  without the offset -/
  parsedateTz : Option Str → Option (Int × Option Int)
  /-- `datetime.utcfromtimestamp(time.mktime(…))` -/
  mktime : Int → Clock
  /-- the search for a date in a `Received` header (oa/plugins/header_eval.py 508-513) -/
  dateIn : Option Str → Option Str
  /-- whole months from the second time to the first, negative if it is later -/
  months : Int → Int → Int

/-- The decoded date headers of a message. -/
structure Mail where
  resent : List (Option Str)
  date : List (Option Str)
  received : List (Option Str)

/-- What `_get_date_header_time` returns: a time, `None`, or the `-1` kept in its place. -/
inductive Time
  | at (t : Int)
  | none
  | minusOne
deriving DecidableEq

/-- What the plugin keeps for a message. -/
structure Locals where
  header : Option Time
  received : Option (List Int)
  diff : Option Int
  median : Option Time
deriving DecidableEq

/-- A message of which nothing is kept yet. -/
def fresh : Locals := { header := none, received := none, diff := none, median := none }

/-- `_parse_rfc822_date` (oa/plugins/header_eval.py 470-478); `some none` is `None`.  `mktime(None)` raises. -/
def parseDate (L : DateLib) (date : Option Str) : Option (Option Int) :=
  match L.parsedateTz date with
  | none => none
  | some (wall, _) =>
    match L.mktime wall with
    | .ok t => some (some t)
    | .value => some none
    | .other => none

/-- The loop over the dates of one header (oa/plugins/header_eval.py 489-492). -/
def loopDates (L : DateLib) (time : Option Int) : List (Option Str) → Option (Option Int)
  | [] => some time
  | d :: ds =>
    match parseDate L d with
    | none => none
    | some (some t) => some (some t)
    | some none => loopDates L none ds

/-- `_get_date_header_time` (oa/plugins/header_eval.py 480-497). -/
def headerTime (L : DateLib) (m : Mail) (l : Locals) : Option Time × Locals :=
  match l.header with
  | some t => (some t, l)
  | none =>
    match loopDates L none m.resent with
    | none => (none, l)
    | some time =>
      match loopDates L time m.date with
      | none => (none, l)
      | some (some t) => (some (.at t), { l with header := some (.at t) })
      | some none => (some .none, { l with header := some .minusOne })

/-- The loop of `_get_received_header_times` (oa/plugins/header_eval.py 509-520): whether it ends without exception, and
the list so far. -/
def loopReceived (L : DateLib) (times : List Int) : List (Option Str) → Bool × List Int
  | [] => (true, times)
  | r :: rs =>
    match L.dateIn r with
    | none => loopReceived L times rs
    | some [] => loopReceived L times rs
    | some date =>
      match parseDate L (some date) with
      | none => (false, times)
      | some none => loopReceived L times rs
      | some (some t) => loopReceived L (times ++ [t]) rs

/-- `_get_received_header_times` (oa/plugins/header_eval.py 499-521).  The list is kept before it is filled. -/
def receivedTimes (L : DateLib) (m : Mail) (l : Locals) : Option (List Int) × Locals :=
  match l.received with
  | some ts => (some ts, l)
  | none =>
    match loopReceived L [] m.received with
    | (true, ts) => (some ts, { l with received := some ts })
    | (false, ts) => (none, { l with received := some ts })

/-- `abs(received - date)`, without the zeros (oa/plugins/header_eval.py 534-538). -/
def diffs (t : Int) (ts : List Int) : List Int :=
  (ts.map fun r => ((r - t).natAbs : Int)).filter fun d => !decide (d = 0)

/-- `_check_date_diff` (oa/plugins/header_eval.py 523-546). -/
def dateDiff (L : DateLib) (m : Mail) (l : Locals) : Option Int × Locals :=
  match l.diff with
  | some d => (some d, l)
  | none =>
    let l := { l with diff := some 0 }
    match headerTime L m l with
    | (none, l) => (none, l)
    | (some t, l) =>
      match receivedTimes L m l with
      | (none, l) => (none, l)
      | (some ts, l) =>
        match ts, t with
        | [], _ => (some 0, { l with diff := some 0 })
        | ts, .at t =>
          match sortedBy (fun (a b : Int) => decide (a < b)) (diffs t ts) with
          | d :: _ => (some d, { l with diff := some d })
          | [] => (some 0, { l with diff := some 0 })
        | _, _ => (none, l)

/-- A bound: absent, `undef`, or an integer (oa/plugins/header_eval.py 806-814); `none` is a `ValueError`. -/
def bound (b : Option Str) : Option (Option Int) :=
  match b with
  | none => some none
  | some s =>
    if s = c!"undef" then some none
    else if s = [] then some none
    else match int? s with
      | none => none
      | some n => some (some n)

/-- `(not min or n >= min) and (not max or n < max)` (oa/plugins/header_eval.py 794-795, 820-821). -/
def within (min max : Option Int) (n : Int) : Bool :=
  (match min with
    | none => true
    | some a => decide (a = 0) || decide (a ≤ n)) &&
  (match max with
    | none => true
    | some a => decide (a = 0) || decide (n < a))

/-- `check_for_shifted_date` (oa/plugins/header_eval.py 799-823). -/
def shiftedDate (L : DateLib) (min max : Option Str) (m : Mail) (l : Locals) : Option Bool × Locals :=
  match bound min, bound max with
  | some a, some b =>
    match dateDiff L m l with
    | (none, l) => (none, l)
    | (some d, l) => (some (within a b (d / 3600)), l)
  | _, _ => (some false, l)

/-- `_check_date_received` (oa/plugins/header_eval.py 757-769).  One entry is not compared with any other. -/
def dateReceived (L : DateLib) (m : Mail) (l : Locals) : Option Time × Locals :=
  match l.median with
  | some t => (some t, l)
  | none =>
    match receivedTimes L m l with
    | (none, l) => (none, l)
    | (some ts, l) =>
      match headerTime L m l with
      | (none, l) => (none, l)
      | (some t, l) =>
        match ts, t with
        | [], t => (some t, { l with median := some t })
        | ts, .at t =>
          let all := sortedBy (fun (a b : Int) => decide (b < a)) (ts ++ [t])
          match all[(ts ++ [t]).length / 2]? with
          | some d => (some (.at d), { l with median := some (.at d) })
          | none => (none, l)
        | _, _ => (none, l)

/-- `relativedelta.months`: the months beyond whole years, with the sign of the whole. -/
def monthsField (total : Int) : Int := if total < 0 then -((-total) % 12) else total % 12

/-- `received_within_months` (oa/plugins/header_eval.py 771-797).  `diff.year` is the absolute year of a `relativedelta`,
which is `None` for a difference, and a difference from `None` is empty. -/
def withinMonths (L : DateLib) (now : Int) (min max : Option Str) (m : Mail) (l : Locals) : Option Bool × Locals :=
  match bound min, bound max with
  | some a, some b =>
    match dateReceived L m l with
    | (none, l) => (none, l)
    | (some (.at t), l) => (some (within a b (0 * 12 + monthsField (L.months now t))), l)
    | (some .none, l) => (some (within a b 0), l)
    | (some .minusOne, l) => (none, l)
  | _, _ => (some false, l)

end Verif.Dates
