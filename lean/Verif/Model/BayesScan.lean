import Verif.Model.BayesScore
import Verif.Model.Dkim

/-!
# One scan by the Bayes plugin: `oa/plugins/bayes.py` 532-580, 602-660, 738-763, 1060-1088, 1126-1272, 1331-1379

The computation of the score is in `Verif.Model.BayesScore`, the tokens are in `Verif.Model.Tokens`.  Here: which messages are left
out, the connection to the database, what is kept for the tags, and exceptions.
-/

namespace Verif.BayesScan
open Verif Py BayesScore

/-! ### Lists of addresses to ignore -/

/-- `Regex(regex).search(address)` (oa/plugins/bayes.py 578): `none` if the expression cannot be compiled. -/
def searchRe (E : Dkim.Engine) (regex address : Str) : Option Bool := (Dkim.compile E regex).map (fun r => r.2 address)

/-- The inner loop of `check_address_in_list` (oa/plugins/bayes.py 577-579). -/
def anyRegex (E : Dkim.Engine) (address : Str) : List Str → Option Bool
  | [] => some false
  | r :: rs =>
    match searchRe E r address with
    | none => none
    | some true => some true
    | some false => anyRegex E address rs

/-- `check_address_in_list` (oa/plugins/bayes.py 573-580). -/
def inList (E : Dkim.Engine) (list : List Str) : List Str → Option Bool
  | [] => some false
  | a :: as =>
    match anyRegex E a list with
    | none => none
    | some true => some true
    | some false => inList E list as

/-- The addresses of a message (`get_from_addresses`, `get_to_addresses`). -/
structure Addrs where
  from_ : List Str
  to_ : List Str

/-- The options `bayes_ignore_from` and `bayes_ignore_to`, as they are used. -/
structure Ignores where
  from_ : List Str
  to_ : List Str

/-- `ignore_message` (oa/plugins/bayes.py 1250-1272); `use_ignores` is true.  Both lists are always looked at. -/
def ignoreMessage (E : Dkim.Engine) (l : Ignores) (a : Addrs) : Option Bool :=
  match inList E l.from_ a.from_ with
  | none => none
  | some f => match inList E l.to_ a.to_ with
    | none => none
    | some t => some (f || t)

/-! ### The connection -/

/-- `store.conn`. -/
inductive Conn where
  | none
  | opened
  | closed
deriving DecidableEq, Repr

/-- What lasts from message to message: `learn_caller_will_untie` and the connection. -/
structure Plug where
  willUntie : Bool
  conn : Conn
deriving DecidableEq, Repr

def Plug.init : Plug := ⟨false, .none⟩

/-- The database during one call: does connecting work, the numbers of messages (`none`: an exception, such as the `TypeError` for
an empty table), the rows for some tokens, does the update of the access times work, and can a closed connection be closed
again (not with `pymysql`). -/
structure Base where
  tie : Bool
  counts : Option (Nat × Nat)
  rows : List Str → Option (List Row)
  touch : Bool
  reclose : Bool

/-- `untie_db` (oa/db/bayes/mysql.py 10-13, oa/db/bayes/sqlalchemy.py 90-93): `none` is an exception. -/
def untie (b : Base) (p : Plug) : Option Plug :=
  match p.conn with
  | .none => some p
  | .opened => some { p with conn := .closed }
  | .closed => if b.reclose then some p else none

/-- `tie_db_readonly` and `tie_db_writeable` (oa/db/bayes/mysql.py 15-29, oa/db/bayes/sqlalchemy.py 95-106): true or an exception.  The
connection there was is dropped. -/
def tie (b : Base) (p : Plug) : Option Plug := if b.tie then some { p with conn := .opened } else none

/-- The options of the plugin. -/
structure Opts where
  useLearner : Bool
  useBayes : Bool
  useRules : Bool
  minSpam : Int
  minHam : Int
  hapaxes : Bool
  ignores : Ignores

/-- A result and the state; `none` is an exception. -/
abbrev Res (A : Type) := Option A × Plug

/-- `learner_is_scan_available` (oa/plugins/bayes.py 738-763). -/
def available (o : Opts) (b : Base) (p : Plug) : Res Bool :=
  if !o.useBayes then (some false, p)
  else match tie b p with
    | none => (none, p)
    | some p => match b.counts with
      | none => (none, p)
      | some (ns, nn) =>
        if (ns : Int) < o.minSpam ∨ (nn : Int) < o.minHam then
          if p.willUntie then (some false, p)
          else match untie b p with
            | none => (none, p)
            | some p => (some false, p)
        else (some true, p)

/-- `_skip_scan` (oa/plugins/bayes.py 1126-1138). -/
def skip (b : Base) (score : Option Rat) (callerUntie : Bool) (p : Plug) : Res (Option Rat) :=
  let p := { p with willUntie := callerUntie }
  if callerUntie then (some score, p)
  else match untie b p with
    | none => (none, p)
    | some p => (some score, p)

/-! ### The data of the message -/

/-- What the plugin keeps with the message: `count`, `learned`, the tokens with their probabilities, `bayes_nspam` and
`bayes_nham`, and `bayes_score`.  A token is shown as what the message has for its hash; access times and counts of the tokens
are left out. -/
structure Loc where
  count : Nat
  learned : Nat
  hammy : List (Str × Rat)
  spammy : List (Str × Rat)
  corpus : Option (Nat × Nat)
  score : Option (Option Rat)
deriving DecidableEq

/-- `check_start` (oa/plugins/bayes.py 501-509). -/
def Loc.start : Loc := ⟨0, 0, [], [], none, none⟩

/-- What a scan needs of the message: its addresses, and the tokens with their hashes (`none`: `tokenise` raises). -/
structure Msg where
  addrs : Addrs
  tokens : Option (List (Str × Str))

/-- `dict(t for t in self.tokenise(msg))` (oa/plugins/bayes.py 1153). -/
def msgTokens (ts : List (Str × Str)) : Dict Str Str := ts.foldl (fun d t => Dict.set d t.1 t.2) []

/-- `scan` (oa/plugins/bayes.py 1140-1248).  `comb` is `combine`, which never gives `None`; `none`: it raises. -/
def scan (E : Dkim.Engine) (comb : Nat → Nat → List Rat → Option Rat) (o : Opts) (b : Base) (m : Msg) (p : Plug) (l : Loc) :
    Res (Option Rat) × Loc :=
  if !o.useLearner then ((some none, p), l)
  else
    let caller := p.willUntie
    let p := { p with willUntie := true }
    match ignoreMessage E o.ignores m.addrs with
    | none => ((none, p), l)
    | some true => (skip b none caller p, l)
    | some false =>
      match available o b p with
      | (none, p) => ((none, p), l)
      | (some false, p) => (skip b none caller p, l)
      | (some true, p) =>
        match b.counts with
        | none => ((none, p), l)
        | some (ns, nn) =>
          match m.tokens with
          | none => ((none, p), l)
          | some ts =>
            let toks := msgTokens ts
            match b.rows (toks.map Prod.fst) with
            | none => ((none, p), l)
            | some rows =>
              match table o.hapaxes ns nn rows with
              | none => ((none, p), l)
              | some pw =>
                if pw.isEmpty then (skip b none caller p, l)
                else
                  let sig := chosen pw
                  let shown := sig.map (fun x => ((Dict.get? toks x.1).getD c!"(unknown)", x.2))
                  let l := { l with count := toks.length, learned := pw.length,
                                    hammy := shown.filter (fun x => decide (x.2 < 1 / 2)),
                                    spammy := shown.filter (fun x => !decide (x.2 < 1 / 2)) }
                  if sig.isEmpty then (skip b none caller p, l)
                  else match comb ns nn (sig.map Prod.snd) with
                    | none => ((none, p), l)
                    | some score =>
                      if !b.touch then ((none, p), l)
                      else (skip b (some score) caller p, { l with corpus := some (ns, nn) })

/-- The rule `check_bayes` (oa/plugins/bayes.py 1060-1088) with a lower and an upper bound; an exception makes the rule false
(oa/rules/eval_.py 70-77). -/
def checkRule (E : Dkim.Engine) (comb : Nat → Nat → List Rat → Option Rat) (o : Opts) (b : Base) (m : Msg) (lo : Rat) (hi : Option Rat)
    (p : Plug) (l : Loc) : Bool × Plug × Loc :=
  if !o.useLearner || !o.useBayes || !o.useRules then (false, p, l)
  else match scan E comb o b m p l with
    | ((none, p), l) => (false, p, l)
    | ((some score, p), l) => (checkBayes o.useLearner o.useBayes o.useRules score lo hi, p, { l with score := some score })

/-! ### Learning, as far as the connection is concerned -/

/-- How `_learn_trapped` goes (oa/plugins/bayes.py 624-690): does it forget the message first, and does anything raise. -/
structure Learning where
  forgets : Bool
  raises : Bool

/-- `learn_message` (oa/plugins/bayes.py 612-622).  `forget_message` (692-702) connects again and does not close, because the flag is
set while it runs; the flag is put back in any case. -/
def learn (o : Opts) (b : Base) (g : Learning) (p : Plug) : Res Unit :=
  if !o.useBayes then (some (), p)
  else match tie b p with
    | none => (none, p)
    | some p =>
      if g.raises then (none, p)
      else if p.willUntie then (some (), p)
      else match untie b p with
        | none => (none, p)
        | some p => (some (), p)

/-! ### The tags -/

/-- The value of a tag with tokens: a fixed text, or the texts of the tokens in the order in which Python's `set` gives them. -/
inductive Shown where
  | missing
  | tokens (texts : List Str)
deriving DecidableEq

/-- `bayes_report_make_list` (oa/plugins/bayes.py 1331-1379) without a parameter, as it is called: the number `amt` is not used.  `text` is
the text for a token, with the declassification distance; `none` is the `KeyError` for `bayes_nspam`. -/
def makeList (text : Nat × Nat → Str × Rat → Str) (l : Loc) (info : List (Str × Rat)) : Option Shown :=
  if info.isEmpty then some .missing
  else match l.corpus with
    | none => none
    | some c => some (.tokens (info.map (text c)).eraseDups)

/-- The tags (oa/plugins/bayes.py 544-553); the numbers of the summary are those of `TOKENSUMMARY`. -/
structure Tags where
  hammy : Nat
  spammy : Nat
  learned : Nat
  count : Nat
  summaryNew : Int
  summaryNeutral : Int
  hammyTokens : Shown
  spammyTokens : Shown
deriving DecidableEq

/-- `check_end` (oa/plugins/bayes.py 532-553): `none` is an exception, which ends the checking of the message. -/
def checkEnd (text : Nat × Nat → Str × Rat → Str) (l : Loc) : Option Tags :=
  match makeList text l l.hammy, makeList text l l.spammy with
  | some h, some s =>
    some ⟨l.hammy.length, l.spammy.length, l.learned, l.count, (l.count : Int) - l.learned,
      (l.learned : Int) - l.hammy.length - l.spammy.length, h, s⟩
  | _, _ => none

end Verif.BayesScan
