import Verif.Model.Scan
import Verif.Model.Redirect
import Verif.Model.BodyEval
import Verif.Model.HeaderRules
import Verif.Model.HeaderChars
import Verif.Model.Forgery
import Verif.Model.Stock

/-!
# Functions of plugins as the rules call them: `EvalRule` in `oa/rules/eval_.py` over the models of some plugins
-/

namespace Verif.Functions
open Verif Py Build Scan

/-- A value of an argument. -/
inductive Value
  | num (n : Int)
  | str (s : Str)
deriving DecidableEq

/-- What the functions take from outside: `urlparse`, `float(text)`, `eval` of what is neither a number nor a plain text, which
characters beyond ASCII `\w` stands for, and which characters are capital and small letters. -/
structure FunEnv where
  url : Links.UrlLib
  float : Str → Option Rat
  other : Str → Except RuleErr Value
  wide : Char → Bool
  up : Char → Bool
  low : Char → Bool

/-- A blank or a tab, which `eval` skips at the beginning and at the end. -/
def isBlank (c : Char) : Bool := c == ' ' || c == '\t'

/-- A text without the blanks around it. -/
def trimBlank (s : Str) : Str := ((s.dropWhile isBlank).reverse.dropWhile isBlank).reverse

/-- A number in decimal digits; Python accepts zeros at the beginning only for zero itself. -/
def natLiteral (s : Str) : Option Nat :=
  if s = [] then none
  else if s.head? = some '0' ∧ s ≠ c!"0" then none
  else digitsAux 0 s

/-- A text in quotes.  Simplification: texts with backslashes, line feeds or the same quotes in them are left to `other`. -/
def quoted (s : Str) : Option Str :=
  match s with
  | q :: r =>
    if (q = '"' ∨ q = '\'') ∧ r.getLast? = some q ∧ q ∉ r.dropLast ∧ '\\' ∉ r ∧ '\n' ∉ r then some r.dropLast else none
  | [] => none

/-- `eval(arg)` (oa/rules/eval_.py 39-40).  Simplification: only integers and plain texts are read here. -/
def evalArg (E : FunEnv) (arg : Str) : Except RuleErr Value :=
  let s := trimBlank arg
  match natLiteral s with
  | some n => .ok (.num n)
  | none =>
    match s with
    | '-' :: r => match natLiteral r with
      | some n => .ok (.num (-(n : Int)))
      | none => E.other arg
    | _ => match quoted s with
      | some t => .ok (.str t)
      | none => E.other arg

/-- A value as an argument of the functions of `BodyEval`. -/
def Value.arg (E : FunEnv) : Value → BodyEval.Arg
  | .num n => .num n
  | .str s => .str (E.float s)

/-- `int(value)`; `none` is an exception. -/
def Value.int : Value → Option Int
  | .num n => some n
  | .str s => int? s

/-- A result of a function; an exception is `none`. -/
def result (r : Option Bool) : Option Int := r.map flag

/-- The text a function looks at (oa/plugins/body_eval.py 192-195). -/
def targetText (target : Option Str) (x : Seen) : Str := if target = some c!"rawbody" then x.rawText else x.text

/-- `check_blank_line_ratio` (oa/plugins/body_eval.py 161-181): the arguments are converted before anything else. -/
def callBlank (E : FunEnv) (lo hi lines : Value) (x : Seen) : Option Int :=
  match lines.int with
  | some n => result (BodyEval.blankRatio x.rawText (lo.arg E) (hi.arg E) n)
  | none => none

/-- `float(value)`; `none` is an exception. -/
def Value.rat (E : FunEnv) : Value → Option Rat
  | .num n => some n
  | .str s => E.float s

/-- A function over the decoded values of a header. -/
def overDecoded (L : Mail.MailLib) (name : Str) (f : List (Option Str) → Option Bool) (x : Seen) : Option Int × Seen :=
  let (vs, mail) := Mail.getDecoded L name x.mail
  (result (f vs), { x with mail := mail })

/-- `check_for_to_in_subject` (oa/plugins/header_eval.py 569-600): the addresses in the `To` headers and the first `Subject`, as it has
been received. -/
def callToInSubject (E : FunEnv) (L : Mail.MailLib) (test : Str) (x : Seen) : Option Int × Seen :=
  let (tos, mail) := Mail.getAllAddr L c!"To" x.mail
  (tos.map fun l => flag (HeaderRules.toInSubject E.wide test l ((Mail.getRaw x.mail c!"Subject").headD [])), { x with mail := mail })

/-- The functions (oa/rules/eval_.py 17-24, 70-77; oa/plugins/uri_eval.py 33-48; oa/plugins/header_eval.py 64-74, 142-195, 445-468,
548-600, 644-665; oa/plugins/body_eval.py 161-219): `none` if the function is another one; otherwise its result, `none` if it raises, as
it does for a wrong number of arguments, and the message after it.  Simplification: names of headers and of tests are texts. -/
def call (E : FunEnv) (L : Mail.MailLib) (fn : Str) (args : List Value) (target : Option Str) (x : Seen) : Option (Option Int × Seen) :=
  if fn = c!"check_for_http_redirector" then
    some (match args with
      | [] => (some (flag (Links.redirector E.url Links.redirOf x.uris)), x)
      | _ => (none, x))
  else if fn = c!"check_for_missing_to_header" then
    some (match args with
      | [] => (some (flag (HeaderRules.missingTo x.mail)), x)
      | _ => (none, x))
  else if fn = c!"check_header_count_range" then
    some (match args with
      | [.str h, lo, hi] => (result (HeaderRules.countRange x.mail h lo.int hi.int), x)
      | _ => (none, x))
  else if fn = c!"tvd_vertical_words" then
    some (match args with
      | [lo, hi] => (result (BodyEval.verticalWords (targetText target x) (lo.arg E) (hi.arg E)), x)
      | _ => (none, x))
  else if fn = c!"check_blank_line_ratio" then
    some (match args with
      | [lo, hi] => (callBlank E lo hi (.num 1) x, x)
      | [lo, hi, n] => (callBlank E lo hi n x, x)
      | _ => (none, x))
  else if fn = c!"check_stock_info" then
    some (match args with
      | [n] => (result (BodyEval.stockInfo (Content.isWord E.wide) (targetText target x) n.int), x)
      | _ => (none, x))
  else if fn = c!"subject_is_all_caps" then
    some (match args with
      | [] => overDecoded L c!"Subject" (HeaderRules.allCaps E.up E.low) x
      | _ => (none, x))
  else if fn = c!"check_for_to_in_subject" then
    some (match args with
      | [.str test] => callToInSubject E L test x
      | _ => (none, x))
  else if fn = c!"check_unresolved_template" then
    some (match args with
      | [] => (some (flag (Forgery.unresolved x.raw)), x)
      | _ => (none, x))
  else if fn = c!"check_for_fake_aol_relay_in_rcvd" then
    some (match args with
      | [] => overDecoded L c!"Received" Forgery.fakeAol x
      | _ => (none, x))
  else if fn = c!"check_for_forged_gw05_received_headers" then
    some (match args with
      | [] => overDecoded L c!"Received" Forgery.gw05 x
      | _ => (none, x))
  else if fn = c!"check_illegal_chars" then
    some (match args with
      | [.str h, ratio, count] =>
        let r := HeaderChars.checkIllegal h (ratio.rat E) count.int x.mail
        (some (flag r.1), { x with mail := r.2 })
      | _ => (none, x))
  else none

/-- Rules that call these functions; other functions are those of the environment. -/
def withFunctions {S R C : Type} (F : FunEnv) (E : ScanEnv S R Value C) : ScanEnv S R Value C :=
  { E with
    evalArg := evalArg F
    evalFn := fun c fn args t x =>
      match call F E.mail fn args t x with
      | some r => r
      | none => E.evalFn c fn args t x }

end Verif.Functions
