import Verif.Model.Scan
import Verif.Spec.Parser
import Verif.Spec.Header
import Verif.Spec.MetaExpr
import Verif.Spec.RuleSet
import Verif.Spec.Build

/-!
# What a set of rule files says about a message
-/

namespace Verif.Spec
open Verif Py Mail Parser

/-- What a rule asks.  `R` is the type of compiled regular expressions. -/
inductive Cond (R : Type) where
  /-- the expression is found in the text of the message -/
  | body (r : R)
  /-- … in its text before cleaning -/
  | rawbody (r : R)
  /-- … in the whole message as received -/
  | full (r : R)
  /-- … in one of its URIs -/
  | uri (r : R)
  /-- … (or not found, if `neg`) in one of the values of a header -/
  | header (view : HView) (name : Str) (neg : Bool) (r : R)
  /-- … in one of the values of these headers -/
  | headers (names : List Str) (neg : Bool) (r : R)
  /-- there is such a header -/
  | present (name : Str)
  /-- … in one of the values of a header of the parts, decoded or not -/
  | partHeader (raw : Bool) (name : Str) (neg : Bool) (r : R)
  /-- what the function of a plugin answers -/
  | asks (fn : Str) (args : List Str) (target : Str)
  /-- an expression about other rules -/
  | combine (e : MetaExpr.Expr)

/-- A condition on the message that holds or does not. -/
def Cond.Test {R : Type} : Cond R → Prop
  | .asks _ _ _ => False
  | .combine _ => False
  | _ => True

/-- A message. -/
structure Facts where
  text : Str
  rawText : Str
  raw : Str
  uris : List Str
  /-- names and values of the headers, as received -/
  headers : List (Str × Str)
  /-- … of the headers of the parts -/
  partHeaders : List (Str × Str)
  /-- what a value decodes to -/
  dec : Str → Str
  /-- the names and addresses in a decoded value -/
  addrs : Str → List (Str × Str)
  /-- what the functions of the plugins answer about it: by name, arguments as written and kind of rule -/
  answers : Str → List Str → Str → Int

/-- Whether the condition of a rule holds. -/
def Cond.Holds {R : Type} (L : ReLib R) (m : Facts) : Cond R → Prop
  | .body r => L.search r m.text = true
  | .rawbody r => L.search r m.rawText = true
  | .full r => L.search r m.raw = true
  | .uri r => ∃ u ∈ m.uris, L.search r u = true
  | .header view n neg r => ∃ t ∈ viewTexts m.dec m.addrs m.headers n view, L.search r t = !neg
  | .headers ns neg r => ∃ n ∈ ns, ∃ v ∈ rawValues m.headers n, L.search r (m.dec v) = !neg
  | .present n => ∃ h ∈ m.headers, lower h.1 = lower n
  | .partHeader raw n neg r => ∃ v ∈ rawValues m.partHeaders n, L.search r (if raw then v else m.dec v) = !neg
  | .asks _ _ _ => False
  | .combine _ => False

/-- The conditions of all rules by name. -/
abbrev Conds (R : Type) := Str → Option (Cond R)

/-- A rule that can be evaluated: it is about the message, or about rules that can be evaluated.  The number bounds the
nesting. -/
inductive Works {R : Type} (rules : Conds R) : Nat → Str → Prop
  | plain {k n c} : rules n = some c → (∀ e, c ≠ .combine e) → Works rules k n
  | combine {k n e} : rules n = some (.combine e) → (∀ m ∈ e.names, Works rules k m) → Works rules (k + 1) n

/-- The result of a rule on a message: 1 or 0, what the function answers, or the value of the expression. -/
inductive Gives {R : Type} (L : ReLib R) (rules : Conds R) (m : Facts) : Str → Int → Prop
  | yes {n c} : rules n = some c → c.Test → c.Holds L m → Gives L rules m n 1
  | no {n c} : rules n = some c → c.Test → ¬ c.Holds L m → Gives L rules m n 0
  | answer {n fn args t} : rules n = some (.asks fn args t) → Gives L rules m n (m.answers fn args t)
  | combine {n e v} (env : Str → Int) : rules n = some (.combine e) → (∀ x ∈ e.names, Gives L rules m x (env x)) →
      MetaExpr.Value env e v → Gives L rules m n v

/-- A pattern like `/text/i`, with the result of compiling its text. -/
def Compiles {R : Type} (L : ReLib R) (s : Str) (result : Option R) : Prop :=
  ∃ (d e : Char) (lead pre text flags trail : Str), WellWritten d e lead pre flags trail ∧ NoPerlisms text ∧
    text ≠ [] ∧ text.head? ≠ some d ∧ s = Written d e lead pre text flags trail ∧ L.compile text (wantFlags flags) = result

/-- A pattern that stands for the compiled expression `r`. -/
def PatternText {R : Type} (L : ReLib R) (s : Str) (r : R) : Prop := Compiles L s (some r)

/-- What the value of a definition of each type says. -/
inductive Means {R : Type} (L : ReLib R) : Str → Str → Cond R → Prop
  | body {v r} : PatternText L v r → Means L c!"body" v (.body r)
  | rawbody {v r} : PatternText L v r → Means L c!"rawbody" v (.rawbody r)
  | full {v r} : PatternText L v r → Means L c!"full" v (.full r)
  | uri {v r} : PatternText L v r → Means L c!"uri" v (.uri r)
  | header {view neg name sp pat r} : PlainName name → (name ∉ [c!"ALL", c!"ToCc", c!"MESSAGEID"] ∨ view ≠ .decoded) →
      Blank sp → PatternText L pat r → (neg = true → ¬ c!"=~" <:+: pat) →
      Means L c!"header" (name ++ viewSuffix view ++ sp ++ opText neg ++ pat) (.header view name neg r)
  | recipients {neg sp pat r} : Blank sp → PatternText L pat r → (neg = true → ¬ c!"=~" <:+: pat) →
      Means L c!"header" (c!"ToCc" ++ sp ++ opText neg ++ pat) (.headers [c!"To", c!"Cc"] neg r)
  | messageId {neg sp pat r} : Blank sp → PatternText L pat r → (neg = true → ¬ c!"=~" <:+: pat) →
      Means L c!"header" (c!"MESSAGEID" ++ sp ++ opText neg ++ pat)
        (.headers [c!"Message-Id", c!"Resent-Message-Id", c!"X-Message-Id"] neg r)
  | present {name} : PlainName name → (∀ c, name.head? = some c → c ∉ c!"exist") →
      Means L c!"header" (c!"exists:" ++ name) (.present name)
  | partHeader {raw neg name sp pat r} : PlainName name → Blank sp → PatternText L pat r → (neg = true → ¬ c!"=~" <:+: pat) →
      Means L c!"mimeheader" (name ++ (if raw then c!":raw" else []) ++ sp ++ opText neg ++ pat) (.partHeader raw name neg r)
  | combine {v e} : MetaExpr.ruleLex [] v = some (MetaExpr.written 0 e) → (∀ n ∈ e.names, MetaExpr.PlainName n) →
      Means L c!"meta" v (.combine e)

/-- The call of a function, as it can be read: see C58 for names that begin with one of the letters of `eval` and for
arguments with commas. -/
def CallText (fn : Str) (args : List Str) (trail : Str) : Prop :=
  FnName fn ∧ (∀ c, fn.head? = some c → c ∉ c!"eval:") ∧ (∀ a ∈ args, ',' ∉ a ∧ a ≠ []) ∧ ∀ c ∈ trail, isSpace c = true

/-- A rule as documented: what it asks, what it scores, when it is evaluated. -/
structure Doc (S R : Type) where
  cond : Cond R
  score : S
  priority : Int

/-- What the lines say about the rule `n`, given what every line assigns (`as`): the last definition counts, and so do the
last score, priority and flags. -/
structure Says {S R : Type} [PyNum S] (float : Str → Option S) (L : ReLib R) (conf : ScoreConf)
    (as : List (Str × Str × PVal)) (n : Str) (d : Doc S R) : Prop where
  cond : ∃ t v, lastValue as n c!"type" = some (.str t) ∧ lastValue as n c!"value" = some (.str v) ∧
    (Means L t v d.cond ∨ t = c!"eval" ∧ ∃ target fn args trail, lastValue as n c!"target" = some (.str target) ∧
      v = evalText fn args trail ∧ CallText fn args trail ∧ d.cond = .asks fn args target)
  score : ∃ (given : Option (List S)) (flags : List Str),
    (lastValue as n c!"score" = none ∧ given = none ∨
      ∃ s fs, lastValue as n c!"score" = some (.str s) ∧ (splitWs s).map float = fs.map some ∧
        (fs.length = 1 ∨ fs.length = 4) ∧ given = some fs) ∧
    (lastValue as n c!"tflags" = none ∧ flags = [] ∨ flags ≠ [] ∧ lastValue as n c!"tflags" = some (.list flags)) ∧
    documentedScore n given flags conf = some d.score ∧ ∀ a b x y, given = some [a, b, x, y] → a ≠ 0
  priority : lastValue as n c!"priority" = none ∧ d.priority = 0 ∨
    ∃ s, lastValue as n c!"priority" = some (.str s) ∧ int? (strip s) = some d.priority

/-- The description of a rule: the last one given. -/
def describedAs (as : List (Str × Str × PVal)) (n : Str) : Str :=
  match lastValue as n c!"describe" with
  | some (.str s) => strip s
  | _ => c!"No description available."

/-- What reports write before the description of a rule. -/
def labelOf (as : List (Str × Str × PVal)) (n : Str) : Str :=
  match lastValue as n c!"type" with
  | some (.str t) =>
    if t = c!"body" ∨ t = c!"mimeheader" then c!"BODY: " else if t = c!"rawbody" then c!"RAW: "
    else if t = c!"uri" then c!"URI: " else []
  | _ => []

/-- What the rules see of the message while they are evaluated: only the tables of the headers that were read change. -/
def Shows (L : MailLib) (m : Facts) (x : Scan.Seen) : Prop :=
  x.text = m.text ∧ x.rawText = m.rawText ∧ x.raw = m.raw ∧ x.uris = m.uris ∧
    ∃ ops, x.mail = accessed L m.headers m.partHeaders ops

/-- The function is known, its arguments can be read, and whenever it is called it answers what it answers about the message,
and only reads; an exception counts as the answer 0. -/
def Answers {S R V C : Type} [PyNum S] (E : Scan.ScanEnv S R V C) (c : C) (m : Facts) (fn : Str) (args : List Str) (target : Str) : Prop :=
  E.hasEval c fn = true ∧ ∃ vals, args.map E.evalArg = vals.map .ok ∧ ∀ x, Shows E.mail m x → ∃ x', Shows E.mail m x' ∧
    (E.evalFn c fn vals (some target) x = (some (m.answers fn args target), x') ∨
      E.evalFn c fn vals (some target) x = (none, x') ∧ m.answers fn args target = 0)

/-- What the lines say about the rule `n` is no rule: they do not define it, or its expression cannot be compiled, or it asks a
function that no plugin has. -/
inductive Broken {S R V C : Type} [PyNum S] (E : Scan.ScanEnv S R V C) (c : C) (as : List (Str × Str × PVal)) (n : Str) : Prop
  | undefined : lastValue as n c!"type" = none → Broken E c as n
  | pattern {t v} : t ∈ [c!"body", c!"rawbody", c!"full", c!"uri"] → lastValue as n c!"type" = some (.str t) →
      lastValue as n c!"value" = some (.str v) → Compiles E.re v none →
      (∀ s, lastValue as n c!"score" = some (.str s) → ∃ fs : List S, (splitWs s).map E.float = fs.map some) → Broken E c as n
  | unknown {d fn args target} {vals : List V} : Says E.float E.re (E.conf c) as n d → d.cond = .asks fn args target →
      args.map E.evalArg = vals.map .ok → E.hasEval c fn = false → Broken E c as n

/-- The lines that count in these files, read one after another (`done` have been read before): with the files that they
include, and without the sections for plugins that are not loaded. -/
inductive Lines {C : Type} (E : Parser.Env C) (s0 : State C) : List Str → List Str → List Str → Prop
  | nil {done} : Lines E s0 done [] []
  | file {done f text counted files out} : E.files f = some text → Counted E s0 10 f done text counted →
      Lines E s0 (done ++ counted) files out → Lines E s0 done (f :: files) (counted ++ out)
  | missing {done f files out} : E.files f = none → Lines E s0 done files out → Lines E s0 done (f :: files) out

/-- The configuration after the lines that set options: all lines of kinds that are not about rules. -/
def configured {C : Type} (E : Parser.Env C) (lines : List Str) (c0 : C) : C :=
  lines.foldl (fun c l =>
    if Skipped l ∨ keyword l ∈ known2 ∨ E.isCmd c (keyword l) = true then c
    else (E.parseConfig c (keyword l) (argument l)).1) c0

/-- The options among these lines have values that can be read, so that reading is not given up (C15), and no plugin takes the
keyword `tflags`. -/
structure CalmLines {C : Type} (E : Parser.Env C) (c0 : C) (lines : List Str) : Prop where
  tolerant : E.paranoid = false
  tflags : E.isCmd c0 c!"tflags" = false
  config : ∀ before l after, lines = before ++ l :: after → ¬ Skipped l → keyword l ∉ known2 → E.isCmd c0 (keyword l) = false →
    ∃ b, (E.parseConfig (configured E before c0) (keyword l) (argument l)).2 = .done b

/-- The rules that count, in the order of evaluation: those with a score whose name does not begin with `__` and that can
be evaluated; higher priorities first, otherwise in the order in which they are mentioned. -/
structure InOrder {S R : Type} [PyNum S] (mentioned : List Str) (docs : Str → Doc S R) (rules : Conds R) (order : List Str) :
    Prop where
  exact : ∀ n, n ∈ order ↔ n ∈ mentioned ∧ ¬ c!"__" <+: n ∧ (docs n).score ≠ 0 ∧ ∃ k, Works rules k n
  once : order.Nodup
  sorted : order.Pairwise (fun a b => (docs b).priority ≤ (docs a).priority)
  stable : ∀ k : Int, (order.filter (fun n => decide ((docs n).priority = k))).Sublist mentioned

end Verif.Spec
