import Verif.Model.Parser

/-!
# What the lines of a configuration file mean, for C11 to C15
-/

namespace Verif.Parser
open Verif Py

/-- The text that counts: without surrounding whitespace and trailing comment. -/
def logical (raw : Str) : Str := strip (cutComment none (strip raw))

/-- The first word of a line and the rest of it. -/
def keyword (raw : Str) : Str := (splitHead (logical raw)).1
def argument (raw : Str) : Str := (splitHead (logical raw)).2

def beginsWith (w raw : Str) : Prop := w <+: strip raw

/-- Lines that mean nothing: blank, comment, version requirement. -/
def Skipped (raw : Str) : Prop :=
  strip raw = [] ∨ beginsWith c!"#" raw ∨ beginsWith c!"require_version" raw

instance (raw : Str) : Decidable (Skipped raw) := by unfold Skipped beginsWith; exact inferInstance

/-- Lines that end or switch a conditional section. -/
def Closer (raw : Str) : Prop := beginsWith c!"endif" raw ∨ beginsWith c!"else" raw

instance (raw : Str) : Decidable (Closer raw) := by unfold Closer beginsWith; exact inferInstance

/-- The file an include line names, as seen from `file`; `none` if it is not an include line. -/
def includeTarget (file raw : Str) : Option Str :=
  if ¬ Skipped raw ∧ ¬ Closer raw ∧ keyword raw = c!"include" then
    some (includePath file (argument raw)) else none

/-- `f` has a line that includes `g`. -/
def Includes {C : Type} (E : Env C) (f g : Str) : Prop :=
  ∃ ls l, E.files f = some ls ∧ l ∈ ls ∧ includeTarget f l = some g

/-- `g` is included from `f`, directly or not. -/
inductive Reaches {C : Type} (E : Env C) : Str → Str → Prop
  | one {f g : Str} : Includes E f g → Reaches E f g
  | step {f g h : Str} : Includes E f g → Reaches E g h → Reaches E f h

/-- A chain of `n` includes starts at `f`. -/
inductive Chain {C : Type} (E : Env C) : Nat → Str → Prop
  | zero (f : Str) : Chain E 0 f
  | succ {n : Nat} {f g : Str} : Includes E f g → Chain E n g → Chain E (n + 1) f

/-- The lines `ls` of `file` with every included file pasted in place of the include line;
`paste` gives the (pasted) text of an included file. -/
def pasteLines (paste : Str → Option (List Str)) (file : Str) : List Str → Option (List Str)
  | [] => some []
  | l :: ls =>
    match includeTarget file l with
    | none => (pasteLines paste file ls).map (l :: ·)
    | some g =>
      match paste g, pasteLines paste file ls with
      | some a, some b => some (a ++ b)
      | _, _ => none

/-- The text of a file with everything pasted; `none` if the nesting is deeper than `n` files. -/
def paste {C : Type} (E : Env C) : Nat → Str → Option (List Str)
  | 0, _ => none
  | n + 1, f =>
    match E.files f with
    | none => some []
    | some ls => pasteLines (paste E n) f ls

/-- Reading a text that contains no include lines. -/
def readText {C : Type} (E : Env C) (ls : List Str) (s : State C) : State C × Option Err :=
  parseLines E (fun _ s => (s, none)) [] ls s

/-- Neither the locale nor options of one kind nor plugins of one kind make the parser stop, as long as the context is of one kind,
which they keep. -/
structure Harmless {C : Type} (E : Env C) (I : C → Prop) (opt : Str → Str → Prop) (plug : Str → Option Str → Prop) : Prop where
  tolerant : E.paranoid = false
  load : ∀ c n p, I c → plug n p → ((E.loadPlugin c n p).2 = none ∨ (E.loadPlugin c n p).2 = some .pluginLoad) ∧ I (E.loadPlugin c n p).1
  config : ∀ c k v, I c → opt k v → (∃ b, (E.parseConfig c k v).2 = .done b) ∧ I (E.parseConfig c k v).1
  lang : E.lang.isSome = true
  tflags : ∀ c, I c → E.isCmd c c!"tflags" = false

/-- The plugin, with its path, that the argument of `loadplugin` names. -/
def NamesPlugin {C : Type} (E : Env C) (value n : Str) (p : Option Str) : Prop :=
  ∃ written, ((∃ path, splitNone 1 value = [written, path] ∧ p = some path) ∨ ((splitNone 1 value).length ≠ 2 ∧ written = value ∧ p = none)) ∧
    (hasSub c!"::" written = true → E.reimpl written = some n) ∧ (hasSub c!"::" written = false → n = written)

/-- The options and plugins that a line may name are of these kinds. -/
structure Clean {C : Type} (E : Env C) (opt : Str → Str → Prop) (plug : Str → Option Str → Prop) (l : Str) : Prop where
  option : ¬ Skipped l → keyword l ∉ known2 → keyword l ∉ [c!"include", c!"ifplugin", c!"loadplugin"] → opt (keyword l) (argument l)
  lang : ∀ x y rest k v, splitNone 2 (logical l) = [x, y, rest] → x = c!"lang" → splitNone 1 rest = [k, v] → opt k v
  plugin : keyword l = c!"loadplugin" → ∀ n p, NamesPlugin E (argument l) n p → plug n p

/-- A line that neither begins, switches nor ends a section, and includes nothing. -/
def Plain (raw : Str) : Prop :=
  ¬ Closer raw ∧ (¬ Skipped raw → keyword raw ≠ c!"include" ∧ keyword raw ≠ c!"ifplugin")

instance (raw : Str) : Decidable (Plain raw) := by unfold Plain; exact inferInstance

/-- A file as a sequence of plain lines and (not nested) conditional sections.  A section is given
by its opening line, its lines, optionally the `else` line with the lines after it, and the
closing line. -/
inductive Block where
  | line (l : Str)
  | cond (opening : Str) (thenLines : List Str) (otherwise : Option (Str × List Str)) (closing : Str)

def Block.text : Block → List Str
  | .line l => [l]
  | .cond o t none e => o :: t ++ [e]
  | .cond o t (some (el, ls)) e => o :: t ++ el :: ls ++ [e]

def Block.WellFormed : Block → Prop
  | .line l => Plain l
  | .cond o t none e => ¬ Closer o ∧ ¬ Skipped o ∧ keyword o = c!"ifplugin" ∧ (∀ l ∈ t, Plain l) ∧
      beginsWith c!"endif" e
  | .cond o t (some (el, ls)) e => ¬ Closer o ∧ ¬ Skipped o ∧ keyword o = c!"ifplugin" ∧
      (∀ l ∈ t, Plain l) ∧ beginsWith c!"else" el ∧ (∀ l ∈ ls, Plain l) ∧ beginsWith c!"endif" e

/-- The plugin class named by the argument of `ifplugin`. -/
def pluginClass {C : Type} (E : Env C) (value : Str) : Str :=
  let name := (E.reimpl value).getD value
  match rsplit1 '.' name with
  | some (_, b) => b
  | none => name

/-- The lines of a block that count, given the plugins loaded so far. -/
def Block.chosen {C : Type} (E : Env C) (ctx : C) : Block → List Str
  | .line l => [l]
  | .cond o t other _ =>
    if E.hasPlugin ctx (pluginClass E (argument o)) then t
    else match other with
      | none => []
      | some (_, ls) => ls

/-- Read the blocks one by one, of each only the lines that count. -/
def readBlocks {C : Type} (E : Env C) (inc : Str → State C → State C × Option Err) (file : Str) :
    List Block → State C → State C × Option Err
  | [], s => (s, none)
  | b :: bs, s =>
    match parseLines E inc file (b.chosen E s.ctx) s with
    | (s', none) => readBlocks E inc file bs s'
    | (s', some e) => (s', some e)

/-- A line that begins a section. -/
def Opener (raw : Str) : Prop := ¬ Closer raw ∧ ¬ Skipped raw ∧ keyword raw = c!"ifplugin"

/-- Whether the section that a line begins is enabled. -/
def Enabled {C : Type} (E : Env C) (ctx : C) (raw : Str) : Prop := E.hasPlugin ctx (pluginClass E (argument raw)) = true

/-- A line `lang L line` for readers of the language `L`.  The line does not contain the word `report` (C13) and sets no
flags. -/
def ForLanguage (raw lang line : Str) : Prop :=
  ∃ t n v rest, ¬ Skipped raw ∧ ¬ Closer raw ∧ splitNone 2 (logical raw) = [c!"lang", lang, rest] ∧
    ¬ Skipped line ∧ ¬ Closer line ∧ splitNone 2 (logical line) = [t, n, v] ∧ splitNone 2 rest = [t, n, v] ∧
    hasSub c!"report" rest = false ∧ t ∈ known2 ∧ t ≠ c!"lang" ∧ t ≠ c!"tflags"

/-- The lines that count in a text of the file `f`, when the lines `done` have been read: includes are pasted (they can be
nested `k` deep), of the lines for one language only those for the language of the locale count, and of a section the lines before or after its `else` are taken.  Within the lines that are taken there can be
further sections, but not in those that are not taken. -/
inductive Counted {C : Type} (E : Env C) (s0 : State C) : Nat → Str → List Str → List Str → List Str → Prop
  | nil {k f done} : Counted E s0 k f done [] []
  | line {k f done l ls out} : Plain l → Counted E s0 k f (done ++ [l]) ls out → Counted E s0 k f done (l :: ls) (l :: out)
  | spoken {k f done raw lang here l ls out} : ForLanguage raw lang l → E.lang = some here → lang <+: here →
      Counted E s0 k f (done ++ [l]) ls out → Counted E s0 k f done (raw :: ls) (l :: out)
  | foreign {k f done raw lang here l ls out} : ForLanguage raw lang l → E.lang = some here → ¬ lang <+: here →
      Counted E s0 k f done ls out → Counted E s0 k f done (raw :: ls) out
  | pasted {k f done l g text pasted ls out} : includeTarget f l = some g → E.files g = some text →
      Counted E s0 k g done text pasted → Counted E s0 (k + 1) f (done ++ pasted) ls out →
      Counted E s0 (k + 1) f done (l :: ls) (pasted ++ out)
  | missing {k f done l g ls out} : includeTarget f l = some g → E.files g = none → Counted E s0 (k + 1) f done ls out →
      Counted E s0 (k + 1) f done (l :: ls) out
  | enabled {k f done o body taken e ls out} : Opener o → Enabled E (readText E done s0).1.ctx o →
      Counted E s0 k f done body taken → beginsWith c!"endif" e → Counted E s0 k f (done ++ taken) ls out →
      Counted E s0 k f done (o :: body ++ e :: ls) (taken ++ out)
  | enabledElse {k f done o body taken el other e ls out} : Opener o → Enabled E (readText E done s0).1.ctx o →
      Counted E s0 k f done body taken → beginsWith c!"else" el → (∀ l ∈ other, ¬ Closer l) → beginsWith c!"endif" e →
      Counted E s0 k f (done ++ taken) ls out → Counted E s0 k f done (o :: body ++ el :: other ++ e :: ls) (taken ++ out)
  | disabled {k f done o body e ls out} : Opener o → ¬ Enabled E (readText E done s0).1.ctx o → (∀ l ∈ body, ¬ Closer l) →
      beginsWith c!"endif" e → Counted E s0 k f done ls out → Counted E s0 k f done (o :: body ++ e :: ls) out
  | disabledElse {k f done o body el other taken e ls out} : Opener o → ¬ Enabled E (readText E done s0).1.ctx o →
      (∀ l ∈ body, ¬ Closer l) → beginsWith c!"else" el → Counted E s0 k f done other taken → beginsWith c!"endif" e →
      Counted E s0 k f (done ++ taken) ls out → Counted E s0 k f done (o :: body ++ el :: other ++ e :: ls) (taken ++ out)

/-- What a line says about rules: name, attribute and value. -/
def assigns (isCmd : Str → Bool) (raw : Str) : List (Str × Str × PVal) :=
  if Skipped raw then [] else
  match splitNone 2 (logical raw) with
  | [t, name, v] =>
    if t ∈ ruleTypes ∨ isCmd t = true then
      if c!"eval:" <+: v then
        [(name, c!"target", .str t), (name, c!"type", .str c!"eval"), (name, c!"value", .str v)]
      else [(name, c!"type", .str t), (name, c!"value", .str v)]
    else if t = c!"tflags" then [(name, t, .list (splitWs v))]
    else if t = c!"score" ∨ t = c!"priority" ∨ t = c!"describe" then [(name, t, .str v)]
    else []
  | _ => []

/-- The attribute of a rule in the result of parsing. -/
def State.attr {C : Type} (s : State C) (name a : Str) : Option PVal :=
  (Dict.get? s.results name).bind (fun d => Dict.get? d a)

/-- The value the last of the assignments gives to the attribute. -/
def lastValue (as : List (Str × Str × PVal)) (name a : Str) : Option PVal :=
  (as.reverse.find? (fun x => decide (x.1 = name) && decide (x.2.1 = a))).map (fun x => x.2.2)

end Verif.Parser

namespace Verif.Parser
open Verif Py

/-- The names, each at the place of its first occurrence. -/
def firstMentions : List Str → List Str
  | [] => []
  | n :: ns => n :: (firstMentions ns).filter (fun x => !(decide (x = n)))

/-- A line that only defines rules or sets options: no section, no include, no plugin, no
`lang`. -/
def Defining (raw : Str) : Prop :=
  Plain raw ∧ (¬ Skipped raw → keyword raw ≠ c!"lang" ∧ keyword raw ≠ c!"loadplugin")

instance (raw : Str) : Decidable (Defining raw) := by unfold Defining; exact inferInstance

/-- A line of a two-argument kind with fewer than two arguments. -/
def Malformed (raw : Str) : Prop :=
  ¬ Skipped raw ∧ ¬ Closer raw ∧ keyword raw ∈ known2 ∧ (splitNone 2 (logical raw)).length < 3

instance (raw : Str) : Decidable (Malformed raw) := by unfold Malformed; exact inferInstance

/-- The plugins of SpamAssassin for which there is a replacement. -/
def perlPlugins : List Str :=
  [c!"DumpText", c!"Pyzor", c!"WhiteListSubject", c!"ImageInfo", c!"RelayCountry", c!"URIDetail", c!"TextCat", c!"AWL",
   c!"ReplaceTags", c!"Shortcircuit", c!"BodyEval", c!"DNSEval", c!"SPF", c!"WLBLEval", c!"Razor2", c!"FreeMail", c!"SpamCop",
   c!"RelayEval", c!"HeaderEval", c!"DKIM", c!"MIMEEval", c!"URIEval", c!"AutoLearnThreshold", c!"Bayes", c!"MIMEHeader", c!"Check"]

end Verif.Parser
