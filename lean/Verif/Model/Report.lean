import Verif.Model.RuleSet

/-!
# Reports, tags and header modifications: `oa/rules/ruleset.py` 60-242
-/

namespace Verif.Report
open Verif Py

/-! ### Templates -/

/-- Letters allowed in a tag (`[A-Z_]`, oa/rules/ruleset.py 21; an underscore always ends the lazy
match, so it is never part of the tag). -/
def isUpper (c : Char) : Bool := 'A' ≤ c && c ≤ 'Z'

/-- `_TAG_RE.sub(r"%(\2)s", text)` (oa/rules/ruleset.py 21 and 128), as an automaton.  `pend = some t`:
an underscore and then the letters `t` have been read. -/
def subTags : Option Str → Str → Str
  | none, [] => []
  | some t, [] => '_' :: t
  | none, c :: cs => if c = '_' then subTags (some []) cs else c :: subTags none cs
  | some t, c :: cs =>
    if c = '_' then c!"%(" ++ t ++ c!")s" ++ subTags none cs
    else if isUpper c then subTags (some (t ++ [c])) cs
    else ('_' :: t) ++ c :: subTags none cs

/-- `_TAG_RE.findall(text)`, second group (oa/rules/ruleset.py 126-127). -/
def findTags : Option Str → Str → List Str
  | _, [] => []
  | none, c :: cs => if c = '_' then findTags (some []) cs else findTags none cs
  | some t, c :: cs =>
    if c = '_' then t :: findTags none cs
    else if isUpper c then findTags (some (t ++ [c])) cs
    else findTags none cs

/-- `_convert_tags` (oa/rules/ruleset.py 123-128): the placeholder text and the tags found. -/
def convertTags (text : Str) : Str × List Str :=
  let text := stripChars c!"'\"" text
  (subTags none text, findTags none text)

/-- Where the formatter is: in plain text, after a `%`, in the key between parentheses, or after
the key. -/
inductive FmtState where
  | text
  | percent
  | key (k : Str)
  | close (k : Str)

/-- `text % data` for a dictionary.  Only the conversions `%(KEY)s` and `%%` are modelled; for any
other use of `%`, Python raises an exception or formats the dictionary itself: `none`, as for a
missing key. -/
def fmtAux (data : Dict Str Str) : FmtState → Str → Option Str
  | .text, [] => some []
  | _, [] => none
  | .text, c :: cs => if c = '%' then fmtAux data .percent cs else (fmtAux data .text cs).map (c :: ·)
  | .percent, c :: cs =>
    if c = '(' then fmtAux data (.key []) cs
    else if c = '%' then (fmtAux data .text cs).map ('%' :: ·)
    else none
  | .key k, c :: cs => if c = ')' then fmtAux data (.close k) cs else fmtAux data (.key (k ++ [c])) cs
  | .close k, c :: cs =>
    if c = 's' then (Dict.get? data k).bind (fun v => (fmtAux data .text cs).map (v ++ ·)) else none

/-- `text % data`. -/
def fmt (data : Dict Str Str) (text : Str) : Option Str := fmtAux data .text text

/-! ### The values of the tags -/

/-- What the report functions take from outside: number formats, the host name, the version, and
the message's preview (oa/rules/ruleset.py 71-77, 103). -/
structure Env (S : Type) where
  /-- `"%0.1f"` -/
  fmt1 : S → Str
  /-- `"%s"` of a score -/
  shw : S → Str
  /-- the score in a summary line -/
  shw4 : S → Str
  /-- `"%s"` of an integer -/
  int : Int → Str
  hostname : Str
  version : Str
  release : Str
  preview : Str

/-- The configuration used for reports. -/
structure RConf (S : Type) where
  required : S
  contact : Str
  reportSafe : Int
  /-- `conf["report"]` after `post_parsing` -/
  report : Str
  unsafeReport : Str
  /-- `self.tags` -/
  tags : List Str

variable {S X : Type} [PyNum S]

/-- `msg.score >= conf["required_score"]` (oa/rules/ruleset.py 64 and 174, oa/protocol/check.py 16). -/
def isSpam (c : RConf S) (s : MsgSt S X) : Bool := decide (c.required ≤ s.score)

/-- The `TESTSSCORES` tag (oa/rules/ruleset.py 91-98).  NB it shows the result of the rule. -/
def testsScoresTag (E : Env S) (s : MsgSt S X) : Str :=
  let m := (s.checked.filter (fun p => p.2 ≠ 0)).map (fun p => p.1 ++ c!"=" ++ E.int p.2)
  if m.isEmpty then c!"none" else join c!"," m

/-- Setting a tag only if the templates use it. -/
def setIf (tags : List Str) (k : Str) (v : Option Str) (d : Option (Dict Str Str)) : Option (Dict Str Str) :=
  if k ∈ tags then
    match v, d with
    | some v, some d => some (Dict.set d k v)
    | _, _ => none
  else d

/-- The dictionary built by `_interpolate` (oa/rules/ruleset.py 64-110).  `none`: `KeyError` in one
of the reports. -/
def tagData (E : Env S) (c : RConf S) (st : RuleSt S X) (s : MsgSt S X) (pluginTags : Dict Str Str) :
    Option (Dict Str Str) :=
  let spam := isSpam c s
  let d := c.tags.foldl (fun (d : Dict Str Str) (t : Str) => Dict.set d t (c!"@@" ++ t ++ c!"@@")) []
  let d := Dict.set d c!"CONTACTADDRESS" c.contact
  let d := Dict.set d c!"HOSTNAME" E.hostname
  let d := Dict.set d c!"YESNOCAPS" (if spam then c!"YES" else c!"NO")
  let d := Dict.set d c!"YESNO" (if spam then c!"Yes" else c!"No")
  let d := Dict.set d c!"SCORE" (E.fmt1 s.score)
  let d := Dict.set d c!"REQD" (E.fmt1 c.required)
  let d := Dict.set d c!"SUBVERSION" E.release
  let d := Dict.set d c!"VERSION" E.version
  let d := setIf c.tags c!"REPORT" (matchedReport E.shw st s) (some d)
  let d := setIf c.tags c!"TESTS" (some (testsTag s)) d
  let d := setIf c.tags c!"TESTSSCORES" (some (testsScoresTag E s)) d
  let d := setIf c.tags c!"SUMMARY" ((summaryLines E.shw4 st s.checked).map (join c!"\r\n")) d
  let d := setIf c.tags c!"PREVIEW" (some E.preview) d
  d.map (fun d => pluginTags.foldl (fun (d : Dict Str Str) (p : Str × Str) => Dict.set d p.1 p.2) d)

/-- `_interpolate` (oa/rules/ruleset.py 60-110) with the data kept on the message (`[]` until the
first call).  Simplification: when building the data fails half way, the code keeps what it has so
far; the exception ends the request. -/
def interpolate (build : Option (Dict Str Str)) (cache : Dict Str Str) (text : Str) :
    Option Str × Dict Str Str :=
  if cache ≠ [] then (fmt cache text, cache)
  else match build with
    | some d => (fmt d text, d)
    | none => (none, cache)

/-- `get_report` (oa/rules/ruleset.py 130-139); `get_unsafe_report` (141-144) is the same. -/
def getReport (template : Str) (build : Option (Dict Str Str)) (cache : Dict Str Str) :
    Option Str × Dict Str Str :=
  if template = [] then (some c!"\n(no report template found)\n", cache)
  else
    let r := interpolate build cache template
    (r.1.map (· ++ c!"\n"), r.2)

/-! ### Header modifications -/

/-- One entry of `self.header_mod`: a removal, or an addition with its template. -/
structure Mod where
  remove : Bool
  name : Str
  value : Str
deriving DecidableEq

/-- `self.header_mod`. -/
structure Mods where
  all : List Mod
  spam : List Mod
  ham : List Mod
deriving DecidableEq

/-- `_add_header_rule` (oa/rules/ruleset.py 146-170).  `none`: an exception leaves the function
(`ValueError` for missing parts, `InvalidRule` for an unknown status). -/
def addHeaderRule (value : Str) (remove : Bool) (m : Mods) : Option Mods :=
  let put (status name v : Str) : Option Mods :=
    let x : Mod := ⟨remove, c!"X-Spam-" ++ name, v⟩
    let status := lower status
    if status = c!"spam" then some { m with spam := m.spam ++ [x] }
    else if status = c!"ham" then some { m with ham := m.ham ++ [x] }
    else if status = c!"all" then some { m with all := m.all ++ [x] }
    else none
  if remove then
    match splitNone 1 value with
    | [status, name] => put status name []
    | _ => none
  else
    match splitNone 2 value with
    | [status, name, v] => put status name (convertTags v).1
    | _ => none

/-- The two loops of `post_parsing` over `add_header` and `remove_header`
(oa/rules/ruleset.py 303-306). -/
def readMods (adds removes : List Str) : Option Mods :=
  let step (remove : Bool) (m : Option Mods) (v : Str) : Option Mods := m.bind (addHeaderRule v remove)
  removes.foldl (step true) (adds.foldl (step false) (some ⟨[], [], []⟩))

/-- Headers of the outgoing message. -/
abbrev Hdrs := List (Str × Str)

/-- `_adjust_headers` (oa/rules/ruleset.py 191-205).  `del newmsg[name]` removes all headers of that
name in any case; `add_header` appends.  `val` is `_interpolate`; `none`: it raised. -/
def adjustHeaders (val : Str → Option Str) : List Mod → Hdrs → Option Hdrs
  | [], h => some h
  | m :: ms, h =>
    if m.remove then adjustHeaders val ms (h.filter (fun p => lower p.1 ≠ lower m.name))
    else match val m.value with
      | some v => adjustHeaders val ms (h ++ [(m.name, v)])
      | none => none

/-- The headers of `get_adjusted_message` (oa/rules/ruleset.py 172-189).  `orig` are the headers of
the message, `bounce` those of the message made by `_get_bounce_message`, and `report` is
`get_matched_report`. -/
def adjusted (spam headerOnly : Bool) (reportSafe : Int) (mods : Mods) (val : Str → Option Str)
    (report : Option Str) (orig bounce : Hdrs) : Option Hdrs :=
  let h := if !spam || headerOnly || reportSafe = 0 then orig else bounce
  let h := if reportSafe = 0 then report.map (fun r => h ++ [(c!"X-Spam-Report", r)]) else some h
  (h.bind (adjustHeaders val mods.all)).bind
    (adjustHeaders val (if spam then mods.spam else mods.ham))

/-- The headers of `_get_bounce_message` (oa/rules/ruleset.py 207-223) that come from the original;
`get` is `msg.msg[name]`. -/
def bounceHeaders (received now : Str) (get : Str → Option Str) : Hdrs :=
  [(c!"Content-Type", c!"multipart/mixed"), (c!"MIME-Version", c!"1.0"), (c!"Received", received)] ++
  ((get c!"To").map (fun v => (c!"From", v))).toList ++
  ((get c!"From").map (fun v => (c!"To", v))).toList ++
  ((get c!"Subject").map (fun v => (c!"Subject", v))).toList ++
  [(c!"Date", match get c!"Date" with | some d => if d = [] then now else d | none => now)]

end Verif.Report
