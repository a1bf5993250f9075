import Verif.Model.Spamd
import Verif.Model.Report
import Verif.Model.ParserEnv

/-!
# The server as a whole, with reports

As `Model/Spamd.lean`, with the reports of `Model/Report.lean` about the rules that were loaded and with the options that the files
set (oa/rules/ruleset.py 60-110, 123-170, 244-306, oa/protocol/check.py 45-74).

Simplifications: as there; the only tags that plugins set are those of the relays, when the message is parsed.
-/

namespace Verif.Spamd
open Verif Py Scan Protocol Report

/-- The options that reports depend on (oa/conf.py 188-201). -/
structure Options (S : Type) where
  required : S
  contact : Str
  reportSafe : Int
  /-- the lines of the templates -/
  report : List Str
  unsafeReport : List Str
  addHeader : List Str
  removeHeader : List Str

/-- What `add_header` has besides the name of a header (oa/rules/ruleset.py 154-161); only called if the value can be read. -/
def headerTemplate (value : Str) : Str :=
  match splitNone 2 value with
  | [_, _, v] => v
  | _ => []

/-- The converted options and the tags in use after `post_parsing` (oa/rules/ruleset.py 123-128, 294-306). -/
def rconf {S : Type} (o : Options S) : RConf S where
  required := o.required
  contact := o.contact
  reportSafe := o.reportSafe
  report := join c!"\n" (o.report.map (fun v => (convertTags v).1))
  unsafeReport := join c!"\n" (o.unsafeReport.map (fun v => (convertTags v).1))
  tags := o.report.flatMap (fun v => (convertTags v).2) ++ o.unsafeReport.flatMap (fun v => (convertTags v).2) ++
    o.addHeader.flatMap (fun v => (convertTags (headerTemplate v)).2)

variable {S R V C β : Type} [PyNum S]

/-- The rules as `get_rule` finds them (oa/rules/ruleset.py 276-287).  Simplification: those that are not checked keep the rules
that post-parsing removed; reports only ask for rules that were checked. -/
def ruleSt (E : ScanEnv S R V C) (l : Loaded S R V C) : RuleSt S Seen where
  checked := l.checked.map (fun p => (p.1, toRule E l.ctx l.rules p.2))
  notChecked := l.rules.notChecked.map (fun p => (p.1, toRule E l.ctx l.rules p.2))

/-- `" ".join(msg.raw_text.split("\n", 3)[:3])[:200] + "[...]"` (oa/rules/ruleset.py 103): of the at most four pieces, the
first three are lines. -/
def previewOf (rawText : Str) : Str := (join c!" " ((splitChar '\n' rawText).take 3)).take 200 ++ c!"[...]"

/-- What reports take from outside of the modelled code. -/
structure Outside (S C : Type) where
  env : Report.Env S
  options : C → Options S
  /-- `msg.plugin_tags`, by the text of the message -/
  tags : Str → Dict Str Str

/-- The ruleset of the site, with its reports. -/
def fullEngine (sv : Site S R V C β) (out : Outside S C) (mods : Mods) (l : Loaded S R V C) : Engine S Seen :=
  { engine sv l with
    conf := rconf (out.options l.ctx)
    mods := mods
    fmt1 := out.env.fmt1
    shw := out.env.shw
    build := fun s => tagData { out.env with preview := previewOf s.rest.rawText } (rconf (out.options l.ctx)) (ruleSt sv.env l) s
      (out.tags s.rest.raw)
    matchedReport := fun s => matchedReport out.env.shw (ruleSt sv.env l) s }

/-- The server once the rules are loaded (oa/server.py 89-109, oa/protocol/base.py 25-30). -/
def fullHost (sv : Site S R V C β) (out : Outside S C) (mods : Mods) (l : Loaded S R V C) : Host S Seen where
  version := sv.version
  ruleset := fun _ => .ok (fullEngine sv out mods l)
  parse := newMessage sv

/-- Starting the server with these files and answering one request; `none` is an exception while loading (oa/rules/ruleset.py
303-306: also an `add_header` that cannot be read). -/
def fullAnswer (sv : Site S R V C β) (out : Outside S C) (c0 : C) (files : List Str) (c : Conn) : Option (Done × Conn) :=
  match load sv.env c0 files with
  | none => none
  | some l =>
    let o := out.options l.ctx
    (readMods o.addHeader o.removeHeader).map (fun mods => serve (fullHost sv out mods l) c)

/-- The options read from the configuration (oa/conf.py 188-201, oa/rules/ruleset.py 64-72, 294-306). -/
def optionsOf {F : Type} (none_ : F) (c : Parser.GCtx F) : Options F :=
  let text (k : Str) : Str := match c.conf.read k with | some (.str s) => s | _ => []
  let lines (k : Str) : List Str := match c.conf.read k with | some (.list l) => l | _ => []
  { required := match c.conf.read c!"required_score" with | some (.float x) => x | _ => none_
    contact := text c!"report_contact"
    reportSafe := match c.conf.read c!"report_safe" with | some (.int n) => n | _ => 0
    report := lines c!"report"
    unsafeReport := lines c!"unsafe_report"
    addHeader := lines c!"add_header"
    removeHeader := lines c!"remove_header" }

end Verif.Spamd
