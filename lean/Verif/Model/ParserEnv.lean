import Verif.Model.Parser
import Verif.Model.Conf
import Verif.Model.Context

/-!
# The parser's environment, built from the models of `oa/conf.py` and `oa/context.py`

Simplification: of the plugins only the registry is represented; their own options are not (a
configuration line is offered to the main configuration only).
-/

namespace Verif.Parser
open Verif Py

/-- The parts of `GlobalContext` the parser uses. -/
structure GCtx (F : Type) where
  conf : Conf.St F
  reg : Context.Ctx Unit

/-- `REIMPLEMENTED_PLUGINS` (oa/plugins/__init__.py 5-58). -/
def reimplemented : Dict Str Str :=
  [ (c!"Mail::SpamAssassin::Plugin::DumpText", c!"oa.plugins.dump_text.DumpText"),
    (c!"Mail::SpamAssassin::Plugin::Pyzor", c!"oa.plugins.pyzor.PyzorPlugin"),
    (c!"Mail::SpamAssassin::Plugin::WhiteListSubject", c!"oa.plugins.whitelist_subject.WhiteListSubjectPlugin"),
    (c!"Mail::SpamAssassin::Plugin::ImageInfo", c!"oa.plugins.image_info.ImageInfoPlugin"),
    (c!"Mail::SpamAssassin::Plugin::RelayCountry", c!"oa.plugins.relay_country.RelayCountryPlugin"),
    (c!"Mail::SpamAssassin::Plugin::URIDetail", c!"oa.plugins.uri_detail.URIDetailPlugin"),
    (c!"Mail::SpamAssassin::Plugin::TextCat", c!"oa.plugins.textcat.TextCatPlugin"),
    (c!"Mail::SpamAssassin::Plugin::AWL", c!"oa.plugins.awl.AutoWhiteListPlugin"),
    (c!"Mail::SpamAssassin::Plugin::ReplaceTags", c!"oa.plugins.replace_tags.ReplaceTags"),
    (c!"Mail::SpamAssassin::Plugin::Shortcircuit", c!"oa.plugins.short_circuit.ShortCircuit"),
    (c!"Mail::SpamAssassin::Plugin::BodyEval", c!"oa.plugins.body_eval.BodyEval"),
    (c!"Mail::SpamAssassin::Plugin::DNSEval", c!"oa.plugins.dns_eval.DNSEval"),
    (c!"Mail::SpamAssassin::Plugin::SPF", c!"oa.plugins.spf.SpfPlugin"),
    (c!"Mail::SpamAssassin::Plugin::WLBLEval", c!"oa.plugins.wlbl_eval.WLBLEvalPlugin"),
    (c!"Mail::SpamAssassin::Plugin::Razor2", c!"oa.plugins.razor2.Razor2Plugin"),
    (c!"Mail::SpamAssassin::Plugin::FreeMail", c!"oa.plugins.free_mail.FreeMail"),
    (c!"Mail::SpamAssassin::Plugin::SpamCop", c!"oa.plugins.spam_cop.SpamCopPlugin"),
    (c!"Mail::SpamAssassin::Plugin::RelayEval", c!"oa.plugins.relay_eval.RelayEval"),
    (c!"Mail::SpamAssassin::Plugin::HeaderEval", c!"oa.plugins.header_eval.HeaderEval"),
    (c!"Mail::SpamAssassin::Plugin::DKIM", c!"oa.plugins.dkim.DKIMPlugin"),
    (c!"Mail::SpamAssassin::Plugin::MIMEEval", c!"oa.plugins.mime_eval.MIMEEval"),
    (c!"Mail::SpamAssassin::Plugin::URIEval", c!"oa.plugins.uri_eval.URIEvalPlugin"),
    (c!"Mail::SpamAssassin::Plugin::AutoLearnThreshold", c!"oa.plugins.auto_learn_threshold.AutoLearnThreshold"),
    (c!"Mail::SpamAssassin::Plugin::Bayes", c!"oa.plugins.bayes.BayesPlugin"),
    (c!"Mail::SpamAssassin::Plugin::MIMEHeader", c!"oa.plugins.noop.MIMEHeaderPlugin"),
    (c!"Mail::SpamAssassin::Plugin::Check", c!"oa.plugins.noop.CheckPlugin") ]

/-- The errors of `load_plugin` and of the options, as the parser sees them. -/
def ofLoadErr : Context.Err → Err
  | .loadError => .pluginLoad
  | .other => .other

def ofConfErr : Conf.ConfErr → Err
  | .plugin => .plugin
  | .other => .other

/-- The environment of `PADParser` (oa/rules/parser.py 101-108).  `imp` says what importing a
plugin gives. -/
def realEnv {F : Type} (fe : Conf.FloatEnv F) (imp : Str → Option Str → Context.Import Unit)
    (files : Str → Option (List Str)) (paranoid : Bool) (lang : Option Str) : Env (GCtx F) where
  files := files
  paranoid := paranoid
  isCmd := fun c t => Dict.has c.reg.cmds t
  hasPlugin := fun c n => Dict.has c.reg.plugins n
  loadPlugin := fun c n p =>
    let r := Context.load c.reg n p.isSome (imp n p)
    ({ c with reg := r.1 }, r.2.map ofLoadErr)
  parseConfig := fun c k v =>
    match Conf.parseConfig fe c.conf k v with
    | (s, .unclaimed) => ({ c with conf := s }, .done false)
    | (s, .inhibit) => ({ c with conf := s }, .done true)
    | (s, .error e) => ({ c with conf := s }, .raised (ofConfErr e))
  reimpl := fun n => Dict.get? reimplemented n
  lang := lang

/-- A new parser (oa/rules/parser.py 101-108). -/
def newState {F : Type} (cls : Conf.Cls F) : State (GCtx F) :=
  ⟨[], false, ⟨⟨cls, Conf.init cls⟩, Context.Ctx.empty⟩⟩

end Verif.Parser
