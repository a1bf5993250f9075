import Verif.Model.SpamdReport
import Verif.Spec.SpamdReport
import Verif.Props.Spamd
import Verif.Props.Report
import Verif.Props.Conf

/-!
# C168: the report that a client gets
-/

namespace Verif.Props
open Verif Py Spec Build Parser Scan Protocol Spamd Content Report

/-! ### Templates of several lines -/

/-- All segments of a template. -/
def allSegs : List TLine → List Seg
  | [] => []
  | [t] => t.segs ++ [.lit t.tail]
  | t :: u :: ts => t.segs ++ [.lit t.tail] ++ [.lit c!"\n"] ++ allSegs (u :: ts)

theorem allSegs_conv : ∀ ts : List TLine,
    join c!"\n" (ts.map (fun t => t.segs.flatMap segConv ++ t.tail)) = (allSegs ts).flatMap segConv
  | [] => rfl
  | [t] => by simp [join, allSegs, segConv]
  | t :: u :: ts => by
    have := allSegs_conv (u :: ts)
    simp only [List.map_cons] at this
    simp [join, allSegs, segConv, this]

theorem allSegs_shown (value : Str → Str) : ∀ ts : List TLine,
    (allSegs ts).flatMap (Seg.shown value) = join c!"\n" (ts.map (TLine.shown value))
  | [] => rfl
  | [t] => by simp [join, allSegs, Seg.shown, TLine.shown]
  | t :: u :: ts => by
    have := allSegs_shown value (u :: ts)
    simp only [List.map_cons] at this
    simp [join, allSegs, Seg.shown, TLine.shown, this]

theorem allSegs_mem : ∀ (ts : List TLine) (g : Seg), g ∈ allSegs ts → (∃ t ∈ ts, g ∈ t.segs ∨ g = .lit t.tail) ∨ g = .lit c!"\n"
  | [], g, h => by cases h
  | [t], g, h => by
    simp only [allSegs, List.mem_append, List.mem_singleton] at h
    exact .inl ⟨t, by simp, h⟩
  | t :: u :: ts, g, h => by
    simp only [allSegs, List.mem_append, List.mem_singleton] at h
    rcases h with (h | h) | h
    · exact .inl ⟨t, by simp, h⟩
    · exact .inr h
    · rcases allSegs_mem (u :: ts) g h with ⟨t', ht, h⟩ | h
      · exact .inl ⟨t', by simp [List.mem_cons.1 ht], h⟩
      · exact .inr h

/-- A template is stored line by line, and filled in as a whole. -/
theorem template_fmt (data : Dict Str Str) (value : Str → Str) (ts : List TLine) (h : ∀ t ∈ ts, t.Ok)
    (hd : ∀ t ∈ ts, ∀ x, Seg.tag x ∈ t.segs → Dict.get? data x = some (value x)) :
    fmt data (join c!"\n" ((ts.map TLine.text).map (fun v => (convertTags v).1))) =
      some (join c!"\n" (ts.map (TLine.shown value))) := by
  have hc : ∀ t ∈ ts, _ := fun t ht =>
    convertTags_segs t.segs t.tail t.opening t.closing (h t ht).segs (h t ht).tail (h t ht).opening (h t ht).closing (h t ht).inner
  have e : (ts.map TLine.text).map (fun v => (convertTags v).1) = ts.map (fun t => t.segs.flatMap segConv ++ t.tail) := by
    rw [List.map_map]
    apply List.map_congr_left
    intro t ht
    exact (hc t ht).1
  rw [e, allSegs_conv, ← allSegs_shown]
  have := fmt_segs data value (allSegs ts) ?_ ?_ ?_
  · rw [segConv_eq] at this
    exact this
  · intro s hs
    rcases allSegs_mem ts _ hs with ⟨t, ht, hg | hg⟩ | hg
    · exact ((h t ht).segs _ hg).2
    · cases hg; exact tail_percent (h t ht).tail
    · cases hg; decide
  · intro x hx
    rcases allSegs_mem ts _ hx with ⟨t, ht, hg | hg⟩ | hg
    · exact (h t ht).segs _ hg
    · cases hg
    · cases hg
  · intro x hx
    rcases allSegs_mem ts _ hx with ⟨t, ht, hg | hg⟩ | hg
    · exact hd t ht x hg
    · cases hg
    · cases hg
theorem template_tags (ts : List TLine) (h : ∀ t ∈ ts, t.Ok) :
    ∀ t ∈ ts, ∀ x, Seg.tag x ∈ t.segs → x ∈ (ts.map TLine.text).flatMap (fun v => (convertTags v).2) := by
  have hc : ∀ t ∈ ts, _ := fun t ht =>
    convertTags_segs t.segs t.tail t.opening t.closing (h t ht).segs (h t ht).tail (h t ht).opening (h t ht).closing (h t ht).inner
  intro t ht x hx
  rw [List.mem_flatMap]
  refine ⟨t.text, List.mem_map_of_mem ht, ?_⟩
  show x ∈ (convertTags (t.opening ++ (t.segs.flatMap Seg.text ++ t.tail) ++ t.closing)).2
  rw [(hc t ht).2, List.mem_filterMap]
  exact ⟨_, hx, rfl⟩

theorem template_nil (ts : List TLine) (h : ∀ t ∈ ts, t.Ok) :
    join c!"\n" ((ts.map TLine.text).map (fun v => (convertTags v).1)) = [] ↔ ¬ Something ts := by
  have hc : ∀ t ∈ ts, _ := fun t ht =>
    convertTags_segs t.segs t.tail t.opening t.closing (h t ht).segs (h t ht).tail (h t ht).opening (h t ht).closing (h t ht).inner
  unfold Something
  match ts, hc with
  | [], _ => simp [join]
  | [t], hc =>
    have hk := (hc t (by simp)).1
    simp only [List.map_cons, List.map_nil, join]
    rw [show t.text = t.opening ++ (t.segs.flatMap Seg.text ++ t.tail) ++ t.closing from rfl, hk]
    have hs : ∀ g : Seg, segConv g = [] ↔ g.text = [] := by
      intro g
      cases g <;> simp [segConv, Seg.text]
    simp only [List.append_eq_nil_iff, List.flatMap_eq_nil_iff, hs]
    simp [TLine.inner, List.flatMap_eq_nil_iff]
  | t :: u :: ts, _ => simp [join]

/-! ### The values of the tags -/

variable {S R V C β X : Type} [PyNum S]

theorem get?_foldl_nodup : ∀ (l : Dict Str Str), (Dict.keys l).Nodup → ∀ (d : Dict Str Str) (k : Str),
    Dict.get? (l.foldl (fun (d : Dict Str Str) (p : Str × Str) => Dict.set d p.1 p.2) d) k =
      (match Dict.get? l k with | some v => some v | none => Dict.get? d k)
  | [], _, d, k => rfl
  | p :: l, hn, d, k => by
    simp only [Dict.keys, List.map_cons, List.nodup_cons] at hn
    rw [List.foldl_cons, get?_foldl_nodup l hn.2, Dict.get?_cons]
    by_cases he : p.1 = k
    · have : Dict.get? l k = none := by
        rw [Dict.get?_eq_none_iff]
        exact he ▸ hn.1
      rw [this, if_pos he, ← he]
      simp
    · rw [if_neg he, Dict.get?_set_ne _ _ he]

theorem setIf_some (tags : List Str) (k v : Str) (d : Dict Str Str) :
    setIf tags k (some v) (some d) = some (if k ∈ tags then Dict.set d k v else d) := by
  unfold setIf
  split <;> rfl

theorem get?_setIf {tags : List Str} {t : Str} (ht : t ∈ tags) (k v : Str) (d : Dict Str Str) :
    Dict.get? (if k ∈ tags then Dict.set d k v else d) t = if k = t then some v else Dict.get? d t := by
  by_cases h : k ∈ tags
  · rw [if_pos h, Dict.get?_set]
  · rw [if_neg h, if_neg (fun e => h (by rw [e]; exact ht))]

theorem tagData_full (E : Report.Env S) (c : RConf S) (st : RuleSt S X) (s : MsgSt S X) (pt : Dict Str Str) (hpt : (Dict.keys pt).Nodup)
    (report : Str) (sum : List Str) (h1 : matchedReport E.shw st s = some report) (h2 : summaryLines E.shw4 st s.checked = some sum) :
    ∃ d, tagData E c st s pt = some d ∧ ∀ t ∈ c.tags, Dict.get? d t =
      (match Dict.get? pt t with
      | some v => some v
      | none =>
        if c!"PREVIEW" = t then some E.preview else if c!"SUMMARY" = t then some (join c!"\r\n" sum)
        else if c!"TESTSSCORES" = t then some (testsScoresTag E s) else if c!"TESTS" = t then some (testsTag s)
        else if c!"REPORT" = t then some report else if c!"VERSION" = t then some E.version
        else if c!"SUBVERSION" = t then some E.release else if c!"REQD" = t then some (E.fmt1 c.required)
        else if c!"SCORE" = t then some (E.fmt1 s.score) else if c!"YESNO" = t then some (if isSpam c s then c!"Yes" else c!"No")
        else if c!"YESNOCAPS" = t then some (if isSpam c s then c!"YES" else c!"NO")
        else if c!"HOSTNAME" = t then some E.hostname else if c!"CONTACTADDRESS" = t then some c.contact
        else some (c!"@@" ++ t ++ c!"@@")) := by
  unfold tagData
  simp only [h1, h2, Option.map_some, setIf_some]
  refine ⟨_, rfl, ?_⟩
  intro t ht
  rw [get?_foldl_nodup pt hpt]
  congr 1
  simp only [get?_setIf ht, Dict.get?_set, get?_unknown _ _ ht]

/-! ### The rules in a report -/

theorem summary_of (shw4 : S → Str) (st : RuleSt S X) (R : Str → Rule S X) (val : Str → Int) : ∀ (order : List Str),
    (∀ n ∈ order, val n ≠ 0 → getRule st n = some (R n)) →
    summaryLines shw4 st (order.map (fun n => (n, val n))) =
      some ((order.filter (fun n => decide (val n ≠ 0))).map (fun n => summaryLine shw4 (R n)))
  | [], _ => rfl
  | n :: order, h => by
    have ih := summary_of shw4 st R val order (fun x hx => h x (by simp [hx]))
    rw [List.map_cons, summaryLines]
    by_cases hv : val n = 0
    · simp [hv, ih]
    · simp [hv, ih, h n (by simp) hv]

theorem report_of (shw : S → Str) (st : RuleSt S X) (s : MsgSt S X) (R : Str → Rule S X) (desc : Str → Str) (val : Str → Int) :
    ∀ (order : List Str), (∀ n ∈ order, val n ≠ 0 → getRule st n = some (R n) ∧ Dict.get? s.descs n = some (desc n)) →
    reportLines shw st s (order.map (fun n => (n, val n))) =
      some ((order.filter (fun n => decide (val n ≠ 0))).map (fun n => reportLine shw (R n) (desc n)))
  | [], _ => rfl
  | n :: order, h => by
    have ih := report_of shw st s R desc val order (fun x hx => h x (by simp [hx]))
    rw [List.map_cons, reportLines]
    by_cases hv : val n = 0
    · simp [hv, ih]
    · obtain ⟨h1, h2⟩ := h n (by simp) hv
      simp [hv, ih, h1, h2]

/-- The message as checked, with what reports say about it. -/
theorem checked_details (sv : Site S R V C β) (out : Outside S C)
    (htol : sv.env.parser.paranoid = false) (c0 options : C) (files lines : List Str) (as : List (Str × Str × PVal))
    (hf : Lines sv.env.parser ⟨[], false, c0⟩ [] files lines) (ht : RuleText sv.env.parser c0 lines as options)
    (good : Str → Bool) (docs : Str → Doc S R) (hw : ∀ c, isSpace c = true → sv.lib.word c = false)
    (sent : Str) (m : Facts) (hr : ReadAs sv.lib sv.split sent m) (hm : Reads sv.env.mail m.headers m.dec m.addrs)
    (hmp : ∀ p ∈ m.partHeaders, sv.env.mail.decode p.2 = some (m.dec p.2)) (hrel : sv.relays m.headers = none)
    (hpt : (Dict.keys (out.tags m.raw)).Nodup) :
    let defined := (firstMentions (as.map (fun a => a.1))).filter good
    let rules : Conds R := fun n => if n ∈ defined then some (docs n).cond else none
    let o := out.options options
    (∀ n ∈ firstMentions (as.map (fun a => a.1)),
      (good n = true → Says sv.env.float sv.env.re (sv.env.conf options) as n (docs n)) ∧
      (good n = false → Broken sv.env options as n)) →
    (∀ n ∈ defined, lastValue as n c!"type" = some (.str c!"mimeheader") → (docs n).priority = 0) →
    (∀ n k, Works rules k n → Works rules 11 n) →
    ∃ uris, Links ((sv.split m.raw).2.filterMap (partText sv.lib)) uris ∧
      ((∀ n ∈ defined, ∀ fn args t, (docs n).cond = .asks fn args t → Answers sv.env options { m with uris := uris } fn args t) →
      ∃ (order : List Str) (val : Str → Int),
        InOrder defined docs rules order ∧ (∀ n ∈ order, Gives sv.env.re rules { m with uris := uris } n (val n)) ∧
        let matched := order.filter (fun n => decide (val n ≠ 0))
        let verdict : Verdict S := ⟨total 0 (matched.map (fun n => (docs n).score)), o.required, matched.map (fun n => (n, val n)), m.rawText⟩
        let value := tagValue out.env o.contact (fun n => ⟨(docs n).score, labelOf as n, describedAs as n⟩)
          (fun t => Dict.get? (out.tags m.raw) t) verdict
        ∃ l mail st, load sv.env c0 files = some l ∧ l.ctx = options ∧ newMessage sv sent = .ok mail ∧
          ∀ mods, (fullEngine sv out mods l).matchMsg mail.st = .ok st ∧ st.score = verdict.score ∧
            (fullEngine sv out mods l).matchedReport st = some (perRule out.env (fun n => ⟨(docs n).score, labelOf as n, describedAs as n⟩) verdict) ∧
            ∃ d, (fullEngine sv out mods l).build st = some d ∧ ∀ t ∈ (rconf o).tags, Dict.get? d t = some (value t)) := by
  intro defined rules o hsays hmime hdepth
  obtain ⟨uris, ops, mail, hlinks, hnew, hst⟩ := newMessage_read sv hw sent m hr hm hrel
  refine ⟨uris, hlinks, fun hans => ?_⟩
  obtain ⟨l, RD, order, val, hload, hctx, hch, hRD, hord, hval, hck, hsc, hrest, hdesc⟩ := scan_text sv.env htol c0 options files lines as hf ht good docs
    { m with uris := uris } hm hmp ops hsays hmime hans hdepth
  refine ⟨order, val, hord, hval, ?_⟩
  intro matched verdict value
  generalize hstd : check sv.env l _ = st at hck hsc hrest hdesc
  refine ⟨l, mail, st, hload, hctx, hnew, fun mods => ?_⟩
  have hget : ∀ n ∈ order, getRule (ruleSt sv.env l) n = some (toRule sv.env l.ctx l.rules (RD n)) := by
    intro n hn
    have : Dict.get? (ruleSt sv.env l).checked n = some (toRule sv.env l.ctx l.rules (RD n)) := by
      apply Dict.get?_of_mem
      · simp only [ruleSt, hch, List.map_map, Dict.keys, Function.comp_def, List.map_id']
        exact hord.once
      · simp only [ruleSt, hch, List.map_map]
        exact List.mem_map.2 ⟨n, hn, rfl⟩
    unfold getRule
    rw [this]
  have hsum := summary_of out.env.shw4 (ruleSt sv.env l) (fun n => toRule sv.env l.ctx l.rules (RD n)) val order
    (fun n hn _ => hget n hn)
  have hrep := report_of out.env.shw (ruleSt sv.env l) st (fun n => toRule sv.env l.ctx l.rules (RD n)) (describedAs as) val order
    (fun n hn hv => ⟨hget n hn, hdesc n hn hv⟩)
  rw [← hck] at hsum hrep
  have hrep' : matchedReport out.env.shw (ruleSt sv.env l) st =
      some (perRule out.env (fun n => ⟨(docs n).score, labelOf as n, describedAs as n⟩) verdict) := by
    unfold matchedReport
    rw [hrep, Option.map_some]
    unfold perRule
    simp only [verdict, List.map_map]
    congr 3
    apply List.map_congr_left
    intro n hn
    obtain ⟨k1, k2, k3, k4⟩ := hRD n (List.mem_filter.1 hn).1
    simp only [reportLine, toRule, Function.comp, k1, k2, k4]
  have hraw : st.rest.rawText = m.rawText ∧ st.rest.raw = m.raw := ⟨hrest.2.1, hrest.2.2.1⟩
  refine ⟨?_, hsc, hrep', ?_⟩
  · rw [hst, ← hstd]
    rfl
  · obtain ⟨d, hd, hv⟩ := tagData_full { out.env with preview := previewOf st.rest.rawText } (rconf o) (ruleSt sv.env l) st
      (out.tags st.rest.raw) (by rw [hraw.2]; exact hpt) _ _ hrep' hsum
    refine ⟨d, by simpa only [fullEngine, hctx] using hd, ?_⟩
    intro t ht
    have hm1 : st.checked.filter (fun p => decide (p.2 ≠ 0)) = verdict.matched := by
      rw [hck, List.filter_map]
      rfl
    have hm2 : testsTag st = namesOrNone (verdict.matched.map Prod.fst) := by
      unfold testsTag matchedNames namesOrNone
      simp only [hm1, List.isEmpty_iff]
    have hm3 : testsScoresTag { out.env with preview := previewOf st.rest.rawText } st =
        namesOrNone (verdict.matched.map (fun p => p.1 ++ c!"=" ++ out.env.int p.2)) := by
      unfold testsScoresTag namesOrNone
      simp only [hm1, List.isEmpty_iff]
    have hm4 : join c!"\r\n" ((order.filter (fun n => decide (val n ≠ 0))).map
          (fun n => summaryLine out.env.shw4 (toRule sv.env l.ctx l.rules (RD n)))) =
        join c!"\r\n" (verdict.matched.map (fun p => out.env.shw4 (docs p.1).score ++ c!" " ++ ljust 22 p.1 ++ c!" " ++ describedAs as p.1)) := by
      simp only [verdict, List.map_map]
      congr 1
      apply List.map_congr_left
      intro n hn
      obtain ⟨k1, k2, k3, k4⟩ := hRD n (List.mem_filter.1 hn).1
      simp only [summaryLine, toRule, Function.comp, k1, k2, k3]
    have hsp : isSpam (rconf o) st = decide (verdict.required ≤ verdict.score) := by
      unfold isSpam
      rw [hsc]
      rfl
    rw [hv t ht, hm2, hm3, hm4, hsp, hsc]
    rw [hraw.1, hraw.2]
    simp only [value, tagValue]
    cases Dict.get? (out.tags m.raw) t with
    | some x => rfl
    | none =>
      simp only []
      by_cases h_PREVIEW : t = c!"PREVIEW"
      · subst h_PREVIEW
        first | rfl | (simp only [decide_eq_true_eq]; rfl) | simp
      by_cases h_SUMMARY : t = c!"SUMMARY"
      · subst h_SUMMARY
        first | rfl | (simp only [decide_eq_true_eq]; rfl) | simp
      by_cases h_TESTSSCORES : t = c!"TESTSSCORES"
      · subst h_TESTSSCORES
        first | rfl | (simp only [decide_eq_true_eq]; rfl) | simp
      by_cases h_TESTS : t = c!"TESTS"
      · subst h_TESTS
        first | rfl | (simp only [decide_eq_true_eq]; rfl) | simp
      by_cases h_REPORT : t = c!"REPORT"
      · subst h_REPORT
        first | rfl | (simp only [decide_eq_true_eq]; rfl) | simp
      by_cases h_VERSION : t = c!"VERSION"
      · subst h_VERSION
        first | rfl | (simp only [decide_eq_true_eq]; rfl) | simp
      by_cases h_SUBVERSION : t = c!"SUBVERSION"
      · subst h_SUBVERSION
        first | rfl | (simp only [decide_eq_true_eq]; rfl) | simp
      by_cases h_REQD : t = c!"REQD"
      · subst h_REQD
        first | rfl | (simp only [decide_eq_true_eq]; rfl) | simp
      by_cases h_SCORE : t = c!"SCORE"
      · subst h_SCORE
        first | rfl | (simp only [decide_eq_true_eq]; rfl) | simp
      by_cases h_YESNO : t = c!"YESNO"
      · subst h_YESNO
        first | rfl | (simp only [decide_eq_true_eq]; rfl) | simp
      by_cases h_YESNOCAPS : t = c!"YESNOCAPS"
      · subst h_YESNOCAPS
        first | rfl | (simp only [decide_eq_true_eq]; rfl) | simp
      by_cases h_HOSTNAME : t = c!"HOSTNAME"
      · subst h_HOSTNAME
        first | rfl | (simp only [decide_eq_true_eq]; rfl) | simp
      by_cases h_CONTACTADDRESS : t = c!"CONTACTADDRESS"
      · subst h_CONTACTADDRESS
        first | rfl | (simp only [decide_eq_true_eq]; rfl) | simp
      simp only [if_neg (Ne.symm h_PREVIEW), if_neg (Ne.symm h_SUMMARY), if_neg (Ne.symm h_TESTSSCORES), if_neg (Ne.symm h_TESTS), if_neg (Ne.symm h_REPORT), if_neg (Ne.symm h_VERSION), if_neg (Ne.symm h_SUBVERSION), if_neg (Ne.symm h_REQD), if_neg (Ne.symm h_SCORE), if_neg (Ne.symm h_YESNO), if_neg (Ne.symm h_YESNOCAPS), if_neg (Ne.symm h_HOSTNAME), if_neg (Ne.symm h_CONTACTADDRESS), if_neg h_PREVIEW, if_neg h_SUMMARY, if_neg h_TESTSSCORES, if_neg h_TESTS, if_neg h_REPORT, if_neg h_VERSION, if_neg h_SUBVERSION, if_neg h_REQD, if_neg h_SCORE, if_neg h_YESNO, if_neg h_YESNOCAPS, if_neg h_HOSTNAME, if_neg h_CONTACTADDRESS]

/-- Answering with an engine that is known to check and to report. -/
theorem full_answered (sv : Site S R V C β) (out : Outside S C) (c0 : C) (files : List Str) (l : Loaded S R V C) (mods : Mods)
    (hload : load sv.env c0 files = some l)
    (hmods : readMods (out.options l.ctx).addHeader (out.options l.ctx).removeHeader = some mods)
    (q : Request) (command : Str) (hq : q.Asks command) (hc : command ∈ checking) (more : Utf8.Bytes) (g : List Nat)
    (mail : Mail S Seen) (hnew : newMessage sv q.sent = .ok mail) (st : MsgSt S Seen)
    (hmatch : (fullEngine sv out mods l).matchMsg mail.st = .ok st) (body : Str)
    (hbody : ∀ cmd, Dict.get? commands command = some cmd → extraDetails (fullEngine sv out mods l) mail st cmd = .ok body) :
    ∃ count, Decimal count body.length ∧
      (fullAnswer sv out c0 files ⟨q.bytes more, g⟩).map (fun r => (r.1, r.2.data)) =
        some (⟨[successLine sv.version c!"EX_OK", verdictLine (fullEngine sv out mods l) st,
          c!"Content-length: " ++ count ++ c!"\r\n\r\n", body], [], none⟩, more) := by
  obtain ⟨cmd, e1, e2, e3, e4, e5, e6⟩ := Cmd.checks hc
  refine ⟨dec body.length, decimal_toDigits _, ?_⟩
  have hk : checkHandle (fullEngine sv out mods l) mail cmd = ⟨[verdictLine (fullEngine sv out mods l) st,
      c!"Content-length: " ++ dec body.length ++ c!"\r\n\r\n", body], [], none⟩ := by
    unfold checkHandle
    simp only [hmatch, hbody cmd e1]
  obtain ⟨s1, -, s2⟩ := (served (fullHost sv out mods l) (fullEngine sv out mods l) (fun _ => rfl) q command hq cmd e1 e2 e3 e4 e5 more g).1 mail hnew
  unfold fullAnswer
  rw [hload]
  simp only [hmods, Option.map_some, Option.some.injEq, Prod.mk.injEq]
  refine ⟨?_, s1⟩
  rw [s2 (by rw [hk]; simp), hk, e6]
  rfl

/-- **C168** (the part that holds).  A server that is started with rule files as in C141, and a client that sends a well-formed
REPORT or REPORT_IFSPAM request for a message that can be read.  After the verdict the client gets the lines of the report
template, each tag in them replaced by what it stands for: the score, the verdict, the names of the rules that matched, a line for
each of them with the score, kind and description that the files give it, the beginning of the text.  Without a template it is told
so.  REPORT_IFSPAM gets nothing more than the verdict unless the score is reached. -/
theorem C168_report_partial (sv : Site S R V C β) (out : Outside S C)
    (htol : sv.env.parser.paranoid = false) (c0 options : C) (files lines : List Str) (as : List (Str × Str × PVal))
    (hf : Lines sv.env.parser ⟨[], false, c0⟩ [] files lines) (ht : RuleText sv.env.parser c0 lines as options)
    (good : Str → Bool) (docs : Str → Doc S R) (hw : ∀ c, isSpace c = true → sv.lib.word c = false)
    (q : Request) (command : Str) (hq : q.Asks command) (hc : command ∈ [c!"REPORT", c!"REPORT_IFSPAM"]) (more : Utf8.Bytes) (g : List Nat)
    (m : Facts) (hr : ReadAs sv.lib sv.split q.sent m) (hm : Reads sv.env.mail m.headers m.dec m.addrs)
    (hmp : ∀ p ∈ m.partHeaders, sv.env.mail.decode p.2 = some (m.dec p.2)) (hrel : sv.relays m.headers = none)
    (hpt : (Dict.keys (out.tags m.raw)).Nodup) (ts : List TLine) (hts : ∀ t ∈ ts, t.Ok) :
    let defined := (firstMentions (as.map (fun a => a.1))).filter good
    let rules : Conds R := fun n => if n ∈ defined then some (docs n).cond else none
    let o := out.options options
    (∀ a b, (sv.base options).lt a b = true ↔ ¬ b ≤ a) →
    o.report = ts.map TLine.text →
    (∃ (adds : List AddLine) (removes : List RemoveLine), o.addHeader = adds.map AddLine.text ∧ o.removeHeader = removes.map RemoveLine.text) →
    (∀ n ∈ firstMentions (as.map (fun a => a.1)),
      (good n = true → Says sv.env.float sv.env.re (sv.env.conf options) as n (docs n)) ∧
      (good n = false → Broken sv.env options as n)) →
    (∀ n ∈ defined, lastValue as n c!"type" = some (.str c!"mimeheader") → (docs n).priority = 0) →
    (∀ n k, Works rules k n → Works rules 11 n) →
    ∃ uris, Links ((sv.split m.raw).2.filterMap (partText sv.lib)) uris ∧
      ((∀ n ∈ defined, ∀ fn args t, (docs n).cond = .asks fn args t → Answers sv.env options { m with uris := uris } fn args t) →
      ∃ (order : List Str) (val : Str → Int),
        InOrder defined docs rules order ∧ (∀ n ∈ order, Gives sv.env.re rules { m with uris := uris } n (val n)) ∧
        let matched := order.filter (fun n => decide (val n ≠ 0))
        let verdict : Verdict S := ⟨total 0 (matched.map (fun n => (docs n).score)), o.required, matched.map (fun n => (n, val n)), m.rawText⟩
        let value := tagValue out.env o.contact (fun n => ⟨(docs n).score, labelOf as n, describedAs as n⟩)
          (fun t => Dict.get? (out.tags m.raw) t) verdict
        ∃ report, (Something ts → report = join c!"\n" (ts.map (TLine.shown value)) ++ c!"\n") ∧
          (¬ Something ts → report = c!"\n(no report template found)\n") ∧
          let body := if command = c!"REPORT_IFSPAM" ∧ ¬ verdict.required ≤ verdict.score then [] else report
          ∃ count, Decimal count body.length ∧
            (fullAnswer sv out c0 files ⟨q.bytes more, g⟩).map (fun r => (r.1, r.2.data)) =
              some (⟨[successLine sv.version c!"EX_OK",
                verdictText (decide (verdict.required ≤ verdict.score)) (out.env.fmt1 verdict.score) (out.env.shw verdict.required),
                c!"Content-length: " ++ count ++ c!"\r\n\r\n", body], [], none⟩, more)) := by
  intro defined rules o hlt hot hmods hsays hmime hdepth
  obtain ⟨uris, hlinks, hk⟩ := checked_details sv out htol c0 options files lines as hf ht good docs hw q.sent m hr hm hmp hrel hpt hsays hmime hdepth
  refine ⟨uris, hlinks, fun hans => ?_⟩
  obtain ⟨order, val, hord, hval, l, mail, st, hload, hctx, hnew, hall⟩ := hk hans
  refine ⟨order, val, hord, hval, ?_⟩
  intro matched verdict value
  obtain ⟨adds, removes, ha1, ha2⟩ := hmods
  obtain ⟨mods, hm1, -⟩ := C56_read adds removes
  rw [← ha1, ← ha2] at hm1
  obtain ⟨k1, k2, k3, d, k4, k5⟩ := hall mods
  have hconf : (fullEngine sv out mods l).conf = rconf o := by
    simp only [fullEngine, hctx]; rfl
  have f1 := template_fmt d value ts hts (fun t ht x hx => k5 x (by
    simp only [rconf, List.mem_append]
    rw [hot]
    exact .inl (.inl (template_tags ts hts t ht x hx))))
  let report := if join c!"\n" (o.report.map (fun v => (convertTags v).1)) = [] then c!"\n(no report template found)\n"
    else join c!"\n" (ts.map (TLine.shown value)) ++ c!"\n"
  have hrt : reportText (fullEngine sv out mods l) st (fullEngine sv out mods l).conf.report = .ok report := by
    rw [hconf]
    have e : (rconf o).report = join c!"\n" (o.report.map (fun v => (convertTags v).1)) := rfl
    rw [e]
    unfold reportText texted
    rw [k4]
    simp only [report]
    by_cases hn : join c!"\n" (o.report.map (fun v => (convertTags v).1)) = []
    · rw [if_pos hn, if_pos hn]
    · rw [if_neg hn, if_neg hn, hot, f1]
      rfl
  have hsp : isSpam (fullEngine sv out mods l).conf st = decide (verdict.required ≤ verdict.score) := by
    unfold isSpam
    rw [hconf, k2]
    rfl
  refine ⟨report, ?_, ?_, ?_⟩
  · intro hs
    simp only [report]
    rw [if_neg]
    rw [hot, template_nil ts hts]
    exact fun hn => hn hs
  · intro hs
    simp only [report]
    rw [if_pos]
    rw [hot, template_nil ts hts]
    exact hs
  intro body
  have hv : verdictLine (fullEngine sv out mods l) st =
      verdictText (decide (verdict.required ≤ verdict.score)) (out.env.fmt1 verdict.score) (out.env.shw verdict.required) := by
    unfold verdictLine verdictText
    rw [hsp, hconf, k2]
    rfl
  rw [← hv]
  refine full_answered sv out c0 files l mods hload (by rw [hctx]; exact hm1) q command hq ?_ more g mail hnew st k1 body ?_
  · simp only [List.mem_cons, List.not_mem_nil, or_false] at hc
    rcases hc with rfl | rfl <;> decide
  intro cmd hcm
  simp only [List.mem_cons, List.not_mem_nil, or_false] at hc
  rcases hc with rfl | rfl
  · rw [show Dict.get? commands c!"REPORT" = some Cmd.report by decide] at hcm
    cases hcm
    simp only [body]
    rw [if_neg (by intro hx; exact absurd hx.1 (by decide))]
    exact hrt
  · rw [show Dict.get? commands c!"REPORT_IFSPAM" = some Cmd.reportIfSpam by decide] at hcm
    cases hcm
    have hl : ∀ a b, (fullEngine sv out mods l).lt a b = true ↔ ¬ b ≤ a := by
      intro a b
      have : (fullEngine sv out mods l).lt = (sv.base options).lt := by
        simp only [fullEngine, engine, hctx]
      rw [this]
      exact hlt a b
    obtain ⟨p1, p2⟩ := C07_ifspam_partial (fullEngine sv out mods l) mail st hl
    rw [hconf, k2] at p1 p2
    simp only [body]
    by_cases hx : verdict.required ≤ verdict.score
    · rw [if_neg (fun hy => hy.2 hx), p1 hx]
      exact hrt
    · rw [if_pos ⟨trivial, hx⟩, p2 hx]

/-- **C168** is violated: with a single percent sign in the template, whatever the rules and the message, the client gets the
verdict and no report, and the answer breaks off without saying so. -/
theorem C168_percent_violated (sv : Site S R V C β) (out : Outside S C)
    (htol : sv.env.parser.paranoid = false) (c0 options : C) (files lines : List Str) (as : List (Str × Str × PVal))
    (hf : Lines sv.env.parser ⟨[], false, c0⟩ [] files lines) (ht : RuleText sv.env.parser c0 lines as options)
    (good : Str → Bool) (docs : Str → Doc S R) (hw : ∀ c, isSpace c = true → sv.lib.word c = false)
    (q : Request) (hq : q.Asks c!"REPORT") (more : Utf8.Bytes) (g : List Nat)
    (m : Facts) (hr : ReadAs sv.lib sv.split q.sent m) (hm : Reads sv.env.mail m.headers m.dec m.addrs)
    (hmp : ∀ p ∈ m.partHeaders, sv.env.mail.decode p.2 = some (m.dec p.2)) (hrel : sv.relays m.headers = none)
    (hpt : (Dict.keys (out.tags m.raw)).Nodup) (a b : Str) (ha : Ordinary a) (hb : Ordinary b) (hp : b.head? ≠ some '(') :
    let defined := (firstMentions (as.map (fun a => a.1))).filter good
    let rules : Conds R := fun n => if n ∈ defined then some (docs n).cond else none
    let o := out.options options
    o.report = [a ++ c!"%" ++ b] →
    (∃ (adds : List AddLine) (removes : List RemoveLine), o.addHeader = adds.map AddLine.text ∧ o.removeHeader = removes.map RemoveLine.text) →
    (∀ n ∈ firstMentions (as.map (fun a => a.1)),
      (good n = true → Says sv.env.float sv.env.re (sv.env.conf options) as n (docs n)) ∧
      (good n = false → Broken sv.env options as n)) →
    (∀ n ∈ defined, lastValue as n c!"type" = some (.str c!"mimeheader") → (docs n).priority = 0) →
    (∀ n k, Works rules k n → Works rules 11 n) →
    (∀ uris, ∀ n ∈ defined, ∀ fn args t, (docs n).cond = .asks fn args t → Answers sv.env options { m with uris := uris } fn args t) →
    ∃ verdict, (fullAnswer sv out c0 files ⟨q.bytes more, g⟩).map (fun r => r.1) =
      some ⟨[successLine sv.version c!"EX_OK", verdict], [], some .other⟩ := by
  intro defined rules o hot hmods hsays hmime hdepth hans
  obtain ⟨uris, hlinks, hk⟩ := checked_details sv out htol c0 options files lines as hf ht good docs hw q.sent m hr hm hmp hrel hpt hsays hmime hdepth
  obtain ⟨order, val, hord, hval, l, mail, st, hload, hctx, hnew, hall⟩ := hk (hans uris)
  obtain ⟨adds, removes, ha1, ha2⟩ := hmods
  obtain ⟨mods, hm1, -⟩ := C56_read adds removes
  rw [← ha1, ← ha2] at hm1
  obtain ⟨k1, k2, k3, d, k4, k5⟩ := hall mods
  have hconf : (fullEngine sv out mods l).conf = rconf o := by
    simp only [fullEngine, hctx]; rfl
  have hfmt := C60_single_percent_violated d a b ha hb hp
  have hrt : extraDetails (fullEngine sv out mods l) mail st .report = .error .other := by
    show reportText (fullEngine sv out mods l) st (fullEngine sv out mods l).conf.report = _
    have e : (rconf o).report = (convertTags (a ++ c!"%" ++ b)).1 := by
      simp only [rconf, hot, List.map_cons, List.map_nil, join]
    rw [hconf, e]
    unfold reportText texted
    rw [k4]
    simp only [hfmt]
    rw [if_neg]
    · rfl
    · intro hn
      rw [hn] at hfmt
      cases hfmt
  refine ⟨verdictLine (fullEngine sv out mods l) st, ?_⟩
  have hk : checkHandle (fullEngine sv out mods l) mail .report =
      ⟨[verdictLine (fullEngine sv out mods l) st], [], some .other⟩ := by
    unfold checkHandle
    simp only [k1, hrt]
  obtain ⟨s1, -, s2⟩ := (served (fullHost sv out mods l) (fullEngine sv out mods l) (fun _ => rfl) q c!"REPORT" hq .report (by decide) rfl
    (by decide) (by decide) (by decide) more g).1 mail hnew
  unfold fullAnswer
  rw [hload]
  have hm1 : readMods (out.options l.ctx).addHeader (out.options l.ctx).removeHeader = some mods := by rw [hctx]; exact hm1
  simp only [hm1, Option.map_some, Option.some.injEq]
  rw [s2 (by rw [hk]; simp), hk]
  rfl

/-! ### Where the template comes from -/

theorem last_clear (clear : Str) (given : List (Str × Str)) : (∀ l ∈ given, l.1 ≠ clear) ∨
    ∃ before v after, given = before ++ (clear, v) :: after ∧ ∀ l ∈ after, l.1 ≠ clear := by
  induction given with
  | nil => exact .inl (by simp)
  | cons l given ih =>
    rcases ih with h | ⟨before, v, after, rfl, h⟩
    · by_cases he : l.1 = clear
      · exact .inr ⟨[], l.2, given, by rw [← he]; rfl, h⟩
      · refine .inl ?_
        intro x hx
        rcases List.mem_cons.1 hx with rfl | hx
        · exact he
        · exact h x hx
    · exact .inr ⟨l :: before, v, after, rfl, h⟩

theorem since_all (clear key : Str) (given : List (Str × Str)) (h : ∀ l ∈ given, l.1 ≠ clear) :
    since clear key given = (given.filter (fun l => l.1 = key)).map Prod.snd := by
  unfold since
  have : given.reverse.takeWhile (fun l => decide (l.1 ≠ clear)) = given.reverse := by
    have := List.takeWhile_append_of_pos (p := fun l : Str × Str => decide (l.1 ≠ clear)) (l₁ := given.reverse) (l₂ := [])
      (fun x hx => by simpa using h x (List.mem_reverse.1 hx))
    simpa using this
  rw [this, List.reverse_reverse]

theorem since_last (clear key v : Str) (before after : List (Str × Str)) (h : ∀ l ∈ after, l.1 ≠ clear) :
    since clear key (before ++ (clear, v) :: after) = (after.filter (fun l => l.1 = key)).map Prod.snd := by
  unfold since
  have : (before ++ (clear, v) :: after).reverse.takeWhile (fun l => decide (l.1 ≠ clear)) = after.reverse := by
    rw [List.reverse_append, List.reverse_cons, List.append_assoc, List.takeWhile_append_of_pos]
    · simp
    · intro x hx
      simpa using h x (List.mem_reverse.1 hx)
  rw [this, List.reverse_reverse]

def clearing {F : Type} (p : Str × Conf.OptType × Conf.OptVal F) : Str × List Str :=
  (p.1, match p.2 with | (.clear, .list l) => l | _ => [])

/-- The keys that clear each option of the main configuration. -/
theorem clears_pad {F : Type} (five ten two : F) (c key : Str) (h : Conf.Clears (Conf.padOptions five ten two) c key) :
    (key = c!"report" → c = c!"clear_report_template") ∧ (key = c!"unsafe_report" → c = c!"clear_unsafe_report_template") ∧
    (key = c!"add_header" → c = c!"clear_headers") ∧ (key = c!"remove_header" → c = c!"clear_headers") ∧
    key ≠ c!"required_score" ∧ key ≠ c!"report_contact" ∧ key ≠ c!"report_safe" := by
  obtain ⟨keys, h1, h2⟩ := h
  have hm := Dict.mem_of_get? _ h1
  have hall : ∀ p ∈ (Conf.padOptions five ten two).map clearing,
      ∀ k ∈ p.2, (k = c!"report" → p.1 = c!"clear_report_template") ∧ (k = c!"unsafe_report" → p.1 = c!"clear_unsafe_report_template") ∧
        (k = c!"add_header" → p.1 = c!"clear_headers") ∧ (k = c!"remove_header" → p.1 = c!"clear_headers") ∧
        k ≠ c!"required_score" ∧ k ≠ c!"report_contact" ∧ k ≠ c!"report_safe" := by
    rw [show (Conf.padOptions five ten two).map clearing = (Conf.padOptions () () ()).map clearing from rfl]
    decide +kernel
  exact hall _ (List.mem_map_of_mem hm) key h2

theorem append_since {F : Type} (fe : Conf.FloatEnv F) (cls : Conf.Cls F) (clear key : Str)
    (hk : Dict.get? cls key = some (.append, .list [])) (hc : Conf.Clears cls clear key) (hu : ∀ c, Conf.Clears cls c key → c = clear)
    (given : List (Str × Str)) : (Conf.runLines fe (Conf.fresh cls) given).read key = some (.list (since clear key given)) := by
  have hg : ∀ l : List (Str × Str), Conf.givenValues .append key l = (l.filter (fun x => x.1 = key)).map Prod.snd := by
    intro l
    unfold Conf.givenValues
    induction l.filter (fun x => decide (x.1 = key)) with
    | nil => rfl
    | cons a l ih => simp [Conf.lineValues] at ih ⊢; exact ih
  rcases last_clear clear given with h | ⟨before, v, after, rfl, h⟩
  · rw [C20_append fe cls key .append [] (.inl rfl) hk given (fun l hl hx => h l hl (hu _ hx)), since_all _ _ _ h, hg]
    rfl
  · rw [C20_append_after_clear fe cls key .append [] (.inl rfl) hk before after clear v hc (fun l hl hx => h l hl (hu _ hx)),
      since_last _ _ _ _ _ h, hg]

theorem configured_conf {F : Type} (fe : Conf.FloatEnv F) (imp : Str → Option Str → Context.Import Unit)
    (files : Str → Option (List Str)) (paranoid : Bool) (lang : Option Str) (lines : List Str) : ∀ (c0 : GCtx F),
    (configured (realEnv fe imp files paranoid lang) lines c0).conf =
      Conf.runLines fe c0.conf (settings ((realEnv fe imp files paranoid lang).isCmd c0) lines) := by
  induction lines with
  | nil => intro c0; rfl
  | cons l lines ih =>
    intro c0
    unfold configured settings
    rw [List.foldl_cons, List.filter_cons]
    by_cases h : Skipped l ∨ keyword l ∈ known2 ∨ (realEnv fe imp files paranoid lang).isCmd c0 (keyword l) = true
    · rw [if_pos h]
      simp only [h, decide_true, Bool.not_true, Bool.false_eq_true, if_false]
      exact ih c0
    · rw [if_neg h]
      simp only [h, decide_false, Bool.not_false, if_true, List.map_cons]
      have hc : ((realEnv fe imp files paranoid lang).parseConfig c0 (keyword l) (argument l)).1 =
          { c0 with conf := (Conf.parseConfig fe c0.conf (keyword l) (argument l)).1 } := by
        simp only [realEnv]
        split <;> rename_i hx <;> rw [hx]
      rw [hc]
      exact ih _

theorem lastGood_kind {F : Type} (fe : Conf.FloatEnv F) (t : Conf.OptType) (key : Str) (P : Conf.OptVal F → Prop)
    (hp : ∀ v w, Conf.prescribed fe t v = some (some w) → P w) : ∀ (lines : List (Str × Str)) (d : Conf.OptVal F), P d →
    P (Conf.lastGood fe t key lines d)
  | [], d, hd => hd
  | l :: lines, d, hd => by
    rw [lastGood_cons]
    refine lastGood_kind fe t key P hp lines _ ?_
    split
    · cases hx : Conf.prescribed fe t l.2 with
      | none => exact hd
      | some x =>
        cases x with
        | none => exact hd
        | some w => exact hp _ _ hx
    · exact hd

/-- **C168**.  In the main configuration: the template is what the `report` lines say since the last
`clear_report_template`; the same with `unsafe_report`, and with `add_header` and `remove_header` since the last `clear_headers`;
the required score, the contact and `report_safe` are what the last line says that can be read.  Lines about rules do not count. -/
theorem C168_options {F : Type} (fe : Conf.FloatEnv F) (imp : Str → Option Str → Context.Import Unit)
    (files : Str → Option (List Str)) (paranoid : Bool) (lang : Option Str) (five ten two none_ : F) (reg : Context.Ctx Unit) (lines : List Str) :
    let E := realEnv fe imp files paranoid lang
    let c0 : GCtx F := ⟨Conf.fresh (Conf.padOptions five ten two), reg⟩
    let given := settings (E.isCmd c0) lines
    let o := optionsOf none_ (configured E lines c0)
    o.report = since c!"clear_report_template" c!"report" given ∧
    o.unsafeReport = since c!"clear_unsafe_report_template" c!"unsafe_report" given ∧
    o.addHeader = since c!"clear_headers" c!"add_header" given ∧
    o.removeHeader = since c!"clear_headers" c!"remove_header" given ∧
    .float o.required = Conf.lastGood fe .float c!"required_score" given (.float five) ∧
    .str o.contact = Conf.lastGood fe .str c!"report_contact" given (.str []) ∧
    .int o.reportSafe = Conf.lastGood fe .int c!"report_safe" given (.int 1) := by
  intro E c0 given o
  have hconf : (configured E lines c0).conf = Conf.runLines fe (Conf.fresh (Conf.padOptions five ten two)) given :=
    configured_conf fe imp files paranoid lang lines c0
  have r1 := append_since fe (Conf.padOptions five ten two) c!"clear_report_template" c!"report" rfl ⟨_, rfl, by decide⟩
    (fun c h => (clears_pad five ten two c _ h).1 rfl) given
  have r2 := append_since fe (Conf.padOptions five ten two) c!"clear_unsafe_report_template" c!"unsafe_report" rfl ⟨_, rfl, by decide⟩
    (fun c h => (clears_pad five ten two c _ h).2.1 rfl) given
  have r3 := append_since fe (Conf.padOptions five ten two) c!"clear_headers" c!"add_header" rfl ⟨_, rfl, by decide⟩
    (fun c h => (clears_pad five ten two c _ h).2.2.1 rfl) given
  have r4 := append_since fe (Conf.padOptions five ten two) c!"clear_headers" c!"remove_header" rfl ⟨_, rfl, by decide⟩
    (fun c h => (clears_pad five ten two c _ h).2.2.2.1 rfl) given
  have r5 := C19_last fe (Conf.padOptions five ten two) c!"required_score" .float (.float five) rfl (by simp) (by simp) (by simp)
    (fun c h => (clears_pad five ten two c _ h).2.2.2.2.1 rfl) given
  have r6 := C19_last fe (Conf.padOptions five ten two) c!"report_contact" .str (.str []) rfl (by simp) (by simp) (by simp)
    (fun c h => (clears_pad five ten two c _ h).2.2.2.2.2.1 rfl) given
  have r7 := C19_last fe (Conf.padOptions five ten two) c!"report_safe" .int (.int 1) rfl (by simp) (by simp) (by simp)
    (fun c h => (clears_pad five ten two c _ h).2.2.2.2.2.2 rfl) given
  obtain ⟨x, hx⟩ : ∃ x, Conf.lastGood fe .float c!"required_score" given (.float five) = .float x :=
    lastGood_kind fe .float _ (fun v => ∃ x, v = .float x) (by
      intro v w h
      simp only [Conf.prescribed] at h
      split at h
      · cases h
      · cases hq : fe.parse v with
        | none => rw [hq] at h; cases h
        | some y => rw [hq] at h; cases h; exact ⟨y, rfl⟩) given _ ⟨five, rfl⟩
  obtain ⟨y, hy⟩ : ∃ x, Conf.lastGood fe .str c!"report_contact" given (.str []) = .str x :=
    lastGood_kind fe .str _ (fun v => ∃ x, v = .str x) (by
      intro v w h
      simp only [Conf.prescribed] at h
      cases h; exact ⟨v, rfl⟩) given _ ⟨[], rfl⟩
  obtain ⟨z, hz⟩ : ∃ x, Conf.lastGood fe .int c!"report_safe" given (.int 1) = .int x :=
    lastGood_kind fe .int _ (fun v => ∃ x, v = .int x) (by
      intro v w h
      simp only [Conf.prescribed] at h
      split at h
      · cases h
      · cases hq : int? v with
        | none => rw [hq] at h; cases h
        | some y => rw [hq] at h; cases h; exact ⟨y, rfl⟩) given _ ⟨1, rfl⟩
  rw [hx] at r5 ⊢
  rw [hy] at r6 ⊢
  rw [hz] at r7 ⊢
  rw [← hconf] at r1 r2 r3 r4 r5 r6 r7
  simp only [o, optionsOf, r1, r2, r3, r4, r5, r6, r7, and_self]

def kindOf {F : Type} (p : Str × Conf.OptType × Conf.OptVal F) : Conf.OptType × Bool :=
  (p.2.1, match p.2.2 with | .list _ => true | _ => false)

theorem runLines_calm {F : Type} (fe : Conf.FloatEnv F) (five ten two : F) (before : List (Str × Str)) (k v : Str)
    (hv : ∀ t d, Dict.get? (Conf.padOptions five ten two) k = some (t, d) → t = .int ∨ t = .float → Conf.prescribed fe t v ≠ none) :
    (Conf.parseConfig fe (Conf.runLines fe (Conf.fresh (Conf.padOptions five ten two)) before) k v).2 = .unclaimed ∨
    (Conf.parseConfig fe (Conf.runLines fe (Conf.fresh (Conf.padOptions five ten two)) before) k v).2 = .inhibit := by
  have hkind : ∀ p ∈ (Conf.padOptions five ten two).map kindOf,
      (p.1 = .append ∨ p.1 = .appendSplit ∨ p.1 = .clear → p.2 = true) ∧ p.1 ≠ .timevalue := by
    rw [show (Conf.padOptions five ten two).map kindOf =
      (Conf.padOptions () () ()).map kindOf from rfl]
    decide +kernel
  obtain ⟨h1, h2⟩ := C20_accepted fe (Conf.padOptions five ten two) (by
    intro k t d hk ht
    have := (hkind _ (List.mem_map_of_mem (Dict.mem_of_get? _ hk))).1 ht
    cases d <;> simp [kindOf] at this
    exact ⟨_, rfl⟩) before k v
  cases hk : Dict.get? (Conf.padOptions five ten two) k with
  | none => exact .inl (h1 hk)
  | some x =>
    obtain ⟨t, d⟩ := x
    right
    obtain ⟨k1, k2⟩ := h2 t d hk
    have hnt := (hkind _ (List.mem_map_of_mem (Dict.mem_of_get? _ hk))).2
    cases t with
    | append => exact k1 (.inl rfl)
    | appendSplit => exact k1 (.inr (.inl rfl))
    | clear => exact k1 (.inr (.inr rfl))
    | timevalue => exact absurd rfl hnt
    | int => exact (k2 (by simp)).2 (hv _ _ hk (by simp))
    | float => exact (k2 (by simp)).2 (hv _ _ hk (by simp))
    | bool => exact (k2 (by simp)).2 (by simp [Conf.prescribed])
    | str => exact (k2 (by simp)).2 (by simp [Conf.prescribed])
    | list => exact (k2 (by simp)).2 (by simp [Conf.prescribed])

/-- **C168**: the main configuration meets the condition of C141, C165 and C168 on lines that set options if the numbers among them
can be read. -/
theorem C168_calm {F : Type} (fe : Conf.FloatEnv F) (imp : Str → Option Str → Context.Import Unit)
    (files : Str → Option (List Str)) (lang : Option Str) (five ten two : F) (reg : Context.Ctx Unit)
    (lines : List Str) (hreg : Dict.has reg.cmds c!"tflags" = false) :
    let E := realEnv fe imp files false lang
    let c0 : GCtx F := ⟨Conf.fresh (Conf.padOptions five ten two), reg⟩
    (∀ p ∈ settings (E.isCmd c0) lines, ∀ t d, Dict.get? (Conf.padOptions five ten two) p.1 = some (t, d) →
      t = .int ∨ t = .float → Conf.prescribed fe t p.2 ≠ none) → CalmLines E c0 lines := by
  intro E c0 hgood
  refine ⟨rfl, hreg, ?_⟩
  intro before l after e hs hk hc
  have hmem : (keyword l, argument l) ∈ settings (E.isCmd c0) lines := by
    unfold settings
    refine List.mem_map.2 ⟨l, List.mem_filter.2 ⟨by rw [e]; simp, ?_⟩, rfl⟩
    simp [hs, hk, hc]
  have hconf := configured_conf fe imp files false lang before c0
  have := runLines_calm fe five ten two (settings (E.isCmd c0) before) (keyword l) (argument l) (hgood _ hmem)
  show ∃ b, ((realEnv fe imp files false lang).parseConfig (configured E before c0) (keyword l) (argument l)).2 = .done b
  have e2 : (configured E before c0).conf = Conf.runLines fe (Conf.fresh (Conf.padOptions five ten two)) (settings (E.isCmd c0) before) := hconf
  simp only [realEnv]
  rw [e2]
  generalize Conf.parseConfig fe _ (keyword l) (argument l) = x at this
  obtain ⟨s, r⟩ := x
  rcases this with h | h <;> simp only at h <;> subst h <;> exact ⟨_, rfl⟩

theorem cmd_real {F : Type} (fe : Conf.FloatEnv F) (imp : Str → Option Str → Context.Import Unit)
    (files : Str → Option (List Str)) (paranoid : Bool) (lang : Option Str) (c : GCtx F) (k v t : Str) :
    (realEnv fe imp files paranoid lang).isCmd ((realEnv fe imp files paranoid lang).parseConfig c k v).1 t =
      (realEnv fe imp files paranoid lang).isCmd c t := by
  simp only [realEnv]
  split <;> rfl

/-- **C168**: so files that set such options and define rules are text of the kind that the theorems are about. -/
theorem C168_rules {F : Type} (fe : Conf.FloatEnv F) (imp : Str → Option Str → Context.Import Unit)
    (files : Str → Option (List Str)) (lang : Option Str) (five ten two : F) (reg : Context.Ctx Unit)
    (lines : List Str) (hreg : Dict.has reg.cmds c!"tflags" = false) (hdl : ∀ l ∈ lines, Defining l) :
    let E := realEnv fe imp files false lang
    let c0 : GCtx F := ⟨Conf.fresh (Conf.padOptions five ten two), reg⟩
    (∀ p ∈ settings (E.isCmd c0) lines, ∀ t d, Dict.get? (Conf.padOptions five ten two) p.1 = some (t, d) →
      t = .int ∨ t = .float → Conf.prescribed fe t p.2 ≠ none) →
    RuleText E c0 lines (lines.flatMap (assigns (E.isCmd c0))) (configured E lines c0) := by
  intro E c0 hgood
  exact calm_rules E (cmd_real fe imp files false lang) lines hdl c0 (C168_calm fe imp files lang five ten two reg lines hreg hgood)

/-! ### A case -/

def spamdOutside : Outside Int Unit where
  env := intEnv
  options := fun _ => ⟨5, c!"root@here", 1, [c!"\"Is it spam: _YESNO_, _SCORE_ of _REQD_\"", c!"_TESTS_ _UNKNOWN_"], [],
    [c!"all Level _STARS_"], []⟩
  tags := fun _ => []

def spamdTemplate : List TLine :=
  [⟨c!"\"", [.lit c!"Is it spam: ", .tag c!"YESNO", .lit c!", ", .tag c!"SCORE", .lit c!" of ", .tag c!"REQD"], [], c!"\""⟩,
   ⟨[], [.tag c!"TESTS", .lit c!" ", .tag c!"UNKNOWN"], [], []⟩]

example : (spamdOutside.options ()).report = spamdTemplate.map TLine.text ∧ Something spamdTemplate :=
  ⟨by decide, by simp [spamdTemplate, Something]⟩

example : ∀ t ∈ spamdTemplate, t.Ok := by
  intro t ht
  simp only [spamdTemplate, List.mem_cons, List.not_mem_nil, or_false] at ht
  rcases ht with rfl | rfl
  · refine ⟨?_, .inl rfl, by decide, by decide, ?_⟩
    · intro g hg
      simp only [List.mem_cons, List.not_mem_nil, or_false] at hg
      rcases hg with rfl | rfl | rfl | rfl | rfl | rfl <;>
        first | (simp only [Seg.Ok, TagName]; decide) | simp [Seg.Ok, PlainText]
    · intro c hc
      rcases hc with hc | hc <;> simp [TLine.inner, Seg.text] at hc <;> subst hc <;> decide
  · refine ⟨?_, .inl rfl, by decide, by decide, ?_⟩
    · intro g hg
      simp only [List.mem_cons, List.not_mem_nil, or_false] at hg
      rcases hg with rfl | rfl | rfl <;>
        first | (simp only [Seg.Ok, TagName]; decide) | simp [Seg.Ok, PlainText]
    · intro c hc
      rcases hc with hc | hc <;> simp [TLine.inner, Seg.text] at hc <;> subst hc <;> decide

def spamdReportRequest : Request :=
  { spamdRequest with line := c!"REPORT SPAMC/1.2\r" }

set_option maxRecDepth 8000 in
/-- The rules are those of the example of C141. -/
example : (fullAnswer spamdSite spamdOutside () [c!"/etc/a.cf", c!"/etc/c.cf"] ⟨spamdReportRequest.bytes [80, 73], [1]⟩).map
      (fun r => (r.1, r.2.data)) =
    some (⟨[c!"SPAMD/1.5 0 EX_OK\r\n", c!"Spam: True ; 12 / 5\r\n", c!"Content-length: 43\r\n\r\n",
      c!"Is it spam: Yes, 12 of 5\nM,A,E @@UNKNOWN@@\n"], [], none⟩, [80, 73]) := by
  decide +kernel

/-- The same site with the main configuration. -/
def realLines : List Str :=
  [c!"required_score 3", c!"report Is it spam: _YESNO_", c!"body A /buy/", c!"clear_report_template", c!"score A 2 # two",
    c!"report Score _SCORE_ of _REQD_ for _PREVIEW_", c!"required_score 4", c!"describe A Wants to sell", c!"report _REPORT_",
    c!"report_contact root@here"]

def realSite : Site Int (Str × ReFlags) Unit (GCtx Int) Str where
  env := { scanEnv with
    parser := realEnv demoFloats (fun _ _ => .missing) (fun f => if f = c!"/etc/a.cf" then some realLines else none) false (some c!"C")
    hasEval := fun _ f => f == c!"check_it", cmd := fun _ _ => none, conf := fun _ => ⟨false, false, false, false⟩
    evalFn := fun _ _ _ _ x => (some 2, x), plugin := fun _ _ x => (none, x) }
  lib := spamdSite.lib
  split := spamdSite.split
  reads := spamdSite.reads
  relays := fun _ => none
  version := c!"1.5"
  base := fun _ => spamdSite.base ()
  outer := spamdSite.outer

def realOutside : Outside Int (GCtx Int) := ⟨intEnv, optionsOf 0, fun _ => []⟩

def realStart : GCtx Int := ⟨Conf.fresh demoCls, Context.Ctx.empty⟩

example : ∀ p ∈ settings (realSite.env.parser.isCmd realStart) realLines, ∀ t d, Dict.get? demoCls p.1 = some (t, d) →
    t = .int ∨ t = .float → Conf.prescribed demoFloats t p.2 ≠ none := by
  have e : settings (realSite.env.parser.isCmd realStart) realLines =
      [(c!"required_score", c!"3"), (c!"report", c!"Is it spam: _YESNO_"), (c!"clear_report_template", []),
       (c!"report", c!"Score _SCORE_ of _REQD_ for _PREVIEW_"), (c!"required_score", c!"4"), (c!"report", c!"_REPORT_"),
       (c!"report_contact", c!"root@here")] := by decide +kernel
  rw [e]
  intro p hp t d hk ht
  simp only [List.mem_cons, List.not_mem_nil, or_false] at hp
  rcases hp with rfl | rfl | rfl | rfl | rfl | rfl | rfl
  all_goals
    cases hk
    first
    | (rcases ht with h | h <;> cases h; done)
    | (rw [Conf.prescribed]; decide)

set_option maxRecDepth 8000 in
example : (fullAnswer realSite realOutside realStart [c!"/etc/a.cf"] ⟨spamdReportRequest.bytes [], []⟩).map (fun r => r.1.written) =
    some [c!"SPAMD/1.5 0 EX_OK\r\n", c!"Spam: False ; 2 / 4\r\n", c!"Content-length: 59\r\n\r\n",
      c!"Score 2 of 4 for buy now [...]\n\r\n* 2 A BODY: Wants to sell\n"] := by
  decide +kernel

example (mail : Mail Int Seen) : ∃ verdict what, (serve (⟨c!"1.5", fun _ => .ok { spamdSite.base () with
      conf := ⟨5, [], 1, c!"Report", [], []⟩ }, fun _ => .ok mail⟩ : Host Int Seen) ⟨spamdReportRequest.bytes [], []⟩).1 =
    ⟨[successLine c!"1.5" c!"EX_OK", verdict, badHeaderLine c!"1.5" what], [], none⟩ :=
  C39_tags_violated (⟨c!"1.5", fun _ => .ok { spamdSite.base () with conf := ⟨5, [], 1, c!"Report", [], []⟩ }, fun _ => .ok mail⟩ : Host Int Seen)
    _ (fun _ => rfl) spamdReportRequest
    { line := ⟨c!"REPORT", c!"SPAMC/1.2", ⟨by decide, by decide +kernel⟩, by decide⟩
      options := by unfold OptLine.Ok; decide +kernel
      blank := ⟨by decide, by decide⟩
      length := ⟨c!"31", by decide +kernel, by decide +kernel⟩
      plain := by decide +kernel
      ascii := by decide +kernel } mail rfl mail.st rfl (by decide) rfl [] []

end Verif.Props
