import Verif.Spec.SpamdProcess
import Verif.Props.SpamdReport

/-!
# C169: the message that a client gets back
-/

namespace Verif.Props
open Verif Py Spec Build Parser Scan Protocol Spamd Content Report

variable {S R V C β : Type} [PyNum S]

/-- The changes that the lines for one verdict ask for: first the additions, then the removals. -/
def changesFor (value : Str → Str) (adds : List AddLine) (shape : AddLine → TLine) (removes : List RemoveLine) (f : For) : List Change :=
  (adds.filter (fun l => l.target = f)).map (fun l => .add (c!"X-Spam-" ++ l.name) ((shape l).shown value)) ++
  (removes.filter (fun l => l.target = f)).map (fun l => .remove (c!"X-Spam-" ++ l.name))

theorem split1_first : ∀ (sep s a b : Str), split1 sep s = some (a, b) → sep ≠ [] → ¬ sep <:+: a ++ sep.dropLast
  | sep, [], a, b, h, hne => by
    cases sep with
    | nil => exact absurd rfl hne
    | cons x xs => simp [split1] at h
  | sep, c :: cs, a, b, h, hne => by
    have hlen : 0 < sep.length := List.length_pos_iff.2 hne
    simp only [split1] at h
    split at h
    · cases h
      intro hi
      have := hi.length_le
      rw [List.nil_append, List.length_dropLast] at this
      omega
    · rename_i hp
      cases hs : split1 sep cs with
      | none => simp [hs] at h
      | some p =>
        obtain ⟨x, y⟩ := p
        simp only [hs, Option.some.injEq, Prod.mk.injEq] at h
        obtain ⟨rfl, rfl⟩ := h
        have ih := split1_first sep cs x y hs hne
        rw [List.cons_append, List.infix_cons_iff]
        rintro (h | h)
        · apply hp
          rw [List.isPrefixOf_iff_prefix, split1_spec hs]
          refine h.trans ?_
          rw [List.cons_prefix_cons]
          refine ⟨rfl, ?_⟩
          rw [List.append_assoc, List.prefix_append_right_inj]
          exact (List.dropLast_prefix sep).trans (List.prefix_append ..)
        · exact ih h

theorem cut_headers (text : Str) :
    UpToEmptyLine text (match split1 c!"\n\n" text with | some (a, _) => a ++ c!"\n\n" | none => text ++ c!"\n\n") := by
  cases h : split1 c!"\n\n" text with
  | none => exact .inr ⟨(split1_none_iff _ _).1 h, rfl⟩
  | some p =>
    obtain ⟨a, b⟩ := p
    exact .inl ⟨a, b, split1_spec h, split1_first _ _ _ _ h (by simp), rfl⟩

theorem adjustE_on (e : Engine S Seen) (st : MsgSt S Seen) : ∀ (ps : List (Mod × Change)) (h : Hdrs),
    (∀ p ∈ ps, (p.1.remove = true ∧ p.2 = .remove p.1.name) ∨
      (p.1.remove = false ∧ ∃ v, texted e st p.1.value = .ok v ∧ p.2 = .add p.1.name v)) →
    adjustE e st (ps.map Prod.fst) h = .ok ((ps.map Prod.snd).foldl Change.on h)
  | [], h, _ => rfl
  | p :: ps, h, hm => by
    have ih := fun h => adjustE_on e st ps h (fun m hm' => hm m (by simp [hm']))
    rw [List.map_cons, adjustE, List.map_cons, List.foldl_cons]
    rcases hm p (by simp) with ⟨hr, hc⟩ | ⟨hr, v, hv, hc⟩
    · rw [if_pos hr, ih, hc]
      rfl
    · rw [if_neg (by rw [hr]; simp), hv, hc]
      exact ih _

/-- A template shown with the values of the tags. -/
theorem report_shown (e : Engine S Seen) (st : MsgSt S Seen) (d : Dict Str Str) (hd : e.build st = some d) (value : Str → Str)
    (ts : List TLine) (hts : ∀ t ∈ ts, t.Ok) (hv : ∀ t ∈ ts, ∀ x, Seg.tag x ∈ t.segs → Dict.get? d x = some (value x)) :
    ∃ report, reportText e st (join c!"\n" ((ts.map TLine.text).map (fun v => (convertTags v).1))) = .ok report ∧ IsReport value ts report := by
  have f1 := template_fmt d value ts hts hv
  have hn := template_nil ts hts
  by_cases hs : Something ts
  · refine ⟨join c!"\n" (ts.map (TLine.shown value)) ++ c!"\n", ?_, fun _ => rfl, fun h => absurd hs h⟩
    unfold reportText texted
    rw [if_neg (fun h => (hn.1 h) hs), hd]
    simp only [f1]
    rfl
  · refine ⟨c!"\n(no report template found)\n", ?_, fun h => absurd h hs, fun _ => rfl⟩
    unfold reportText
    rw [if_pos (hn.2 hs)]

theorem newMessage_outer (sv : Site S R V C β) (sent : Str) (mail : Mail S Seen) (h : newMessage sv sent = .ok mail) :
    ∃ st, mail = { sv.outer mail.st.rest.raw st with st := st } := by
  unfold newMessage at h
  simp only at h
  split at h
  · cases h
  · split at h
    · cases h
    · cases h
      exact ⟨_, rfl⟩

/-- **C169** (the part that holds).  A server that is started with rule files as in C141, and a client that sends a well-formed
PROCESS or HEADERS request for a message that can be read.  After the verdict the client gets the message, with its own headers
and: with `report_safe 0` the list of the rules that matched, then what the `add_header` lines for all messages say, each tag
replaced by what it stands for, without the headers that `remove_header` names, then the same with the lines for the
verdict.  PROCESS of spam without `report_safe 0` gives the wrapping message with the report instead, with the same changes.
HEADERS gives the text up to the first empty line. -/
theorem C169_process_partial (sv : Site S R V C β) (out : Outside S C)
    (htol : sv.env.parser.paranoid = false) (c0 options : C) (files lines : List Str) (as : List (Str × Str × PVal))
    (hf : Lines sv.env.parser ⟨[], false, c0⟩ [] files lines) (ht : RuleText sv.env.parser c0 lines as options)
    (good : Str → Bool) (docs : Str → Doc S R) (hw : ∀ c, isSpace c = true → sv.lib.word c = false)
    (q : Request) (command : Str) (hq : q.Asks command) (hc : command ∈ [c!"PROCESS", c!"HEADERS"]) (more : Utf8.Bytes) (g : List Nat)
    (m : Facts) (hr : ReadAs sv.lib sv.split q.sent m) (hm : Reads sv.env.mail m.headers m.dec m.addrs)
    (hmp : ∀ p ∈ m.partHeaders, sv.env.mail.decode p.2 = some (m.dec p.2)) (hrel : sv.relays m.headers = none)
    (hpt : (Dict.keys (out.tags m.raw)).Nodup)
    (shown : Hdrs → Str) (wrapper : Hdrs) (wrapped : Str → Hdrs → Str)
    (hout : ∀ st, (sv.outer m.raw st).orig = m.headers ∧ (sv.outer m.raw st).render = shown ∧
      (sv.outer m.raw st).bounce = wrapper ∧ (sv.outer m.raw st).renderBounce = wrapped)
    (ts us : List TLine) (hts : ∀ t ∈ ts, t.Ok) (hus : ∀ t ∈ us, t.Ok)
    (adds : List AddLine) (shape : AddLine → TLine) (removes : List RemoveLine)
    (hadds : ∀ l ∈ adds, l.value = (shape l).text ∧ (shape l).Ok) :
    let defined := (firstMentions (as.map (fun a => a.1))).filter good
    let rules : Conds R := fun n => if n ∈ defined then some (docs n).cond else none
    let o := out.options options
    o.report = ts.map TLine.text → o.unsafeReport = us.map TLine.text →
    o.addHeader = adds.map AddLine.text → o.removeHeader = removes.map RemoveLine.text →
    (∀ n ∈ firstMentions (as.map (fun a => a.1)),
      (good n = true → Says sv.env.float sv.env.re (sv.env.conf options) as n (docs n)) ∧
      (good n = false → Broken sv.env options as n)) →
    (∀ n ∈ defined, lastValue as n c!"type" = some (.str c!"mimeheader") → (docs n).priority = 0) →
    (∀ n k, Works rules k n → Works rules 11 n) →
    ∃ uris, Links ((sv.split m.raw).2.filterMap (partText sv.lib)) uris ∧
      ((∀ n ∈ defined, ∀ fn args t, (docs n).cond = .asks fn args t → Answers sv.env options { m with uris := uris } fn args t) →
      ∃ (order : List Str) (val : Str → Int),
        InOrder defined docs rules order ∧ (∀ n ∈ order, Gives sv.env.re rules { m with uris := uris } n (val n)) ∧
        let matched := order.filter (fun n => decide (val n ≠ 0))
        let verdict : Verdict S := ⟨total 0 (matched.map (fun n => (docs n).score)), o.required, matched.map (fun n => (n, val n)), m.rawText⟩
        let about : Str → RuleInfo S := fun n => ⟨(docs n).score, labelOf as n, describedAs as n⟩
        let value := tagValue out.env o.contact about (fun t => Dict.get? (out.tags m.raw) t) verdict
        let spam := decide (verdict.required ≤ verdict.score)
        let changes := changesFor value adds shape removes .all ++ changesFor value adds shape removes (if spam then .spam else .ham)
        let result (start : Hdrs) := changes.foldl Change.on
          (start ++ if o.reportSafe = 0 then [(c!"X-Spam-Report", perRule out.env about verdict)] else [])
        ∃ body, (command = c!"HEADERS" → UpToEmptyLine (shown (result m.headers)) body) ∧
          (command = c!"PROCESS" → ¬ (spam = true ∧ o.reportSafe ≠ 0) → body = shown (result m.headers)) ∧
          (command = c!"PROCESS" → spam = true ∧ o.reportSafe ≠ 0 → ∃ report second, IsReport value ts report ∧ IsReport value us second ∧
            body = wrapped (report ++ second) (result wrapper)) ∧
          ∃ count, Decimal count body.length ∧
            (fullAnswer sv out c0 files ⟨q.bytes more, g⟩).map (fun r => (r.1, r.2.data)) =
              some (⟨[successLine sv.version c!"EX_OK",
                verdictText spam (out.env.fmt1 verdict.score) (out.env.shw verdict.required),
                c!"Content-length: " ++ count ++ c!"\r\n\r\n", body], [], none⟩, more)) := by
  intro defined rules o hot hou hoa hor hsays hmime hdepth
  obtain ⟨uris, hlinks, hk⟩ := checked_details sv out htol c0 options files lines as hf ht good docs hw q.sent m hr hm hmp hrel hpt hsays hmime hdepth
  refine ⟨uris, hlinks, fun hans => ?_⟩
  obtain ⟨order, val, hord, hval, l, mail, st, hload, hctx, hnew, hall⟩ := hk hans
  refine ⟨order, val, hord, hval, ?_⟩
  intro matched verdict about value spam changes result
  obtain ⟨mods, hm1, hmods⟩ := C56_read adds removes
  rw [← hoa, ← hor] at hm1
  obtain ⟨k1, k2, k3, d, k4, k5⟩ := hall mods
  have hconf : (fullEngine sv out mods l).conf = rconf o := by
    simp only [fullEngine, hctx]; rfl
  -- the message
  obtain ⟨o1, o2, o3, o4⟩ : mail.orig = m.headers ∧ mail.render = shown ∧ mail.bounce = wrapper ∧ mail.renderBounce = wrapped := by
    obtain ⟨_, _, mail', -, hnew', hst'⟩ := newMessage_read sv hw q.sent m hr hm hrel
    rw [hnew] at hnew'
    cases hnew'
    obtain ⟨st0, e⟩ := newMessage_outer sv q.sent mail hnew
    rw [hst'] at e
    have := hout st0
    rw [e]
    exact this
  -- the templates
  obtain ⟨r1, hr1, hr1'⟩ := report_shown (fullEngine sv out mods l) st d k4 value ts hts (fun t ht x hx => k5 x (by
    simp only [rconf, List.mem_append]
    rw [hot]
    exact .inl (.inl (template_tags ts hts t ht x hx))))
  obtain ⟨r2, hr2, hr2'⟩ := report_shown (fullEngine sv out mods l) st d k4 value us hus (fun t ht x hx => k5 x (by
    simp only [rconf, List.mem_append]
    rw [hou]
    exact .inl (.inr (template_tags us hus t ht x hx))))
  have hsp : isSpam (fullEngine sv out mods l).conf st = spam := by
    unfold isSpam
    rw [hconf, k2]
    rfl
  -- the headers
  have hval : ∀ a ∈ adds, texted (fullEngine sv out mods l) st (convertTags a.value).1 = .ok ((shape a).shown value) := by
    intro a ha
    obtain ⟨ha1, ha2⟩ := hadds a ha
    have := template_fmt d value [shape a] (by simpa using ha2) (by
      intro t ht x hx
      rw [List.mem_singleton] at ht
      subst ht
      apply k5
      simp only [rconf, List.mem_append]
      right
      rw [hoa, List.mem_flatMap]
      refine ⟨a.text, List.mem_map_of_mem ha, ?_⟩
      have ht : headerTemplate a.text = a.value := by
        obtain ⟨status, target, name, value, h1, h2, c, v, rfl, h3⟩ := a
        have e : splitNone 2 (AddLine.text ⟨status, target, name, c :: v, h1, h2, c, v, rfl, h3⟩) = [status, name, c :: v] := by
          simp only [AddLine.text]
          rw [show status ++ c!" " ++ name ++ c!" " ++ (c :: v) = status ++ ' ' :: (name ++ ' ' :: (c :: v)) by simp,
            splitNone_word (For.word h1), splitNone_space, splitNone_word h2, splitNone_space, splitNone_zero h3]
        unfold headerTemplate
        rw [e]
      rw [ht, ha1]
      have := template_tags [shape a] (by simpa using ha2) (shape a) (by simp) x hx
      simpa using this)
    unfold texted
    rw [k4]
    simp only [ha1]
    simp only [List.map_cons, List.map_nil, join] at this
    rw [this]
  have hadj : ∀ (f : For) (start : Hdrs), adjustE (fullEngine sv out mods l) st (f.list mods) start =
      .ok ((changesFor value adds shape removes f).foldl Change.on start) := by
    intro f start
    let ps : List (Mod × Change) :=
      (adds.filter (fun l => l.target = f)).map (fun l =>
        (⟨false, c!"X-Spam-" ++ l.name, (convertTags l.value).1⟩, .add (c!"X-Spam-" ++ l.name) ((shape l).shown value))) ++
      (removes.filter (fun l => l.target = f)).map (fun l => (⟨true, c!"X-Spam-" ++ l.name, []⟩, .remove (c!"X-Spam-" ++ l.name)))
    have e1 : ps.map Prod.fst = f.list mods := by
      rw [hmods f]; simp only [ps, List.map_append, List.map_map]; rfl
    have e2 : ps.map Prod.snd = changesFor value adds shape removes f := by
      simp only [ps, changesFor, List.map_append, List.map_map]; rfl
    rw [← e1, ← e2]
    apply adjustE_on
    intro p hp
    rcases List.mem_append.1 hp with hp | hp
    · obtain ⟨a, ha, rfl⟩ := List.mem_map.1 hp
      exact .inr ⟨rfl, _, hval a (List.mem_filter.1 ha).1, rfl⟩
    · obtain ⟨a, ha, rfl⟩ := List.mem_map.1 hp
      exact .inl ⟨rfl, rfl⟩
  have hmain : ∀ headerOnly : Bool, adjustedMessage (fullEngine sv out mods l) mail st headerOnly =
      let text := if spam = true ∧ headerOnly = false ∧ o.reportSafe ≠ 0 then wrapped (r1 ++ r2) (result wrapper) else shown (result m.headers)
      .ok (if headerOnly then match split1 c!"\n\n" text with | some (a, _) => a ++ c!"\n\n" | none => text ++ c!"\n\n" else text) := by
    intro headerOnly
    have hrs : (fullEngine sv out mods l).conf.reportSafe = o.reportSafe := by rw [hconf]; rfl
    have hrep : (fullEngine sv out mods l).conf.report = join c!"\n" ((ts.map TLine.text).map (fun v => (convertTags v).1)) := by
      rw [hconf, ← hot]; rfl
    have hun : (fullEngine sv out mods l).conf.unsafeReport = join c!"\n" ((us.map TLine.text).map (fun v => (convertTags v).1)) := by
      rw [hconf, ← hou]; rfl
    have hmm : (fullEngine sv out mods l).mods = mods := rfl
    have hk3 : (fullEngine sv out mods l).matchedReport st = some (perRule out.env about verdict) := k3
    have hj : ∀ start : Hdrs, ∃ x, adjustE (fullEngine sv out mods l) st mods.all start = .ok x ∧
        adjustE (fullEngine sv out mods l) st (if spam = true then mods.spam else mods.ham) x = .ok (changes.foldl Change.on start) := by
      intro start
      refine ⟨_, hadj .all start, ?_⟩
      have := hadj (if spam = true then .spam else .ham) ((changesFor value adds shape removes .all).foldl Change.on start)
      simp only [changes, List.foldl_append]
      rw [← this]
      cases spam <;> rfl
    unfold adjustedMessage
    simp only [hsp, hrs, hrep, hun, hmm, hk3, hr1, hr2, o1, o2, o3, o4]
    by_cases h0 : o.reportSafe = 0
    · obtain ⟨x, hx1, hx2⟩ := hj (m.headers ++ [(c!"X-Spam-Report", perRule out.env about verdict)])
      simp only [h0, decide_true, Bool.or_true, if_true, hx1, hx2]
      simp only [result, h0, if_true, ne_eq, not_true, and_false, if_false]
      cases headerOnly
      · rfl
      · simp only [if_true]
        split <;> simp_all
    · by_cases hb : spam = true ∧ headerOnly = false
      · obtain ⟨hb1, hb2⟩ := hb
        obtain ⟨x, hx1, hx2⟩ := hj wrapper
        rw [hb1] at hx2
        subst hb2
        simp only [if_true] at hx2
        simp only [hb1, h0, decide_false, Bool.not_true, Bool.or_false, Bool.false_eq_true, if_false, if_true, hx1, hx2]
        simp [result, h0]
      · obtain ⟨x, hx1, hx2⟩ := hj m.headers
        have hp : (!spam || headerOnly || decide (o.reportSafe = 0)) = true := by
          cases hs : spam <;> cases hh : headerOnly <;> simp_all
        have hcond : ¬ (spam = true ∧ headerOnly = false ∧ o.reportSafe ≠ 0) := fun hx => hb ⟨hx.1, hx.2.1⟩
        simp only [hp, if_true, hcond, if_false]
        rw [if_neg h0]
        simp only [hx1, hx2]
        simp only [result, if_neg h0, List.append_nil]
        cases headerOnly
        · rfl
        · simp only [if_true]
          cases hq : split1 c!"\n\n" (shown (changes.foldl Change.on m.headers)) <;> rfl
  have hv : verdictLine (fullEngine sv out mods l) st = verdictText spam (out.env.fmt1 verdict.score) (out.env.shw verdict.required) := by
    unfold verdictLine verdictText
    rw [hsp, hconf, k2]
    rfl
  rw [← hv]
  have hch : command ∈ checking := by
    simp only [List.mem_cons, List.not_mem_nil, or_false] at hc
    rcases hc with rfl | rfl <;> decide
  simp only [List.mem_cons, List.not_mem_nil, or_false] at hc
  rcases hc with rfl | rfl
  · refine ⟨_, fun hx => absurd hx (by decide), ?_, ?_, full_answered sv out c0 files l mods hload (by rw [hctx]; exact hm1) q _ hq hch more g mail hnew st k1
      (if spam = true ∧ o.reportSafe ≠ 0 then wrapped (r1 ++ r2) (result wrapper) else shown (result m.headers)) ?_⟩
    · intro _ hn
      rw [if_neg hn]
    · intro _ hn
      rw [if_pos hn]
      exact ⟨r1, r2, hr1', hr2', rfl⟩
    · intro cmd hcm
      rw [show Dict.get? commands c!"PROCESS" = some Cmd.process by decide] at hcm
      cases hcm
      show adjustedMessage _ _ _ false = _
      rw [hmain false]
      simp
  · refine ⟨_, fun _ => cut_headers (shown (result m.headers)), fun hx => absurd hx (by decide), fun hx => absurd hx (by decide),
      full_answered sv out c0 files l mods hload (by rw [hctx]; exact hm1) q _ hq hch more g mail hnew st k1 _ ?_⟩
    intro cmd hcm
    rw [show Dict.get? commands c!"HEADERS" = some Cmd.headers by decide] at hcm
    cases hcm
    show adjustedMessage _ _ _ true = _
    rw [hmain true]
    simp

/-- **C169** is violated: with a single percent sign in an `add_header` line for all messages, whatever the rules and the message,
the client gets the verdict and no message, and the answer breaks off without saying so. -/
theorem C169_percent_violated (sv : Site S R V C β) (out : Outside S C)
    (htol : sv.env.parser.paranoid = false) (c0 options : C) (files lines : List Str) (as : List (Str × Str × PVal))
    (hf : Lines sv.env.parser ⟨[], false, c0⟩ [] files lines) (ht : RuleText sv.env.parser c0 lines as options)
    (good : Str → Bool) (docs : Str → Doc S R) (hw : ∀ c, isSpace c = true → sv.lib.word c = false)
    (q : Request) (hq : q.Asks c!"HEADERS") (more : Utf8.Bytes) (g : List Nat)
    (m : Facts) (hr : ReadAs sv.lib sv.split q.sent m) (hm : Reads sv.env.mail m.headers m.dec m.addrs)
    (hmp : ∀ p ∈ m.partHeaders, sv.env.mail.decode p.2 = some (m.dec p.2)) (hrel : sv.relays m.headers = none)
    (hpt : (Dict.keys (out.tags m.raw)).Nodup) (line : AddLine) (a b : Str) (hl : line.value = a ++ c!"%" ++ b) (hall : line.target = .all)
    (ha : Ordinary a) (hb : Ordinary b) (hp : b.head? ≠ some '(') :
    let defined := (firstMentions (as.map (fun a => a.1))).filter good
    let rules : Conds R := fun n => if n ∈ defined then some (docs n).cond else none
    let o := out.options options
    o.addHeader = [line.text] → o.removeHeader = [] →
    (∀ n ∈ firstMentions (as.map (fun a => a.1)),
      (good n = true → Says sv.env.float sv.env.re (sv.env.conf options) as n (docs n)) ∧
      (good n = false → Broken sv.env options as n)) →
    (∀ n ∈ defined, lastValue as n c!"type" = some (.str c!"mimeheader") → (docs n).priority = 0) →
    (∀ n k, Works rules k n → Works rules 11 n) →
    (∀ uris, ∀ n ∈ defined, ∀ fn args t, (docs n).cond = .asks fn args t → Answers sv.env options { m with uris := uris } fn args t) →
    ∃ verdict, (fullAnswer sv out c0 files ⟨q.bytes more, g⟩).map (fun r => r.1) =
      some ⟨[successLine sv.version c!"EX_OK", verdict], [], some .other⟩ := by
  intro defined rules o hoa hor hsays hmime hdepth hans
  obtain ⟨uris, hlinks, hk⟩ := checked_details sv out htol c0 options files lines as hf ht good docs hw q.sent m hr hm hmp hrel hpt hsays hmime hdepth
  obtain ⟨order, val, hord, hval, l, mail, st, hload, hctx, hnew, hcheck⟩ := hk (hans uris)
  obtain ⟨mods, hm1, hmods⟩ := C56_read [line] []
  rw [List.map_cons, List.map_nil, List.map_nil, ← hoa, ← hor] at hm1
  have hmods := hmods .all
  simp only [List.filter_cons, hall, decide_true, if_true, List.filter_nil, List.map_cons, List.map_nil, List.append_nil] at hmods
  obtain ⟨k1, k2, k3, d, k4, k5⟩ := hcheck mods
  have hfmt := C60_single_percent_violated d a b ha hb hp
  have hadj : ∀ start, adjustE (fullEngine sv out mods l) st (fullEngine sv out mods l).mods.all start = .error .other := by
    intro start
    rw [show (fullEngine sv out mods l).mods.all = [⟨false, c!"X-Spam-" ++ line.name, (convertTags line.value).1⟩] from hmods]
    unfold adjustE texted
    simp only [Bool.false_eq_true, if_false, k4, hl, hfmt]
  have hrt : extraDetails (fullEngine sv out mods l) mail st .headers = .error .other := by
    show adjustedMessage _ _ _ true = _
    unfold adjustedMessage
    simp only [Bool.or_true, Bool.true_or, if_true, k3]
    by_cases h0 : (fullEngine sv out mods l).conf.reportSafe = 0
    · simp only [h0, if_true, hadj]
    · simp only [h0, if_false, hadj]
  refine ⟨verdictLine (fullEngine sv out mods l) st, ?_⟩
  have hk : checkHandle (fullEngine sv out mods l) mail .headers =
      ⟨[verdictLine (fullEngine sv out mods l) st], [], some .other⟩ := by
    unfold checkHandle
    simp only [k1, hrt]
  obtain ⟨s1, -, s2⟩ := (served (fullHost sv out mods l) (fullEngine sv out mods l) (fun _ => rfl) q c!"HEADERS" hq .headers (by decide) rfl
    (by decide) (by decide) (by decide) more g).1 mail hnew
  unfold fullAnswer
  rw [hload]
  have hm1 : readMods (out.options l.ctx).addHeader (out.options l.ctx).removeHeader = some mods := by rw [hctx]; exact hm1
  simp only [hm1, Option.map_some, Option.some.injEq]
  rw [s2 (by rw [hk]; simp), hk]
  rfl

/-! ### A case -/

/-- The headers, an empty line and the body. -/
def plainRender (h : Hdrs) : Str := h.flatMap (fun p => p.1 ++ c!": " ++ p.2 ++ c!"\n") ++ c!"\nbuy now\n"

def returningSite : Site Int (Str × ReFlags) Unit Unit Str :=
  { spamdSite with outer := fun _ st => ⟨st, spamdHeaders, [(c!"From", c!"me")], plainRender, fun r h => plainRender h ++ r⟩ }

def returningAdds : List AddLine :=
  [⟨c!"all", .all, c!"Level", c!"_SCORE_ of _REQD_", rfl, by unfold Word; decide, '_', c!"SCORE_ of _REQD_", rfl, by decide⟩,
   ⟨c!"Ham", .ham, c!"Flag", c!"no", rfl, by unfold Word; decide, 'n', c!"o", rfl, by decide⟩,
   ⟨c!"SPAM", .spam, c!"Flag", c!"_YESNOCAPS_", rfl, by unfold Word; decide, '_', c!"YESNOCAPS_", rfl, by decide⟩]

def returningRemoves : List RemoveLine := [⟨c!"all", .all, c!"old", rfl, by unfold Word; decide⟩]

def returningShape (l : AddLine) : TLine :=
  if l.name = c!"Level" then ⟨[], [.tag c!"SCORE", .lit c!" of ", .tag c!"REQD"], [], []⟩
  else if l.target = .ham then ⟨[], [.lit c!"no"], [], []⟩
  else ⟨[], [.tag c!"YESNOCAPS"], [], []⟩

def returningOutside (reportSafe : Int) : Outside Int Unit where
  env := intEnv
  options := fun _ => ⟨5, c!"root@here", reportSafe, spamdTemplate.map TLine.text, [],
    returningAdds.map AddLine.text, returningRemoves.map RemoveLine.text⟩
  tags := fun _ => []

example : returningAdds.map AddLine.text = [c!"all Level _SCORE_ of _REQD_", c!"Ham Flag no", c!"SPAM Flag _YESNOCAPS_"] ∧
    returningRemoves.map RemoveLine.text = [c!"all old"] := by decide

example : ∀ l ∈ returningAdds, l.value = (returningShape l).text ∧ (returningShape l).Ok := by
  intro l hl
  simp only [returningAdds, List.mem_cons, List.not_mem_nil, or_false] at hl
  rcases hl with rfl | rfl | rfl
  · refine ⟨by decide, ?_, .inl rfl, by decide, by decide, ?_⟩
    · intro g hg
      simp [returningShape] at hg
      rcases hg with rfl | rfl | rfl <;> first | (simp only [Seg.Ok, TagName]; decide) | simp [Seg.Ok, PlainText]
    · intro c hc
      rcases hc with hc | hc <;> simp [returningShape, TLine.inner, Seg.text] at hc <;> subst hc <;> decide
  · refine ⟨by decide, ?_, .inl rfl, by decide, by decide, ?_⟩
    · intro g hg
      simp [returningShape] at hg
      subst hg
      simp [Seg.Ok, PlainText]
    · intro c hc
      rcases hc with hc | hc <;> simp [returningShape, TLine.inner, Seg.text] at hc <;> subst hc <;> decide
  · refine ⟨by decide, ?_, .inl rfl, by decide, by decide, ?_⟩
    · intro g hg
      simp [returningShape] at hg
      subst hg
      simp only [Seg.Ok, TagName]; decide
    · intro c hc
      rcases hc with hc | hc <;> simp [returningShape, TLine.inner, Seg.text] at hc <;> subst hc <;> decide

example (st : MsgSt Int Seen) : (returningSite.outer spamdFacts.raw st).orig = spamdFacts.headers ∧
    (returningSite.outer spamdFacts.raw st).render = plainRender := ⟨rfl, rfl⟩

set_option maxRecDepth 8000 in
example : (fullAnswer returningSite (returningOutside 0) () [c!"/etc/a.cf", c!"/etc/c.cf"]
      ⟨({ spamdRequest with line := c!"Process SPAMC/1.2\r" } : Request).bytes [80, 73], [1]⟩).map (fun r => r.1.written.drop 3) =
    some [c!"To: me\nSubject: x\nX-Spam-Report: \r\n* 5 M No description available.\r\n* 3 A BODY: No description available.\r\n* 4 E No description available.\nX-Spam-Level: 12 of 5\nX-Spam-Flag: YES\n\nbuy now\n"] := by
  decide +kernel

set_option maxRecDepth 8000 in
example : (fullAnswer returningSite (returningOutside 1) () [c!"/etc/a.cf", c!"/etc/c.cf"]
      ⟨({ spamdRequest with line := c!"headers SPAMC/1.2\r" } : Request).bytes [80, 73], [1]⟩).map (fun r => r.1.written.drop 3) =
    some [c!"To: me\nSubject: x\nX-Spam-Level: 12 of 5\nX-Spam-Flag: YES\n\n"] := by
  decide +kernel

set_option maxRecDepth 8000 in
example : (fullAnswer returningSite (returningOutside 1) () [c!"/etc/a.cf", c!"/etc/c.cf"]
      ⟨({ spamdRequest with line := c!"PROCESS SPAMC/1.2\r" } : Request).bytes [80, 73], [1]⟩).map (fun r => r.1.written.drop 3) =
    some [c!"From: me\nX-Spam-Level: 12 of 5\nX-Spam-Flag: YES\n\nbuy now\nIs it spam: Yes, 12 of 5\nM,A,E @@UNKNOWN@@\n\n(no report template found)\n"] := by
  decide +kernel

end Verif.Props
