import Verif.Spec.Spamd
import Verif.Spec.Decimal
import Verif.Props.ScanText
import Verif.Props.Protocol
import Verif.Props.Content
import Verif.Props.Message

/-!
# C165: what a client is told about a message
-/

namespace Verif.Props
open Verif Py Spec Build Parser Scan Protocol Spamd Content

variable {S R V C β : Type} [PyNum S]

theorem load_ctx (E : ScanEnv S R V C) (htol : E.parser.paranoid = false) (c0 options : C) (files lines : List Str) (as : List (Str × Str × PVal))
    (hf : Lines E.parser ⟨[], false, c0⟩ [] files lines) (ht : RuleText E.parser c0 lines as options) (l : Loaded S R V C)
    (hl : load E c0 files = some l) : l.ctx = options := by
  have hread := read_rules E.parser htol ht []
  have hparse : parseFiles E.parser files ⟨[], false, c0⟩ = (⟨as.foldl assign [], false, options⟩, none) := by
    rw [parseFiles_text E.parser _ hf _ rfl rfl (by rw [hread]), hread]
  unfold load at hl
  rw [hparse] at hl
  simp only at hl
  split at hl
  · cases hl
  · split at hl
    · cases hl; rfl
    · cases hl

theorem rendered_all (L : Lib β) (parts : List (Part β)) (h : ∀ p ∈ parts, Readable L p) :
    parts.filter (fun p => decide (p.maintype ≠ c!"text" ∨ partText L p ≠ none)) = parts := by
  rw [List.filter_eq_self]
  intro p hp
  rw [decide_eq_true_eq]
  by_cases ht : p.maintype = c!"text"
  · right
    obtain ⟨b, hb, hd, -⟩ := h p hp ht
    unfold partText
    rw [if_neg (by simpa using ht), hb]
    rcases hd with ⟨s, hs⟩ | ⟨⟨e, he, -⟩, s, hs⟩
    · simp [hs]
    · simp [he, hs]
  · exact .inl ht

theorem reads_accessed (L : Mail.MailLib) (names : List Str) (m : Mail.Msg) :
    names.foldl (fun m n => (Mail.getDecoded L n m).2) m =
      (names.map Access.decoded).foldl (fun (m : Mail.Msg) (a : Access) => a.run L m) m := by
  induction names generalizing m with
  | nil => rfl
  | cons n ns ih => simp only [List.foldl_cons, List.map_cons]; exact ih _

/-- A message that can be read is read as it is. -/
theorem newMessage_read (sv : Site S R V C β) (hw : ∀ c, isSpace c = true → sv.lib.word c = false) (sent : Str) (m : Facts)
    (hr : ReadAs sv.lib sv.split sent m) (hm : Reads sv.env.mail m.headers m.dec m.addrs)
    (hrel : sv.relays m.headers = none) :
    ∃ uris ops mail, Links ((sv.split m.raw).2.filterMap (partText sv.lib)) uris ∧ newMessage sv sent = .ok mail ∧
      mail.st = ⟨0, [], [], ⟨m.text, m.rawText, m.raw, uris, accessed sv.env.mail m.headers m.partHeaders ops⟩⟩ := by
  obtain ⟨⟨ls, rest, hu, hs, hraw⟩, hh, hp, ht, hrt, hph⟩ := hr
  have hsub : (((sv.split m.raw).1.filter (fun p => lower p.1 == c!"subject")).map Prod.snd) = rawValues m.headers c!"Subject" := by
    rw [← hh]
    rfl
  have hdec : ∀ s ∈ rawValues m.headers c!"Subject", sv.env.mail.decode s = some (m.dec s) := by
    intro s hs'
    obtain ⟨p, hp', rfl⟩ := List.mem_map.1 hs'
    exact hm.decodes p (List.mem_filter.1 hp').1
  let L : Lib β := { sv.lib with decodeHeader := sv.env.mail.decode }
  obtain ⟨v, hv⟩ := C71_readable_partial L (rawValues m.headers c!"Subject") (sv.split m.raw).2
    (fun s hs' => by
      have := hdec s hs'
      show sv.env.mail.decode s ≠ none
      rw [this]; simp) hp
  obtain ⟨h1, h2⟩ := C71_text_partial L _ _ _ hv
  obtain ⟨-, h3, -⟩ := C71_parts_partial L _ _ _ hv
  have h1 : v.text = m.text := by
    rw [h1, ht]
    congr 2
    have : ∀ l : List Str, (∀ s ∈ l, sv.env.mail.decode s = some (m.dec s)) → l.filterMap L.decodeHeader = l.map m.dec := by
      intro l hl
      induction l with
      | nil => rfl
      | cons a as ih =>
        rw [List.filterMap_cons_some (show L.decodeHeader a = some (m.dec a) from hl a (by simp)), List.map_cons,
          ih (fun s hs' => hl s (by simp [hs']))]
    exact this _ hdec
  have h2 : v.rawText = m.rawText := by rw [h2, hrt]; rfl
  have h3 : v.mimeHeaders = m.partHeaders := by
    rw [h3, hph, rendered_all L _ hp]
  have htr : Mail.translateLineBreaks sent = m.raw := by rw [hs, hraw]; exact C34_styles ls rest hu
  let st : MsgSt S Seen := ⟨0, [], [], ⟨m.text, m.rawText, m.raw, v.uris,
    accessed sv.env.mail m.headers m.partHeaders ((c!"Subject" :: sv.reads m.headers).map Access.decoded)⟩⟩
  have hnew : newMessage sv sent = .ok { sv.outer m.raw st with st := st } := by
    unfold newMessage
    simp only [htr]
    rw [hsub]
    rw [show parseContent { sv.lib with decodeHeader := sv.env.mail.decode } (rawValues m.headers c!"Subject") (sv.split m.raw).2 = .ok v from hv]
    simp only [← hh, hrel, reads_accessed, h1, h2, h3]
    rfl
  refine ⟨v.uris, (c!"Subject" :: sv.reads m.headers).map Access.decoded, _, ⟨?_, ?_⟩, hnew, rfl⟩
  · intro u hu'
    obtain ⟨k1, p, hp', s, hs', k2⟩ := C72_sound L _ _ _ hv u hu'
    exact ⟨k1, s, List.mem_filterMap.2 ⟨p, hp', hs'⟩, k2⟩
  · intro s hs' pre l post e hl hpre hpost
    obtain ⟨p, hp', hs'⟩ := List.mem_filterMap.1 hs'
    subst e
    exact C72_complete_partial L hw _ _ _ hv p hp' pre l post hs' hl hpre hpost

/-- A well-formed request is handled with the text sent. -/
theorem getMessage_sent (q : Request) (command : Str) (hq : q.Asks command) (d : Dict Str Str)
    (hd : ∀ n, Dict.get? d n = lastGiven q.options n) (more : Utf8.Bytes) (g : List Nat) :
    ∃ c', getMessage d ⟨Utf8.encode q.sent ++ more, g⟩ = (.ok q.sent, c') ∧ c'.data = more := by
  obtain ⟨-, ho, hb, ⟨t, ht, hn⟩, hz, ha⟩ := hq
  have hlen : (Utf8.encode q.sent).length = q.sent.length := by rw [Utf8.encode_ascii _ ha, List.length_map]
  have htake : (Utf8.encode q.sent ++ more).take q.sent.length = Utf8.encode q.sent := by rw [← hlen, List.take_left]
  obtain ⟨text, k1, k2, k3⟩ := C38_length_partial d t q.sent.length (by rw [hd, ht]) hn (by unfold Compressed; rw [hd]; exact hz)
    ⟨Utf8.encode q.sent ++ more, g⟩ (by
      simp only [htake]
      rw [Utf8.encode_ascii _ ha]
      intro b hb'
      obtain ⟨c, hc', rfl⟩ := List.mem_map.1 hb'
      exact ha c hc')
  have htext : text = q.sent := Utf8.encode_injective (by rw [k2]; exact htake)
  subst htext
  have hd : (getMessage d ⟨Utf8.encode q.sent ++ more, g⟩).2.data = more := by
    rw [k3, ← hlen]
    exact List.drop_left
  generalize getMessage d ⟨Utf8.encode q.sent ++ more, g⟩ = gm at k1 hd
  obtain ⟨r, c'⟩ := gm
  simp only at k1 hd
  subst k1
  exact ⟨c', rfl, hd⟩

/-- What is left of the handling of a well-formed request. -/
theorem served (h : Host S Seen) (e : Engine S Seen) (hu : ∀ u, h.ruleset u = .ok e) (q : Request) (command : Str) (hq : q.Asks command)
    (cmd : Cmd) (hc : Dict.get? commands command = some cmd) (hc1 : cmd.hasOptions = true) (hc2 : cmd ≠ .skip) (hc3 : cmd ≠ .ping)
    (hc4 : cmd ≠ .tell) (more : Utf8.Bytes) (g : List Nat) :
    (∀ mail, h.parse q.sent = .ok mail →
      (serve h ⟨q.bytes more, g⟩).2.data = more ∧
      (∃ extra, (serve h ⟨q.bytes more, g⟩).1.written = okLine h.version cmd.okCode :: (checkHandle e mail cmd).written ++ extra) ∧
      ((checkHandle e mail cmd).exn ≠ some .keyError → (serve h ⟨q.bytes more, g⟩).1 =
        ⟨okLine h.version cmd.okCode :: (checkHandle e mail cmd).written, (checkHandle e mail cmd).actions, (checkHandle e mail cmd).exn⟩)) ∧
    (h.parse q.sent = .error .other → (serve h ⟨q.bytes more, g⟩).1 = ⟨[], [], some .other⟩) := by
  have hq' := hq
  obtain ⟨⟨word, proto, hl, hw⟩, ho, hb, -⟩ := hq
  unfold Request.bytes
  rw [serve_line h _ _ _ hl, hw, hc]
  obtain ⟨d, h1, h2⟩ := C37_options q.options ho (.blank q.blank (Utf8.encode q.sent ++ more)) hb g
  obtain ⟨c', hgm, hd⟩ := getMessage_sent q command hq' d h2 more g
  have h1' : getOptions ⟨q.options.flatMap (fun o => wire o.text) ++ (wire q.blank ++ (Utf8.encode q.sent ++ more)), g⟩ =
      (.ok d, ⟨Utf8.encode q.sent ++ more, g⟩) := h1
  constructor
  · intro mail hp
    have hprep : prepare h cmd ⟨q.options.flatMap (fun o => wire o.text) ++ (wire q.blank ++ (Utf8.encode q.sent ++ more)), g⟩ =
        (.ok (e, d, some mail), c') := by
      simp only [prepare, hc1, if_true, h1', hu, hgm, hp]
    simp only [getAndHandle, if_neg hc2, hprep, handle_check e d mail cmd hc2 hc3 hc4]
    refine ⟨?_, ?_, ?_⟩
    · split
      · rename_i heq; injection heq with _ heq; rw [← heq]; exact hd
      · exact hd
    · split
      · rename_i heq; injection heq with heq _; injection heq with heq _ _; rw [← heq]; exact ⟨_, rfl⟩
      · exact ⟨[], by simp⟩
    · intro hx
      split
      · rename_i heq
        injection heq with heq _
        injection heq with _ _ heq
        exact absurd heq hx
      · rfl
  · intro hp
    have hprep : prepare h cmd ⟨q.options.flatMap (fun o => wire o.text) ++ (wire q.blank ++ (Utf8.encode q.sent ++ more)), g⟩ =
        (.error .other, c') := by
      simp only [prepare, hc1, if_true, h1', hu, hgm, hp]
    simp only [getAndHandle, if_neg hc2, hprep]

/-- **C39** is violated: if the tags of the report cannot be computed, as for a rule that matched and has no description
(`C39_key_error_violated`), then the client that asks for the report gets a success line, the verdict, and then the line for bad
requests. -/
theorem C39_tags_violated (h : Host S Seen) (e : Engine S Seen) (hu : ∀ u, h.ruleset u = .ok e) (q : Request) (hq : q.Asks c!"REPORT")
    (mail : Mail S Seen) (hp : h.parse q.sent = .ok mail) (s : MsgSt S Seen) (hm : e.matchMsg mail.st = .ok s)
    (hr : e.conf.report ≠ []) (hb : e.build s = none) (more : Utf8.Bytes) (g : List Nat) :
    ∃ verdict what, (serve h ⟨q.bytes more, g⟩).1 =
      ⟨[successLine h.version c!"EX_OK", verdict, badHeaderLine h.version what], [], none⟩ := by
  have hk : checkHandle e mail .report = ⟨[verdictLine e s], [], some .keyError⟩ := by
    simp only [checkHandle, hm, extraDetails, reportText, texted, hb, if_neg hr]
    rfl
  have hq' := hq
  obtain ⟨⟨word, proto, hl, hw⟩, ho, hb, -⟩ := hq
  unfold Request.bytes
  rw [serve_line h _ _ _ hl, hw, show Dict.get? commands c!"REPORT" = some .report by decide]
  obtain ⟨d, h1, h2⟩ := C37_options q.options ho (.blank q.blank (Utf8.encode q.sent ++ more)) hb g
  obtain ⟨c', hgm, hd⟩ := getMessage_sent q _ hq' d h2 more g
  have h1' : getOptions ⟨q.options.flatMap (fun o => wire o.text) ++ (wire q.blank ++ (Utf8.encode q.sent ++ more)), g⟩ =
      (.ok d, ⟨Utf8.encode q.sent ++ more, g⟩) := h1
  have hprep : prepare h .report ⟨q.options.flatMap (fun o => wire o.text) ++ (wire q.blank ++ (Utf8.encode q.sent ++ more)), g⟩ =
      (.ok (e, d, some mail), c') := by
    simp only [prepare, show Cmd.report.hasOptions = true from rfl, if_true, h1', hu, hgm, hp]
  simp only [getAndHandle, if_neg (show Cmd.report ≠ .skip by decide), hprep,
    handle_check e d mail .report (by decide) (by decide) (by decide), hk]
  exact ⟨_, _, rfl⟩

/-- The message as checked. -/
theorem checked_mail (sv : Site S R V C β)
    (htol : sv.env.parser.paranoid = false) (c0 options : C) (files lines : List Str) (as : List (Str × Str × PVal))
    (hf : Lines sv.env.parser ⟨[], false, c0⟩ [] files lines) (ht : RuleText sv.env.parser c0 lines as options)
    (good : Str → Bool) (docs : Str → Doc S R) (hw : ∀ c, isSpace c = true → sv.lib.word c = false)
    (sent : Str)
    (m : Facts) (hr : ReadAs sv.lib sv.split sent m) (hm : Reads sv.env.mail m.headers m.dec m.addrs)
    (hmp : ∀ p ∈ m.partHeaders, sv.env.mail.decode p.2 = some (m.dec p.2)) (hrel : sv.relays m.headers = none) :
    let defined := (firstMentions (as.map (fun a => a.1))).filter good
    let rules : Conds R := fun n => if n ∈ defined then some (docs n).cond else none
    (∀ n ∈ firstMentions (as.map (fun a => a.1)),
      (good n = true → Says sv.env.float sv.env.re (sv.env.conf options) as n (docs n)) ∧
      (good n = false → Broken sv.env options as n)) →
    (∀ n ∈ defined, lastValue as n c!"type" = some (.str c!"mimeheader") → (docs n).priority = 0) →
    (∀ n k, Works rules k n → Works rules 11 n) →
    ∃ uris, Links ((sv.split m.raw).2.filterMap (partText sv.lib)) uris ∧
      ((∀ n ∈ defined, ∀ fn args t, (docs n).cond = .asks fn args t → Answers sv.env options { m with uris := uris } fn args t) →
      ∃ (order : List Str) (val : Str → Int),
        InOrder defined docs rules order ∧ (∀ n ∈ order, Gives sv.env.re rules { m with uris := uris } n (val n)) ∧
        let matched := order.filter (fun n => decide (val n ≠ 0))
        let score := total 0 (matched.map (fun n => (docs n).score))
        let required := (sv.base options).conf.required
        ∃ l mail st, load sv.env c0 files = some l ∧ newMessage sv sent = .ok mail ∧ (engine sv l).matchMsg mail.st = .ok st ∧
          symbolsBody st = join c!"," matched ∧
          verdictLine (engine sv l) st =
            verdictText (decide (required ≤ score)) ((sv.base options).fmt1 score) ((sv.base options).shw required)) := by
  intro defined rules hsays hmime hdepth
  obtain ⟨uris, ops, mail, hlinks, hnew, hst⟩ := newMessage_read sv hw sent m hr hm hrel
  refine ⟨uris, hlinks, fun hans => ?_⟩
  obtain ⟨st, order, val, hscan, hord, hval, hck, hsc⟩ := C141_text_partial sv.env htol c0 options files lines as hf ht good docs
    { m with uris := uris } hm hmp ops hsays hmime hans hdepth
  refine ⟨order, val, hord, hval, ?_⟩
  intro matched score required
  unfold scan at hscan
  cases hload : load sv.env c0 files with
  | none => rw [hload] at hscan; cases hscan
  | some l =>
    rw [hload] at hscan
    simp only [Option.map_some, Option.some.injEq] at hscan
    have hctx : l.ctx = options := load_ctx sv.env htol c0 options files lines as hf ht l hload
    refine ⟨l, mail, st, rfl, hnew, ?_, ?_, ?_⟩
    · rw [hst, ← hscan]
      rfl
    · unfold symbolsBody matchedNames
      rw [hck]
      congr 1
      simp only [List.filter_map, List.map_map]
      rw [show (Prod.fst ∘ fun n => (n, val n)) = (id : Str → Str) from rfl, List.map_id]
      rfl
    · unfold verdictLine verdictText Report.isSpam engine
      simp only [hctx, hsc]
      rfl

/-- **C165** (the part that holds).  A server that is started with rule files as in C141, and a client that sends a well-formed
CHECK or SYMBOLS request for a message that can be read, in whatever pieces.  The client is told `EX_OK`, then whether the sum
of the scores of the rules that match reaches the required score, with both numbers, then the length of the body, then, for
SYMBOLS, the names of the rules that match, higher priorities first, otherwise in the order in which the files mention them.
Nothing is read beyond the request. -/
theorem C165_answer_partial (sv : Site S R V C β)
    (htol : sv.env.parser.paranoid = false) (c0 options : C) (files lines : List Str) (as : List (Str × Str × PVal))
    (hf : Lines sv.env.parser ⟨[], false, c0⟩ [] files lines) (ht : RuleText sv.env.parser c0 lines as options)
    (good : Str → Bool) (docs : Str → Doc S R) (hw : ∀ c, isSpace c = true → sv.lib.word c = false)
    (q : Request) (command : Str) (hq : q.Asks command) (hc : command ∈ [c!"CHECK", c!"SYMBOLS"]) (more : Utf8.Bytes) (g : List Nat)
    (m : Facts) (hr : ReadAs sv.lib sv.split q.sent m) (hm : Reads sv.env.mail m.headers m.dec m.addrs)
    (hmp : ∀ p ∈ m.partHeaders, sv.env.mail.decode p.2 = some (m.dec p.2)) (hrel : sv.relays m.headers = none) :
    let defined := (firstMentions (as.map (fun a => a.1))).filter good
    let rules : Conds R := fun n => if n ∈ defined then some (docs n).cond else none
    (∀ n ∈ firstMentions (as.map (fun a => a.1)),
      (good n = true → Says sv.env.float sv.env.re (sv.env.conf options) as n (docs n)) ∧
      (good n = false → Broken sv.env options as n)) →
    (∀ n ∈ defined, lastValue as n c!"type" = some (.str c!"mimeheader") → (docs n).priority = 0) →
    (∀ n k, Works rules k n → Works rules 11 n) →
    ∃ uris, Links ((sv.split m.raw).2.filterMap (partText sv.lib)) uris ∧
      ((∀ n ∈ defined, ∀ fn args t, (docs n).cond = .asks fn args t → Answers sv.env options { m with uris := uris } fn args t) →
      ∃ (order : List Str) (val : Str → Int),
        InOrder defined docs rules order ∧ (∀ n ∈ order, Gives sv.env.re rules { m with uris := uris } n (val n)) ∧
        let matched := order.filter (fun n => decide (val n ≠ 0))
        let score := total 0 (matched.map (fun n => (docs n).score))
        let required := (sv.base options).conf.required
        let body := if command = c!"SYMBOLS" then join c!"," matched else []
        ∃ count, Decimal count body.length ∧
          (answer sv c0 files ⟨q.bytes more, g⟩).map (fun r => (r.1, r.2.data)) =
            some (⟨[successLine sv.version c!"EX_OK",
              verdictText (decide (required ≤ score)) ((sv.base options).fmt1 score) ((sv.base options).shw required),
              c!"Content-length: " ++ count ++ c!"\r\n\r\n", body], [], none⟩, more)) := by
  intro defined rules hsays hmime hdepth
  obtain ⟨uris, hlinks, hk⟩ := checked_mail sv htol c0 options files lines as hf ht good docs hw q.sent m hr hm hmp hrel hsays hmime hdepth
  refine ⟨uris, hlinks, fun hans => ?_⟩
  obtain ⟨order, val, hord, hval, l, mail, st, hload, hnew, hmatch, hsym, hverd⟩ := hk hans
  refine ⟨order, val, hord, hval, ?_⟩
  intro matched score required body
  have key : ∀ cmd : Cmd, extraDetails (engine sv l) mail st cmd = .ok body →
      checkHandle (engine sv l) mail cmd = ⟨[verdictText (decide (required ≤ score)) ((sv.base options).fmt1 score) ((sv.base options).shw required),
        c!"Content-length: " ++ dec body.length ++ c!"\r\n\r\n", body], [], none⟩ := by
    intro cmd he
    unfold checkHandle
    simp only [hmatch, he, hverd]
    rfl
  have hcmds : ∃ cmd, Dict.get? commands command = some cmd ∧ cmd.hasOptions = true ∧ cmd ≠ .skip ∧ cmd ≠ .ping ∧ cmd ≠ .tell ∧
      cmd.okCode = c!"EX_OK" ∧ extraDetails (engine sv l) mail st cmd = .ok body := by
    simp only [List.mem_cons, List.not_mem_nil, or_false] at hc
    rcases hc with rfl | rfl
    · exact ⟨.check, by decide, rfl, by decide, by decide, by decide, rfl, rfl⟩
    · refine ⟨.symbols, by decide, rfl, by decide, by decide, by decide, rfl, ?_⟩
      show Except.ok (symbolsBody st) = _
      rw [hsym]
      rfl
  obtain ⟨cmd, e1, e2, e3, e4, e5, e6, e7⟩ := hcmds
  refine ⟨dec body.length, decimal_toDigits _, ?_⟩
  have hk := key cmd e7
  obtain ⟨s1, -, s2⟩ := (served (host sv l) (engine sv l) (fun _ => rfl) q command hq cmd e1 e2 e3 e4 e5 more g).1 mail hnew
  unfold answer
  rw [hload]
  simp only [Option.map_some, Option.some.injEq, Prod.mk.injEq]
  refine ⟨?_, s1⟩
  rw [s2 (by rw [hk]; simp), hk, e6]
  rfl

/-- **C165** (the part that holds).  The other checking commands begin their answer in the same way, also if the report or the
message that follows cannot be made. -/
theorem C165_verdict_partial (sv : Site S R V C β)
    (htol : sv.env.parser.paranoid = false) (c0 options : C) (files lines : List Str) (as : List (Str × Str × PVal))
    (hf : Lines sv.env.parser ⟨[], false, c0⟩ [] files lines) (ht : RuleText sv.env.parser c0 lines as options)
    (good : Str → Bool) (docs : Str → Doc S R) (hw : ∀ c, isSpace c = true → sv.lib.word c = false)
    (q : Request) (command : Str) (hq : q.Asks command) (hc : command ∈ checking) (more : Utf8.Bytes) (g : List Nat)
    (m : Facts) (hr : ReadAs sv.lib sv.split q.sent m) (hm : Reads sv.env.mail m.headers m.dec m.addrs)
    (hmp : ∀ p ∈ m.partHeaders, sv.env.mail.decode p.2 = some (m.dec p.2)) (hrel : sv.relays m.headers = none) :
    let defined := (firstMentions (as.map (fun a => a.1))).filter good
    let rules : Conds R := fun n => if n ∈ defined then some (docs n).cond else none
    (∀ n ∈ firstMentions (as.map (fun a => a.1)),
      (good n = true → Says sv.env.float sv.env.re (sv.env.conf options) as n (docs n)) ∧
      (good n = false → Broken sv.env options as n)) →
    (∀ n ∈ defined, lastValue as n c!"type" = some (.str c!"mimeheader") → (docs n).priority = 0) →
    (∀ n k, Works rules k n → Works rules 11 n) →
    ∃ uris, Links ((sv.split m.raw).2.filterMap (partText sv.lib)) uris ∧
      ((∀ n ∈ defined, ∀ fn args t, (docs n).cond = .asks fn args t → Answers sv.env options { m with uris := uris } fn args t) →
      ∃ (order : List Str) (val : Str → Int),
        InOrder defined docs rules order ∧ (∀ n ∈ order, Gives sv.env.re rules { m with uris := uris } n (val n)) ∧
        let matched := order.filter (fun n => decide (val n ≠ 0))
        let score := total 0 (matched.map (fun n => (docs n).score))
        let required := (sv.base options).conf.required
        ∃ done rest, answer sv c0 files ⟨q.bytes more, g⟩ = some done ∧ done.2.data = more ∧
          done.1.written = successLine sv.version c!"EX_OK" ::
            verdictText (decide (required ≤ score)) ((sv.base options).fmt1 score) ((sv.base options).shw required) :: rest) := by
  intro defined rules hsays hmime hdepth
  obtain ⟨uris, hlinks, hk⟩ := checked_mail sv htol c0 options files lines as hf ht good docs hw q.sent m hr hm hmp hrel hsays hmime hdepth
  refine ⟨uris, hlinks, fun hans => ?_⟩
  obtain ⟨order, val, hord, hval, l, mail, st, hload, hnew, hmatch, hsym, hverd⟩ := hk hans
  refine ⟨order, val, hord, hval, ?_⟩
  intro matched score required
  obtain ⟨cmd, e1, e2, e3, e4, e5, e6⟩ := Cmd.checks hc
  obtain ⟨s1, ⟨extra, s2⟩, -⟩ := (served (host sv l) (engine sv l) (fun _ => rfl) q command hq cmd e1 e2 e3 e4 e5 more g).1 mail hnew
  have : ∃ rest, (checkHandle (engine sv l) mail cmd).written = verdictLine (engine sv l) st :: rest := by
    unfold checkHandle
    simp only [hmatch]
    split
    · exact ⟨_, rfl⟩
    · exact ⟨_, rfl⟩
  obtain ⟨rest, hrest⟩ := this
  refine ⟨_, rest ++ extra, by unfold answer; rw [hload]; rfl, s1, ?_⟩
  rw [s2, hrest, hverd, e6]
  rfl

/-- **C165** is violated: if a subject cannot be decoded, whatever the rules, no checking command gets an answer. -/
theorem C165_subject_violated (sv : Site S R V C β) (c0 : C) (files : List Str) (q : Request) (command : Str)
    (hq : q.Asks command) (hc : command ∈ checking) (more : Utf8.Bytes) (g : List Nat) (hcr : '\r' ∉ q.sent) (v : Str)
    (hv : v ∈ rawValues (sv.split q.sent).1 c!"Subject") (hd : sv.env.mail.decode v = none) (done : Done × Conn)
    (ha : answer sv c0 files ⟨q.bytes more, g⟩ = some done) : done.1 = ⟨[], [], some .other⟩ := by
  unfold answer at ha
  cases hload : load sv.env c0 files with
  | none => rw [hload] at ha; cases ha
  | some l =>
    rw [hload] at ha
    simp only [Option.map_some, Option.some.injEq] at ha
    obtain ⟨cmd, e1, e2, e3, e4, e5, e6⟩ := Cmd.checks hc
    rw [← ha]
    refine (served (host sv l) (engine sv l) (fun _ => rfl) q command hq cmd e1 e2 e3 e4 e5 more g).2 ?_
    obtain ⟨e, he⟩ := C71_subject_violated { sv.lib with decodeHeader := sv.env.mail.decode }
      (rawValues (sv.split q.sent).1 c!"Subject") (sv.split q.sent).2 v hv hd
    show newMessage sv q.sent = _
    unfold newMessage
    simp only [(C34_idempotent q.sent).2 hcr]
    rw [show ((sv.split q.sent).1.filter (fun p => lower p.1 == c!"subject")).map Prod.snd =
      rawValues (sv.split q.sent).1 c!"Subject" from rfl, he]

/-! ### A case -/

def spamdText : Str := c!"To: me\nSubject: x\n\nbuy now\n"

def spamdHeaders : List (Str × Str) := [(c!"To", c!"me"), (c!"Subject", c!"x")]

def spamdSite : Site Int (Str × ReFlags) Unit Unit Str where
  env := scanEnv
  lib := ⟨fun _ => false, some, fun _ _ b => .ok b, fun s => ([.data s], none), true, fun _ => true⟩
  split := fun raw => if raw = spamdText then (spamdHeaders, [⟨spamdHeaders, c!"text", c!"plain", some c!"buy now\n", none⟩]) else ([], [])
  reads := fun _ => [c!"Received", c!"Return-Path"]
  relays := fun _ => none
  version := c!"1.5"
  base := fun _ => { conf := ⟨5, [], 1, [], [], []⟩, mods := ⟨[], [], []⟩, lt := fun a b => decide (a < b), fmt1 := showInt, shw := showInt,
                     matchMsg := fun s => .ok s, build := fun _ => none, matchedReport := fun _ => none, hook := fun _ => none }
  outer := fun _ st => ⟨st, [], [], fun _ => [], fun _ _ => []⟩

def spamdRequest : Request where
  line := c!"symbols SPAMC/1.2\r"
  options := [⟨c!"Content-Length: 9\r", c!"Content-Length", c!" 9"⟩, ⟨c!"content-length: 31\r", c!"content-length", c!" 31"⟩,
    ⟨c!"User: me\r", c!"User", c!" me"⟩]
  blank := c!"\r"
  sent := c!"To: me\r\nSubject: x\r\n\r\nbuy now\r\n"

def spamdFacts : Facts :=
  ⟨c!"x buy now ", c!"buy now\n", spamdText, [], spamdHeaders, spamdHeaders, id, fun t => [([], t)], fun _ _ _ => 2⟩

example : RuleText spamdSite.env.parser () (scanLines ++ moreLines) scanAssigns () :=
  calm_rules spamdSite.env.parser (fun _ _ _ _ => rfl) (scanLines ++ moreLines) (by decide) () ⟨rfl, rfl, fun _ _ _ _ _ _ _ => ⟨true, rfl⟩⟩

example : spamdRequest.Asks c!"SYMBOLS" where
  line := ⟨c!"symbols", c!"SPAMC/1.2", ⟨by decide, by decide +kernel⟩, by decide⟩
  options := by unfold OptLine.Ok; decide +kernel
  blank := ⟨by decide, by decide⟩
  length := ⟨c!"31", by decide +kernel, by decide +kernel⟩
  plain := by decide +kernel
  ascii := by decide

example : ReadAs spamdSite.lib spamdSite.split spamdRequest.sent spamdFacts where
  raw := ⟨[(c!"To: me", .crlf), (c!"Subject: x", .crlf), ([], .crlf), (c!"buy now", .crlf)], [], by simp [Unambiguous], by decide, by decide⟩
  headers := by decide
  readable := by
    intro p hp _
    have hp : p ∈ [(⟨spamdHeaders, c!"text", c!"plain", some c!"buy now\n", none⟩ : Part Str)] := by
      rw [show spamdSite.split spamdFacts.raw = (spamdHeaders, [⟨spamdHeaders, c!"text", c!"plain", some c!"buy now\n", none⟩]) from by decide] at hp
      exact hp
    rw [List.mem_singleton] at hp
    subst hp
    exact ⟨c!"buy now\n", rfl, Or.inl ⟨_, rfl⟩, by intro h; exact absurd h (by decide)⟩
  text := by decide +kernel
  rawText := by decide +kernel
  partHeaders := by decide +kernel

example : Reads spamdSite.env.mail spamdFacts.headers spamdFacts.dec spamdFacts.addrs ∧
    (∀ p ∈ spamdFacts.partHeaders, spamdSite.env.mail.decode p.2 = some (spamdFacts.dec p.2)) ∧ spamdSite.relays spamdFacts.headers = none :=
  ⟨⟨fun _ _ => rfl, fun _ => rfl⟩, fun _ _ => rfl, rfl⟩

example (uris : List Str) (n : Str) (fn : Str) (args : List Str) (t : Str) (h : (scanDocs n).cond = .asks fn args t) :
    Answers spamdSite.env () { spamdFacts with uris := uris } fn args t := by
  have : fn = c!"check_it" := by
    unfold scanDocs at h
    repeat' split at h
    all_goals cases h
    rfl
  subst this
  exact ⟨rfl, args.map (fun _ => ()), by simp [spamdSite, scanEnv], fun x hx => ⟨x, hx, Or.inl rfl⟩⟩

/-- The rules about the files are those of the example of C141; the client sends the first byte alone, and another request
after this one. -/
example : (answer spamdSite () [c!"/etc/a.cf", c!"/etc/c.cf"] ⟨spamdRequest.bytes [80, 73], [1]⟩).map (fun r => (r.1, r.2.data)) =
    some (⟨[c!"SPAMD/1.5 0 EX_OK\r\n", c!"Spam: True ; 12 / 5\r\n", c!"Content-length: 5\r\n\r\n", c!"M,A,E"], [], none⟩, [80, 73]) := by
  decide +kernel

end Verif.Props
