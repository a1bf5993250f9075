import Verif.Props.ScanPre

/-!
# C141 for files that load plugins between rules
-/

namespace Verif.Props
open Verif Py Mail Parser Scan Spec  Build

variable {S R V C : Type} [PyNum S]

theorem read_rules (E : Parser.Env C) (htol : E.paranoid = false) {c c' : C} {ls : List Str} {as : List (Str × Str × PVal)}
    (h : RuleText E c ls as c') : ∀ res, readText E ls ⟨res, false, c⟩ = (⟨as.foldl assign res, false, c'⟩, none) := by
  induction h with
  | nil => intro res; rfl
  | other h1 _ ih =>
    intro res
    obtain ⟨r, h2, h3⟩ := handle_pre E (fun _ s => (s, none)) [] _ _ _ res h1
    show parseLines _ _ _ _ _ = _
    rw [parseLines_cons, h2]
    rcases h3 with rfl | rfl
    · exact ih res
    · exact ih res
  | @rule c l ls as c' hd hs hk htf _ ih =>
    intro res
    have hl := hd.2 hs
    have hp := hd.1.2 hs
    have hline : handleLine E (fun _ s => (s, none)) [] l ⟨res, false, c⟩ = handleTwo E (logical l) ⟨res, false, c⟩ := by
      rw [hl_main _ _ _ _ _ hd.1.1 hs rfl]
      unfold dispatch
      rw [if_neg hp.1, if_neg hp.2, if_neg hl.2, if_pos hk]
    have hcalm := two_calm E l ⟨res, false, c⟩ htf hl.1
    have hctx := handleTwo_ctx E l ⟨res, false, c⟩ hl.1
    have hres := (hl_assigns E (fun _ s => (s, none)) [] l ⟨res, false, c⟩ hd rfl
      (fun h1 h2 => by rcases hk with hk | hk
                       · exact absurd hk h1
                       · rw [h2] at hk; cases hk)
      (by rw [hline]; rcases hcalm.1 with e | e <;> rw [e] <;> simp)).1
    rw [hline] at hres
    show parseLines _ _ _ _ _ = _
    rw [parseLines_cons, hline]
    have hone : (handleTwo E (logical l) ⟨res, false, c⟩).1 = ⟨(assigns (E.isCmd c) l).foldl assign res, false, c⟩ := by
      cases hx : (handleTwo E (logical l) ⟨res, false, c⟩).1 with
      | mk r i cc =>
        rw [hx] at hres hctx hcalm
        simp only at hres hctx hcalm
        rw [hres, hctx, hcalm.2]
    have hgo : andThen E.paranoid (handleTwo E (logical l) ⟨res, false, c⟩) (parseLines E (fun _ s => (s, none)) [] ls) =
        parseLines E (fun _ s => (s, none)) [] ls (handleTwo E (logical l) ⟨res, false, c⟩).1 := by
      cases hx : handleTwo E (logical l) ⟨res, false, c⟩ with
      | mk s' e =>
        rw [hx] at hcalm
        rcases hcalm.1 with e | e <;> simp only at e <;> subst e
        · rfl
        · simp [andThen, htol]
    rw [hgo, hone, List.foldl_append]
    exact ih _

theorem shaped_text {E : Parser.Env C} {c c' : C} {ls : List Str} {as : List (Str × Str × PVal)} (h : RuleText E c ls as c') : Shaped as := by
  induction h with
  | nil => intro x hx; cases hx
  | other _ _ ih => exact ih
  | rule _ _ _ _ _ ih =>
    intro x hx
    rcases List.mem_append.1 hx with hx | hx
    · exact assigns_shape _ _ _ hx
    · exact ih x hx

/-- Lines that only set options and define rules are such lines. -/
theorem calm_rules (E : Parser.Env C) (hcmd : ∀ c k v t, E.isCmd (E.parseConfig c k v).1 t = E.isCmd c t) :
    ∀ (lines : List Str), (∀ l ∈ lines, Defining l) → ∀ c, CalmLines E c lines →
      RuleText E c lines (lines.flatMap (assigns (E.isCmd c))) (configured E lines c)
  | [], _, c, _ => .nil
  | l :: lines, hd, c, h => by
    have hdl := hd l (by simp)
    have ih := calm_rules E hcmd lines (fun x hx => hd x (by simp [hx])) _ (calm_tail hcmd h)
    have hasg : assigns (E.isCmd (configured E [l] c)) = assigns (E.isCmd c) := funext (assigns_congr (fun t => configured_cmd E hcmd t [l] c))
    rw [hasg] at ih
    rw [configured_cons, List.flatMap_cons]
    by_cases hs : Skipped l
    · have h0 : assigns (E.isCmd c) l = [] := by unfold assigns; rw [if_pos hs]
      have h1 : configured E [l] c = c := by simp [configured, hs]
      rw [h0]
      rw [h1] at ih ⊢
      exact .other (.skipped hdl.1.1 hs) ih
    · by_cases hk : keyword l ∈ known2 ∨ E.isCmd c (keyword l) = true
      · have h1 : configured E [l] c = c := by simp [configured, hs, hk]
        rw [h1] at ih ⊢
        exact .rule hdl hs hk h.tflags ih
      · simp only [not_or, Bool.not_eq_true] at hk
        obtain ⟨b, hb⟩ := h.config [] l lines rfl hs hk.1 hk.2
        have hb : (E.parseConfig c (keyword l) (argument l)).2 = .done b := hb
        have h1 : configured E [l] c = (E.parseConfig c (keyword l) (argument l)).1 := by
          simp [configured, hs, hk]
        rw [assigns_config _ _ hk.1 (by rw [hk.2]; simp)]
        refine .other (.option (b := b) hdl.1.1 hs ?_ hk.1 hk.2 ?_) ih
        · have h2 := hdl.1.2 hs
          have h3 := hdl.2 hs
          simp [h2.1, h2.2, h3.2]
        · rw [h1, ← hb]

/-- The rules that are built, the order and the results, as in `scan_core`. -/
theorem scan_text (E : ScanEnv S R V C) (htol : E.parser.paranoid = false) (c0 c1 : C) (files lines : List Str)
    (as : List (Str × Str × PVal)) (hf : Lines E.parser ⟨[], false, c0⟩ [] files lines) (ht : RuleText E.parser c0 lines as c1)
    (good : Str → Bool) (docs : Str → Doc S R) (m : Facts) (hm : Reads E.mail m.headers m.dec m.addrs)
    (hmp : ∀ q ∈ m.partHeaders, E.mail.decode q.2 = some (m.dec q.2)) (ops : List Access) :
    let defined := (firstMentions (as.map (fun a => a.1))).filter good
    let rules : Conds R := fun n => if n ∈ defined then some (docs n).cond else none
    (∀ n ∈ firstMentions (as.map (fun a => a.1)),
      (good n = true → Says E.float E.re (E.conf c1) as n (docs n)) ∧
      (good n = false → Broken E c1 as n)) →
    (∀ n ∈ defined, lastValue as n c!"type" = some (.str c!"mimeheader") → (docs n).priority = 0) →
    (∀ n ∈ defined, ∀ fn args t, (docs n).cond = .asks fn args t → Answers E c1 m fn args t) →
    (∀ n k, Works rules k n → Works rules 11 n) →
    ∃ (l : Loaded S R V C) (RD : Str → RuleDef S R V) (order : List Str) (val : Str → Int),
      load E c0 files = some l ∧ l.ctx = c1 ∧ l.checked = order.map (fun n => (n, RD n)) ∧
      (∀ n ∈ order, (RD n).base.name = n ∧ (RD n).base.score = (docs n).score ∧ (RD n).base.description = describedAs as n ∧
        rtypeOf (RD n).kind = labelOf as n) ∧
      InOrder defined docs rules order ∧ (∀ n ∈ order, Gives E.re rules m n (val n)) ∧
      (check E l ⟨m.text, m.rawText, m.raw, m.uris, accessed E.mail m.headers m.partHeaders ops⟩).checked = order.map (fun n => (n, val n)) ∧
      (check E l ⟨m.text, m.rawText, m.raw, m.uris, accessed E.mail m.headers m.partHeaders ops⟩).score =
        total 0 ((order.filter (fun n => decide (val n ≠ 0))).map (fun n => (docs n).score)) ∧
      Shows E.mail m (check E l ⟨m.text, m.rawText, m.raw, m.uris, accessed E.mail m.headers m.partHeaders ops⟩).rest ∧
      ∀ n ∈ order, val n ≠ 0 → Dict.get? (check E l ⟨m.text, m.rawText, m.raw, m.uris, accessed E.mail m.headers m.partHeaders ops⟩).descs n = some (describedAs as n) := by
  intro defined rules hsays hmime hans hdepth
  have hread := read_rules E.parser htol ht []
  have hparse : Scan.parseFiles E.parser files ⟨[], false, c0⟩ = (⟨as.foldl assign [], false, c1⟩, none) := by
    rw [parseFiles_text E.parser _ hf _ rfl rfl (by rw [hread]), hread]
  have hkeys : (as.foldl assign []).map Prod.fst = firstMentions (as.map (fun a => a.1)) := by
    have := keys_foldl as []
    unfold Dict.keys at this
    rw [this]
    simp
  have hattr : ∀ p ∈ as.foldl assign [], ∀ a, Dict.get? p.2 a = lastValue as p.1 a := by
    intro p hp a
    have hnd : (Dict.keys (as.foldl assign [])).Nodup := by
      unfold Dict.keys
      rw [hkeys]
      exact firstMentions_nodup _
    have hg := Dict.get?_of_mem _ hnd (show (p.1, p.2) ∈ as.foldl assign [] from hp)
    have h2 := attr_foldl as [] p.1 a
    rw [hg] at h2
    simp only [Option.bind_some] at h2
    rw [h2]
    cases lastValue as p.1 a <;> rfl
  exact scan_core E c0 files ⟨as.foldl assign [], false, c1⟩ as (shaped_text ht) htol hparse hkeys hattr good docs m hm hmp ops hsays hmime hans hdepth

/-- **C141** for files whose lines load plugins, set options and define rules in any order, with includes, sections for plugins and
lines for one language.  A line is read with the plugins that are loaded by then; the rules are built and evaluated with the context
`c1` after the last line, so that a rule may ask a function of a plugin that is loaded later. -/
theorem C141_text_partial (E : ScanEnv S R V C) (htol : E.parser.paranoid = false) (c0 c1 : C) (files lines : List Str)
    (as : List (Str × Str × PVal)) (hf : Lines E.parser ⟨[], false, c0⟩ [] files lines) (ht : RuleText E.parser c0 lines as c1)
    (good : Str → Bool) (docs : Str → Doc S R) (m : Facts) (hm : Reads E.mail m.headers m.dec m.addrs)
    (hmp : ∀ q ∈ m.partHeaders, E.mail.decode q.2 = some (m.dec q.2)) (ops : List Access) :
    let defined := (firstMentions (as.map (fun a => a.1))).filter good
    let rules : Conds R := fun n => if n ∈ defined then some (docs n).cond else none
    (∀ n ∈ firstMentions (as.map (fun a => a.1)),
      (good n = true → Says E.float E.re (E.conf c1) as n (docs n)) ∧ (good n = false → Broken E c1 as n)) →
    (∀ n ∈ defined, lastValue as n c!"type" = some (.str c!"mimeheader") → (docs n).priority = 0) →
    (∀ n ∈ defined, ∀ fn args t, (docs n).cond = .asks fn args t → Answers E c1 m fn args t) →
    (∀ n k, Works rules k n → Works rules 11 n) →
    ∃ (st : MsgSt S Seen) (order : List Str) (val : Str → Int),
      scan E c0 files ⟨m.text, m.rawText, m.raw, m.uris, accessed E.mail m.headers m.partHeaders ops⟩ = some st ∧
      InOrder defined docs rules order ∧ (∀ n ∈ order, Gives E.re rules m n (val n)) ∧
      st.checked = order.map (fun n => (n, val n)) ∧
      st.score = total 0 ((order.filter (fun n => decide (val n ≠ 0))).map (fun n => (docs n).score)) := by
  intro defined rules hsays hmime hans hdepth
  obtain ⟨l, RD, order, val, h1, -, -, -, h2, h3, h4, h5, -, -⟩ :=
    scan_text E htol c0 c1 files lines as hf ht good docs m hm hmp ops hsays hmime hans hdepth
  exact ⟨_, order, val, by unfold scan; rw [h1]; rfl, h2, h3, h4, h5⟩

/-! ### The hypotheses are met -/

/-- Rules before and after the line that loads the plugin whose function they ask; one plugin is not there. -/
def textLines : List Str :=
  [c!"body E eval:check_it()", c!"score E 4", c!"loadplugin oa.plugins.check.It", c!"", c!"loadplugin bad.Bad /tmp/bad.py", c!"body A /buy/",
   c!"use_bayes 0", c!"score E 6"]

def textEnv : ScanEnv Int (Str × ReFlags) Unit (List Str) :=
  { preEnv with parser := { preEnv.parser with files := fun f => if f = c!"/etc/a.cf" then some textLines else none } }

def textAssigns : List (Str × Str × PVal) :=
  [(c!"E", c!"target", .str c!"body"), (c!"E", c!"type", .str c!"eval"), (c!"E", c!"value", .str c!"eval:check_it()"), (c!"E", c!"score", .str c!"4"),
   (c!"A", c!"type", .str c!"body"), (c!"A", c!"value", .str c!"/buy/"), (c!"E", c!"score", .str c!"6")]

set_option maxRecDepth 8000 in
theorem text_rules : RuleText textEnv.parser [] textLines textAssigns [c!"oa.plugins.check.It"] := by
  have rule : ∀ {c : List Str} {l : Str} {ls : List Str} {a as : List (Str × Str × PVal)} {c' : List Str}, assigns (textEnv.parser.isCmd c) l = a →
      Defining l → ¬ Skipped l → keyword l ∈ known2 → RuleText textEnv.parser c ls as c' → RuleText textEnv.parser c (l :: ls) (a ++ as) c' := by
    rintro c l ls a as c' rfl h1 h2 h3 h4
    exact .rule h1 h2 (Or.inl h3) rfl h4
  refine rule (a := textAssigns.take 3) (as := textAssigns.drop 3) (by decide +kernel) (by decide) (by decide) (by decide) ?_
  refine rule (a := (textAssigns.drop 3).take 1) (as := textAssigns.drop 4) (by decide +kernel) (by decide) (by decide) (by decide) ?_
  refine .other (.plugin (n := c!"oa.plugins.check.It") (p := none) (by decide) (by decide) (by decide) ?_ (by decide) rfl (Or.inl rfl)) ?_
  · exact ⟨c!"oa.plugins.check.It", Or.inr ⟨by decide, by decide, rfl⟩, by decide, fun _ => rfl⟩
  refine .other (.skipped (by decide) (by decide)) ?_
  refine .other (.plugin (n := c!"bad.Bad") (p := some c!"/tmp/bad.py") (by decide) (by decide) (by decide) ?_ (by decide) rfl (Or.inr rfl)) ?_
  · exact ⟨c!"bad.Bad", Or.inl ⟨c!"/tmp/bad.py", by decide, rfl⟩, by decide, fun _ => rfl⟩
  refine rule (a := (textAssigns.drop 4).take 2) (as := textAssigns.drop 6) (by decide +kernel) (by decide) (by decide) (by decide) ?_
  refine .other (.option (by decide) (by decide) (by decide) (by decide) rfl rfl) ?_
  exact rule (a := textAssigns.drop 6) (as := []) (by decide +kernel) (by decide) (by decide) (by decide) .nil

set_option maxRecDepth 8000 in
theorem text_lines : Lines textEnv.parser ⟨[], false, []⟩ [] [c!"/etc/a.cf", c!"/etc/none.cf"] textLines := by
  have plain : ∀ (ls : List Str), (∀ l ∈ ls, Plain l) → ∀ k f done, Counted textEnv.parser ⟨[], false, []⟩ k f done ls ls := by
    intro ls
    induction ls with
    | nil => intro _ k f done; exact .nil
    | cons l ls ih => intro h k f done; exact .line (h l (by simp)) (ih (fun x hx => h x (by simp [hx])) _ _ _)
  rw [show textLines = textLines ++ [] by simp]
  exact .file rfl (plain _ (by decide) _ _ _) (.missing rfl .nil)

def textDocs (n : Str) : Doc Int (Str × ReFlags) :=
  if n = c!"E" then ⟨.asks c!"check_it" [] c!"body", 6, 0⟩ else ⟨.body (c!"buy", wantFlags []), 1, 0⟩

set_option maxRecDepth 8000 in
example : ∀ n ∈ firstMentions (textAssigns.map (fun a => a.1)),
    Says textEnv.float textEnv.re (textEnv.conf [c!"oa.plugins.check.It"]) textAssigns n (textDocs n) := by
  intro n hn
  rw [show firstMentions (textAssigns.map (fun a => a.1)) = [c!"E", c!"A"] by decide +kernel] at hn
  simp only [List.mem_cons, List.not_mem_nil, or_false] at hn
  rcases hn with rfl | rfl
  · exact ⟨⟨c!"eval", c!"eval:check_it()", by decide +kernel, by decide +kernel,
      Or.inr ⟨rfl, c!"body", c!"check_it", [], [], by decide +kernel, by decide +kernel,
        ⟨⟨'c', c!"heck_it", rfl, by decide, by decide⟩, by decide, by decide, by decide⟩, rfl⟩⟩,
      ⟨some [6], [], Or.inr ⟨c!"6", [6], by decide +kernel, by decide +kernel, by decide, rfl⟩, Or.inl ⟨by decide +kernel, rfl⟩,
        by decide +kernel, by simp⟩, Or.inl ⟨by decide +kernel, rfl⟩⟩
  · refine ⟨⟨c!"body", c!"/buy/", by decide +kernel, by decide +kernel, Or.inl (.body ⟨'/', '/', [], [], c!"buy", [], [], ?_⟩)⟩,
      ⟨none, [], Or.inl ⟨by decide +kernel, rfl⟩, Or.inl ⟨by decide +kernel, rfl⟩,
        by decide +kernel, by simp⟩, Or.inl ⟨by decide +kernel, rfl⟩⟩
    refine ⟨⟨by unfold Delimiters; decide, by unfold Blank; decide, by decide, by decide, by decide, by unfold Blank; decide⟩,
      by unfold NoPerlisms; decide, by decide, by decide, by decide, by decide⟩

set_option maxRecDepth 8000 in
example : ((scan textEnv [] [c!"/etc/a.cf", c!"/etc/none.cf"] preSeen).map (fun st => (st.checked, st.score))) =
      some ([(c!"E", 2), (c!"A", 1)], 7) := by
  decide +kernel

end Verif.Props
