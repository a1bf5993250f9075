import Verif.Spec.ScanPre
import Verif.Props.ScanScore

/-!
# C141 with plugins: files that load plugins, then files with rules
-/

namespace Verif.Props
open Verif Py Mail Parser Scan Spec

variable {S R V C : Type} [PyNum S]

theorem handle_pre (E : Parser.Env C) (inc : Inc C) (file l : Str) (c c' : C) (res : Dict Str (Dict Str PVal)) (h : PreLine E c l c') :
    ∃ r, handleLine E inc file l ⟨res, false, c⟩ = (⟨res, false, c'⟩, r) ∧ (r = none ∨ r = some .pluginLoad) := by
  cases h with
  | skipped h1 h2 => exact ⟨none, hl_skipped E inc file l _ h1 (Or.inl h2), Or.inl rfl⟩
  | plugin h1 h2 h3 h4 h5 h6 h7 =>
    rename_i n p r
    refine ⟨r, ?_, h7⟩
    rw [hl_main E inc file l _ h1 h2 rfl]
    unfold dispatch
    rw [h3, if_neg (by decide), if_neg (by decide), if_pos rfl]
    obtain ⟨w, hw, h8, h9⟩ := h4
    rcases hw with ⟨path, hs, hp⟩ | ⟨hs, hwv, hp⟩
    · subst hp
      unfold handleLoadplugin
      simp only [hs]
      by_cases hc : hasSub c!"::" w = true
      · simp only [hc, if_true, h8 hc, if_neg h5, h6]
      · rw [Bool.not_eq_true] at hc
        have := h9 hc
        subst this
        simp only [hc, Bool.false_eq_true, if_false, if_neg h5, h6]
    · subst hp hwv
      have hgoal : ∀ x : List Str, x.length ≠ 2 → x = splitNone 1 (argument l) →
          handleLoadplugin E (argument l) ⟨res, false, c⟩ = (⟨res, false, c'⟩, r) := by
        intro x hx hxe
        unfold handleLoadplugin
        rw [← hxe]
        rcases x with _ | ⟨a, _ | ⟨b, _ | ⟨d, x⟩⟩⟩
        · by_cases hc : hasSub c!"::" (argument l) = true
          · simp only [hc, if_true, h8 hc, if_neg h5, h6]
          · rw [Bool.not_eq_true] at hc
            rw [h9 hc] at h6 h5
            simp only [hc, Bool.false_eq_true, if_false, if_neg h5, h6]
        · by_cases hc : hasSub c!"::" (argument l) = true
          · simp only [hc, if_true, h8 hc, if_neg h5, h6]
          · rw [Bool.not_eq_true] at hc
            rw [h9 hc] at h6 h5
            simp only [hc, Bool.false_eq_true, if_false, if_neg h5, h6]
        · simp at hx
        · by_cases hc : hasSub c!"::" (argument l) = true
          · simp only [hc, if_true, h8 hc, if_neg h5, h6]
          · rw [Bool.not_eq_true] at hc
            rw [h9 hc] at h6 h5
            simp only [hc, Bool.false_eq_true, if_false, if_neg h5, h6]
      exact hgoal _ hs rfl
  | unavailable h1 h2 h3 h4 h5 h6 =>
    refine ⟨none, ?_, Or.inl rfl⟩
    rw [hl_main E inc file l _ h1 h2 rfl]
    unfold dispatch
    rw [h3, if_neg (by decide), if_neg (by decide), if_pos rfl]
    rename_i w
    rcases h4 with ⟨path, hs⟩ | ⟨hs, hwv⟩
    · unfold handleLoadplugin
      simp only [hs, h5, if_true, h6]
    · subst hwv
      have hgoal : ∀ x : List Str, x.length ≠ 2 → x = splitNone 1 (argument l) →
          handleLoadplugin E (argument l) ⟨res, false, c⟩ = (⟨res, false, c⟩, none) := by
        intro x hx hxe
        unfold handleLoadplugin
        rw [← hxe]
        rcases x with _ | ⟨a, _ | ⟨b, _ | ⟨d, x⟩⟩⟩
        · simp only [h5, if_true, h6]
        · simp only [h5, if_true, h6]
        · simp at hx
        · simp only [h5, if_true, h6]
      exact hgoal _ hs rfl
  | option h1 h2 h3 h4 h5 h6 =>
    refine ⟨none, ?_, Or.inl rfl⟩
    rw [hl_main E inc file l _ h1 h2 rfl]
    simp only [List.mem_cons, List.not_mem_nil, or_false, not_or] at h3
    unfold dispatch
    rw [if_neg h3.1, if_neg h3.2.1, if_neg h3.2.2, if_neg (by simp [h4, h5])]
    unfold handleConfig
    simp only [h6]

theorem parse_pre (E : Parser.Env C) (inc : Inc C) (file : Str) (res : Dict Str (Dict Str PVal)) {ls : List Str} {c c' : C} (h : PreText E c ls c') :
    parseLines E inc file ls ⟨res, false, c⟩ = (⟨res, false, c'⟩, none) := by
  induction h with
  | nil => rfl
  | cons h1 _ ih =>
    obtain ⟨r, h2, h3⟩ := handle_pre E inc file _ _ _ res h1
    rw [parseLines_cons, h2]
    rcases h3 with rfl | rfl
    · exact ih
    · exact ih

/-- Reading such files first is the same as starting with the plugins loaded and the options set. -/
theorem parseFiles_pre (E : Parser.Env C) (res : Dict Str (Dict Str PVal)) (files : List Str) {pre : List Str} {c c' : C} (h : PreFiles E c pre c') :
    Scan.parseFiles E (pre ++ files) ⟨res, false, c⟩ = Scan.parseFiles E files ⟨res, false, c'⟩ := by
  induction h with
  | nil => rfl
  | @file c f text c' fs c'' h1 h2 _ ih =>
    rw [← ih, List.cons_append]
    conv => lhs; unfold Scan.parseFiles
    have : Parser.parse E f ⟨res, false, c⟩ = (⟨res, false, c'⟩, none) := by
      unfold Parser.parse parseFile
      rw [h1]
      exact parse_pre E _ _ res h2
    simp only [this]
  | @missing c f fs c' h1 _ ih =>
    rw [← ih, List.cons_append]
    conv => lhs; unfold Scan.parseFiles
    have : Parser.parse E f ⟨res, false, c⟩ = (⟨res, false, c⟩, none) := by
      unfold Parser.parse parseFile
      rw [h1]
    simp only [this]

/-- **C141** for an installation: files that load plugins and set options (`pre`), then rule files.  The rules may use the
functions and the rule types of the plugins that were loaded, whether or not some of the plugins could not be loaded; everything
else is as in `C141_score_partial`, with the context `c1` that the first files leave. -/
theorem C141_installed_partial (E : ScanEnv S R V C)
    (hcmd : ∀ c k v t, E.parser.isCmd (E.parser.parseConfig c k v).1 t = E.parser.isCmd c t)
    (c0 c1 : C) (pre : List Str) (hpre : PreFiles E.parser c0 pre c1)
    (files lines : List Str) (h : CalmLines E.parser c1 lines) (hf : Lines E.parser ⟨[], false, c1⟩ [] files lines) (hdl : ∀ l ∈ lines, Defining l) (good : Str → Bool)
    (docs : Str → Doc S R) (m : Facts) (hm : Reads E.mail m.headers m.dec m.addrs)
    (hmp : ∀ q ∈ m.partHeaders, E.mail.decode q.2 = some (m.dec q.2)) (ops : List Access) :
    let as := lines.flatMap (assigns (E.parser.isCmd c1))
    let defined := (firstMentions (as.map (fun a => a.1))).filter good
    let rules : Conds R := fun n => if n ∈ defined then some (docs n).cond else none
    (∀ n ∈ firstMentions (as.map (fun a => a.1)),
      (good n = true → Says E.float E.re (E.conf (configured E.parser lines c1)) as n (docs n)) ∧
      (good n = false → Broken E (configured E.parser lines c1) as n)) →
    (∀ n ∈ defined, lastValue as n c!"type" = some (.str c!"mimeheader") → (docs n).priority = 0) →
    (∀ n ∈ defined, ∀ fn args t, (docs n).cond = .asks fn args t → Answers E (configured E.parser lines c1) m fn args t) →
    (∀ n k, Works rules k n → Works rules 11 n) →
    ∃ (st : MsgSt S Seen) (order : List Str) (val : Str → Int),
      scan E c0 (pre ++ files) ⟨m.text, m.rawText, m.raw, m.uris, accessed E.mail m.headers m.partHeaders ops⟩ = some st ∧
      InOrder defined docs rules order ∧ (∀ n ∈ order, Gives E.re rules m n (val n)) ∧
      st.checked = order.map (fun n => (n, val n)) ∧
      st.score = total 0 ((order.filter (fun n => decide (val n ≠ 0))).map (fun n => (docs n).score)) := by
  intro as defined rules h1 h2 h3 h4
  have hload : load E c0 (pre ++ files) = load E c1 files := by
    unfold Scan.load
    rw [parseFiles_pre E.parser [] files hpre]
  have := C141_score_partial E hcmd c1 files lines h hf hdl good docs m hm hmp ops h1 h2 h3 h4
  unfold scan at this ⊢
  rw [hload]
  exact this

/-! ### The hypotheses are met -/

/-- A file that loads three plugins, one of which is not there, and one that is known but not available; then an option. -/
def preText : List Str :=
  [c!"# plugins", c!"loadplugin oa.plugins.check.It", c!"loadplugin Mail::SpamAssassin::Plugin::None", c!"", c!"loadplugin bad.Bad /tmp/bad.py",
   c!"use_bayes 0"]

/-- Contexts are the names of the plugins that are loaded. -/
def preEnv : ScanEnv Int (Str × ReFlags) Unit (List Str) where
  parser :=
    { files := fun f => if f = c!"/etc/init.pre" then some preText
        else if f = c!"/etc/a.cf" then some [c!"body E eval:check_it()", c!"score E 4", c!"body A /buy/"] else none
      paranoid := false
      isCmd := fun _ _ => false
      hasPlugin := fun c p => c.contains p
      loadPlugin := fun c n _ => if n = c!"bad.Bad" then (c, some .pluginLoad) else (c ++ [n], none)
      parseConfig := fun c _ _ => (c, .done true)
      reimpl := fun _ => none
      lang := none }
  float := int?
  re := textLib
  evalArg := fun _ => .ok ()
  hasEval := fun c f => f == c!"check_it" && c.contains c!"oa.plugins.check.It"
  cmd := fun _ _ => none
  conf := fun _ => ⟨false, false, false, false⟩
  mail := plainMail false
  evalFn := fun _ _ _ _ x => (some 2, x)
  plugin := fun _ _ x => (none, x)

set_option maxRecDepth 8000 in
example : PreFiles preEnv.parser [] [c!"/etc/none.pre", c!"/etc/init.pre"] [c!"oa.plugins.check.It"] := by
  refine .missing rfl (.file (text := preText) (c' := [c!"oa.plugins.check.It"]) rfl ?_ .nil)
  refine .cons (.skipped (by decide) (by decide)) ?_
  refine .cons (.plugin (n := c!"oa.plugins.check.It") (p := none) (by decide) (by decide) (by decide) ?_ (by decide) rfl (Or.inl rfl)) ?_
  · exact ⟨c!"oa.plugins.check.It", Or.inr ⟨by decide, by decide, rfl⟩, by decide, fun _ => rfl⟩
  refine .cons (.unavailable (w := c!"Mail::SpamAssassin::Plugin::None") (by decide) (by decide) (by decide) (Or.inr ⟨by decide, by decide⟩)
    (by decide) rfl) ?_
  refine .cons (.skipped (by decide) (by decide)) ?_
  refine .cons (.plugin (n := c!"bad.Bad") (p := some c!"/tmp/bad.py") (by decide) (by decide) (by decide) ?_ (by decide) rfl (Or.inr rfl)) ?_
  · exact ⟨c!"bad.Bad", Or.inl ⟨c!"/tmp/bad.py", by decide, rfl⟩, by decide, fun _ => rfl⟩
  exact .cons (.option (by decide) (by decide) (by decide) (by decide) rfl rfl) .nil

/-- What the files with the plugins add: without them there is no rule `E`. -/
def preSeen : Seen := ⟨c!"buy now", [], [], [], Mail.Msg.ofHeaders [(c!"To", c!"me")] []⟩

set_option maxRecDepth 8000 in
example : ((scan preEnv [] [c!"/etc/init.pre", c!"/etc/a.cf"] preSeen).map (fun st => (st.checked, st.score))) =
      some ([(c!"E", 2), (c!"A", 1)], 5) ∧
    ((scan preEnv [] [c!"/etc/a.cf"] preSeen).map (fun st => (st.checked, st.score))) = some ([(c!"A", 1)], 1) := by
  decide +kernel

end Verif.Props
