import Verif.Props.Parser
import Verif.Props.SpamdReport
import Verif.Lemmas.Context

/-!
# C11 and C15 for the main configuration
-/

namespace Verif.Props
open Verif Py Spec Parser

variable {F : Type}

/-- A value that the option `k` of the main configuration takes: numbers can be read. -/
def TakesValue (fe : Conf.FloatEnv F) (five ten two : F) (k v : Str) : Prop :=
  ∀ t d, Dict.get? (Conf.padOptions five ten two) k = some (t, d) → t = .int ∨ t = .float → Conf.prescribed fe t v ≠ none

/-- A plugin that can be loaded, or that is refused because it is no plugin, cannot be imported or has a rule type that is no rule type.
It defines no rule type called `tflags`. -/
def LoadsOrRefused (imp : Str → Option Str → Context.Import Unit) (n : Str) (p : Option Str) : Prop :=
  (p.isSome = true ∨ '.' ∈ n) ∧
  (imp n p = .failed .loadError ∨ imp n p = .notPlugin ∨
    ∃ q ds, imp n p = .ok q ds ∧ (∀ r ∈ q.evalRules, r.2 = true) ∧ c!"tflags" ∉ q.cmds.map Prod.fst)

theorem register_other (p : Context.Plugin) (rs : List (Str × Bool)) (d : Dict Str Context.Plugin) (k : Str)
    (h : k ∉ rs.map Prod.fst) : Dict.get? (Context.register p rs d).1 k = Dict.get? d k := by
  induction rs generalizing d with
  | nil => rfl
  | cons x xs ih =>
    obtain ⟨x, g⟩ := x
    simp only [List.map_cons, List.mem_cons, not_or] at h
    unfold Context.register
    split
    · rw [ih _ h.2, Dict.get?_set, if_neg (Ne.symm h.1)]
    · rfl

theorem unload_none (c : Context.Ctx Unit) (n k : Str) (h : Dict.get? c.cmds k = none) : Dict.get? (Context.unload c n).1.cmds k = none := by
  unfold Context.unload
  split
  · exact h
  · simp only
    rw [Context.foldl_del]
    split <;> simp [h]

theorem rsplit1_dot (n : Str) (h : '.' ∈ n) : (rsplit1 '.' n).isNone = false := by
  have := (Context.rsplit1_isSome '.' n).2 h
  cases hr : rsplit1 '.' n with
  | none => rw [hr] at this; cases this
  | some x => rfl

theorem load_calm (c : Context.Ctx Unit) (n : Str) (p : Option Str) (imp : Str → Option Str → Context.Import Unit)
    (hc : Dict.get? c.cmds c!"tflags" = none) (h : LoadsOrRefused imp n p) :
    ((Context.load c n p.isSome (imp n p)).2 = none ∨ (Context.load c n p.isSome (imp n p)).2 = some .loadError) ∧
    Dict.get? (Context.load c n p.isSome (imp n p)).1.cmds c!"tflags" = none := by
  obtain ⟨hd, h⟩ := h
  unfold Context.load
  simp only []
  have hcond : ¬ ((!p.isSome && (rsplit1 '.' n).isNone) = true) := by
    rcases hd with hd | hd
    · simp [hd]
    · simp [rsplit1_dot n hd]
  rw [if_neg hcond]
  have hc1 : Dict.get? (if Dict.has c.plugins (Context.className n) = true then (Context.unload c (Context.className n)).1 else c).cmds
      c!"tflags" = none := by
    split
    · exact unload_none _ _ _ hc
    · exact hc
  generalize (if Dict.has c.plugins (Context.className n) = true then (Context.unload c (Context.className n)).1 else c) = c1 at hc1 ⊢
  rcases h with h | h | ⟨q, ds, h, hev, hcm⟩
  · rw [h]; exact ⟨.inr rfl, hc1⟩
  · rw [h]; exact ⟨.inr rfl, hc1⟩
  · rw [h]
    simp only
    have hr := register_other q q.cmds c1.cmds _ hcm
    split
    · rename_i cm hx
      rw [hx] at hr
      exact ⟨.inr rfl, hr.trans hc1⟩
    · rename_i cm hx
      rw [hx] at hr
      have hg := (Context.register_good q q.evalRules c1.evalRules hev).1
      split
      · rename_i hy; rw [hy] at hg; cases hg
      · exact ⟨.inl rfl, hr.trans hc1⟩

/-- The contexts that the main configuration and the plugins lead to. -/
def RealCtx (fe : Conf.FloatEnv F) (five ten two : F) (c : GCtx F) : Prop :=
  (∃ lines, c.conf = Conf.runLines fe (Conf.fresh (Conf.padOptions five ten two)) lines) ∧ Dict.get? c.reg.cmds c!"tflags" = none

theorem harmless_real (fe : Conf.FloatEnv F) (imp : Str → Option Str → Context.Import Unit) (files : Str → Option (List Str))
    (locale : Str) (five ten two : F) :
    Harmless (realEnv fe imp files false (some locale)) (RealCtx fe five ten two) (TakesValue fe five ten two) (LoadsOrRefused imp) where
  tolerant := rfl
  lang := rfl
  tflags := by
    intro c h
    show Dict.has c.reg.cmds _ = false
    unfold Dict.has
    rw [h.2]; rfl
  load := by
    intro c n p hI hp
    obtain ⟨h1, h2⟩ := load_calm c.reg n p imp hI.2 hp
    refine ⟨?_, hI.1, h2⟩
    show (Context.load c.reg n p.isSome (imp n p)).2.map ofLoadErr = none ∨ (Context.load c.reg n p.isSome (imp n p)).2.map ofLoadErr = some .pluginLoad
    rcases h1 with h1 | h1 <;> rw [h1]
    · exact .inl rfl
    · exact .inr rfl
  config := by
    intro c k v hI ho
    obtain ⟨⟨before, hb⟩, ht⟩ := hI
    have hcalm := runLines_calm fe five ten two before k v ho
    have hnext : (Conf.parseConfig fe c.conf k v).1 = Conf.runLines fe (Conf.fresh (Conf.padOptions five ten two)) (before ++ [(k, v)]) := by
      rw [hb]; unfold Conf.runLines; rw [List.foldl_append]; rfl
    rw [← hb] at hcalm
    simp only [realEnv]
    generalize Conf.parseConfig fe c.conf k v = x at hcalm hnext
    obtain ⟨s, r⟩ := x
    rcases hcalm with h | h <;> simp only at h <;> subst h <;> exact ⟨⟨_, rfl⟩, ⟨_, hnext⟩, ht⟩

/-- **C15**: with the main configuration, files whose numbers can be read and whose plugins can be loaded or are refused
never stop a tolerant parser, except by a chain of eleven files that include each other. -/
theorem C15_real_partial (fe : Conf.FloatEnv F) (imp : Str → Option Str → Context.Import Unit) (files : Str → Option (List Str))
    (locale : Str) (five ten two : F) (f : Str) :
    let E := realEnv fe imp files false (some locale)
    (∀ g lines, (g = f ∨ Reaches E f g) → files g = some lines → ∀ l ∈ lines,
      Clean E (TakesValue fe five ten two) (LoadsOrRefused imp) l) →
    (parse E f (newState (Conf.padOptions five ten two))).2 = none ∨
    (parse E f (newState (Conf.padOptions five ten two))).2 = some .maxRec := by
  intro E hc
  exact C15_never_aborts_partial E _ _ _ (harmless_real fe imp files locale five ten two) f _ ⟨⟨[], rfl⟩, rfl⟩ hc

/-- **C11**: with the main configuration and such files without conditional sections, the parser reports too deep a nesting exactly if
some chain of eleven files include each other. -/
theorem C11_real (fe : Conf.FloatEnv F) (imp : Str → Option Str → Context.Import Unit) (files : Str → Option (List Str))
    (locale : Str) (five ten two : F) (f : Str) :
    let E := realEnv fe imp files false (some locale)
    (∀ g lines, (g = f ∨ Reaches E f g) → files g = some lines → ∀ l ∈ lines,
      ¬ Closer l ∧ (Skipped l ∨ keyword l ≠ c!"ifplugin") ∧ Clean E (TakesValue fe five ten two) (LoadsOrRefused imp) l) →
    ((parse E f (newState (Conf.padOptions five ten two))).2 = some .maxRec ↔ Chain E 11 f) ∧
    (¬ Chain E 11 f → (parse E f (newState (Conf.padOptions five ten two))).2 = none) := by
  intro E hc
  have := C11_depth E _ _ _ (harmless_real fe imp files locale five ten two) f (newState (Conf.padOptions five ten two))
    ⟨⟨[], rfl⟩, rfl⟩ rfl hc
  refine ⟨⟨fun h => ?_, this.1⟩, this.2⟩
  rcases Classical.em (Chain E 11 f) with h1 | h1
  · exact h1
  · rw [this.2 h1] at h; cases h

/-! ### A case -/

/-- A module with a plugin, one whose class is no plugin and one that cannot be imported. -/
def mixedImport (n : Str) (_ : Option Str) : Context.Import Unit :=
  if n = c!"oa.plugins.good.Good" then .ok ⟨1, [(c!"check_it", true)], [(c!"uri_detail", true)]⟩ [(c!"limit", ())]
  else if n = c!"oa.plugins.bad.Bad" then .notPlugin
  else .failed .loadError

def mixedFiles (f : Str) : Option (List Str) :=
  if f = c!"/etc/a.cf" then some [c!"required_score 7", c!"include b.cf", c!"loadplugin oa.plugins.bad.Bad", c!"score R 2"]
  else if f = c!"/etc/b.cf" then some [c!"loadplugin oa.plugins.good.Good", c!"lang en report_contact me", c!"body R /x/", c!"score"]
  else none

def mixedEnv : Env (GCtx Int) := realEnv demoFloats mixedImport mixedFiles false (some c!"en")

theorem mixed_plug (n : Str) (h : n = c!"oa.plugins.good.Good" ∨ n = c!"oa.plugins.bad.Bad") : LoadsOrRefused mixedImport n none := by
  rcases h with rfl | rfl
  · exact ⟨.inr (by decide), .inr (.inr ⟨_, _, rfl, by decide, by decide⟩)⟩
  · exact ⟨.inr (by decide), .inr (.inl rfl)⟩

theorem mixed_clean (l : Str) (hl : l ∈ [c!"required_score 7", c!"include b.cf", c!"loadplugin oa.plugins.bad.Bad", c!"score R 2",
    c!"loadplugin oa.plugins.good.Good", c!"lang en report_contact me", c!"body R /x/", c!"score"]) :
    Clean mixedEnv (TakesValue demoFloats 5 10 2) (LoadsOrRefused mixedImport) l := by
  have hopts : ∀ l ∈ [c!"required_score 7", c!"include b.cf", c!"loadplugin oa.plugins.bad.Bad", c!"score R 2",
      c!"loadplugin oa.plugins.good.Good", c!"lang en report_contact me", c!"body R /x/", c!"score"],
      keyword l ∈ known2 ∨ keyword l ∈ [c!"include", c!"ifplugin", c!"loadplugin"] ∨
      (Conf.prescribed demoFloats .int (argument l)).isSome = true ∧ (Conf.prescribed demoFloats .float (argument l)).isSome = true := by
    decide +kernel
  have hlang : ∀ l ∈ [c!"required_score 7", c!"include b.cf", c!"loadplugin oa.plugins.bad.Bad", c!"score R 2",
      c!"loadplugin oa.plugins.good.Good", c!"lang en report_contact me", c!"body R /x/", c!"score"],
      splitNone 2 (logical l) = [c!"lang", c!"en", c!"report_contact me"] ∨ (splitNone 2 (logical l)).head? ≠ some c!"lang" := by
    decide +kernel
  have hplug : ∀ l ∈ [c!"required_score 7", c!"include b.cf", c!"loadplugin oa.plugins.bad.Bad", c!"score R 2",
      c!"loadplugin oa.plugins.good.Good", c!"lang en report_contact me", c!"body R /x/", c!"score"],
      keyword l = c!"loadplugin" → (splitNone 1 (argument l)).length ≠ 2 ∧ hasSub c!"::" (argument l) = false ∧
        (argument l = c!"oa.plugins.good.Good" ∨ argument l = c!"oa.plugins.bad.Bad") := by
    decide +kernel
  refine ⟨fun _ h2 h3 => ?_, fun x y rest k v e hx e2 => ?_, fun hk n p hn => ?_⟩
  · rcases hopts l hl with h | h | ⟨hi, hf⟩
    · exact absurd h h2
    · exact absurd h h3
    · intro t d _ ht hn
      rcases ht with rfl | rfl
      · rw [hn] at hi; cases hi
      · rw [hn] at hf; cases hf
  · rcases hlang l hl with h | h
    · rw [h] at e
      injection e with _ e; injection e with _ e; injection e with e _
      subst e
      have : splitNone 1 c!"report_contact me" = [c!"report_contact", c!"me"] := by decide +kernel
      rw [this] at e2
      injection e2 with e3 e2; injection e2 with e4 _
      subst e3; subst e4
      intro t d hg ht
      have hs : (Dict.get? (Conf.padOptions (5 : Int) 10 2) c!"report_contact").map Prod.fst = some .str := by decide +kernel
      rw [hg] at hs
      simp only [Option.map_some, Option.some.injEq] at hs
      subst hs
      simp at ht
    · rw [e, hx] at h; exact absurd rfl h
  · obtain ⟨h1, h2, h3⟩ := hplug l hl hk
    obtain ⟨w, hw, _, hw2⟩ := hn
    rcases hw with ⟨path, e, _⟩ | ⟨_, rfl, rfl⟩
    · rw [e] at h1; exact absurd rfl h1
    · rw [hw2 h2]; exact mixed_plug _ h3

/-- The files of the case meet the condition of `C15_real_partial`. -/
example : (parse mixedEnv c!"/etc/a.cf" (newState demoCls)).2 = none ∨ (parse mixedEnv c!"/etc/a.cf" (newState demoCls)).2 = some .maxRec := by
  refine C15_real_partial demoFloats mixedImport mixedFiles c!"en" 5 10 2 c!"/etc/a.cf" ?_
  intro g lines _ hg l hl
  refine mixed_clean l ?_
  unfold mixedFiles at hg
  split at hg
  · injection hg with hg; subst hg
    simp only [List.mem_cons, List.not_mem_nil, or_false] at hl ⊢
    rcases hl with h | h | h | h <;> simp [h]
  · split at hg
    · injection hg with hg; subst hg
      simp only [List.mem_cons, List.not_mem_nil, or_false] at hl ⊢
      rcases hl with h | h | h | h <;> simp [h]
    · cases hg

example : (parse mixedEnv c!"/etc/a.cf" (newState demoCls)).2 = none ∧
    State.attr (parse mixedEnv c!"/etc/a.cf" (newState demoCls)).1 c!"R" c!"score" = some (.str c!"2") ∧
    mixedEnv.hasPlugin (parse mixedEnv c!"/etc/a.cf" (newState demoCls)).1.ctx c!"Good" = true := by decide +kernel

end Verif.Props
