import Verif.Lemmas.Py
import Verif.Props.Conf
import Verif.Spec.Server

/-! # Lemmas about the server's rulesets -/

namespace Verif.Parser
open Verif Py

/-- The environment treats related contexts alike. -/
structure Respects {C : Type} (E : Env C) (R : C → C → Prop) : Prop where
  isCmd : ∀ c c', R c c' → ∀ t, E.isCmd c t = E.isCmd c' t
  hasPlugin : ∀ c c', R c c' → ∀ t, E.hasPlugin c t = E.hasPlugin c' t
  load : ∀ c c', R c c' → ∀ n p, (E.loadPlugin c n p).2 = (E.loadPlugin c' n p).2 ∧
    R (E.loadPlugin c n p).1 (E.loadPlugin c' n p).1
  config : ∀ c c', R c c' → ∀ k v, (E.parseConfig c k v).2 = (E.parseConfig c' k v).2 ∧
    R (E.parseConfig c k v).1 (E.parseConfig c' k v).1

/-- Parser states that differ in their contexts only, which are related. -/
def SRel {C : Type} (R : C → C → Prop) (s s' : State C) : Prop :=
  s.results = s'.results ∧ s.ignore = s'.ignore ∧ R s.ctx s'.ctx

def PRel {C : Type} (R : C → C → Prop) (a b : State C × Option Err) : Prop :=
  SRel R a.1 b.1 ∧ a.2 = b.2

variable {C : Type} {E : Env C} {R : C → C → Prop}

theorem handleConfig_rel (h : Respects E R) (k v : Str) {s s' : State C} (hs : SRel R s s') :
    PRel R (handleConfig E k v s) (handleConfig E k v s') := by
  obtain ⟨h1, h2, h3⟩ := hs
  obtain ⟨ha, hb⟩ := h.config _ _ h3 k v
  unfold handleConfig
  generalize E.parseConfig s.ctx k v = x at ha hb
  generalize E.parseConfig s'.ctx k v = y at ha hb
  obtain ⟨x1, x2⟩ := x
  obtain ⟨y1, y2⟩ := y
  simp only at ha hb
  subst ha
  cases x2 <;> exact ⟨⟨h1, h2, hb⟩, rfl⟩

theorem store_rel (h : Respects E R) (t n : Str) (v : PVal) {s s' : State C} (hs : SRel R s s') :
    PRel R (store E t n v s) (store E t n v s') := by
  obtain ⟨h1, h2, h3⟩ := hs
  unfold store
  simp only [h1, h.isCmd _ _ h3]
  split
  · cases v with
    | list l => exact ⟨⟨rfl, h2, h3⟩, rfl⟩
    | str v => exact ⟨⟨rfl, h2, h3⟩, rfl⟩
  · exact ⟨⟨rfl, h2, h3⟩, rfl⟩

theorem handleTwo_rel (h : Respects E R) (line : Str) {s s' : State C} (hs : SRel R s s') :
    PRel R (handleTwo E line s) (handleTwo E line s') := by
  unfold handleTwo
  repeat' split
  all_goals first
    | exact ⟨hs, rfl⟩
    | exact handleConfig_rel h _ _ hs
    | exact store_rel h _ _ _ hs

theorem handleLoadplugin_rel (h : Respects E R) (v : Str) {s s' : State C} (hs : SRel R s s') :
    PRel R (handleLoadplugin E v s) (handleLoadplugin E v s') := by
  obtain ⟨h1, h2, h3⟩ := hs
  unfold handleLoadplugin
  simp only
  split
  · exact ⟨⟨h1, h2, h3⟩, rfl⟩
  · split
    · exact ⟨⟨h1, h2, h3⟩, rfl⟩
    · exact ⟨⟨h1, h2, (h.load _ _ h3 _ _).2⟩, (h.load _ _ h3 _ _).1⟩

theorem handleIfplugin_rel (h : Respects E R) (v : Str) {s s' : State C} (hs : SRel R s s') :
    SRel R (handleIfplugin E v s) (handleIfplugin E v s') := by
  obtain ⟨h1, h2, h3⟩ := hs
  unfold handleIfplugin
  simp only [h.hasPlugin _ _ h3]
  repeat' split
  all_goals first | exact ⟨h1, h2, h3⟩ | exact ⟨h1, rfl, h3⟩

theorem handleLine_rel (h : Respects E R) (inc : Str → State C → State C × Option Err)
    (hinc : ∀ f s s', SRel R s s' → PRel R (inc f s) (inc f s')) (file raw : Str) {s s' : State C}
    (hs : SRel R s s') : PRel R (handleLine E inc file raw s) (handleLine E inc file raw s') := by
  have hs0 := hs
  obtain ⟨h1, h2, h3⟩ := hs
  unfold handleLine
  simp only [h2, h.isCmd _ _ h3]
  split
  · exact ⟨⟨h1, rfl, h3⟩, rfl⟩
  split
  · exact ⟨⟨h1, rfl, h3⟩, rfl⟩
  split
  · exact ⟨hs0, rfl⟩
  split
  · exact ⟨hs0, rfl⟩
  split
  · exact hinc _ _ _ hs0
  split
  · exact ⟨handleIfplugin_rel h _ hs0, rfl⟩
  split
  · exact handleLoadplugin_rel h _ hs0
  split
  · exact handleTwo_rel h _ hs0
  · exact handleConfig_rel h _ _ hs0

theorem parseLines_rel (h : Respects E R) (inc : Str → State C → State C × Option Err)
    (hinc : ∀ f s s', SRel R s s' → PRel R (inc f s) (inc f s')) (file : Str) (ls : List Str) :
    ∀ s s' : State C, SRel R s s' → PRel R (parseLines E inc file ls s) (parseLines E inc file ls s') := by
  induction ls with
  | nil => intro s s' hs; exact ⟨hs, rfl⟩
  | cons l ls ih =>
    intro s s' hs
    have hl := handleLine_rel h inc hinc file l hs
    unfold parseLines
    generalize handleLine E inc file l s = x at hl
    generalize handleLine E inc file l s' = y at hl
    obtain ⟨x1, x2⟩ := x
    obtain ⟨y1, y2⟩ := y
    obtain ⟨ha, hb⟩ := hl
    simp only at ha hb
    subst hb
    cases x2 with
    | none => exact ih _ _ ha
    | some e =>
      cases e with
      | «syntax» =>
        simp only
        split
        · exact ⟨ha, rfl⟩
        · exact ih _ _ ha
      | pluginLoad => exact ih _ _ ha
      | _ => exact ⟨ha, rfl⟩

theorem parseFile_rel (h : Respects E R) (n : Nat) : ∀ (f : Str) (s s' : State C), SRel R s s' →
    PRel R (parseFile E n f s) (parseFile E n f s') := by
  induction n with
  | zero => intro f s s' hs; exact ⟨hs, rfl⟩
  | succ n ih =>
    intro f s s' hs
    unfold parseFile
    split
    · exact ⟨hs, rfl⟩
    · exact parseLines_rel h _ ih _ _ _ _ hs

theorem parse_rel (h : Respects E R) (f : Str) (s s' : State C) (hs : SRel R s s') :
    PRel R (parse E f s) (parse E f s') := parseFile_rel h 11 f s s' hs

end Verif.Parser

namespace Verif.Server
open Verif Py Verif.Parser

theorem parseFiles_rel {C : Type} {E : Env C} {R : C → C → Prop} (h : Respects E R) (fs : List Str) :
    ∀ s s' : State C, SRel R s s' → PRel R (parseFiles E fs s) (parseFiles E fs s') := by
  induction fs with
  | nil => intro s s' hs; exact ⟨hs, rfl⟩
  | cons f fs ih =>
    intro s s' hs
    have hl := parse_rel h f s s' hs
    unfold parseFiles
    generalize parse E f s = x at hl
    generalize parse E f s' = y at hl
    obtain ⟨x1, x2⟩ := x
    obtain ⟨y1, y2⟩ := y
    obtain ⟨ha, hb⟩ := hl
    simp only at ha hb
    subst hb
    cases x2 with
    | none => exact ih _ _ ha
    | some e => exact ⟨ha, rfl⟩

end Verif.Server

namespace Verif.Conf
open Verif Py

variable {F : Type}

/-- Equal, or two lists. -/
def Shape (v v' : OptVal F) : Prop := v = v' ∨ ∃ l l', v = .list l ∧ v' = .list l'

theorem Shape.symm {v v' : OptVal F} (h : Shape v v') : Shape v' v := by
  rcases h with h | ⟨l, l', h, h'⟩
  · exact Or.inl h.symm
  · exact Or.inr ⟨l', l, h', h⟩

theorem Shape.trans {a b c : OptVal F} (h : Shape a b) (h' : Shape b c) : Shape a c := by
  rcases h with rfl | ⟨l, l', rfl, rfl⟩
  · exact h'
  · rcases h' with rfl | ⟨m, m', hm, rfl⟩
    · exact Or.inr ⟨_, _, rfl, rfl⟩
    · exact Or.inr ⟨_, _, rfl, rfl⟩

def Adds (t : OptType) : Prop := t = .append ∨ t = .appendSplit

/-- Classes with the same options, types and defaults, except for the content of the lists of the
options that add up. -/
def ClsRel (c c' : Cls F) : Prop := ∀ k,
  (Dict.get? c k = none ∧ Dict.get? c' k = none) ∨
  ∃ t v v', Dict.get? c k = some (t, v) ∧ Dict.get? c' k = some (t, v') ∧
    (v = v' ∨ (Adds t ∧ ∃ l l', v = .list l ∧ v' = .list l'))

theorem ClsRel.refl (c : Cls F) : ClsRel c c := by
  intro k
  cases h : Dict.get? c k with
  | none => exact Or.inl ⟨rfl, rfl⟩
  | some p => obtain ⟨t, v⟩ := p; exact Or.inr ⟨t, v, v, rfl, rfl, Or.inl rfl⟩

theorem ClsRel.symm {c c' : Cls F} (h : ClsRel c c') : ClsRel c' c := by
  intro k
  rcases h k with ⟨h1, h2⟩ | ⟨t, v, v', h1, h2, h3⟩
  · exact Or.inl ⟨h2, h1⟩
  · refine Or.inr ⟨t, v', v, h2, h1, ?_⟩
    rcases h3 with h3 | ⟨ha, l, l', h3, h4⟩
    · exact Or.inl h3.symm
    · exact Or.inr ⟨ha, l', l, h4, h3⟩

theorem ClsRel.trans {a b c : Cls F} (h : ClsRel a b) (h' : ClsRel b c) : ClsRel a c := by
  intro k
  rcases h k with ⟨h1, h2⟩ | ⟨t, v, v', h1, h2, h3⟩
  · rcases h' k with ⟨h4, h5⟩ | ⟨t', w, w', h4, h5, h6⟩
    · exact Or.inl ⟨h1, h5⟩
    · rw [h2] at h4; cases h4
  · rcases h' k with ⟨h4, h5⟩ | ⟨t', w, w', h4, h5, h6⟩
    · rw [h2] at h4; cases h4
    · rw [h2] at h4; cases h4
      refine Or.inr ⟨t, v, w', h1, h5, ?_⟩
      rcases h3 with rfl | ⟨ha, l, l', rfl, rfl⟩
      · exact h6
      · rcases h6 with rfl | ⟨_, m, m', hm, rfl⟩
        · exact Or.inr ⟨ha, l, l', rfl, rfl⟩
        · exact Or.inr ⟨ha, l, m', rfl, rfl⟩

/-- The same options in two processes whose classes are related. -/
def ConfRel (s s' : St F) : Prop :=
  ClsRel s.cls s'.cls ∧ ∀ k,
    Dict.get? s.opts k = Dict.get? s'.opts k ∨
    ((∃ t v, Dict.get? s.cls k = some (t, v) ∧ Adds t) ∧
      ∃ l l', Dict.get? s.opts k = some (.list l) ∧ Dict.get? s'.opts k = some (.list l'))

theorem confRel_init {c c' : Cls F} (h : ClsRel c c') : ConfRel ⟨c, init c⟩ ⟨c', init c'⟩ := by
  refine ⟨h, fun k => Or.inl ?_⟩
  simp only
  rw [get?_init, get?_init]
  rcases h k with ⟨h1, h2⟩ | ⟨t, v, v', h1, h2, h3⟩
  · rw [h1, h2]
  · rw [h1, h2]
    rcases h3 with rfl | ⟨_, l, l', rfl, rfl⟩ <;> rfl

theorem confRel_set {s s' : St F} (h : ConfRel s s') (k : Str) (v : OptVal F) :
    ConfRel (s.set k v) (s'.set k v) := by
  refine ⟨h.1, fun k' => ?_⟩
  show Dict.get? (Dict.set s.opts k v) k' = Dict.get? (Dict.set s'.opts k v) k' ∨
    ((∃ t v, Dict.get? s.cls k' = some (t, v) ∧ Adds t) ∧
      ∃ l l', Dict.get? (Dict.set s.opts k v) k' = some (.list l) ∧
        Dict.get? (Dict.set s'.opts k v) k' = some (.list l'))
  rw [Dict.get?_set, Dict.get?_set]
  by_cases hk : k = k'
  · simp [hk]
  · simp only [hk, if_false]; exact h.2 k'

theorem confRel_foldl (ks : List Str) : ∀ {s s' : St F}, ConfRel s s' →
    ConfRel (ks.foldl (fun s k => s.set k (.list [])) s) (ks.foldl (fun s k => s.set k (.list [])) s') := by
  induction ks with
  | nil => intro s s' h; exact h
  | cons k ks ih => intro s s' h; exact ih (confRel_set h _ _)

theorem clsRel_set {c : Cls F} {k : Str} {t : OptType} {l : List Str} (hg : Dict.get? c k = some (t, .list l))
    (ha : Adds t) (l' : List Str) : ClsRel c (Dict.set c k (t, .list l')) := by
  intro k'
  rw [Dict.get?_set]
  by_cases hk : k = k'
  · subst hk
    simp only [if_true]
    exact Or.inr ⟨t, _, _, hg, rfl, Or.inr ⟨ha, _, _, rfl, rfl⟩⟩
  · simp only [hk, if_false]; exact ClsRel.refl c k'

theorem extend_cls (s : St F) (k : Str) (vs : List Str) (t : OptType) (d : OptVal F)
    (hg : Dict.get? s.cls k = some (t, d)) (ha : Adds t) : ClsRel s.cls (s.extend k vs).1.cls := by
  unfold St.extend
  split
  · exact ClsRel.refl _
  · rw [hg]
    cases d with
    | list l => exact clsRel_set hg ha _
    | _ => exact ClsRel.refl _
  · exact ClsRel.refl _

theorem confRel_extend {s s' : St F} (h : ConfRel s s') (k : Str) (vs : List Str) (t : OptType)
    (d : OptVal F) (hg : Dict.get? s.cls k = some (t, d)) (ha : Adds t) :
    (s.extend k vs).2 = (s'.extend k vs).2 ∧ ConfRel (s.extend k vs).1 (s'.extend k vs).1 := by
  have hset : ∀ l l' : List Str, ConfRel { s with opts := Dict.set s.opts k (.list l) }
      { s' with opts := Dict.set s'.opts k (.list l') } := by
    intro l l'
    refine ⟨h.1, fun k' => ?_⟩
    simp only
    rw [Dict.get?_set, Dict.get?_set]
    by_cases hk : k = k'
    · subst hk
      simp only [if_true]
      exact Or.inr ⟨⟨t, d, hg, ha⟩, l, l', rfl, rfl⟩
    · simp only [hk, if_false]; exact h.2 k'
  unfold St.extend
  rcases h.2 k with he | ⟨_, l, l', hl, hl'⟩
  · rw [← he]
    cases ho : Dict.get? s.opts k with
    | none => exact ⟨rfl, h⟩
    | some o =>
      cases o with
      | list l => exact ⟨rfl, hset _ _⟩
      | alias =>
        simp only
        rcases h.1 k with ⟨h1, _⟩ | ⟨t', v, v', h1, h2, h3⟩
        · rw [hg] at h1; cases h1
        · rw [hg] at h1; cases h1
          rw [hg, h2]
          have hopt : ∀ c c' : Cls F, ClsRel s.cls c → ClsRel c c' → ConfRel { s with cls := c }
              { s' with cls := c' } := by
            intro c c' hc hcc
            refine ⟨hcc, fun k' => ?_⟩
            rcases h.2 k' with he | ⟨⟨t0, v0, hg0, ha0⟩, hl⟩
            · exact Or.inl he
            · refine Or.inr ⟨?_, hl⟩
              rcases hc k' with ⟨h5, _⟩ | ⟨t5, v5, v5', h5, h6, _⟩
              · rw [hg0] at h5; cases h5
              · rw [hg0] at h5; cases h5
                exact ⟨_, _, h6, ha0⟩
          have key : ∀ l l' : List Str, d = .list l → v' = .list l' →
              ConfRel { s with cls := Dict.set s.cls k (t, .list (l ++ vs)) }
                { s' with cls := Dict.set s'.cls k (t, .list (l' ++ vs)) } := by
            intro l l' hd hv
            subst hd hv
            refine hopt _ _ (clsRel_set hg ha _) ?_
            exact (clsRel_set hg ha _).symm.trans (h.1.trans (clsRel_set h2 ha _))
          rcases h3 with rfl | ⟨_, l, l', rfl, rfl⟩
          · cases d with
            | list l => exact ⟨rfl, key l l rfl rfl⟩
            | _ => exact ⟨rfl, h⟩
          · exact ⟨rfl, key l l' rfl rfl⟩
      | _ => exact ⟨rfl, h⟩
  · rw [hl, hl']
    exact ⟨rfl, hset _ _⟩

theorem setOption_rel (fe : FloatEnv F) {s s' : St F} (h : ConfRel s s') (t : OptType) (k v : Str)
    (d : OptVal F) (hg : Dict.get? s.cls k = some (t, d)) :
    (setOption fe s t k v).2 = (setOption fe s' t k v).2 ∧
    ConfRel (setOption fe s t k v).1 (setOption fe s' t k v).1 := by
  cases t with
  | append => exact confRel_extend h k _ _ d hg (Or.inl rfl)
  | appendSplit => exact confRel_extend h k _ _ d hg (Or.inr rfl)
  | clear =>
    simp only [setOption, setClear, hg]
    rcases h.1 k with ⟨h1, _⟩ | ⟨t', v, v', h1, h2, h3⟩
    · rw [hg] at h1; cases h1
    · rw [hg] at h1; cases h1
      rw [h2]
      rcases h3 with rfl | ⟨ha, _⟩
      · cases d with
        | list ks => exact ⟨rfl, confRel_foldl ks h⟩
        | _ => exact ⟨rfl, h⟩
      · rcases ha with ha | ha <;> cases ha
  | int =>
    simp only [setOption, setInt]
    repeat' split
    all_goals first | exact ⟨rfl, h⟩ | exact ⟨rfl, confRel_set h _ _⟩
  | float =>
    simp only [setOption, setFloat]
    repeat' split
    all_goals first | exact ⟨rfl, h⟩ | exact ⟨rfl, confRel_set h _ _⟩
  | timevalue =>
    simp only [setOption, setTimevalue, setScaled]
    repeat' split
    all_goals first | exact ⟨rfl, h⟩ | exact ⟨rfl, confRel_set h _ _⟩
  | bool => exact ⟨rfl, confRel_set h _ _⟩
  | str => exact ⟨rfl, confRel_set h _ _⟩
  | list => exact ⟨rfl, confRel_set h _ _⟩

theorem parseConfig_rel (fe : FloatEnv F) {s s' : St F} (h : ConfRel s s') (k v : Str) :
    (parseConfig fe s k v).2 = (parseConfig fe s' k v).2 ∧
    ConfRel (parseConfig fe s k v).1 (parseConfig fe s' k v).1 := by
  unfold parseConfig
  rcases h.1 k with ⟨h1, h2⟩ | ⟨t, d, d', h1, h2, _⟩
  · rw [h1, h2]; exact ⟨rfl, h⟩
  · rw [h1, h2]
    simp only
    obtain ⟨ha, hb⟩ := setOption_rel fe h t k v d h1
    generalize setOption fe s t k v = x at ha hb
    generalize setOption fe s' t k v = y at ha hb
    obtain ⟨x1, x2⟩ := x
    obtain ⟨y1, y2⟩ := y
    simp only at ha hb
    subst ha
    cases x2 <;> exact ⟨rfl, hb⟩

theorem parseConfig_cls (fe : FloatEnv F) (s : St F) (k v : Str) :
    ClsRel s.cls (parseConfig fe s k v).1.cls := by
  unfold parseConfig
  cases hg : Dict.get? s.cls k with
  | none => exact ClsRel.refl _
  | some p =>
    obtain ⟨t, d⟩ := p
    simp only
    have : ClsRel s.cls (setOption fe s t k v).1.cls := by
      by_cases ha : Adds t
      · rcases ha with rfl | rfl
        · exact extend_cls s k _ _ d hg (Or.inl rfl)
        · exact extend_cls s k _ _ d hg (Or.inr rfl)
      · by_cases hc : t = .clear
        · subst hc
          simp only [setOption, setClear, hg]
          cases d with
          | list ks => simp only; rw [foldl_set_cls]; exact ClsRel.refl _
          | _ => exact ClsRel.refl _
        · rcases scalar_effect fe s t k v (fun h => ha (Or.inl h)) (fun h => ha (Or.inr h)) hc with h | ⟨w, _, h⟩
          · rw [h]; exact ClsRel.refl _
          · rw [h]; exact ClsRel.refl _
    generalize setOption fe s t k v = x at this
    obtain ⟨x1, x2⟩ := x
    cases x2 <;> exact this

theorem confRel_read {s s' : St F} (h : ConfRel s s') (k : Str) (t : OptType) (d : OptVal F)
    (hg : Dict.get? s.cls k = some (t, d)) (hn : ¬ Adds t) : s.read k = s'.read k := by
  unfold St.read
  rcases h.2 k with he | ⟨⟨t', v, hg', ha⟩, _⟩
  · rw [he]
    cases Dict.get? s'.opts k with
    | none => rfl
    | some o =>
      cases o with
      | alias =>
        simp only
        rcases h.1 k with ⟨h1, _⟩ | ⟨t', v, v', h1, h2, h3⟩
        · rw [hg] at h1; cases h1
        · rw [hg] at h1; cases h1
          rcases h3 with rfl | ⟨ha, _⟩
          · rw [hg, h2]
          · exact absurd ha hn
      | _ => rfl
  · rw [hg] at hg'; cases hg'; exact absurd ha hn

end Verif.Conf

namespace Verif.Server
open Verif Py Verif.Parser

variable {F : Type}

def GRel (c c' : GCtx F) : Prop := Conf.ConfRel c.conf c'.conf ∧ c.reg = c'.reg

theorem respects_grel (fe : Conf.FloatEnv F) (imp : Str → Option Str → Context.Import Unit)
    (files : Disk) (par : Bool) (lang : Option Str) : Respects (realEnv fe imp files par lang) GRel where
  isCmd := by intro c c' h t; simp [realEnv, h.2]
  hasPlugin := by intro c c' h t; simp [realEnv, h.2]
  load := by
    intro c c' h n p
    simp only [realEnv, h.2]
    exact ⟨trivial, h.1, rfl⟩
  config := by
    intro c c' h k v
    obtain ⟨ha, hb⟩ := Conf.parseConfig_rel fe h.1 k v
    simp only [realEnv]
    generalize Conf.parseConfig fe c.conf k v = x at ha hb
    generalize Conf.parseConfig fe c'.conf k v = y at ha hb
    obtain ⟨x1, x2⟩ := x
    obtain ⟨y1, y2⟩ := y
    simp only at ha hb
    subst ha
    cases x2 <;> exact ⟨rfl, hb, h.2⟩

/-- every step leaves the class attribute related to what it was -/
theorem respects_cls (fe : Conf.FloatEnv F) (imp : Str → Option Str → Context.Import Unit)
    (files : Disk) (par : Bool) (lang : Option Str) (cls0 : Conf.Cls F) :
    Respects (realEnv fe imp files par lang)
      (fun c c' => c = c' ∧ Conf.ClsRel cls0 c.conf.cls) where
  isCmd := by rintro c c' ⟨rfl, _⟩ t; rfl
  hasPlugin := by rintro c c' ⟨rfl, _⟩ t; rfl
  load := by
    rintro c c' ⟨rfl, h⟩ n p
    exact ⟨rfl, rfl, h⟩
  config := by
    rintro c c' ⟨rfl, h⟩ k v
    refine ⟨rfl, rfl, ?_⟩
    have h2 := Conf.parseConfig_cls fe c.conf k v
    simp only [realEnv]
    generalize Conf.parseConfig fe c.conf k v = x at h2
    obtain ⟨x1, x2⟩ := x
    cases x2 <;> exact h.trans h2

/-! ### Sorted files -/

theorem strLt_iff (a b : Str) : strLt a b = true ↔ a < b := by
  induction a generalizing b with
  | nil => cases b <;> simp [strLt]
  | cons x xs ih =>
    cases b with
    | nil => simp [strLt]
    | cons y ys =>
      have hlt : x.toNat < y.toNat ↔ x < y := Iff.rfl
      simp only [strLt, Bool.or_eq_true, decide_eq_true_eq, Bool.and_eq_true, ih, List.cons_lt_cons_iff, hlt]
      constructor
      · rintro (h | ⟨h, h'⟩)
        · exact Or.inl h
        · exact Or.inr ⟨Char.toNat_inj.1 h, h'⟩
      · rintro (h | ⟨h, h'⟩)
        · exact Or.inl h
        · exact Or.inr ⟨by rw [h], h'⟩

theorem strLt_false (a b : Str) : strLt a b = false ↔ b ≤ a := by
  rw [← Bool.not_eq_true, strLt_iff, List.not_lt]

theorem sortedStr_perm (l : List Str) : (sortedStr l).Perm l := sortedBy_perm strLt l

theorem sortedStr_sorted (l : List Str) : (sortedStr l).Pairwise (fun a b => a ≤ b) := by
  have := sortedBy_pairwise strLt
    (fun a b c h1 h2 => by
      rw [strLt_false] at *
      exact List.le_trans h1 h2)
    (fun a b h => by
      rw [strLt_iff] at h
      rw [strLt_false]
      exact List.le_of_lt h) l
  exact this.imp (fun h => (strLt_false _ _).1 h)

/-! ### Histories -/

section generic
variable {Rs Res Files Pref G O : Type}

/-- Servers that look alike to everyone but one user. -/
structure Alike (I : G → Prop) (obs : Rs → O) (v : Str) (s t : St Rs Res Files Pref G) : Prop where
  site : obs s.site = obs t.site
  results : s.results = t.results
  cache : ∀ u, u ≠ v → (Dict.get? s.cache u).map obs = (Dict.get? t.cache u).map obs
  files : s.files = t.files
  prefs : ∀ u, u ≠ v → s.prefs u = t.prefs u
  left : I s.g
  right : I t.g

/-- What is needed of a world: what is observed of a ruleset does not depend on the shared state. -/
structure Steady (w : World Rs Res Files Pref G) (I : G → Prop) (obs : Rs → O) : Prop where
  allowed : ∀ a b, obs a = obs b → w.allowed a = w.allowed b
  site : ∀ g g' f, I g → I g' → (w.compileSite g f).1.map (fun p => (obs p.1, p.2)) =
    (w.compileSite g' f).1.map (fun p => (obs p.1, p.2))
  user : ∀ g g' r u p, I g → I g' → (w.compileUser g r u p).1.map obs = (w.compileUser g' r u p).1.map obs
  siteI : ∀ g f, I g → I (w.compileSite g f).2
  userI : ∀ g r u p, I g → I (w.compileUser g r u p).2

variable {w : World Rs Res Files Pref G} {I : G → Prop} {obs : Rs → O} {v : Str}

theorem alike_load (h : Steady w I obs) {s t : St Rs Res Files Pref G} (hst : Alike I obs v s t) :
    Alike I obs v (loadConfig w s) (loadConfig w t) := by
  have h1 := h.site s.g t.g s.files hst.left hst.right
  have h2 := h.siteI s.g s.files hst.left
  have h3 := h.siteI t.g t.files hst.right
  unfold loadConfig
  rw [← hst.files] at h3 ⊢
  generalize w.compileSite s.g s.files = x at h1 h2
  generalize w.compileSite t.g s.files = y at h1 h3
  obtain ⟨x1, x2⟩ := x
  obtain ⟨y1, y2⟩ := y
  cases x1 with
  | none =>
    cases y1 with
    | none => exact ⟨hst.site, hst.results, fun u hu => rfl, rfl, hst.prefs, h2, h3⟩
    | some b => cases h1
  | some a =>
    cases y1 with
    | none => cases h1
    | some b =>
      simp only [Option.map_some, Option.some.injEq, Prod.mk.injEq] at h1
      exact ⟨h1.1, h1.2, fun u hu => rfl, rfl, hst.prefs, h2, h3⟩

theorem alike_user (h : Steady w I obs) {s t : St Rs Res Files Pref G} (hst : Alike I obs v s t)
    (u : Option Str) (hu : u ≠ some v) :
    (userRuleset w u s).1.map obs = (userRuleset w u t).1.map obs ∧
    Alike I obs v (userRuleset w u s).2 (userRuleset w u t).2 := by
  unfold userRuleset
  cases u with
  | none => exact ⟨by simp [hst.site], hst⟩
  | some u =>
    have hne : u ≠ v := fun e => hu (by rw [e])
    simp only [h.allowed _ _ hst.site]
    split
    · have hc := hst.cache u hne
      cases hs : Dict.get? s.cache u with
      | some rs =>
        rw [hs] at hc
        cases ht : Dict.get? t.cache u with
        | none => rw [ht] at hc; cases hc
        | some rt => rw [ht] at hc; exact ⟨hc, hst⟩
      | none =>
        rw [hs] at hc
        cases ht : Dict.get? t.cache u with
        | some rt => rw [ht] at hc; cases hc
        | none =>
          simp only
          rw [← hst.prefs u hne]
          cases s.prefs u with
          | none => exact ⟨by simp [hst.site], hst⟩
          | some p =>
            simp only
            have h1 := h.user s.g t.g s.results u p hst.left hst.right
            have h2 := h.userI s.g s.results u p hst.left
            have h3 := h.userI t.g t.results u p hst.right
            rw [← hst.results] at h3 ⊢
            generalize w.compileUser s.g s.results u p = x at h1 h2
            generalize w.compileUser t.g s.results u p = y at h1 h3
            obtain ⟨x1, x2⟩ := x
            obtain ⟨y1, y2⟩ := y
            cases x1 with
            | none =>
              cases y1 with
              | none => exact ⟨rfl, hst.site, rfl, hst.cache, hst.files, hst.prefs, h2, h3⟩
              | some b => cases h1
            | some a =>
              cases y1 with
              | none => cases h1
              | some b =>
                refine ⟨h1, hst.site, rfl, ?_, hst.files, hst.prefs, h2, h3⟩
                intro u' hu'
                simp only
                rw [Dict.get?_set, Dict.get?_set]
                split
                · exact h1
                · exact hst.cache u' hu'
    · exact ⟨by simp [hst.site], hst⟩

/-- what the user does is not seen by the others -/
theorem alike_self (h : Steady w I obs) {s t : St Rs Res Files Pref G} (hst : Alike I obs v s t)
    (op : Op Files Pref) (hop : byUser v op = true) : Alike I obs v (step w s op).2 t := by
  cases op with
  | request u =>
    cases u with
    | none => simp [byUser] at hop
    | some u =>
      simp only [byUser, decide_eq_true_eq] at hop
      subst hop
      simp only [step]
      unfold userRuleset
      simp only
      split
      · split
        · exact hst
        · split
          · exact hst
          · rename_i p _
            have h2 := h.userI s.g s.results u p hst.left
            split
            · rename_i rs g hx
              rw [hx] at h2
              refine ⟨hst.site, hst.results, ?_, hst.files, hst.prefs, h2, hst.right⟩
              intro u' hu'
              simp only
              rw [Dict.get?_set_ne _ _ (Ne.symm hu')]
              exact hst.cache u' hu'
            · rename_i g hx
              rw [hx] at h2
              exact ⟨hst.site, hst.results, hst.cache, hst.files, hst.prefs, h2, hst.right⟩
      · exact hst
  | reload => simp [byUser] at hop
  | editSite f => simp [byUser] at hop
  | editPrefs u p =>
    simp only [byUser, decide_eq_true_eq] at hop
    subst hop
    refine ⟨hst.site, hst.results, hst.cache, hst.files, ?_, hst.left, hst.right⟩
    intro u' hu'
    simp only [step, if_neg hu']
    exact hst.prefs u' hu'

theorem run_alike (h : Steady w I obs) (ops : List (Op Files Pref)) :
    ∀ s t : St Rs Res Files Pref G, Alike I obs v s t →
    (others v (run w s ops).1).map (fun r => (r.1, r.2.map obs)) =
      (run w t (without v ops)).1.map (fun r => (r.1, r.2.map obs)) := by
  induction ops with
  | nil => intro s t _; rfl
  | cons op ops ih =>
    intro s t hst
    by_cases hb : byUser v op = true
    · have hw : without v (op :: ops) = without v ops := by simp [without, hb]
      rw [hw, ← ih _ _ (alike_self h hst op hb)]
      have : others v (step w s op).1.toList = [] := by
        cases op with
        | request u =>
          cases u with
          | none => simp [byUser] at hb
          | some u =>
            simp only [byUser, decide_eq_true_eq] at hb
            simp [step, others, hb]
        | _ => rfl
      simp only [run]
      unfold others at *
      rw [List.filter_append, this]
      rfl
    · have hb' : byUser v op = false := by simpa using hb
      have hw : without v (op :: ops) = op :: without v ops := by simp [without, hb']
      rw [hw]
      have key : (others v (step w s op).1.toList).map (fun r => (r.1, r.2.map obs)) =
          (step w t op).1.toList.map (fun r => (r.1, r.2.map obs)) ∧
          Alike I obs v (step w s op).2 (step w t op).2 := by
        cases op with
        | request u =>
          have hu : u ≠ some v := by
            intro e; subst e; simp [byUser] at hb'
          obtain ⟨h1, h2⟩ := alike_user h hst u hu
          refine ⟨?_, h2⟩
          simp [step, others, hu, h1]
        | reload => exact ⟨rfl, alike_load h hst⟩
        | editSite f => exact ⟨rfl, hst.site, hst.results, hst.cache, rfl, hst.prefs, hst.left, hst.right⟩
        | editPrefs u p =>
          refine ⟨rfl, hst.site, hst.results, hst.cache, hst.files, ?_, hst.left, hst.right⟩
          intro u' hu'
          simp only [step]
          split
          · rfl
          · exact hst.prefs u' hu'
      simp only [run]
      unfold others at *
      rw [List.filter_append, List.map_append, List.map_append, key.1, ih _ _ key.2]

end generic

/-! ### The real world is steady -/

theorem finish_view {a b : State (GCtx F) × Option Err} (h : PRel GRel a b) (key : Str) (t : Conf.OptType)
    (d : Conf.OptVal F) (hk : Dict.get? a.1.ctx.conf.cls key = some (t, d)) (hn : ¬ Conf.Adds t) :
    (finish a).map (view key) = (finish b).map (view key) := by
  obtain ⟨⟨h1, h2, h3, h4⟩, he⟩ := h
  unfold finish
  rw [he]
  cases b.2 with
  | some e => rfl
  | none =>
    have hb : (fun x : Str × Dict Str PVal => badType a.1 x.2) = (fun x => badType b.1 x.2) := by
      funext x; unfold badType; rw [h4]
    simp only
    rw [hb, h1]
    split
    · rfl
    · simp only [Option.map_some, view, h1, h4, Conf.confRel_read h3 key t d hk hn]

theorem newState_rel {g g' : Conf.Cls F} (h : Conf.ClsRel g g') (r : Dict Str (Dict Str PVal)) :
    SRel GRel { newState g with results := r } { newState g' with results := r } :=
  ⟨rfl, rfl, Conf.confRel_init h, rfl⟩

theorem clsRel_scalar {c c' : Conf.Cls F} (h : Conf.ClsRel c c') {key : Str} (hk : Scalar c key) : Scalar c' key := by
  obtain ⟨t, d, hg, h1, h2⟩ := hk
  rcases h key with ⟨h3, _⟩ | ⟨t', v, v', h3, h4, _⟩
  · rw [hg] at h3; cases h3
  · rw [hg] at h3; cases h3
    exact ⟨t, v', h4, h1, h2⟩

theorem scalar_finish {cls0 : Conf.Cls F} {key : Str} (hk : Scalar cls0 key)
    {a b : State (GCtx F) × Option Err} (h : PRel GRel a b) (ha : Conf.ClsRel cls0 a.1.ctx.conf.cls) :
    (finish a).map (view key) = (finish b).map (view key) := by
  obtain ⟨t, d, hg, h1, h2⟩ := clsRel_scalar ha hk
  exact finish_view h key t d hg (fun h => h.elim h1 h2)

theorem parse_cls (fe : Conf.FloatEnv F) (imp : Str → Option Str → Context.Import Unit) (files : Disk)
    (par : Bool) (lang : Option Str) (cls0 : Conf.Cls F) (f : Str) (s : State (GCtx F))
    (h : Conf.ClsRel cls0 s.ctx.conf.cls) :
    Conf.ClsRel cls0 (parse (realEnv fe imp files par lang) f s).1.ctx.conf.cls :=
  (parse_rel (respects_cls fe imp files par lang cls0) f s s ⟨rfl, rfl, rfl, h⟩).1.2.2.2

theorem parseFiles_cls (fe : Conf.FloatEnv F) (imp : Str → Option Str → Context.Import Unit) (files : Disk)
    (par : Bool) (lang : Option Str) (cls0 : Conf.Cls F) (fs : List Str) (s : State (GCtx F))
    (h : Conf.ClsRel cls0 s.ctx.conf.cls) :
    Conf.ClsRel cls0 (parseFiles (realEnv fe imp files par lang) fs s).1.ctx.conf.cls :=
  (parseFiles_rel (respects_cls fe imp files par lang cls0) fs s s ⟨rfl, rfl, rfl, h⟩).1.2.2.2

/-- what is observed: rules, plugins, an option, and whether user rules are allowed -/
def view2 (key : Str) (rs : State (GCtx F)) :=
  (view key rs, rs.ctx.conf.read c!"allow_user_rules")

theorem finish_view2 {cls0 : Conf.Cls F} {key : Str} (hk : Scalar cls0 key)
    (hk2 : Scalar cls0 c!"allow_user_rules")
    {a b : State (GCtx F) × Option Err} (h : PRel GRel a b) (ha : Conf.ClsRel cls0 a.1.ctx.conf.cls) :
    (finish a).map (view2 key) = (finish b).map (view2 key) := by
  have h1 := scalar_finish hk h ha
  have h2 := scalar_finish hk2 h ha
  cases hx : finish a with
  | none =>
    rw [hx] at h1
    cases hy : finish b with
    | none => rfl
    | some y => rw [hy] at h1; cases h1
  | some x =>
    rw [hx] at h1 h2
    cases hy : finish b with
    | none => rw [hy] at h1; cases h1
    | some y =>
      rw [hy] at h1 h2
      simp only [Option.map_some, Option.some.injEq] at h1 h2
      simp only [view, Prod.mk.injEq] at h2
      simp only [Option.map_some, view2, h1, h2.2.2]

theorem steady_real (fe : Conf.FloatEnv F) (imp : Str → Option Str → Context.Import Unit)
    (lang : Option Str) (cls0 : Conf.Cls F) (key : Str) (hk : Scalar cls0 key)
    (hk2 : Scalar cls0 c!"allow_user_rules") :
    Steady (realWorld fe imp lang) (fun g => Conf.ClsRel cls0 g) (view2 key) where
  allowed := by
    intro a b h
    simp only [view2, Prod.mk.injEq] at h
    simp only [realWorld, h.2]
  site := by
    intro g g' f hg hg'
    have hr := parseFiles_rel (respects_grel fe imp f.2 false lang) f.1 (newState g) (newState g')
      ⟨rfl, rfl, Conf.confRel_init (hg.symm.trans hg'), rfl⟩
    have hc := parseFiles_cls fe imp f.2 false lang cls0 f.1 (newState g) hg
    have := finish_view2 hk hk2 hr hc
    simp only [realWorld, Option.map_map]
    generalize finish (parseFiles (realEnv fe imp f.2 false lang) f.1 (newState g)) = x at this
    generalize finish (parseFiles (realEnv fe imp f.2 false lang) f.1 (newState g')) = y at this
    cases x with
    | none => cases y with
      | none => rfl
      | some y => cases this
    | some x => cases y with
      | none => cases this
      | some y =>
        simp only [Option.map_some, Option.some.injEq] at this
        simp only [Option.map_some, Function.comp, this, Option.some.injEq, Prod.mk.injEq, true_and]
        simp only [view2, view, Prod.mk.injEq] at this
        exact this.1.1
  user := by
    intro g g' r u p hg hg'
    exact finish_view2 hk hk2 (parse_rel (respects_grel fe imp p false lang) _ _ _
      (newState_rel (hg.symm.trans hg') r)) (parse_cls fe imp p false lang cls0 _ _ hg)
  siteI := by
    intro g f hg
    exact parseFiles_cls fe imp f.2 false lang cls0 f.1 (newState g) hg
  userI := by
    intro g r u p hg
    exact parse_cls fe imp p false lang cls0 _ _ hg

end Verif.Server
