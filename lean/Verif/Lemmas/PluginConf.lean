import Verif.Spec.PluginConf
import Verif.Props.Conf

/-!
# Who gets a configuration line
-/

namespace Verif.PluginConf
open Verif Py Conf

variable {F : Type}

/-- Every plugin is registered under the class name of its class. -/
def WF (w : World F) : Prop :=
  ∀ a n o, Dict.get? w.loaded a = some (n, o) → Context.className n = a

theorem wf_start (m : St F) (cl : Dict Str (Cls F)) : WF (start m cl) := by
  intro a n o h
  simp [start] at h

/-- The class of a loaded plugin is there. -/
theorem plugin_some {w : World F} {c : Str} {s : St F} (h : w.plugin c = some s) :
    ∃ n, Dict.get? w.loaded c = some (n, s.opts) ∧ Dict.get? w.classes n = some s.cls := by
  unfold World.plugin at h
  cases hl : Dict.get? w.loaded c with
  | none => rw [hl] at h; cases h
  | some p =>
    obtain ⟨n, o⟩ := p
    rw [hl] at h
    simp only [Option.map_eq_some_iff] at h
    obtain ⟨cls, h1, h2⟩ := h
    subst h2
    exact ⟨n, rfl, h1⟩

theorem plugin_of {w : World F} {c n : Str} {o : Opts F} {cls : Cls F}
    (h1 : Dict.get? w.loaded c = some (n, o)) (h2 : Dict.get? w.classes n = some cls) :
    w.plugin c = some ⟨cls, o⟩ := by
  unfold World.plugin
  rw [h1]
  simp only [h2, Option.map_some]

theorem plugin_put {w : World F} (hw : WF w) {c n : Str} {o : Opts F}
    (h1 : Dict.get? w.loaded c = some (n, o)) (s : St F) (a : Str) :
    (w.put c n s).plugin a = if c = a then some s else w.plugin a := by
  by_cases hca : c = a
  · subst hca
    rw [if_pos rfl]
    exact plugin_of (w := w.put c n s) (n := n) (o := s.opts) (cls := s.cls) (Dict.get?_set_self _ _ _)
      (Dict.get?_set_self _ _ _)
  · rw [if_neg hca]
    unfold World.plugin World.put
    simp only
    rw [Dict.get?_set_ne _ _ hca]
    cases hl : Dict.get? w.loaded a with
    | none => rfl
    | some p =>
      obtain ⟨n', o'⟩ := p
      simp only
      rw [Dict.get?_set_ne]
      intro he
      subst he
      exact hca ((hw _ _ _ h1).symm.trans (hw _ _ _ hl))

theorem wf_put {w : World F} (hw : WF w) {c n : Str} {o : Opts F}
    (h1 : Dict.get? w.loaded c = some (n, o)) (s : St F) : WF (w.put c n s) := by
  intro a n' o' h
  simp only [World.put] at h
  rw [Dict.get?_set] at h
  by_cases hca : c = a
  · subst hca
    simp only [if_true, Option.some.injEq, Prod.mk.injEq] at h
    rw [← h.1]
    exact hw _ _ _ h1
  · rw [if_neg hca] at h
    exact hw _ _ _ h

theorem keys_put (w : World F) {c n : Str} {o : Opts F}
    (h1 : Dict.get? w.loaded c = some (n, o)) (s : St F) :
    Dict.keys (w.put c n s).loaded = Dict.keys w.loaded :=
  Dict.keys_set_of_mem _ _ ((Dict.mem_keys_iff _ _).2 ⟨_, h1⟩)

/-- A class that has the option claims the line. -/
theorem parse_claims (fe : FloatEnv F) (s : St F) (key value : Str) (t : OptType × OptVal F)
    (h : Dict.get? s.cls key = some t) : (parseConfig fe s key value).2 ≠ .unclaimed := by
  unfold parseConfig
  rw [h]
  simp only
  split <;> simp

theorem parse_passes (fe : FloatEnv F) (s : St F) (key value : Str)
    (h : Dict.get? s.cls key = none) : parseConfig fe s key value = (s, .unclaimed) := by
  unfold parseConfig
  rw [h]

/-- Parsing a line does not change which options a class has. -/
theorem parse_keys (fe : FloatEnv F) (s : St F) (key value k : Str) :
    (Dict.get? (parseConfig fe s key value).1.cls k).map Prod.fst = (Dict.get? s.cls k).map Prod.fst :=
  ((line_effect fe s.cls s (clsOk_refl _) key value).1 k).1

theorem offer_passes (fe : FloatEnv F) (key value c : Str) (w : World F) (h : ¬ Declares w c key) :
    offer fe key value c w = (w, .ret false) := by
  unfold offer
  cases hl : Dict.get? w.loaded c with
  | none => rfl
  | some p =>
    obtain ⟨n, o⟩ := p
    simp only
    cases hc : Dict.get? w.classes n with
    | none => rfl
    | some cls =>
      simp only
      cases hk : Dict.get? cls key with
      | none => rw [parse_passes fe ⟨cls, o⟩ key value hk]
      | some t => exact absurd ⟨_, t, plugin_of hl hc, hk⟩ h

theorem offer_claims (fe : FloatEnv F) (key value c n : Str) (w : World F) (s : St F) (t : OptType × OptVal F)
    (hl : Dict.get? w.loaded c = some (n, s.opts)) (hc : Dict.get? w.classes n = some s.cls)
    (h : Dict.get? s.cls key = some t) :
    offer fe key value c w =
      (w.put c n (parseConfig fe s key value).1, cbOf (parseConfig fe s key value).2) := by
  have hne := parse_claims fe s key value t h
  unfold offer
  rw [hl]
  simp only [hc]

theorem loop_none (fe : FloatEnv F) (key value : Str) (w : World F) (ps : List Str)
    (h : ∀ a ∈ ps, ¬ Declares w a key) :
    Context.configLoop (offer fe key value) ps w = (w, .result false) := by
  induction ps with
  | nil => rfl
  | cons a ps ih =>
    unfold Context.configLoop
    rw [offer_passes fe key value a w (h a (List.mem_cons_self ..))]
    exact ih fun b hb => h b (List.mem_cons_of_mem _ hb)

/-- How a hook ends after a plugin has claimed the line. -/
def claimedHook : ConfRes → Context.Hook
  | .error _ => .raised
  | _ => .result true

theorem loop_first (fe : FloatEnv F) (key value : Str) (w : World F) (xs ys : List Str) (a n : Str) (s : St F)
    (t : OptType × OptVal F) (hx : ∀ b ∈ xs, ¬ Declares w b key)
    (hl : Dict.get? w.loaded a = some (n, s.opts)) (hc : Dict.get? w.classes n = some s.cls)
    (h : Dict.get? s.cls key = some t) :
    Context.configLoop (offer fe key value) (xs ++ a :: ys) w =
      (w.put a n (parseConfig fe s key value).1, claimedHook (parseConfig fe s key value).2) := by
  induction xs with
  | nil =>
    have hne := parse_claims fe s key value t h
    simp only [List.nil_append]
    unfold Context.configLoop
    rw [offer_claims fe key value a n w s t hl hc h]
    cases hr : (parseConfig fe s key value).2 with
    | unclaimed => exact absurd hr hne
    | inhibit => rfl
    | error e => rfl
  | cons b xs ih =>
    simp only [List.cons_append]
    unfold Context.configLoop
    rw [offer_passes fe key value b w (hx b (List.mem_cons_self ..))]
    exact ih fun b hb => hx b (List.mem_cons_of_mem _ hb)

/-- The main configuration takes the line: no plugin sees it. -/
theorem line_main (fe : FloatEnv F) (w : World F) (key value : Str) (h : MainDeclares w key) :
    line fe w key value =
      ({ w with main := (parseConfig fe w.main key value).1 }, claimedHook (parseConfig fe w.main key value).2) := by
  obtain ⟨t, ht⟩ := h
  have hne := parse_claims fe w.main key value t ht
  unfold line Context.hookParseConfig offerMain
  cases hr : (parseConfig fe w.main key value).2 with
  | unclaimed => exact absurd hr hne
  | inhibit => rfl
  | error e => rfl

theorem line_passes (fe : FloatEnv F) (w : World F) (key value : Str) (h : ¬ MainDeclares w key) :
    line fe w key value = Context.configLoop (offer fe key value) (Dict.keys w.loaded) w := by
  have hk : Dict.get? w.main.cls key = none := by
    cases hk : Dict.get? w.main.cls key with
    | none => rfl
    | some t => exact absurd ⟨t, hk⟩ h
  unfold line Context.hookParseConfig offerMain
  rw [parse_passes fe w.main key value hk]
  rfl

/-- The first element that satisfies a property. -/
theorem first_of {α : Type} (P : α → Prop) (l : List α) :
    (∀ a ∈ l, ¬ P a) ∨ ∃ x a y, l = x ++ a :: y ∧ P a ∧ ∀ b ∈ x, ¬ P b := by
  induction l with
  | nil => left; simp
  | cons b l ih =>
    by_cases hb : P b
    · exact Or.inr ⟨[], b, l, rfl, hb, by simp⟩
    · rcases ih with h | ⟨x, a, y, h1, h2, h3⟩
      · left
        intro a ha
        rcases List.mem_cons.1 ha with ha | ha
        · rw [ha]; exact hb
        · exact h a ha
      · refine Or.inr ⟨b :: x, a, y, by rw [h1]; rfl, h2, ?_⟩
        intro c hc
        rcases List.mem_cons.1 hc with hc | hc
        · rw [hc]; exact hb
        · exact h3 c hc

/-- What a line does: it is for the main configuration, or for the first loaded plugin that has the
option, or for nobody. -/
theorem line_cases (fe : FloatEnv F) (w : World F) (key value : Str) :
    (MainDeclares w key ∧ line fe w key value =
      ({ w with main := (parseConfig fe w.main key value).1 }, claimedHook (parseConfig fe w.main key value).2)) ∨
    (¬ MainDeclares w key ∧ (∀ a ∈ Dict.keys w.loaded, ¬ Declares w a key) ∧
      line fe w key value = (w, .result false)) ∨
    (¬ MainDeclares w key ∧ ∃ x a y n s t, Dict.keys w.loaded = x ++ a :: y ∧ (∀ b ∈ x, ¬ Declares w b key) ∧
      w.plugin a = some s ∧ Dict.get? s.cls key = some t ∧ Dict.get? w.loaded a = some (n, s.opts) ∧
      line fe w key value =
        (w.put a n (parseConfig fe s key value).1, claimedHook (parseConfig fe s key value).2)) := by
  by_cases hm : MainDeclares w key
  · exact Or.inl ⟨hm, line_main fe w key value hm⟩
  · right
    rw [line_passes fe w key value hm]
    rcases first_of (fun a => Declares w a key) (Dict.keys w.loaded) with h | ⟨x, a, y, h1, ⟨s, t, h2, h3⟩, h4⟩
    · exact Or.inl ⟨hm, h, loop_none fe key value w _ h⟩
    · obtain ⟨n, hl, hc⟩ := plugin_some h2
      refine Or.inr ⟨hm, x, a, y, n, s, t, h1, h4, h2, h3, hl, ?_⟩
      rw [h1]
      exact loop_first fe key value w x y a n s t h4 hl hc h3

theorem wf_line (fe : FloatEnv F) {w : World F} (hw : WF w) (key value : Str) :
    WF (line fe w key value).1 ∧ Dict.keys (line fe w key value).1.loaded = Dict.keys w.loaded := by
  rcases line_cases fe w key value with ⟨_, h⟩ | ⟨_, _, h⟩ | ⟨_, x, a, y, n, s, t, _, _, _, _, hl, h⟩
  · rw [h]; exact ⟨hw, rfl⟩
  · rw [h]; exact ⟨hw, rfl⟩
  · rw [h]; exact ⟨wf_put hw hl _, keys_put w hl _⟩

/-- A line does not change which class a plugin is of. -/
theorem line_name (fe : FloatEnv F) (w : World F) (key value a : Str) :
    (Dict.get? (line fe w key value).1.loaded a).map Prod.fst = (Dict.get? w.loaded a).map Prod.fst := by
  rcases line_cases fe w key value with ⟨_, h⟩ | ⟨_, _, h⟩ | ⟨_, x, b, y, n, s, t, _, _, _, _, hl, h⟩
  · rw [h]
  · rw [h]
  · rw [h]
    simp only [World.put, Dict.get?_set]
    by_cases hb : b = a
    · subst hb
      rw [if_pos rfl, hl]
      rfl
    · rw [if_neg hb]

/-- Which options a class has. -/
def SameKeys (a b : Cls F) : Prop := ∀ k, (Dict.get? a k).map Prod.fst = (Dict.get? b k).map Prod.fst

theorem SameKeys.isSome {a b : Cls F} (h : SameKeys a b) (k : Str) :
    (∃ t, Dict.get? a k = some t) ↔ ∃ t, Dict.get? b k = some t := by
  have := h k
  cases h1 : Dict.get? a k <;> cases h2 : Dict.get? b k <;> simp [h1, h2] at this ⊢

/-- A line does not change who has which options. -/
theorem line_declares (fe : FloatEnv F) {w : World F} (hw : WF w) (key value : Str) :
    (∀ k, MainDeclares (line fe w key value).1 k ↔ MainDeclares w k) ∧
    ∀ a k, Declares (line fe w key value).1 a k ↔ Declares w a k := by
  rcases line_cases fe w key value with ⟨_, h⟩ | ⟨_, _, h⟩ | ⟨_, x, a, y, n, s, t, _, _, hp, _, hl, h⟩
  · rw [h]
    exact ⟨fun k => SameKeys.isSome (fun k => parse_keys fe w.main key value k) k, fun a k => Iff.rfl⟩
  · rw [h]; exact ⟨fun _ => Iff.rfl, fun _ _ => Iff.rfl⟩
  · rw [h]
    refine ⟨fun _ => Iff.rfl, fun b k => ?_⟩
    unfold Declares
    rw [plugin_put hw hl]
    by_cases hab : a = b
    · subst hab
      rw [if_pos rfl, hp]
      constructor
      · rintro ⟨s', t', h1, h2⟩
        simp only [Option.some.injEq] at h1
        subst h1
        obtain ⟨t2, h3⟩ := (SameKeys.isSome (fun k => parse_keys fe s key value k) k).1 ⟨t', h2⟩
        exact ⟨s, t2, rfl, h3⟩
      · rintro ⟨s', t', h1, h2⟩
        simp only [Option.some.injEq] at h1
        subst h1
        obtain ⟨t2, h3⟩ := (SameKeys.isSome (fun k => parse_keys fe s key value k) k).2 ⟨t', h2⟩
        exact ⟨_, t2, rfl, h3⟩
    · rw [if_neg hab]

theorem has_iff (d : Dict Str (Str × Opts F)) (c : Str) : Dict.has d c = true ↔ c ∈ Dict.keys d := by
  unfold Dict.has
  rw [Dict.mem_keys_iff]
  cases Dict.get? d c <;> simp

theorem del_same {V : Type} (d : Dict Str V) (c : Str) (h : c ∉ Dict.keys d) : Dict.del d c = d := by
  unfold Dict.del
  rw [List.filter_eq_self]
  intro p hp
  have : p.1 ≠ c := fun he => h (he ▸ List.mem_map_of_mem (f := Prod.fst) hp)
  simp [this]

/-- `load` in one line: the old plugin of that name is gone, and the new one, if there is one, is last. -/
theorem load_eq (w : World F) (name : Str) :
    load w name = (if (rsplit1 '.' name).isNone then
        ({ w with loaded := Dict.del w.loaded (Context.className name) }, false)
      else match Dict.get? w.classes name with
        | none => ({ w with loaded := Dict.del w.loaded (Context.className name) }, false)
        | some cls => ({ w with loaded := Dict.del w.loaded (Context.className name) ++
            [(Context.className name, name, Conf.init cls)] }, true)) := by
  have hl : (if Dict.has w.loaded (Context.className name) then Dict.del w.loaded (Context.className name)
      else w.loaded) = Dict.del w.loaded (Context.className name) := by
    split
    · rfl
    · rename_i h
      rw [del_same _ _ (fun hm => h ((has_iff _ _).2 hm))]
  have hn : Context.className name ∉ Dict.keys (Dict.del w.loaded (Context.className name)) := by
    rw [← Dict.get?_eq_none_iff, Dict.get?_del, if_pos rfl]
  unfold load
  simp only []
  rw [hl]
  split
  · rfl
  · cases Dict.get? w.classes name with
    | none => rfl
    | some cls => simp only; rw [Dict.set_of_not_mem _ _ hn]

theorem get?_append {V : Type} (d e : Dict Str V) (k : Str) :
    Dict.get? (d ++ e) k = (Dict.get? d k).or (Dict.get? e k) := by
  induction d with
  | nil => simp
  | cons p d ih =>
    simp only [List.cons_append, Dict.get?_cons, ih]
    split <;> simp

/-- Loading leaves the plugins of other names as they are. -/
theorem load_other (w : World F) (name a : Str) (h : Context.className name ≠ a) :
    Dict.get? (load w name).1.loaded a = Dict.get? w.loaded a ∧ (load w name).1.classes = w.classes ∧
    (load w name).1.main = w.main := by
  rw [load_eq]
  split
  · exact ⟨by simp [Dict.get?_del, h], rfl, rfl⟩
  · split
    · exact ⟨by simp [Dict.get?_del, h], rfl, rfl⟩
    · exact ⟨by simp [get?_append, Dict.get?_del, h, Dict.get?_cons], rfl, rfl⟩

theorem load_classes (w : World F) (name : Str) :
    (load w name).1.classes = w.classes ∧ (load w name).1.main = w.main := by
  rw [load_eq]
  split
  · exact ⟨rfl, rfl⟩
  · split <;> exact ⟨rfl, rfl⟩

theorem load_plugin_other (w : World F) (name a : Str) (h : Context.className name ≠ a) :
    (load w name).1.plugin a = w.plugin a := by
  unfold World.plugin
  rw [(load_other w name a h).1, (load_other w name a h).2.1]

theorem wf_load {w : World F} (hw : WF w) (name : Str) : WF (load w name).1 := by
  intro a n o h
  by_cases ha : Context.className name = a
  · subst ha
    rw [load_eq] at h
    split at h
    · simp [Dict.get?_del] at h
    · split at h
      · simp [Dict.get?_del] at h
      · simp [get?_append, Dict.get?_del, Dict.get?_cons] at h
        rw [h.1]
  · rw [(load_other w name a ha).1] at h
    exact hw _ _ _ h

/-- Loading keeps the order of the plugins of other names. -/
theorem load_keys (w : World F) (name c : Str) (x rest : List Str) (hk : Dict.keys w.loaded = x ++ c :: rest)
    (hx : Context.className name ∉ x) (hc : Context.className name ≠ c) :
    ∃ rest', Dict.keys (load w name).1.loaded = x ++ c :: rest' := by
  have hd : Dict.keys (Dict.del w.loaded (Context.className name)) =
      x ++ c :: rest.filter (fun k => !(decide (k = Context.className name))) := by
    have h1 : Dict.keys (Dict.del w.loaded (Context.className name)) =
        (Dict.keys w.loaded).filter (fun k => !(decide (k = Context.className name))) := by
      unfold Dict.keys Dict.del
      rw [List.filter_map]
      rfl
    rw [h1, hk, List.filter_append, List.filter_cons]
    have h2 : x.filter (fun k => !(decide (k = Context.className name))) = x := by
      rw [List.filter_eq_self]
      intro a ha
      have : a ≠ Context.className name := fun he => hx (he ▸ ha)
      simp [this]
    rw [h2, if_pos (by simp [Ne.symm hc])]
  rw [load_eq]
  split
  · exact ⟨_, hd⟩
  · split
    · exact ⟨_, hd⟩
    · refine ⟨rest.filter (fun k => !(decide (k = Context.className name))) ++ [Context.className name], ?_⟩
      have h3 : ∀ (d e : Dict Str (Str × Opts F)), Dict.keys (d ++ e) = Dict.keys d ++ Dict.keys e := by
        intro d e; simp [Dict.keys]
      simp only
      rw [h3, hd]
      simp [Dict.keys]

/-- The plugin as it is when it has just been loaded. -/
theorem load_fresh (w : World F) (name : Str) (cls : Cls F) (hdot : (rsplit1 '.' name).isSome)
    (hcls : Dict.get? w.classes name = some cls) :
    (load w name).1.plugin (Context.className name) = some (fresh cls) ∧
    Dict.keys (load w name).1.loaded =
      Dict.keys (Dict.del w.loaded (Context.className name)) ++ [Context.className name] ∧
    Context.className name ∉ Dict.keys (Dict.del w.loaded (Context.className name)) := by
  have hn : (rsplit1 '.' name).isNone = false := by
    cases h : rsplit1 '.' name <;> simp [h] at hdot ⊢
  have he : load w name = ({ w with loaded := Dict.del w.loaded (Context.className name) ++
            [(Context.className name, name, Conf.init cls)] }, true) := by
    rw [load_eq, hn, hcls]
    rfl
  rw [he]
  refine ⟨?_, by simp [Dict.keys], ?_⟩
  · refine plugin_of (n := name) (o := Conf.init cls) ?_ hcls
    simp [get?_append, Dict.get?_del, Dict.get?_cons]
  · rw [← Dict.get?_eq_none_iff, Dict.get?_del, if_pos rfl]

/-- What is known of a plugin `c` that stands behind the plugins `x`, where `T` are the options somebody
before it has. -/
structure At (w : World F) (c : Str) (x : List Str) (T : Str → Prop) (s : St F) : Prop where
  wf : WF w
  here : w.plugin c = some s
  order : ∃ rest, Dict.keys w.loaded = x ++ c :: rest
  notin : c ∉ x
  taken : ∀ k, T k ↔ MainDeclares w k ∨ ∃ a ∈ x, Declares w a k

theorem At.line (fe : FloatEnv F) {w : World F} {c : Str} {x : List Str} {T : Str → Prop} {s : St F}
    (h : At w c x T s) (key value : Str) :
    (T key → At (line fe w key value).1 c x T s) ∧
    (¬ T key → At (line fe w key value).1 c x T (parseConfig fe s key value).1) := by
  have hd := line_declares fe h.wf key value
  have hw := wf_line fe h.wf key value
  have hT : ∀ k, T k ↔ MainDeclares (PluginConf.line fe w key value).1 k ∨
      ∃ a ∈ x, Declares (PluginConf.line fe w key value).1 a k := by
    intro k
    rw [h.taken k, hd.1 k]
    constructor
    · rintro (h1 | ⟨a, h1, h2⟩)
      · exact Or.inl h1
      · exact Or.inr ⟨a, h1, (hd.2 a k).2 h2⟩
    · rintro (h1 | ⟨a, h1, h2⟩)
      · exact Or.inl h1
      · exact Or.inr ⟨a, h1, (hd.2 a k).1 h2⟩
  obtain ⟨rest, hr⟩ := h.order
  have ho : ∃ rest, Dict.keys (PluginConf.line fe w key value).1.loaded = x ++ c :: rest :=
    ⟨rest, by rw [hw.2, hr]⟩
  suffices hs : (T key → (PluginConf.line fe w key value).1.plugin c = some s) ∧
      (¬ T key → (PluginConf.line fe w key value).1.plugin c = some (parseConfig fe s key value).1) from
    ⟨fun ht => ⟨hw.1, hs.1 ht, ho, h.notin, hT⟩, fun ht => ⟨hw.1, hs.2 ht, ho, h.notin, hT⟩⟩
  have hpass : ¬ Declares w c key → (parseConfig fe s key value).1 = s := by
    intro hn
    cases hk : Dict.get? s.cls key with
    | none => rw [parse_passes fe s key value hk]
    | some t => exact absurd ⟨s, t, h.here, hk⟩ hn
  rcases line_cases fe w key value with ⟨hm, he⟩ | ⟨hm, hno, he⟩ | ⟨hm, x', a, y, n, s', t, hk, hx, hp, ht, hl, he⟩
  · rw [he]
    exact ⟨fun _ => h.here, fun hn => absurd ((h.taken key).2 (Or.inl hm)) hn⟩
  · rw [he]
    refine ⟨fun _ => h.here, fun _ => ?_⟩
    rw [hpass (hno c (by rw [hr]; simp))]
    exact h.here
  · rw [he]
    have hda : Declares w a key := ⟨s', t, hp, ht⟩
    constructor
    · intro hT'
      rw [plugin_put h.wf hl]
      -- somebody before `c` has the option, so the first who has it is not `c`
      rcases (h.taken key).1 hT' with h1 | ⟨b, hb, h2⟩
      · exact absurd h1 hm
      · have hac : a ≠ c := by
          intro hac
          subst hac
          have hle : x' <+: x ∨ x <+: x' := by
            apply List.prefix_or_prefix_of_prefix (l₃ := Dict.keys w.loaded)
            · exact ⟨_, hk.symm⟩
            · exact ⟨_, hr.symm⟩
          rcases hle with ⟨z, hz⟩ | ⟨z, hz⟩
          · cases z with
            | nil =>
              rw [List.append_nil] at hz
              rw [← hz] at hb
              exact hx b hb h2
            | cons z1 z =>
              have : a ∈ x := by
                rw [hr, ← hz, List.append_assoc] at hk
                have := List.append_cancel_left hk
                simp only [List.cons_append, List.cons.injEq] at this
                rw [← hz, ← this.1]
                simp
              exact h.notin this
          · exact hx b (by rw [← hz]; exact List.mem_append_left _ hb) h2
        rw [if_neg hac]
        exact h.here
    · intro hT'
      rw [plugin_put h.wf hl]
      by_cases hac : a = c
      · subst hac
        rw [if_pos rfl]
        have := h.here
        rw [hp] at this
        cases this
        rfl
      · rw [if_neg hac, h.here]
        congr 1
        by_cases hdc : Declares w c key
        · exfalso
          -- then `c` comes first
          have hle : x' <+: x ∨ x <+: x' := by
            apply List.prefix_or_prefix_of_prefix (l₃ := Dict.keys w.loaded)
            · exact ⟨_, hk.symm⟩
            · exact ⟨_, hr.symm⟩
          rcases hle with ⟨z, hz⟩ | ⟨z, hz⟩
          · rw [hr, ← hz, List.append_assoc] at hk
            have h3 := List.append_cancel_left hk
            cases z with
            | nil =>
              simp only [List.nil_append, List.cons.injEq] at h3
              exact hac h3.1.symm
            | cons z1 z =>
              simp only [List.cons_append, List.cons.injEq] at h3
              exact hT' ((h.taken key).2 (Or.inr ⟨a, by rw [← hz, ← h3.1]; simp, hda⟩))
          · rw [hr, ← hz, List.append_assoc] at hk
            have h3 := List.append_cancel_left hk
            cases z with
            | nil =>
              simp only [List.nil_append, List.cons.injEq] at h3
              exact hac h3.1.symm
            | cons z1 z =>
              simp only [List.cons_append, List.cons.injEq] at h3
              exact hx c (by rw [← hz, h3.1]; simp) hdc
        · exact (hpass hdc).symm

theorem At.load {w : World F} {c : Str} {x : List Str} {T : Str → Prop} {s : St F}
    (h : At w c x T s) (name : Str) (hx : Context.className name ∉ x) (hc : Context.className name ≠ c) :
    At (PluginConf.load w name).1 c x T s := by
  obtain ⟨rest, hr⟩ := h.order
  refine ⟨wf_load h.wf name, ?_, load_keys w name c x rest hr hx hc, h.notin, ?_⟩
  · rw [load_plugin_other w name c hc]
    exact h.here
  · intro k
    rw [h.taken k]
    have hm : MainDeclares (PluginConf.load w name).1 k ↔ MainDeclares w k := by
      unfold MainDeclares
      rw [(load_classes w name).2]
    have hd : ∀ a ∈ x, (Declares (PluginConf.load w name).1 a k ↔ Declares w a k) := by
      intro a ha
      unfold Declares
      rw [load_plugin_other w name a (fun he => hx (he ▸ ha))]
    rw [hm]
    constructor
    · rintro (h1 | ⟨a, h1, h2⟩)
      · exact Or.inl h1
      · exact Or.inr ⟨a, h1, (hd a h1).2 h2⟩
    · rintro (h1 | ⟨a, h1, h2⟩)
      · exact Or.inl h1
      · exact Or.inr ⟨a, h1, (hd a h1).1 h2⟩

open Classical in
theorem At.run (fe : FloatEnv F) {c : Str} {x : List Str} {T : Str → Prop} (evs : List Ev)
    (hno : NoLoadOf (x ++ [c]) evs) : ∀ {w : World F} {s : St F}, At w c x T s →
    At (PluginConf.run fe w evs) c x T (runLines fe s ((linesOf evs).filter fun l => ¬ T l.1)) := by
  induction evs with
  | nil => intro w s h; exact h
  | cons e evs ih =>
    intro w s h
    have hno' : NoLoadOf (x ++ [c]) evs := fun n hn => hno n (List.mem_cons_of_mem _ hn)
    cases e with
    | load n =>
      have h1 := hno n (List.mem_cons_self ..)
      simp only [List.mem_append, List.mem_singleton, not_or] at h1
      exact ih hno' (h.load n h1.1 h1.2)
    | line k v =>
      by_cases hT : T k
      · have h2 := ih hno' ((h.line fe k v).1 hT)
        simp only [linesOf, List.filter_cons]
        rw [if_neg (by simp [hT])]
        exact h2
      · have h2 := ih hno' ((h.line fe k v).2 hT)
        simp only [linesOf, List.filter_cons]
        rw [if_pos (by simp [hT])]
        exact h2

/-! ### What happens to a class -/

/-- The class attributes keep their options, and a class nobody has loaded stays as it is. -/
theorem class_step (fe : FloatEnv F) {w : World F} (hw : WF w) (cls0 : Cls F) (name : Str) (cls : Cls F)
    (hc : Dict.get? w.classes name = some cls) (hok : ClsOk cls0 cls) (e : Ev) :
    WF (step fe w e) ∧ ∃ cls', Dict.get? (step fe w e).classes name = some cls' ∧ ClsOk cls0 cls' := by
  cases e with
  | load n =>
    refine ⟨wf_load hw n, cls, ?_, hok⟩
    show Dict.get? (load w n).1.classes name = some cls
    rw [(load_classes w n).1]; exact hc
  | line k v =>
    refine ⟨(wf_line fe hw k v).1, ?_⟩
    show ∃ cls', Dict.get? (line fe w k v).1.classes name = some cls' ∧ _
    rcases line_cases fe w k v with ⟨_, h⟩ | ⟨_, _, h⟩ | ⟨_, x, a, y, n, s, t, _, _, hp, _, hl, h⟩
    · rw [h]; exact ⟨cls, hc, hok⟩
    · rw [h]; exact ⟨cls, hc, hok⟩
    · rw [h]
      simp only [World.put]
      by_cases hn : n = name
      · subst hn
        refine ⟨_, Dict.get?_set_self _ _ _, ?_⟩
        obtain ⟨n', h1, h2⟩ := plugin_some hp
        rw [hl] at h1
        simp only [Option.some.injEq, Prod.mk.injEq] at h1
        rw [← h1.1, hc] at h2
        cases h2
        exact (line_effect fe cls0 s hok k v).1
      · exact ⟨cls, by rw [Dict.get?_set_ne _ _ hn]; exact hc, hok⟩

theorem class_run (fe : FloatEnv F) (cls0 : Cls F) (name : Str) (evs : List Ev) :
    ∀ {w : World F}, WF w → ∀ cls, Dict.get? w.classes name = some cls → ClsOk cls0 cls →
    WF (run fe w evs) ∧ ∃ cls', Dict.get? (run fe w evs).classes name = some cls' ∧ ClsOk cls0 cls' := by
  induction evs with
  | nil => intro w hw cls hc hok; exact ⟨hw, cls, hc, hok⟩
  | cons e evs ih =>
    intro w hw cls hc hok
    obtain ⟨h1, cls', h2, h3⟩ := class_step fe hw cls0 name cls hc hok e
    exact ih h1 cls' h2 h3

theorem class_unused (fe : FloatEnv F) (name : Str) (evs : List Ev) (hno : Ev.load name ∉ evs) :
    ∀ {w : World F}, WF w → (∀ a o, Dict.get? w.loaded a ≠ some (name, o)) →
    Dict.get? (run fe w evs).classes name = Dict.get? w.classes name := by
  induction evs with
  | nil => intro w _ _; rfl
  | cons e evs ih =>
    intro w hw hun
    have hno' : Ev.load name ∉ evs := fun h => hno (List.mem_cons_of_mem _ h)
    show Dict.get? (run fe (step fe w e) evs).classes name = _
    cases e with
    | load n =>
      have hne : n ≠ name := fun he => hno (he ▸ List.mem_cons_self ..)
      show Dict.get? (run fe (load w n).1 evs).classes name = _
      rw [ih hno' (wf_load hw n)]
      · show Dict.get? (load w n).1.classes name = _
        rw [(load_classes w n).1]
      · intro a o h
        change Dict.get? (load w n).1.loaded a = _ at h
        by_cases ha : Context.className n = a
        · subst ha
          rw [load_eq] at h
          split at h
          · simp [Dict.get?_del] at h
          · split at h
            · simp [Dict.get?_del] at h
            · simp [get?_append, Dict.get?_del, Dict.get?_cons] at h
              exact hne h.1
        · rw [(load_other w n a ha).1] at h
          exact hun a o h
    | line k v =>
      have hl2 := wf_line fe hw k v
      show Dict.get? (run fe (line fe w k v).1 evs).classes name = _
      rw [ih hno' hl2.1]
      · show Dict.get? (line fe w k v).1.classes name = _
        rcases line_cases fe w k v with ⟨_, h⟩ | ⟨_, _, h⟩ | ⟨_, x, a, y, n, s, t, _, _, hp, _, hl, h⟩
        · rw [h]
        · rw [h]
        · rw [h]
          simp only [World.put]
          rw [Dict.get?_set_ne]
          intro he; subst he
          exact hun a _ hl
      · intro a o h
        change Dict.get? (line fe w k v).1.loaded a = _ at h
        rcases line_cases fe w k v with ⟨_, h'⟩ | ⟨_, _, h'⟩ | ⟨_, x, b, y, n, s, t, _, _, hp, _, hl, h'⟩
        · rw [h'] at h; exact hun a o h
        · rw [h'] at h; exact hun a o h
        · rw [h'] at h
          simp only [World.put, Dict.get?_set] at h
          by_cases hb : b = a
          · rw [if_pos hb] at h
            simp only [Option.some.injEq, Prod.mk.injEq] at h
            exact hun b _ (h.1 ▸ hl)
          · rw [if_neg hb] at h
            exact hun a o h

end Verif.PluginConf
