import Verif.Lemmas.PluginConf

/-!
# C170: options of plugins
-/

namespace Verif.Props
open Verif Py Conf PluginConf

variable {F : Type}

theorem clears_of_clsOk {cls0 cls : Cls F} (h : ClsOk cls0 cls) (c key : Str) : Clears cls c key ↔ Clears cls0 c key := by
  constructor
  · rintro ⟨ks, h1, h2⟩
    have h3 := (h c).1
    rw [h1] at h3
    cases h4 : Dict.get? cls0 c with
    | none => rw [h4] at h3; simp at h3
    | some p =>
      obtain ⟨t, v⟩ := p
      rw [h4] at h3
      simp only [Option.map_some, Option.some.injEq] at h3
      have h5 := (h c).2 t v h4 (by rw [← h3]; simp) (by rw [← h3]; simp)
      rw [h1] at h5
      simp only [Option.some.injEq, Prod.mk.injEq] at h5
      exact ⟨ks, by rw [h4, h5.1, h5.2], h2⟩
  · rintro ⟨ks, h1, h2⟩
    exact ⟨ks, (h c).2 _ _ h1 (by simp) (by simp), h2⟩

/-- The class of a plugin, and what is before it, at the moment it has been loaded. -/
theorem at_load (fe : FloatEnv F) (main : St F) (classes : Dict Str (Cls F)) (pre : List Ev) (name : Str)
    (cls0 : Cls F) (hdot : (rsplit1 '.' name).isSome) (hcls : Dict.get? classes name = some cls0) :
    ∃ cls x, ClsOk cls0 cls ∧ (Ev.load name ∉ pre → cls = cls0) ∧
      Dict.keys (load (run fe (start main classes) pre) name).1.loaded = x ++ [Context.className name] ∧
      At (load (run fe (start main classes) pre) name).1 (Context.className name) x
        (Taken (load (run fe (start main classes) pre) name).1 (Context.className name)) (fresh cls) := by
  obtain ⟨hw, cls, hc, hok⟩ := class_run fe cls0 name pre (wf_start main classes) cls0 hcls (clsOk_refl _)
  obtain ⟨h1, h2, h3⟩ := load_fresh _ name cls hdot hc
  refine ⟨cls, _, hok, ?_, h2, wf_load hw name, h1, ⟨[], h2⟩, h3, ?_⟩
  · intro hno
    have := class_unused fe name pre hno (wf_start main classes) (by intro a o h; simp [start] at h)
    rw [hc] at this
    exact Option.some.inj (this.trans hcls)
  · intro k
    unfold Taken
    rw [h2]
    constructor
    · rintro (h | ⟨b, y, a, hk, hn, ha, hd⟩)
      · exact Or.inl h
      · right
        refine ⟨a, ?_, hd⟩
        have hle : b <+: Dict.keys (Dict.del (run fe (start main classes) pre).loaded (Context.className name)) ∨
            Dict.keys (Dict.del (run fe (start main classes) pre).loaded (Context.className name)) <+: b := by
          apply List.prefix_or_prefix_of_prefix (l₃ := _ ++ [Context.className name])
          · exact ⟨_, hk.symm⟩
          · exact ⟨_, rfl⟩
        rcases hle with ⟨z, hz⟩ | ⟨z, hz⟩
        · rw [← hz]; exact List.mem_append_left _ ha
        · cases z with
          | nil => rw [List.append_nil] at hz; rw [hz]; exact ha
          | cons z1 z =>
            exfalso
            rw [← hz, List.append_assoc] at hk
            have := List.append_cancel_left hk
            simp only [List.cons_append, List.cons.injEq] at this
            exact hn (by rw [← hz, this.1]; simp)
    · rintro (h | ⟨a, ha, hd⟩)
      · exact Or.inl h
      · exact Or.inr ⟨_, [], a, rfl, h3, ha, hd⟩

open Classical in
/-- **C170**: from the moment a plugin has been loaded, its options are what the lines after that give to it,
as if they were given to it alone; the lines for options that somebody asked before it has too are left
out.  `pre` is whatever was read before, `post` whatever is read after, as long as the plugin and those
before it are not loaded again. -/
theorem C170_since_load (fe : FloatEnv F) (main : St F) (classes : Dict Str (Cls F)) (pre post : List Ev)
    (name : Str) (cls0 : Cls F) (hdot : (rsplit1 '.' name).isSome) (hcls : Dict.get? classes name = some cls0)
    (hno : NoLoadOf (Dict.keys (load (run fe (start main classes) pre) name).1.loaded) post) :
    ∃ cls, ClsOk cls0 cls ∧ (Ev.load name ∉ pre → cls = cls0) ∧
      (run fe (start main classes) (pre ++ .load name :: post)).plugin (Context.className name) =
        some (runLines fe (fresh cls) ((linesOf post).filter fun l =>
          ¬ Taken (load (run fe (start main classes) pre) name).1 (Context.className name) l.1)) := by
  obtain ⟨cls, x, hok, hun, hx, hat⟩ := at_load fe main classes pre name cls0 hdot hcls
  refine ⟨cls, hok, hun, ?_⟩
  have := (At.run fe post (hx ▸ hno) hat).here
  unfold run at this ⊢
  rw [List.foldl_append, List.foldl_cons]
  exact this

theorem givenValues_filter (t : OptType) (key : Str) (lines : List (Str × Str)) (p : Str × Str → Bool)
    (hp : ∀ l, l.1 = key → p l = true) : givenValues t key (lines.filter p) = givenValues t key lines := by
  unfold givenValues
  rw [List.filter_filter]
  congr 1
  apply List.filter_congr
  intro l _
  by_cases h : l.1 = key
  · simp [h, hp l h]
  · simp [h]

theorem lastGood_filter (fe : FloatEnv F) (t : OptType) (key : Str) (lines : List (Str × Str)) (dflt : OptVal F)
    (p : Str × Str → Bool) (hp : ∀ l, l.1 = key → p l = true) :
    lastGood fe t key (lines.filter p) dflt = lastGood fe t key lines dflt := by
  unfold lastGood
  rw [List.filter_filter]
  congr 3
  apply List.filter_congr
  intro l _
  by_cases h : l.1 = key
  · simp [h, hp l h]
  · simp [h]

/-- **C170**, for a number, a switch, a text or a list: the option has the last well-typed value given after the plugin was
loaded, and its default if there is none, unless somebody asked earlier has an option of that name.  What was given
before the plugin was loaded does not count, whether the plugin is loaded for the first time or again. -/
theorem C170_scalar (fe : FloatEnv F) (main : St F) (classes : Dict Str (Cls F)) (pre post : List Ev)
    (name : Str) (cls0 : Cls F) (hdot : (rsplit1 '.' name).isSome) (hcls : Dict.get? classes name = some cls0)
    (hno : NoLoadOf (Dict.keys (load (run fe (start main classes) pre) name).1.loaded) post)
    (key : Str) (t : OptType) (dflt : OptVal F) (hk : Dict.get? cls0 key = some (t, dflt))
    (ht : t = .int ∨ t = .float ∨ t = .bool ∨ t = .str ∨ t = .list) (hd : ∀ l, dflt ≠ .list l) (ha : dflt ≠ .alias)
    (hclear : ∀ c, ¬ Clears cls0 c key)
    (hfree : ¬ Taken (load (run fe (start main classes) pre) name).1 (Context.className name) key) :
    option (run fe (start main classes) (pre ++ .load name :: post)) (Context.className name) key =
      some (lastGood fe t key (linesOf post) dflt) := by
  classical
  obtain ⟨cls, hok, _, h⟩ := C170_since_load fe main classes pre post name cls0 hdot hcls hno
  unfold PluginConf.option
  rw [h]
  have hk' : Dict.get? cls key = some (t, dflt) :=
    (hok key).2 t dflt hk (by rcases ht with h | h | h | h | h <;> simp [h]) (by rcases ht with h | h | h | h | h <;> simp [h])
  simp only [Option.bind_some]
  rw [C19_last fe cls key t dflt hk' ht hd ha (fun c hc => hclear c ((clears_of_clsOk hok c key).1 hc)),
    lastGood_filter]
  rintro ⟨k, v⟩ rfl
  exact decide_eq_true hfree

/-- **C170**, for an option that may be given several times, of a plugin that is loaded once: its defaults and then
everything given after the plugin was loaded, in order. -/
theorem C170_append (fe : FloatEnv F) (main : St F) (classes : Dict Str (Cls F)) (pre post : List Ev)
    (name : Str) (cls0 : Cls F) (hdot : (rsplit1 '.' name).isSome) (hcls : Dict.get? classes name = some cls0)
    (hno : NoLoadOf (Dict.keys (load (run fe (start main classes) pre) name).1.loaded) post)
    (honce : Ev.load name ∉ pre)
    (key : Str) (t : OptType) (dflt : List Str) (hk : Dict.get? cls0 key = some (t, .list dflt))
    (ht : t = .append ∨ t = .appendSplit) (hclear : ∀ l ∈ linesOf post, ¬ Clears cls0 l.1 key)
    (hfree : ¬ Taken (load (run fe (start main classes) pre) name).1 (Context.className name) key) :
    option (run fe (start main classes) (pre ++ .load name :: post)) (Context.className name) key =
      some (.list (dflt ++ givenValues t key (linesOf post))) := by
  classical
  obtain ⟨cls, _, hc, h⟩ := C170_since_load fe main classes pre post name cls0 hdot hcls hno
  have hc' := hc honce
  subst hc'
  unfold PluginConf.option
  rw [h]
  simp only [Option.bind_some]
  rw [C20_append fe cls key t dflt ht hk _ (fun l hl => hclear l (List.mem_filter.1 hl).1), givenValues_filter]
  rintro ⟨k, v⟩ rfl
  exact decide_eq_true hfree

/-- **C170** (violated): an option that an earlier plugin has too cannot be set.  Whatever the configuration says
after loading the plugin, its list stays what it was by default. -/
theorem C170_taken_violated (fe : FloatEnv F) (main : St F) (classes : Dict Str (Cls F)) (pre post : List Ev)
    (name : Str) (cls0 : Cls F) (hdot : (rsplit1 '.' name).isSome) (hcls : Dict.get? classes name = some cls0)
    (hno : NoLoadOf (Dict.keys (load (run fe (start main classes) pre) name).1.loaded) post)
    (honce : Ev.load name ∉ pre)
    (key : Str) (t : OptType) (dflt : List Str) (hk : Dict.get? cls0 key = some (t, .list dflt))
    (ht : t = .append ∨ t = .appendSplit) (hclear : ∀ l ∈ linesOf post, ¬ Clears cls0 l.1 key)
    (htaken : Taken (load (run fe (start main classes) pre) name).1 (Context.className name) key) :
    option (run fe (start main classes) (pre ++ .load name :: post)) (Context.className name) key =
      some (.list dflt) := by
  classical
  obtain ⟨cls, _, hc, h⟩ := C170_since_load fe main classes pre post name cls0 hdot hcls hno
  have hc' := hc honce
  subst hc'
  unfold PluginConf.option
  rw [h]
  simp only [Option.bind_some]
  rw [C20_append fe cls key t dflt ht hk _ (fun l hl => hclear l (List.mem_filter.1 hl).1)]
  have : givenValues t key ((linesOf post).filter fun l =>
      ¬ Taken (load (run fe (start main classes) pre) name).1 (Context.className name) l.1) = [] := by
    unfold givenValues
    rw [List.filter_filter]
    have : (linesOf post).filter (fun l => decide (l.1 = key) &&
        decide (¬ Taken (load (run fe (start main classes) pre) name).1 (Context.className name) l.1)) = [] := by
      rw [List.filter_eq_nil_iff]
      rintro ⟨k, v⟩ _ hc
      simp only [Bool.and_eq_true, decide_eq_true_eq] at hc
      exact hc.2 (hc.1 ▸ htaken)
    rw [this]
    rfl
  rw [this, List.append_nil]

/-- **C170**: a line is somebody's exactly if the main configuration or a loaded plugin has an option of that name. -/
theorem C170_claimed (fe : FloatEnv F) (w : World F) (key value : Str) :
    (line fe w key value).2 ≠ .result false ↔
      MainDeclares w key ∨ ∃ a ∈ Dict.keys w.loaded, Declares w a key := by
  have hcl : ∀ (s : St F) (t : OptType × OptVal F), Dict.get? s.cls key = some t →
      claimedHook (parseConfig fe s key value).2 ≠ .result false := by
    intro s t _
    cases (parseConfig fe s key value).2 <;> simp [claimedHook]
  rcases line_cases fe w key value with ⟨hm, he⟩ | ⟨hm, hno, he⟩ | ⟨hm, x, a, y, n, s, t, hk, hx, hp, ht, hl, he⟩
  · rw [he]
    obtain ⟨t, h⟩ := id hm
    exact ⟨fun _ => Or.inl hm, fun _ => hcl _ t h⟩
  · rw [he]
    constructor
    · intro h; exact absurd rfl h
    · rintro (h | ⟨a, ha, hd⟩)
      · exact absurd h hm
      · exact absurd hd (hno a ha)
  · rw [he]
    exact ⟨fun _ => Or.inr ⟨a, by rw [hk]; simp, s, t, hp, ht⟩, fun _ => hcl s t ht⟩

/-- **C170**: a line changes the options of one holder only.  If the main configuration changes, no plugin does; if a
plugin changes, the main configuration and all other plugins are as before. -/
theorem C170_one_holder (fe : FloatEnv F) (main : St F) (classes : Dict Str (Cls F)) (evs : List Ev) (key value : Str) :
    ∀ w, w = run fe (start main classes) evs →
    (∀ c, (line fe w key value).1.plugin c = w.plugin c) ∨
    (line fe w key value).1.main = w.main ∧
      ∃ a, Declares w a key ∧ ∀ c, c ≠ a → (line fe w key value).1.plugin c = w.plugin c := by
  intro w hw
  have hwf : WF w := by
    rw [hw]
    clear hw
    suffices h : ∀ (evs : List Ev) (w : World F), WF w → WF (run fe w evs) from h evs _ (wf_start main classes)
    intro evs
    induction evs with
    | nil => intro w h; exact h
    | cons e evs ih =>
      intro w h
      apply ih
      cases e with
      | load n => exact wf_load h n
      | line k v => exact (wf_line fe h k v).1
  rcases line_cases fe w key value with ⟨hm, he⟩ | ⟨hm, hno, he⟩ | ⟨hm, x, a, y, n, s, t, hk, hx, hp, ht, hl, he⟩
  · rw [he]; exact Or.inl fun c => rfl
  · rw [he]; exact Or.inl fun c => rfl
  · rw [he]
    refine Or.inr ⟨rfl, a, ⟨s, t, hp, ht⟩, fun c hc => ?_⟩
    rw [plugin_put hwf hl, if_neg (Ne.symm hc)]

/-- An option given several times stays the list of the class attribute as long as nothing clears it. -/
theorem alias_run (fe : FloatEnv F) (cls0 : Cls F) (key : Str) (t : OptType) (ht : t = .append ∨ t = .appendSplit)
    (lines : List (Str × Str)) (hno : ∀ l ∈ lines, ¬ Clears cls0 l.1 key) :
    ∀ (s : St F) (l : List Str), ClsOk cls0 s.cls → Dict.get? s.opts key = some .alias →
      Dict.get? s.cls key = some (t, .list l) →
      Dict.get? (runLines fe s lines).cls key = some (t, .list (l ++ givenValues t key lines)) := by
  induction lines with
  | nil => intro s l _ _ h; simpa [runLines, givenValues] using h
  | cons p lines ih =>
    intro s l hok ha hc
    have hno' : ∀ l ∈ lines, ¬ Clears cls0 l.1 key := fun l hl => hno l (List.mem_cons_of_mem _ hl)
    have hle := line_effect fe cls0 s hok p.1 p.2
    show Dict.get? (runLines fe (parseConfig fe s p.1 p.2).1 lines).cls key = _
    by_cases hp : p.1 = key
    · have hpc : (parseConfig fe s p.1 p.2).1 = ({ s with cls := Dict.set s.cls key (t, .list (l ++ lineValues t p.2)) } : St F) := by
        rw [hp, parseConfig_fst fe s key p.2 t _ hc]
        rcases ht with rfl | rfl <;> simp only [setOption, St.extend, ha, hc, lineValues]
      rw [ih hno' _ (l ++ lineValues t p.2) hle.1 (by rw [hpc]; exact ha) (by rw [hpc]; exact Dict.get?_set_self _ _ _)]
      simp [givenValues, hp, List.append_assoc]
    · have h2 := (hle.2 key hp).2 (hno p (List.mem_cons_self ..))
      rw [ih hno' _ l hle.1 (by rw [h2.2.1]; exact ha) (by rw [h2.2.2]; exact hc)]
      simp [givenValues, hp]

/-- **C170** (violated): loading a plugin again makes it a new plugin with new options, but what was given for an option
that may be given several times is still there. -/
theorem C170_reload_violated (fe : FloatEnv F) (main : St F) (classes : Dict Str (Cls F)) (first second : List (Str × Str))
    (name : Str) (cls0 : Cls F) (hdot : (rsplit1 '.' name).isSome) (hcls : Dict.get? classes name = some cls0)
    (key : Str) (t : OptType) (dflt : List Str) (hk : Dict.get? cls0 key = some (t, .list dflt))
    (ht : t = .append ∨ t = .appendSplit) (hclear : ∀ l ∈ first ++ second, ¬ Clears cls0 l.1 key)
    (hfree : Dict.get? main.cls key = none) :
    option (run fe (start main classes)
        (.load name :: first.map (fun l => .line l.1 l.2) ++ .load name :: second.map (fun l => .line l.1 l.2)))
        (Context.className name) key =
      some (.list (dflt ++ givenValues t key first ++ givenValues t key second)) := by
  classical
  have hl : ∀ ls : List (Str × Str), linesOf (ls.map fun l => Ev.line l.1 l.2) = ls := by
    intro ls
    induction ls with
    | nil => rfl
    | cons p ls ih => simp [linesOf, ih]
  have hnl : ∀ (names : List Str) (ls : List (Str × Str)), NoLoadOf names (ls.map fun l => Ev.line l.1 l.2) := by
    intro names ls n hn
    simp at hn
  -- nobody else is ever loaded
  have hmain : ∀ (evs : List Ev) (w : World F), WF w → (MainDeclares (run fe w evs) key ↔ MainDeclares w key) ∧ WF (run fe w evs) := by
    intro evs
    induction evs with
    | nil => intro w h; exact ⟨Iff.rfl, h⟩
    | cons e evs ih =>
      intro w h
      cases e with
      | load n =>
        have := ih (load w n).1 (wf_load h n)
        refine ⟨this.1.trans ?_, this.2⟩
        unfold MainDeclares
        rw [(load_classes w n).2]
      | line k v =>
        have := ih (line fe w k v).1 (wf_line fe h k v).1
        exact ⟨this.1.trans ((line_declares fe h k v).1 key), this.2⟩
  have hm0 : ¬ MainDeclares (start main classes) key := by
    rintro ⟨t', h⟩
    change Dict.get? main.cls key = _ at h
    rw [hfree] at h
    cases h
  -- the first round
  obtain ⟨c1, hok1, hun1, h1⟩ := C170_since_load fe main classes [] (first.map fun l => .line l.1 l.2) name cls0 hdot hcls
    (hnl _ _)
  have hc1 := hun1 (by simp)
  subst hc1
  have hkeys0 : Dict.keys (load (start main classes) name).1.loaded = [Context.className name] := by
    rw [(load_fresh (start main classes) name c1 hdot hcls).2.1]
    rfl
  have hfree1 : ¬ Taken (load (start main classes) name).1 (Context.className name) key := by
    rintro (h | ⟨b, a', x, h, _, hx, _⟩)
    · apply hm0
      unfold MainDeclares at h ⊢
      rwa [(load_classes (start main classes) name).2] at h
    · rw [hkeys0] at h
      cases b with
      | nil => simp at hx
      | cons b1 b => simp at h
  -- the world before the second load
  have hnames : ∀ (ls : List (Str × Str)) (w : World F), WF w →
      Dict.keys (run fe w (ls.map fun l => Ev.line l.1 l.2)).loaded = Dict.keys w.loaded ∧
      ∀ a, (Dict.get? (run fe w (ls.map fun l => Ev.line l.1 l.2)).loaded a).map Prod.fst =
        (Dict.get? w.loaded a).map Prod.fst := by
    intro ls
    induction ls with
    | nil => intro w _; exact ⟨rfl, fun _ => rfl⟩
    | cons p ls ih =>
      intro w hw
      have hwl := wf_line fe hw p.1 p.2
      obtain ⟨h2, h3⟩ := ih (line fe w p.1 p.2).1 hwl.1
      exact ⟨h2.trans hwl.2, fun a => (h3 a).trans (line_name fe w p.1 p.2 a)⟩
  have hW1 : WF (load (start main classes) name).1 := wf_load (wf_start main classes) name
  obtain ⟨hk1, hn1⟩ := hnames first _ hW1
  generalize hw2 : run fe (load (start main classes) name).1 (first.map fun l => Ev.line l.1 l.2) = w2 at *
  have hstart : run fe (start main classes) (.load name :: first.map fun l => Ev.line l.1 l.2) = w2 := hw2
  have h1' : w2.plugin (Context.className name) = some (runLines fe (fresh c1) (first.filter fun l =>
      ¬ Taken (load (start main classes) name).1 (Context.className name) l.1)) := by
    rw [hl] at h1
    rw [← hstart]
    exact h1
  obtain ⟨n, hn, hcl⟩ := plugin_some h1'
  have hnn : n = name := by
    have h5 := hn1 (Context.className name)
    rw [hn] at h5
    obtain ⟨n', h6, h7⟩ := plugin_some (load_fresh (start main classes) name c1 hdot hcls).1
    rw [load_eq] at h5
    have h8 : (rsplit1 '.' name).isNone = false := by
      cases h : rsplit1 '.' name <;> simp [h] at hdot ⊢
    simp only [h8, Bool.false_eq_true, if_false, start, hcls] at h5
    simp [Dict.del, Dict.get?_cons] at h5
    exact h5
  subst hnn
  -- the class attribute holds what was given in the first round
  have hini : Dict.get? (fresh c1).opts key = some .alias := by simp [fresh, get?_init, hk]
  have hcl2 : Dict.get? (runLines fe (fresh c1) (first.filter fun l =>
      ¬ Taken (load (start main classes) n).1 (Context.className n) l.1)).cls key =
      some (t, .list (dflt ++ givenValues t key first)) := by
    rw [alias_run fe c1 key t ht _ (fun l h => hclear l (List.mem_append_left _ (List.mem_filter.1 h).1)) (fresh c1) dflt
      (clsOk_refl _) hini hk, givenValues_filter]
    rintro ⟨k, v⟩ rfl
    exact decide_eq_true hfree1
  have hok2 := runLines_cls fe c1 (first.filter fun l =>
      ¬ Taken (load (start main classes) n).1 (Context.className n) l.1) (fresh c1) (clsOk_refl _)
  generalize hc2 : (runLines fe (fresh c1) (first.filter fun l =>
      ¬ Taken (load (start main classes) n).1 (Context.className n) l.1)).cls = c2 at *
  -- the second round
  obtain ⟨hf, hkf, hnf⟩ := load_fresh w2 n c2 hdot hcl
  have hW2 : WF w2 := by rw [← hstart]; exact (hmain _ _ (wf_start main classes)).2
  have hm2 : ¬ MainDeclares w2 key := by
    rw [← hstart, (hmain _ _ (wf_start main classes)).1]
    exact hm0
  have hdel : Dict.keys (Dict.del w2.loaded (Context.className n)) = [] := by
    have : ∀ x ∈ Dict.keys (Dict.del w2.loaded (Context.className n)), False := by
      intro x hx
      have h9 : x ∈ Dict.keys w2.loaded := by
        unfold Dict.keys Dict.del at hx
        unfold Dict.keys
        obtain ⟨q, hq, hq2⟩ := List.mem_map.1 hx
        exact List.mem_map.2 ⟨q, (List.mem_filter.1 hq).1, hq2⟩
      rw [hk1, hkeys0] at h9
      simp only [List.mem_singleton] at h9
      subst h9
      exact hnf hx
    exact List.eq_nil_iff_forall_not_mem.2 fun x hx => this x hx
  have hat : At (load w2 n).1 (Context.className n) [] (MainDeclares (load w2 n).1) (fresh c2) :=
    ⟨wf_load hW2 n, hf, ⟨[], by rw [hkf, hdel]⟩, by simp, fun k => by simp⟩
  have hfin := (At.run fe (second.map fun l => Ev.line l.1 l.2) (hnl _ _) hat).here
  have hsplit : run fe (start main classes) (.load n :: first.map (fun l => Ev.line l.1 l.2) ++
      .load n :: second.map (fun l => Ev.line l.1 l.2)) =
      run fe (load w2 n).1 (second.map fun l => Ev.line l.1 l.2) := by
    rw [← hstart]
    unfold run
    rw [List.foldl_append, List.foldl_cons (l := second.map _)]
    rfl
  rw [hsplit]
  unfold PluginConf.option
  rw [hfin]
  simp only [Option.bind_some]
  rw [hl, C20_append fe c2 key t _ ht hcl2 _ (fun l h => ?_), givenValues_filter]
  · rintro ⟨k, v⟩ rfl
    refine decide_eq_true ?_
    intro h
    apply hm2
    unfold MainDeclares at h ⊢
    rwa [(load_classes w2 n).2] at h
  · intro hc
    exact hclear l (List.mem_append_right _ (List.mem_filter.1 h).1) ((clears_of_clsOk hok2 l.1 key).1 hc)

/-! ### The plugins that have the same options -/

/-- The classes of three plugins. -/
def tldClasses : Dict Str (Cls F) :=
  [ (c!"oa.plugins.header_eval.HeaderEval", headerEvalOptions),
    (c!"oa.plugins.free_mail.FreeMail", freeMailOptions),
    (c!"oa.plugins.wlbl_eval.WLBLEvalPlugin", wlblOptions) ]

/-- No option of these classes clears another. -/
theorem no_clears {name : Str} {cls : Cls F} (h : Dict.get? (tldClasses (F := F)) name = some cls) (c key : Str) :
    ¬ Clears cls c key := by
  have hall : ∀ p ∈ (tldClasses (F := F)), ∀ q ∈ p.2, q.2.1 ≠ OptType.clear := by
    intro p hp
    simp only [tldClasses, List.mem_cons, List.not_mem_nil, or_false] at hp
    rcases hp with rfl | rfl | rfl
    · intro q hq
      simp only [headerEvalOptions, List.mem_cons, List.not_mem_nil, or_false] at hq
      rcases hq with rfl | rfl | rfl <;> simp
    · intro q hq
      simp only [freeMailOptions, List.mem_cons, List.not_mem_nil, or_false] at hq
      rcases hq with rfl | rfl | rfl | rfl | rfl | rfl | rfl | rfl | rfl | rfl <;> simp
    · intro q hq
      simp only [wlblOptions, List.mem_cons, List.not_mem_nil, or_false] at hq
      rcases hq with rfl | rfl | rfl | rfl | rfl | rfl | rfl | rfl | rfl | rfl | rfl | rfl | rfl | rfl | rfl | rfl <;> simp
  rintro ⟨ks, h1, _⟩
  exact hall _ (Dict.mem_of_get? _ h) _ (Dict.mem_of_get? _ h1) rfl

/-- **C170** (violated): `HeaderEval`, then `FreeMail` are loaded.  However many `util_rb_tld` lines follow, and whatever
else, `FreeMail` sees none of them: all its values stay empty, while those of `HeaderEval` are all that were given. -/
theorem C170_tlds_violated (fe : FloatEnv F) (five ten two : F) (post : List Ev)
    (hno : NoLoadOf [c!"HeaderEval", c!"FreeMail"] post) (key : Str)
    (hk : key = c!"util_rb_tld" ∨ key = c!"util_rb_2tld" ∨ key = c!"util_rb_3tld") :
    let w := run fe (start (fresh (padOptions five ten two)) tldClasses)
      (.load c!"oa.plugins.header_eval.HeaderEval" :: .load c!"oa.plugins.free_mail.FreeMail" :: post)
    PluginConf.option w c!"FreeMail" key = some (.list []) ∧
    PluginConf.option w c!"HeaderEval" key = some (.list (givenValues .appendSplit key (linesOf post))) := by
  have hm : Dict.get? (padOptions five ten two) key = none := by rcases hk with rfl | rfl | rfl <;> rfl
  have hF : Dict.get? (freeMailOptions (F := F)) key = some (.appendSplit, .list []) := by
    rcases hk with rfl | rfl | rfl <;> rfl
  have hH : Dict.get? (headerEvalOptions (F := F)) key = some (.appendSplit, .list []) := by
    rcases hk with rfl | rfl | rfl <;> rfl
  constructor
  · have := C170_taken_violated fe (fresh (padOptions five ten two)) tldClasses
      [.load c!"oa.plugins.header_eval.HeaderEval"] post c!"oa.plugins.free_mail.FreeMail" freeMailOptions rfl rfl
      (show NoLoadOf [c!"HeaderEval", c!"FreeMail"] post from hno) (by simp) key .appendSplit [] hF (Or.inr rfl)
      (fun l _ => no_clears (name := c!"oa.plugins.free_mail.FreeMail") rfl l.1 key)
      (Or.inr ⟨[c!"HeaderEval"], [], c!"HeaderEval", rfl, by decide, by simp, fresh headerEvalOptions, _, rfl, hH⟩)
    exact this
  · have := C170_append fe (fresh (padOptions five ten two)) tldClasses []
      (.load c!"oa.plugins.free_mail.FreeMail" :: post) c!"oa.plugins.header_eval.HeaderEval" headerEvalOptions rfl rfl
      (by
        show NoLoadOf [c!"HeaderEval"] _
        intro n hn
        rcases List.mem_cons.1 hn with h | h
        · cases h; decide
        · intro hc
          refine hno n h ?_
          simp only [List.mem_singleton] at hc
          rw [hc]; simp)
      (by simp) key .appendSplit [] hH (Or.inr rfl)
      (fun l _ => no_clears (name := c!"oa.plugins.header_eval.HeaderEval") rfl l.1 key)
      (by
        rintro (⟨t, h⟩ | ⟨b, a, x, h, _, hx, _⟩)
        · change Dict.get? (padOptions five ten two) key = some t at h
          rw [hm] at h
          cases h
        · change [c!"HeaderEval"] = _ at h
          cases b with
          | nil => simp at hx
          | cons b1 b => simp at h)
    exact this

/-- A float environment. -/
def pcEnv : FloatEnv Nat := ⟨fun s => (int? s).map Int.toNat, fun _ => false, fun n x => some (n * x)⟩

/-- A configuration that gives an option before the plugin is loaded, and others after. -/
def pcEvents : List Ev :=
  [.line c!"freemail_domains" c!"lost.example", .load c!"oa.plugins.header_eval.HeaderEval",
   .load c!"oa.plugins.free_mail.FreeMail", .line c!"freemail_domains" c!"a.example b.example",
   .line c!"freemail_max_body_emails" c!"7", .line c!"util_rb_tld" c!"com net", .line c!"report_safe" c!"0",
   .line c!"freemail_max_body_emails" c!"many"]

example :
    let w := run pcEnv (start (fresh (padOptions 5 10 2)) tldClasses) pcEvents
    PluginConf.option w c!"FreeMail" c!"freemail_domains" = some (.list [c!"a.example", c!"b.example"]) ∧
    PluginConf.option w c!"FreeMail" c!"freemail_max_body_emails" = some (.int 7) ∧
    PluginConf.option w c!"FreeMail" c!"util_rb_tld" = some (.list []) ∧
    PluginConf.option w c!"HeaderEval" c!"util_rb_tld" = some (.list [c!"com", c!"net"]) ∧
    w.main.read c!"report_safe" = some (.int 0) := by
  decide +kernel

/-- The hypotheses of `C170_scalar` hold for this configuration. -/
example :
    PluginConf.option (run pcEnv (start (fresh (padOptions 5 10 2)) tldClasses) pcEvents) c!"FreeMail"
      c!"freemail_max_body_emails" = some (.int 7) :=
  C170_scalar pcEnv (fresh (padOptions 5 10 2)) tldClasses (pcEvents.take 2) (pcEvents.drop 3)
    c!"oa.plugins.free_mail.FreeMail" freeMailOptions rfl rfl
    (by
      show NoLoadOf [c!"HeaderEval", c!"FreeMail"] _
      intro n hn
      simp [pcEvents] at hn)
    c!"freemail_max_body_emails" .int (.int 5) rfl (Or.inl rfl) (by simp) (by simp)
    (fun c => no_clears (name := c!"oa.plugins.free_mail.FreeMail") rfl c _)
    (by
      rintro (⟨t, h⟩ | ⟨b, a, x, h, _, hx, ⟨s, t, h1, h2⟩⟩)
      · change none = some t at h
        cases h
      · change [c!"HeaderEval", c!"FreeMail"] = _ at h
        have hb : b = [c!"HeaderEval"] := by
          cases b with
          | nil => simp at h; exact absurd h.1 (by decide)
          | cons b1 b =>
            simp only [List.cons_append, List.cons.injEq] at h
            cases b with
            | nil => rw [h.1]
            | cons b2 b => simp at h
        subst hb
        simp only [List.mem_singleton] at hx
        subst hx
        change some (fresh (headerEvalOptions (F := Nat))) = some s at h1
        cases h1
        change none = some t at h2
        cases h2)

/-- Loading `FreeMail` again: the domains are still there, the number is not. -/
example :
    let w := run pcEnv (start (fresh (padOptions 5 10 2)) tldClasses) (pcEvents ++ [.load c!"oa.plugins.free_mail.FreeMail"])
    PluginConf.option w c!"FreeMail" c!"freemail_domains" = some (.list [c!"a.example", c!"b.example"]) ∧
    PluginConf.option w c!"FreeMail" c!"freemail_max_body_emails" = some (.int 5) := by
  decide +kernel

end Verif.Props
