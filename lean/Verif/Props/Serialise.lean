import Verif.Spec.Serialise
import Verif.Lemmas.Context
import Mathlib.Data.List.Forall2

/-!
# C99: saved rulesets
-/

namespace Verif.Props
open Verif Py Context Serialise

variable {V : Type}

/-! ## Loading -/

theorem register_flag (p : Plugin) (rs : List (Str × Bool)) (d : Dict Str Plugin) (h : (register p rs d).2 = true) :
    ∀ r ∈ rs, r.2 = true := by
  induction rs generalizing d with
  | nil => simp
  | cons r rs ih =>
    obtain ⟨r, g⟩ := r
    cases g with
    | false => simp [register] at h
    | true =>
      intro x hx
      rcases List.mem_cons.mp hx with rfl | hx
      · rfl
      · exact ih _ (by simpa [register] using h) x hx

/-- What a successful load of a new class from a file does. -/
theorem load_ok (c c' : Ctx V) (n : Str) (imp : Import V) (h : load c n true imp = (c', none))
    (hn : Dict.get? c.plugins (className n) = none) :
    ∃ p ds, imp = .ok p ds ∧ c'.plugins = c.plugins ++ [(className n, p)] ∧
      c'.data = ds.foldl (fun (d : Data V) kv => setData d (className n) kv.1 kv.2) c.data ∧
      (∀ r, Dict.get? c'.evalRules r = if declares r p then some p else Dict.get? c.evalRules r) := by
  have hs : ∀ p, Dict.set c.plugins (className n) p = c.plugins ++ [(className n, p)] := fun p =>
    Dict.set_of_not_mem _ _ ((Dict.get?_eq_none_iff _ _).mp hn)
  unfold load at h
  simp only [Dict.has, hn, Option.isSome_none, Bool.false_eq_true, if_false, Bool.not_true, Bool.false_and] at h
  cases imp with
  | failed e => cases h
  | missing => cases h
  | notPlugin => cases h
  | ok p ds =>
    simp only at h
    refine ⟨p, ds, rfl, ?_⟩
    split at h
    · cases h
    · rename_i cmds' hr1
      split at h
      · cases h
      · rename_i ev' hr2
        cases h
        have g := register_flag p p.evalRules c.evalRules (by rw [hr2])
        have := (register_good p p.evalRules c.evalRules g).2
        rw [hr2] at this
        exact ⟨hs p, rfl, fun r => by rw [this r]; simp only [declares, decide_eq_true_eq]⟩

/-- The settings after the constructor of a plugin. -/
theorem defaults_data (cls : Str) (ds : List (Str × V)) : ∀ (d : Data V),
    (∀ q, q ≠ cls → Data.of (ds.foldl (fun (d : Data V) kv => setData d cls kv.1 kv.2) d) q = Data.of d q) ∧
    (∀ k, k ∉ ds.map Prod.fst → Dict.get? (Data.of (ds.foldl (fun (d : Data V) kv => setData d cls kv.1 kv.2) d) cls) k =
      Dict.get? (Data.of d cls) k) ∧
    ((ds.map Prod.fst).Nodup → ∀ k v, (k, v) ∈ ds →
      Dict.get? (Data.of (ds.foldl (fun (d : Data V) kv => setData d cls kv.1 kv.2) d) cls) k = some v) := by
  induction ds with
  | nil => intro d; exact ⟨fun _ _ => rfl, fun _ _ => rfl, fun _ _ _ h => nomatch h⟩
  | cons x xs ih =>
    intro d
    obtain ⟨h1, h2, h3⟩ := ih (setData d cls x.1 x.2)
    refine ⟨fun q hq => ?_, fun k hk => ?_, fun hn k v hm => ?_⟩
    · rw [List.foldl_cons, h1 q hq, setData, of_set, if_neg (Ne.symm hq)]
    · rw [List.map_cons, List.mem_cons, not_or] at hk
      rw [List.foldl_cons, h2 k hk.2, setData, of_set, if_pos rfl, Dict.get?_set_ne _ _ (Ne.symm hk.1)]
    · rw [List.map_cons, List.nodup_cons] at hn
      rcases List.mem_cons.mp hm with rfl | hm
      · rw [List.foldl_cons, h2 k hn.1, setData, of_set, if_pos rfl, Dict.get?_set, if_pos rfl]
      · rw [List.foldl_cons]; exact h3 hn.2 k v hm

/-! ## Histories -/

/-- What every context has: each class once, under the name it was loaded with. -/
def Named (s : State V) : Prop :=
  (Dict.keys s.ctx.plugins).Nodup ∧
  ∀ cls n path, cls ∈ Dict.keys s.ctx.plugins → Dict.get? s.paths cls = some (n, path) → className n = cls

theorem plugins_set_nodup (c : Ctx V) (n : Str) (b : Bool) (i : Import V) (h : (Dict.keys c.plugins).Nodup) :
    (Dict.keys (load c n b i).1.plugins).Nodup ∧
    ∀ cls ∈ Dict.keys (load c n b i).1.plugins, cls = className n ∨ cls ∈ Dict.keys c.plugins := by
  rw [load_plugins]
  cases (Op.load n b i).goodLoad with
  | none =>
    refine ⟨Dict.nodup_del _ _ h, fun cls hc => Or.inr ?_⟩
    rw [Dict.mem_keys_iff] at hc ⊢
    simp only [Dict.get?_del] at hc
    split at hc
    · simp at hc
    · exact hc
  | some p =>
    refine ⟨Dict.nodup_set _ _ _ (Dict.nodup_del _ _ h), fun cls hc => ?_⟩
    rw [Dict.mem_keys_iff] at hc ⊢
    simp only [Dict.get?_set, Dict.get?_del] at hc
    by_cases e : className n = cls
    · exact Or.inl e.symm
    · right; rw [if_neg e, if_neg e] at hc; exact hc

theorem step_named (s : State V) (st : Step V) (h : Named s) : Named (doStep s st) := by
  cases st with
  | set cls k v => exact h
  | load n p i =>
    obtain ⟨h1, h2⟩ := plugins_set_nodup s.ctx n p.isSome i h.1
    refine ⟨h1, ?_⟩
    intro cls n' path hc hp
    have hp : Dict.get? (match p with
      | none => Dict.del s.paths (className n)
      | some p => Dict.set s.paths (className n) (n, p)) cls = some (n', path) := hp
    rcases h2 cls hc with rfl | hc'
    · cases p with
      | none => rw [Dict.get?_del, if_pos rfl] at hp; cases hp
      | some p => rw [Dict.get?_set, if_pos rfl] at hp; cases hp; rfl
    · cases p with
      | none =>
        rw [Dict.get?_del] at hp
        split at hp
        · cases hp
        · exact h.2 cls n' path hc' hp
      | some p =>
        rw [Dict.get?_set] at hp
        split at hp
        · cases hp; assumption
        · exact h.2 cls n' path hc' hp
  | unload n =>
    have e := step_plugins s.ctx (.unload n)
    simp only [Op.goodLoad, Op.about, List.append_nil] at e
    have e : (unload s.ctx n).1.plugins = Dict.del s.ctx.plugins n := e
    refine ⟨?_, ?_⟩
    · show (Dict.keys (unload s.ctx n).1.plugins).Nodup
      rw [e]; exact Dict.nodup_del _ _ h.1
    · intro cls n' path hc hp
      have hc : cls ∈ Dict.keys (unload s.ctx n).1.plugins := hc
      rw [e, Dict.mem_keys_iff, Dict.get?_del] at hc
      split at hc
      · simp at hc
      · exact h.2 cls n' path ((Dict.mem_keys_iff _ _).mpr hc) hp

theorem run_named (l : List (Step V)) : Named (runSteps l) := by
  have : ∀ (l : List (Step V)) s, Named s → Named (l.foldl doStep s) := by
    intro l
    induction l with
    | nil => intro s h; exact h
    | cons x xs ih => intro s h; exact ih _ (step_named s x h)
  exact this l _ ⟨List.nodup_nil, fun _ _ _ h => nomatch h⟩

/-! ## Saving -/

theorem dropRules_ok (rs : List (Str × Bool)) : ∀ (d d' : Dict Str Plugin), dropRules rs d = (d', true) →
    ∀ r, Dict.get? d' r = if r ∈ rs.map Prod.fst then none else Dict.get? d r := by
  induction rs with
  | nil => intro d d' h r; cases h; simp
  | cons x xs ih =>
    intro d d' h r
    rw [dropRules] at h
    split at h
    · rw [ih _ _ h r, Dict.get?_del]
      by_cases h1 : r ∈ xs.map Prod.fst
      · simp [h1]
      · by_cases h2 : x.1 = r
        · simp [h2]
        · rw [if_neg h1, if_neg h2, if_neg]
          rw [List.map_cons, List.mem_cons, not_or]
          exact ⟨Ne.symm h2, h1⟩
    · cases h

theorem saveLoop_ok (paths : Dict Str (Str × Str)) (ps : Dict Str Plugin) : ∀ (c c' : Ctx V) (acc l : List (Str × Str)),
    saveLoop paths ps c acc = (c', some l) →
    c'.plugins = c.plugins.filter (fun e => !decide (e.1 ∈ (ps.filter (fun e => Dict.has paths e.1)).map Prod.fst)) ∧
    c'.data = c.data ∧ c'.cmds = c.cmds ∧
    l = acc ++ ps.filterMap (fun e => Dict.get? paths e.1) ∧
    ∀ r, Dict.get? c'.evalRules r = if (ps.filter (fun e => Dict.has paths e.1)).any (fun e => declares r e.2) then none
      else Dict.get? c.evalRules r := by
  induction ps with
  | nil => intro c c' acc l h; cases h; simpa using (List.filter_eq_self.mpr (by simp)).symm
  | cons x xs ih =>
    intro c c' acc l h
    obtain ⟨cls, p⟩ := x
    rw [saveLoop] at h
    cases hp : Dict.get? paths cls with
    | none =>
      rw [hp] at h
      have hh : Dict.has paths cls = false := by simp [Dict.has, hp]
      obtain ⟨a, b, d, e, f⟩ := ih c c' acc l h
      refine ⟨?_, b, d, ?_, ?_⟩
      · rw [a, List.filter_cons, hh]; simp
      · rw [e, List.filterMap_cons, hp]
      · intro r; rw [f r, List.filter_cons, hh]; simp
    | some np =>
      rw [hp] at h
      have hh : Dict.has paths cls = true := by simp [Dict.has, hp]
      simp only at h
      split at h
      · cases h
      · rename_i ev hd
        obtain ⟨a, b, d, e, f⟩ := ih _ c' _ l h
        refine ⟨?_, b, d, ?_, ?_⟩
        · rw [a, List.filter_cons, hh]
          simp only [Dict.del, List.filter_filter, if_true, List.map_cons, List.mem_cons]
          apply List.filter_congr
          intro y _
          by_cases h1 : y.1 = cls <;> simp [h1]
        · rw [e, List.filterMap_cons, hp]; simp
        · intro r
          rw [f r, List.filter_cons, hh]
          simp only [if_true, List.any_cons, dropRules_ok _ _ _ hd r]
          cases h1 : declares r p with
          | true =>
            have : r ∈ p.evalRules.map Prod.fst := by simpa [declares] using h1
            simp [this]
          | false =>
            have : r ∉ p.evalRules.map Prod.fst := by simpa [declares] using h1
            simp only [if_neg this, Bool.false_or]

theorem dropRelay_other (d d' : Data V) (h : (dropRelay d).1 = d') (q : Str) (hq : q ≠ relay) : Data.of d' q = Data.of d q := by
  subst h
  unfold dropRelay
  split
  · have h1 : Data.of (delData d relay (some c!"ipv4")).1 q = Data.of d q := by
      simp only [delData]; rw [of_set, if_neg (Ne.symm hq)]
    split
    · rename_i e; rw [e] at h1; exact h1
    · rename_i e
      rw [e] at h1
      simp only [delData]
      rw [of_set, if_neg (Ne.symm hq)]; exact h1
  · rfl

/-- What a successful save leaves. -/
theorem getstate_ok (s s' : State V) (sv : Saved V) (h : getstate s = (s', some sv)) :
    sv.state = s' ∧ s'.paths = s.paths ∧ s'.ctx.plugins = s.installed ∧ s'.ctx.data = (dropRelay s.ctx.data).1 ∧
    s'.ctx.cmds = s.ctx.cmds ∧
    (dropRelay s.ctx.data).2 = true ∧
    sv.toImport = s.ctx.plugins.filterMap (fun e => Dict.get? s.paths e.1) ∧
    ∀ r, Dict.get? s'.ctx.evalRules r = if s.fromFile.any (fun e => declares r e.2) then none
      else Dict.get? s.ctx.evalRules r := by
  unfold getstate at h
  split at h
  · cases h
  · rename_i d hd
    split at h
    · cases h
    · rename_i c l hl
      cases h
      obtain ⟨a, b, e, f, g⟩ := saveLoop_ok _ _ _ _ _ _ hl
      refine ⟨rfl, rfl, ?_, ?_, e, ?_, by simpa using f, g⟩
      · show c.plugins = _
        rw [a]
        unfold State.installed
        apply List.filter_congr
        intro y hy
        congr 1
        cases hh : Dict.has s.paths y.1 with
        | true =>
          rw [decide_eq_true_eq]
          exact List.mem_map.mpr ⟨y, List.mem_filter.mpr ⟨hy, hh⟩, rfl⟩
        | false =>
          rw [decide_eq_false_iff_not]
          intro hm
          obtain ⟨z, hz, e'⟩ := List.mem_map.mp hm
          have := (List.mem_filter.mp hz).2
          rw [e', hh] at this
          cases this
      · show c.data = _
        rw [b, hd]
      · rw [hd]

/-! ## Restoring -/

theorem restore_ok (imp : Str → Str → Import V) (l : List (Str × Str)) : ∀ (s s' : State V),
    restoreLoop imp l s = (s', true) → (l.map (fun np => className np.1)).Nodup →
    (∀ np ∈ l, className np.1 ∉ Dict.keys s.ctx.plugins) →
    ∃ news : List (Str × Plugin), s'.ctx.plugins = s.ctx.plugins ++ news ∧
      List.Forall₂ (fun np e => e.1 = className np.1 ∧ ∃ ds, imp np.1 np.2 = .ok e.2 ds) l news ∧
      (∀ q, q ∉ l.map (fun np => className np.1) → Data.of s'.ctx.data q = Data.of s.ctx.data q) ∧
      (∀ np ∈ l, ∀ p ds, imp np.1 np.2 = .ok p ds →
        (∀ k, k ∉ ds.map Prod.fst → s'.setting (className np.1) k = s.setting (className np.1) k) ∧
        ((ds.map Prod.fst).Nodup → ∀ k v, (k, v) ∈ ds → s'.setting (className np.1) k = some v)) ∧
      ∀ r, Dict.get? s'.ctx.evalRules r =
        ((news.reverse.find? (fun e => declares r e.2)).map Prod.snd).or (Dict.get? s.ctx.evalRules r) := by
  induction l with
  | nil => intro s s' h _ _; cases h; exact ⟨[], by simp, .nil, fun _ _ => rfl, fun _ h => (nomatch h), fun r => rfl⟩
  | cons x xs ih =>
    intro s s' h hn hk
    obtain ⟨n, path⟩ := x
    rw [restoreLoop] at h
    split at h
    · rename_i s1 hl
      have hlo : load s.ctx n true (imp n path) = (s1.ctx, none) := by
        unfold loadFrom at hl
        simp only [Option.isSome_some] at hl
        cases hl' : load s.ctx n true (imp n path) with
        | mk c e => rw [hl'] at hl; cases hl; rfl
      have hno : Dict.get? s.ctx.plugins (className n) = none :=
        (Dict.get?_eq_none_iff _ _).mpr (hk (n, path) (by simp))
      obtain ⟨p, ds, e1, e2, e3, e4⟩ := load_ok _ _ _ _ hlo hno
      rw [List.map_cons, List.nodup_cons] at hn
      obtain ⟨news, f1, f2, f3, f4, f5⟩ := ih s1 s' h hn.2 (by
        intro np hnp hm
        rw [e2, Dict.keys, List.map_append, List.mem_append] at hm
        rcases hm with hm | hm
        · exact hk np (List.mem_cons_of_mem _ hnp) hm
        · simp only [List.map_cons, List.map_nil, List.mem_singleton] at hm
          exact hn.1 (List.mem_map.mpr ⟨np, hnp, hm⟩))
      obtain ⟨d1, d2, d3⟩ := defaults_data (className n) ds s.ctx.data
      refine ⟨(className n, p) :: news, ?_, ?_, ?_, ?_, ?_⟩
      · rw [f1, e2]; simp
      · exact .cons ⟨rfl, ds, e1⟩ f2
      · intro q hq
        rw [List.map_cons, List.mem_cons, not_or] at hq
        rw [f3 q hq.2, e3, d1 q hq.1]
      · intro np hnp p' ds' hi
        rcases List.mem_cons.mp hnp with rfl | hnp
        · rw [e1] at hi
          cases hi
          have hd := f3 (className n) hn.1
          refine ⟨fun k hk' => ?_, fun hnd k v hm => ?_⟩
          · show Dict.get? (Data.of s'.ctx.data _) k = _
            rw [hd, e3, d2 k hk']; rfl
          · show Dict.get? (Data.of s'.ctx.data _) k = _
            rw [hd, e3, d3 hnd k v hm]
        · obtain ⟨g1, g2⟩ := f4 np hnp p' ds' hi
          refine ⟨fun k hk' => ?_, g2⟩
          rw [g1 k hk']
          show Dict.get? (Data.of s1.ctx.data _) k = Dict.get? (Data.of s.ctx.data _) k
          rw [e3, d1]
          intro e
          exact hn.1 (List.mem_map.mpr ⟨np, hnp, e⟩)
      · intro r
        rw [f5 r, List.reverse_cons, List.find?_append]
        cases hf : news.reverse.find? (fun e => declares r e.2) with
        | some e => rfl
        | none =>
          simp only [e4 r, List.find?_cons, List.find?_nil, Option.none_or]
          cases declares r p <;> rfl
    · cases h

theorem mem_places (s : State V) (np : Str × Str) :
    np ∈ s.ctx.plugins.filterMap (fun e => Dict.get? s.paths e.1) ↔ ∃ e ∈ s.ctx.plugins, Dict.get? s.paths e.1 = some np := by
  simp [List.mem_filterMap]

theorem places_names (s : State V) (h : Named s) :
    (s.ctx.plugins.filterMap (fun e => Dict.get? s.paths e.1)).map (fun np => className np.1) =
      s.fromFile.map Prod.fst := by
  have : ∀ (ps : Dict Str Plugin), (∀ e ∈ ps, e.1 ∈ Dict.keys s.ctx.plugins) →
      (ps.filterMap (fun e => Dict.get? s.paths e.1)).map (fun np => className np.1) =
        (ps.filter (fun e => Dict.has s.paths e.1)).map Prod.fst := by
    intro ps
    induction ps with
    | nil => intro _; rfl
    | cons x xs ih =>
      intro hm
      have := ih fun e he => hm e (List.mem_cons_of_mem _ he)
      cases hp : Dict.get? s.paths x.1 with
      | none => rw [List.filterMap_cons, hp, List.filter_cons]; simp [Dict.has, hp]; simpa [Dict.has] using this
      | some np =>
        rw [List.filterMap_cons, hp, List.filter_cons]
        have hc := h.2 x.1 np.1 np.2 (hm x (by simp)) hp
        simp [Dict.has, hp, hc]; simpa [Dict.has] using this
  exact this _ fun e he => List.mem_map_of_mem he

theorem forall₂_names (imp : Str → Str → Import V) (l : List (Str × Str)) (news : List (Str × Plugin))
    (h : List.Forall₂ (fun np e => e.1 = className np.1 ∧ ∃ ds, imp np.1 np.2 = .ok e.2 ds) l news) :
    news.map Prod.fst = l.map (fun np => className np.1) := by
  induction h with
  | nil => rfl
  | cons h _ ih => rw [List.map_cons, List.map_cons, ih, h.1]

/-- What a save and a restore come to, for the context of any history. -/
theorem roundtrip (hist : List (Step V)) (imp : Str → Str → Import V) (s s' t : State V) (sv : Saved V)
    (hs : s = runSteps hist) (h1 : getstate s = (s', some sv)) (h2 : setstate imp sv = (t, true)) :
    ∃ news : List (Str × Plugin), t.ctx.plugins = s.installed ++ news ∧
      List.Forall₂ (fun np e => e.1 = className np.1 ∧ ∃ ds, imp np.1 np.2 = .ok e.2 ds)
        (s.ctx.plugins.filterMap (fun e => Dict.get? s.paths e.1)) news ∧
      news.map Prod.fst = s.fromFile.map Prod.fst ∧
      (∀ q, q ∉ s.fromFile.map Prod.fst → Data.of t.ctx.data q = Data.of (dropRelay s.ctx.data).1 q) ∧
      (∀ cls ∈ s.fromFile.map Prod.fst, ∀ n path, Dict.get? s.paths cls = some (n, path) → ∀ p ds, imp n path = .ok p ds →
        (∀ k, k ∉ ds.map Prod.fst → t.setting cls k = Dict.get? (Data.of (dropRelay s.ctx.data).1 cls) k) ∧
        ((ds.map Prod.fst).Nodup → ∀ k v, (k, v) ∈ ds → t.setting cls k = some v)) ∧
      ∀ r, Dict.get? t.ctx.evalRules r = ((news.reverse.find? (fun e => declares r e.2)).map Prod.snd).or
        (if s.fromFile.any (fun e => declares r e.2) then none else Dict.get? s.ctx.evalRules r) := by
  have hN : Named s := hs ▸ run_named hist
  obtain ⟨a1, a2, a3, a4, _, a5, a6, a7⟩ := getstate_ok s s' sv h1
  unfold setstate at h2
  rw [a1, a6] at h2
  have hpl := places_names s hN
  have hnd : (s.fromFile.map Prod.fst).Nodup := hN.1.sublist (List.Sublist.map _ List.filter_sublist)
  obtain ⟨news, f1, f2, f3, f4, f5⟩ := restore_ok imp _ s' t h2 (by rw [hpl]; exact hnd) (by
    intro np hnp hm
    have hc : className np.1 ∈ s.fromFile.map Prod.fst := by rw [← hpl]; exact List.mem_map.mpr ⟨np, hnp, rfl⟩
    obtain ⟨e, he, ee⟩ := List.mem_map.mp hc
    rw [a3] at hm
    obtain ⟨e', he', ee'⟩ := List.mem_map.mp hm
    have x1 := (List.mem_filter.mp he).2
    have x2 := (List.mem_filter.mp he').2
    rw [ee] at x1
    rw [ee', x1] at x2
    cases x2)
  have hnews : news.map Prod.fst = s.fromFile.map Prod.fst := by
    rw [← hpl]
    exact forall₂_names imp _ _ f2
  refine ⟨news, by rw [f1, a3], f2, hnews, ?_, ?_, ?_⟩
  · intro q hq; rw [f3 q (by rw [hpl]; exact hq), a4]
  · intro cls hc n path hp p ds hi
    have hkey : cls ∈ Dict.keys s.ctx.plugins := by
      obtain ⟨e, he, ee⟩ := List.mem_map.mp hc
      exact ee ▸ List.mem_map_of_mem (List.mem_filter.mp he).1
    have hcn := hN.2 cls n path hkey hp
    have hm : (n, path) ∈ s.ctx.plugins.filterMap (fun e => Dict.get? s.paths e.1) := by
      obtain ⟨e, he, ee⟩ := List.mem_map.mp hkey
      exact (mem_places s _).mpr ⟨e, he, by rw [ee, hp]⟩
    obtain ⟨g1, g2⟩ := f4 (n, path) hm p ds hi
    simp only [hcn] at g1 g2
    refine ⟨fun k hk => ?_, g2⟩
    rw [g1 k hk, State.setting, a4]
  · intro r; rw [f5 r, a7 r]

/-! ## C99 -/

/-- **C99** (partial).  If all plugins are of installed modules, and the one for countries of relays is not among them, saving
a context succeeds, changes nothing in it, and the restored context is the same. -/
theorem C99_plain_partial (s : State V) (imp : Str → Str → Import V) (h : s.fromFile = [])
    (hr : Dict.has s.ctx.data c!"RelayCountryPlugin" = false) :
    ∃ sv, getstate s = (s, some sv) ∧ setstate imp sv = (s, true) := by
  have hr : Dict.has s.ctx.data relay = false := hr
  have hl : ∀ (ps : Dict Str Plugin) c (acc : List (Str × Str)), ps.filter (fun e => Dict.has s.paths e.1) = [] →
      saveLoop (V := V) s.paths ps c acc = (c, some acc) := by
    intro ps
    induction ps with
    | nil => intro c acc _; rfl
    | cons x xs ih =>
      intro c acc hf
      rw [List.filter_cons] at hf
      cases hp : Dict.get? s.paths x.1 with
      | none =>
        rw [if_neg (by simp [Dict.has, hp])] at hf
        rw [saveLoop, hp]; exact ih c acc hf
      | some np => rw [if_pos (by simp [Dict.has, hp])] at hf; cases hf
  refine ⟨⟨s, []⟩, ?_, rfl⟩
  have hd : dropRelay s.ctx.data = (s.ctx.data, true) := by simp [dropRelay, hr]
  rw [getstate, hd]
  simp only
  rw [hl _ _ _ h]

/-- **C99** (partial).  A restored context has the plugins of installed modules, the same instances, with the same settings, and
then new instances of the plugins loaded from files, of the same classes.  An eval rule that no plugin from a file declares
is unchanged. -/
theorem C99_restored_partial (hist : List (Step V)) (imp : Str → Str → Import V) (s s' t : State V) (sv : Saved V)
    (hs : s = runSteps hist) (h1 : getstate s = (s', some sv)) (h2 : setstate imp sv = (t, true)) :
    (∃ news, t.ctx.plugins = s.installed ++ news ∧ news.map Prod.fst = s.fromFile.map Prod.fst ∧
      ∀ e ∈ news, ∃ n path ds, Dict.get? s.paths e.1 = some (n, path) ∧ imp n path = .ok e.2 ds) ∧
    (∀ cls, cls ∉ s.fromFile.map Prod.fst → cls ≠ c!"RelayCountryPlugin" → ∀ k, t.setting cls k = s.setting cls k) ∧
    ∀ r, (∀ e ∈ s.fromFile, declares r e.2 = false) → (∀ e ∈ t.ctx.plugins, e.1 ∈ s.fromFile.map Prod.fst → declares r e.2 = false) →
      Dict.get? t.ctx.evalRules r = Dict.get? s.ctx.evalRules r := by
  have hN : Named s := hs ▸ run_named hist
  obtain ⟨news, a1, a2, a3, a4, _, a6⟩ := roundtrip hist imp s s' t sv hs h1 h2
  refine ⟨⟨news, a1, a3, ?_⟩, ?_, ?_⟩
  · intro e he
    have : ∀ (l : List (Str × Str)) (news : List (Str × Plugin)), List.Forall₂ (fun np e => e.1 = className np.1 ∧ ∃ ds, imp np.1 np.2 = .ok e.2 ds) l news →
        ∀ e ∈ news, ∃ np ∈ l, e.1 = className np.1 ∧ ∃ ds, imp np.1 np.2 = .ok e.2 ds := by
      intro l news h
      induction h with
      | nil => intro e he; cases he
      | cons h _ ih =>
        intro e he
        rcases List.mem_cons.mp he with rfl | he
        · exact ⟨_, List.mem_cons_self, h⟩
        · obtain ⟨np, hm, hh⟩ := ih e he
          exact ⟨np, List.mem_cons_of_mem _ hm, hh⟩
    obtain ⟨np, hm, e1, ds, e2⟩ := this _ _ a2 e he
    obtain ⟨x, hx, hp⟩ := (mem_places s np).mp hm
    have := hN.2 x.1 np.1 np.2 (List.mem_map_of_mem hx) hp
    rw [this] at e1
    exact ⟨np.1, np.2, ds, by rw [e1, hp], e2⟩
  · intro cls hc hr k
    rw [State.setting, a4 cls hc, dropRelay_other _ _ rfl cls hr]; rfl
  · intro r hd hd'
    rw [a6 r]
    have x1 : news.reverse.find? (fun e => declares r e.2) = none := by
      rw [List.find?_eq_none]
      intro e he
      have he := List.mem_reverse.mp he
      have := hd' e (by rw [a1]; exact List.mem_append_right _ he) (by rw [← a3]; exact List.mem_map_of_mem he)
      simp [this]
    have x2 : s.fromFile.any (fun e => declares r e.2) = false := by
      rw [List.any_eq_false]; intro e he; simp [hd e he]
    simp [x1, x2]

/-- **C99** is violated: saving takes every plugin that was loaded from a file out of the running context, with its eval rules. -/
theorem C99_running_violated (s s' : State V) (sv : Saved V) (h : getstate s = (s', some sv)) :
    ∀ e ∈ s.fromFile, e ∈ s.ctx.plugins ∧ Dict.get? s'.ctx.plugins e.1 = none ∧
      ∀ r, declares r e.2 = true → Dict.get? s'.ctx.evalRules r = none := by
  intro e he
  obtain ⟨_, _, a3, _, _, _, _, a7⟩ := getstate_ok s s' sv h
  refine ⟨(List.mem_filter.mp he).1, ?_, ?_⟩
  · rw [Dict.get?_eq_none_iff, a3]
    intro hm
    obtain ⟨y, hy, ey⟩ := List.mem_map.mp hm
    have x1 := (List.mem_filter.mp he).2
    have x2 := (List.mem_filter.mp hy).2
    rw [ey, x1] at x2
    cases x2
  · intro r hr
    rw [a7 r, if_pos]
    rw [List.any_eq_true]
    exact ⟨e, he, hr⟩

/-- **C99** is violated: a restored plugin that was loaded from a file has the settings of its constructor, whatever was
configured. -/
theorem C99_settings_violated (hist : List (Step V)) (imp : Str → Str → Import V) (s s' t : State V) (sv : Saved V)
    (hs : s = runSteps hist) (h1 : getstate s = (s', some sv)) (h2 : setstate imp sv = (t, true)) :
    ∀ cls ∈ s.fromFile.map Prod.fst, ∀ n path, Dict.get? s.paths cls = some (n, path) → ∀ p ds, imp n path = .ok p ds →
      (ds.map Prod.fst).Nodup → ∀ k v, (k, v) ∈ ds → t.setting cls k = some v := by
  obtain ⟨news, _, _, _, _, a5, _⟩ := roundtrip hist imp s s' t sv hs h1 h2
  intro cls hc n path hp p ds hi
  exact (a5 cls hc n path hp p ds hi).2

/-- **C99** is violated: an eval rule that a plugin from a file declares belongs, in the restored context, to the last such
plugin, even if another plugin had redefined it. -/
theorem C99_rules_violated (hist : List (Step V)) (imp : Str → Str → Import V) (s s' t : State V) (sv : Saved V)
    (hs : s = runSteps hist) (h1 : getstate s = (s', some sv)) (h2 : setstate imp sv = (t, true)) (r : Str)
    (h : ∃ e ∈ t.ctx.plugins, e.1 ∈ s.fromFile.map Prod.fst ∧ declares r e.2 = true) :
    ∃ e ∈ t.ctx.plugins, e.1 ∈ s.fromFile.map Prod.fst ∧ declares r e.2 = true ∧ Dict.get? t.ctx.evalRules r = some e.2 := by
  obtain ⟨news, a1, _, a3, _, _, a6⟩ := roundtrip hist imp s s' t sv hs h1 h2
  obtain ⟨e, he, hc, hr⟩ := h
  have hnew : e ∈ news := by
    rw [a1] at he
    rcases List.mem_append.mp he with he | he
    · exfalso
      obtain ⟨y, hy, ey⟩ := List.mem_map.mp hc
      have x1 := (List.mem_filter.mp hy).2
      have x2 := (List.mem_filter.mp he).2
      rw [ey] at x1
      rw [x1] at x2
      cases x2
    · exact he
  cases hf : news.reverse.find? (fun e => declares r e.2) with
  | none =>
    have := (List.find?_eq_none.mp hf) e (List.mem_reverse.mpr hnew)
    exact absurd hr this
  | some x =>
    have hm := List.mem_reverse.mp (List.mem_of_find?_eq_some hf)
    have hd := List.find?_some hf
    exact ⟨x, by rw [a1]; exact List.mem_append_right _ hm, by rw [← a3]; exact List.mem_map_of_mem hm, hd,
      by rw [a6 r, hf]; rfl⟩

/-- **C99** is violated: saving a context takes the databases of the plugin for countries of relays out of it, and it cannot be
saved again. -/
theorem C99_relay_violated (s s' : State V) (sv : Saved V) (h : getstate s = (s', some sv))
    (hr : Dict.has s.ctx.data c!"RelayCountryPlugin" = true) :
    s'.setting c!"RelayCountryPlugin" c!"ipv4" = none ∧ s'.setting c!"RelayCountryPlugin" c!"ipv6" = none ∧
      (getstate s').2 = none := by
  have hr : Dict.has s.ctx.data relay = true := hr
  show s'.setting relay c!"ipv4" = none ∧ s'.setting relay c!"ipv6" = none ∧ (getstate s').2 = none
  obtain ⟨_, _, _, a4, _, a5, _, _⟩ := getstate_ok s s' sv h
  have hd : ∃ d, s'.ctx.data = Dict.set d relay (Dict.del (Dict.del (Data.of s.ctx.data relay) c!"ipv4") c!"ipv6") := by
    rw [a4]
    unfold dropRelay at a5 ⊢
    rw [if_pos hr] at a5 ⊢
    split
    · rename_i e; rw [e] at a5; cases a5
    · rename_i d' e
      have ed : (delData s.ctx.data relay (some c!"ipv4")).1 = d' := by rw [e]
      refine ⟨d', ?_⟩
      have : Data.of d' relay = Dict.del (Data.of s.ctx.data relay) c!"ipv4" := by
        rw [← ed]; simp only [delData]; rw [of_set, if_pos rfl]
      simp only [delData, this]
  obtain ⟨d, hd⟩ := hd
  have ho : Data.of s'.ctx.data relay = Dict.del (Dict.del (Data.of s.ctx.data relay) c!"ipv4") c!"ipv6" := by
    rw [hd, of_set, if_pos rfl]
  have e4 : Dict.get? (Data.of s'.ctx.data relay) c!"ipv4" = none := by
    rw [ho, Dict.get?_del, if_neg (by decide), Dict.get?_del, if_pos rfl]
  refine ⟨e4, ?_, ?_⟩
  · rw [State.setting, ho, Dict.get?_del, if_pos rfl]
  · have hh : Dict.has s'.ctx.data relay = true := by
      unfold Dict.has; rw [hd, Dict.get?_set, if_pos rfl]; rfl
    have : (dropRelay s'.ctx.data).2 = false := by
      unfold dropRelay
      rw [if_pos hh]
      have : (delData s'.ctx.data relay (some c!"ipv4")).2 = false := by
        simp only [delData, Dict.has, e4]; rfl
      split
      · rfl
      · rename_i e; rw [e] at this; cases this
    unfold getstate
    split
    · rfl
    · rename_i e; rw [e] at this; cases this

/-- A plugin of an installed module, one from a file with a setting that is configured, and one of a module that redefines its rule. -/
def toyHist : List (Step Nat) :=
  [.load c!"oa.a.Alpha" none (.ok ⟨1, [(c!"check_a", true)], []⟩ [(c!"x", 1)]),
   .load c!"Beta" (some c!"/etc/beta.py") (.ok ⟨2, [(c!"check_b", true), (c!"check_c", true)], []⟩ [(c!"limit", 5)]),
   .load c!"oa.g.Gamma" none (.ok ⟨3, [(c!"check_c", true)], []⟩ []), .set c!"Beta" c!"limit" 9]

def toyState : State Nat := runSteps toyHist

def toyImp (_ _ : Str) : Import Nat := .ok ⟨4, [(c!"check_b", true), (c!"check_c", true)], []⟩ [(c!"limit", 5)]

-- saving and restoring succeed; the plugin is gone from the running context, and comes back last, with the limit 5
example : (getstate toyState).2.isSome = true ∧ (getstate toyState).1.ctx.plugins.map Prod.fst = [c!"Alpha", c!"Gamma"] ∧
    Dict.keys (getstate toyState).1.ctx.evalRules = [c!"check_a"] ∧
    (∀ sv, (getstate toyState).2 = some sv → (setstate toyImp sv).2 = true ∧
      (setstate toyImp sv).1.ctx.plugins.map Prod.fst = [c!"Alpha", c!"Gamma", c!"Beta"] ∧
      toyState.setting c!"Beta" c!"limit" = some 9 ∧ (setstate toyImp sv).1.setting c!"Beta" c!"limit" = some 5 ∧
      (Dict.get? toyState.ctx.evalRules c!"check_c").map Plugin.id = some 3 ∧
      (Dict.get? (setstate toyImp sv).1.ctx.evalRules c!"check_c").map Plugin.id = some 4) := by
  refine ⟨by decide +kernel, by decide +kernel, by decide +kernel, ?_⟩
  intro sv h
  have : some sv = some ⟨(getstate toyState).1, [(c!"Beta", c!"/etc/beta.py")]⟩ := by rw [← h]; rfl
  cases this
  decide +kernel

end Verif.Props
