import Verif.Lemmas.Context

/-!
# C22, C23, C24: plugin registry, callback chains, plugin data
-/

namespace Verif.Props
open Verif Py Context

variable {V : Type}

/-- **C22** (loaded plugins): after any history the registry lists exactly the good loads that no
later operation on the same class undoes, in the order of loading. -/
theorem C22_loaded_plugins (ops : List (Op V)) :
    (run Ctx.empty ops).plugins = survivors ops := run_plugins ops

/-- **C22** (eval rules, violated): after any history, if a plugin of one class is loaded, then loading one of another class that defines the
eval rule `r` and unloading it again makes `r` unavailable, while the first plugin, which may define `r` too, is still loaded. -/
theorem C22_eval_rules_violated (c : Ctx V) (a n : Str) (p q : Plugin) (hasPath : Bool) (defaults : List (Str × V))
    (ha : Dict.get? c.plugins a = some p) (hne : className n ≠ a) (hl : (Op.load n hasPath (.ok q defaults)).goodLoad = some q) (r : Str)
    (hr : r ∈ q.evalRules.map Prod.fst) :
    let c' := (unload (load c n hasPath (.ok q defaults)).1 (className n)).1
    Dict.get? c'.plugins a = some p ∧ Dict.get? c'.evalRules r = none := by
  have hp := load_plugins c n hasPath (.ok q defaults)
  rw [hl] at hp
  simp only at hp
  have hq : Dict.get? (load c n hasPath (.ok q defaults)).1.plugins (className n) = some q := by
    rw [hp, Dict.get?_set_self]
  simp only [unload, hq]
  refine ⟨?_, ?_⟩
  · rw [Dict.get?_del, if_neg hne, hp, Dict.get?_set_ne _ _ hne, Dict.get?_del, if_neg hne, ha]
  · rw [foldl_del, if_pos hr]

/-- A and B both define the eval rule `r`.  After loading both and unloading B, A is still loaded but `r` is not available. -/
example :
    ∃ (ops : List (Op Unit)) (r : Str) (p : Plugin),
      (∀ op ∈ ops, op.notHalfway) ∧ (c!"A", p) ∈ survivors ops ∧ r ∈ p.evalRules.map Prod.fst ∧
      Dict.get? (run Ctx.empty ops).evalRules r = none :=
  ⟨[.load c!"m.A" false (.ok ⟨1, [(c!"r", true)], []⟩ []),
    .load c!"m.B" false (.ok ⟨2, [(c!"r", true)], []⟩ []),
    .unload c!"B"], c!"r", ⟨1, [(c!"r", true)], []⟩,
    by simp [Op.notHalfway], by decide, by decide, by decide⟩

/-- **C22** (eval rules, violated, second case): a plugin whose load fails at one of its eval rules leaves those
it had registered before available, although it is not loaded. -/
theorem C22_failed_load_violated (c : Ctx V) (n bad : Str) (q : Plugin) (hasPath : Bool) (defaults : List (Str × V))
    (good more : List (Str × Bool)) (hn : hasPath = true ∨ (rsplit1 '.' n).isSome = true) (hc : ∀ x ∈ q.cmds, x.2 = true)
    (hq : q.evalRules = good ++ (bad, false) :: more) (hg : ∀ x ∈ good, x.2 = true) (r : Str) (hr : r ∈ good.map Prod.fst) :
    let c' := (load c n hasPath (.ok q defaults)).1
    Dict.get? c'.plugins (className n) = none ∧ Dict.get? c'.evalRules r = some q := by
  have hreg : ∀ (l : List (Str × Bool)) (d : Dict Str Plugin), (∀ x ∈ l, x.2 = true) →
      register q (l ++ (bad, false) :: more) d = ((register q l d).1, false) := by
    intro l
    induction l with
    | nil => intro d _; rfl
    | cons x l ih =>
      intro d h
      obtain ⟨k, b⟩ := x
      have hb : b = true := h _ (List.mem_cons_self ..)
      subst hb
      simp only [List.cons_append, register, if_true]
      exact ih _ (fun x hx => h x (List.mem_cons_of_mem _ hx))
  have hgl : (Op.load n hasPath (.ok q defaults) : Op V).goodLoad = none := by
    have hx : ¬ (q.evalRules.all Prod.snd = true) := by
      rw [hq]
      simp
    simp only [Op.goodLoad]
    rw [if_neg]
    exact fun h => hx (by simpa using h.2.2)
  have hp := load_plugins c n hasPath (.ok q defaults)
  rw [hgl] at hp
  simp only at hp
  intro c'
  refine ⟨?_, ?_⟩
  · show Dict.get? (load c n hasPath (.ok q defaults)).1.plugins (className n) = none
    rw [hp, Dict.get?_del, if_pos rfl]
  · have hcond : (!hasPath && (rsplit1 '.' n).isNone) = false := by
      rcases hn with rfl | h
      · rfl
      · cases h' : rsplit1 '.' n with
        | none => rw [h'] at h; cases h
        | some _ => simp
    show Dict.get? (load c n hasPath (.ok q defaults)).1.evalRules r = some q
    unfold load
    simp only [hcond, Bool.false_eq_true, if_false]
    generalize (if Dict.has c.plugins (className n) then (unload c (className n)).1 else c) = c1
    have h1 := (register_good q q.cmds c1.cmds hc).1
    have h2 := (register_good q good c1.evalRules hg).2 r
    rw [if_pos hr] at h2
    have h3 : register q q.cmds c1.cmds = ((register q q.cmds c1.cmds).1, true) := by rw [← h1]
    rw [h3, hq, hreg good _ hg]
    exact h2

/-- One rule is registered, the next one is bad. -/
example :
    ∃ (ops : List (Op Unit)) (r : Str),
      survivors ops = [] ∧ (Dict.get? (run Ctx.empty ops).evalRules r).isSome = true :=
  ⟨[.load c!"m.A" false (.ok ⟨1, [(c!"r", true), (c!"s", false)], []⟩ [])], c!"r",
    by decide, by decide⟩

/-- **C22** (eval rules, the part that holds): if no load fails halfway and the name is declared
by plugins of one class only, the rule is available exactly when that class is loaded and
declares it, and it is resolved to the loaded instance. -/
theorem C22_eval_rules_partial (r cls : Str) (ops : List (Op V)) (hn : ∀ op ∈ ops, op.notHalfway)
    (hone : ∀ op ∈ ops, op.declaresEval r → op.about = cls) (p : Plugin) :
    Dict.get? (run Ctx.empty ops).evalRules r = some p ↔
      (cls, p) ∈ survivors ops ∧ r ∈ p.evalRules.map Prod.fst := by
  have hone' : ∀ op ∈ ops, ∀ p, op.goodLoad = some p → r ∈ (evalTable (V := V)).names p → op.about = cls := by
    intro op hop q hq hr
    apply hone op hop
    cases op with
    | unload n => cases hq
    | load n h i =>
      cases i with
      | ok p' ds =>
        simp only [Op.goodLoad] at hq
        split at hq
        · cases hq; exact hr
        · cases hq
      | _ => cases hq
  have hs := ((evalTable (V := V)).single r cls ops hn hone').2
  rw [run_plugins] at hs
  have hnd : (Dict.keys (survivors ops)).Nodup := by
    clear hs hone' hone hn
    induction ops with
    | nil => simp [survivors, Dict.keys]
    | cons o os ih =>
      have hsurv : ∀ (l : List (Op V)) (e : Str × Plugin), e ∈ survivors l → e.1 ∈ l.map Op.about := by
        intro l
        induction l with
        | nil => simp [survivors]
        | cons o os ih =>
          intro e he
          simp only [survivors] at he
          split at he
          · split at he
            · rcases List.mem_cons.1 he with h | h
              · simp [h]
              · exact List.mem_cons_of_mem _ (ih e h)
            · exact List.mem_cons_of_mem _ (ih e he)
          · exact List.mem_cons_of_mem _ (ih e he)
      simp only [survivors]
      split
      · split
        · rename_i h
          simp only [Dict.keys, List.map_cons, List.nodup_cons]
          refine ⟨fun hm => ?_, ih⟩
          obtain ⟨e, he, hee⟩ := List.mem_map.1 hm
          obtain ⟨o', ho', hoo⟩ := List.mem_map.1 (hsurv os e he)
          exact h o' ho' (by rw [hoo, hee])
        · exact ih
      · exact ih
  have hmem : (cls, p) ∈ survivors ops ↔ Dict.get? (survivors ops) cls = some p :=
    ⟨fun h => Dict.get?_of_mem _ hnd h, fun h => Dict.mem_of_get? _ h⟩
  show Dict.get? ((evalTable (V := V)).tbl (run Ctx.empty ops)) r = some p ↔ _
  rw [hs, hmem]
  show _ ↔ _ ∧ r ∈ (evalTable (V := V)).names p
  cases Dict.get? (survivors ops) cls with
  | none => simp
  | some q =>
    simp only
    by_cases hr : r ∈ (evalTable (V := V)).names q
    · simp only [hr, if_true]
      constructor
      · intro h; cases h; exact ⟨rfl, hr⟩
      · exact fun h => h.1
    · simp only [hr, if_false]
      constructor
      · intro h; cases h
      · rintro ⟨h, h2⟩; cases h; exact absurd h2 hr

/-- **C22** (redefinition, the part that holds): if nothing is unloaded, an eval rule, and a rule
type, is resolved to the plugin loaded most recently among those that declare it. -/
theorem C22_most_recent_partial (r : Str) (ops : List (Op V))
    (hg : ∀ op ∈ ops, ∃ p, op.goodLoad = some p) (hd : (ops.map Op.about).Nodup) :
    Dict.get? (run Ctx.empty ops).evalRules r =
      ((survivors ops).reverse.find? (fun e => decide (r ∈ e.2.evalRules.map Prod.fst))).map Prod.snd ∧
    Dict.get? (run Ctx.empty ops).cmds r =
      ((survivors ops).reverse.find? (fun e => decide (r ∈ e.2.cmds.map Prod.fst))).map Prod.snd :=
  ⟨(evalTable (V := V)).latest r ops hg hd, (cmdTable (V := V)).latest r ops hg hd⟩

/-- **C23** (notifications): the hook returns false exactly when every plugin, in registration
order, was called and returned; it returns true exactly when the first plugins were called and
returned and the next one inhibited the rest (which are not called: the state is the one that
plugin left); any other exception of a plugin ends the chain as well. -/
theorem C23_notification {P S : Type} (cb : P → S → S × Cb) (ps : List P) (s s' : S) :
    (chain cb ps s = (s', .result false) ↔ AllReturn cb (fun _ => True) ps s s') ∧
    (chain cb ps s = (s', .result true) ↔ ∃ before p after s1, ps = before ++ p :: after ∧
      AllReturn cb (fun _ => True) before s s1 ∧ cb p s1 = (s', .inhibit)) ∧
    (chain cb ps s = (s', .raised) ↔ ∃ before p after s1, ps = before ++ p :: after ∧
      AllReturn cb (fun _ => True) before s s1 ∧ cb p s1 = (s', .raised)) := by
  induction ps generalizing s with
  | nil => simp [chain, AllReturn, eq_comm]
  | cons p ps ih =>
    have hsplit : ∀ (e : Cb), (∀ b, e ≠ .ret b) →
        ((∃ before q after s1, p :: ps = before ++ q :: after ∧
          AllReturn cb (fun _ => True) before s s1 ∧ cb q s1 = (s', e)) ↔
        cb p s = (s', e) ∨ ∃ s1 b, cb p s = (s1, .ret b) ∧ ∃ before q after s2, ps = before ++ q :: after ∧
          AllReturn cb (fun _ => True) before s1 s2 ∧ cb q s2 = (s', e)) := by
      intro e _
      constructor
      · rintro ⟨before, q, after, s1, hps, hb, hq⟩
        cases before with
        | nil =>
          simp only [List.nil_append, List.cons.injEq] at hps
          obtain ⟨rfl, rfl⟩ := hps
          cases hb
          exact Or.inl hq
        | cons x xs =>
          simp only [List.cons_append, List.cons.injEq] at hps
          obtain ⟨rfl, rfl⟩ := hps
          obtain ⟨s2, b, h1, _, h2⟩ := hb
          exact Or.inr ⟨s2, b, h1, xs, q, after, s1, rfl, h2, hq⟩
      · rintro (h | ⟨s1, b, h1, before, q, after, s2, hps, hb, hq⟩)
        · exact ⟨[], p, ps, s, rfl, rfl, h⟩
        · exact ⟨p :: before, q, after, s2, by simp [hps], ⟨s1, b, h1, trivial, hb⟩, hq⟩
    rw [hsplit .inhibit (by simp), hsplit .raised (by simp)]
    simp only [chain, AllReturn]
    cases hc : cb p s with
    | mk s1 e =>
      cases e with
      | ret b =>
        simp only
        obtain ⟨i1, i2, i3⟩ := ih s1
        refine ⟨?_, ?_, ?_⟩
        · rw [i1]; simp
        · rw [i2]; simp
        · rw [i3]; simp
      | inhibit => simp [eq_comm]
      | raised => simp [eq_comm]

/-- **C23** (configuration lines): the line is offered to the main configuration, then to the
plugins in registration order until one claims it, by inhibiting the rest or by returning a true
value.  (A claim by return value is not visible in the hook's result, which is then false.) -/
theorem C23_config_line {P S : Type} (conf : S → S × Cb) (cb : P → S → S × Cb) (ps : List P)
    (s s' : S) :
    (∀ s1, conf s = (s1, .inhibit) → hookParseConfig conf cb ps s = (s1, .result true)) ∧
    (∀ s1, conf s = (s1, .raised) → hookParseConfig conf cb ps s = (s1, .raised)) ∧
    (∀ s1 b, conf s = (s1, .ret b) →
      (hookParseConfig conf cb ps s = (s', .result true) ↔ ∃ before p after s2,
        ps = before ++ p :: after ∧ AllReturn cb (· = false) before s1 s2 ∧ cb p s2 = (s', .inhibit)) ∧
      (hookParseConfig conf cb ps s = (s', .result false) ↔
        AllReturn cb (· = false) ps s1 s' ∨ ∃ before p after s2, ps = before ++ p :: after ∧
          AllReturn cb (· = false) before s1 s2 ∧ cb p s2 = (s', .ret true)) ∧
      (hookParseConfig conf cb ps s = (s', .raised) ↔ ∃ before p after s2,
        ps = before ++ p :: after ∧ AllReturn cb (· = false) before s1 s2 ∧ cb p s2 = (s', .raised))) := by
  refine ⟨fun s1 h => by simp [hookParseConfig, h], fun s1 h => by simp [hookParseConfig, h], ?_⟩
  intro s1 b h
  have hh : hookParseConfig conf cb ps s = configLoop cb ps s1 := by simp [hookParseConfig, h]
  rw [hh]
  clear hh h
  induction ps generalizing s1 with
  | nil => simp [configLoop, AllReturn, eq_comm]
  | cons p ps ih =>
    have hsplit : ∀ (e : Cb), e ≠ .ret false →
        ((∃ before q after s2, p :: ps = before ++ q :: after ∧
          AllReturn cb (· = false) before s1 s2 ∧ cb q s2 = (s', e)) ↔
        cb p s1 = (s', e) ∨ ∃ s3, cb p s1 = (s3, .ret false) ∧ ∃ before q after s2, ps = before ++ q :: after ∧
          AllReturn cb (· = false) before s3 s2 ∧ cb q s2 = (s', e)) := by
      intro e _
      constructor
      · rintro ⟨before, q, after, s2, hps, hb, hq⟩
        cases before with
        | nil =>
          simp only [List.nil_append, List.cons.injEq] at hps
          obtain ⟨rfl, rfl⟩ := hps
          cases hb
          exact Or.inl hq
        | cons x xs =>
          simp only [List.cons_append, List.cons.injEq] at hps
          obtain ⟨rfl, rfl⟩ := hps
          obtain ⟨s3, b, h1, h2, h3⟩ := hb
          subst h2
          exact Or.inr ⟨s3, h1, xs, q, after, s2, rfl, h3, hq⟩
      · rintro (h | ⟨s3, h1, before, q, after, s2, hps, hb, hq⟩)
        · exact ⟨[], p, ps, s1, rfl, rfl, h⟩
        · exact ⟨p :: before, q, after, s2, by simp [hps], ⟨s3, false, h1, rfl, hb⟩, hq⟩
    rw [hsplit .inhibit (by simp), hsplit .raised (by simp), hsplit (.ret true) (by simp)]
    simp only [configLoop, AllReturn]
    cases hc : cb p s1 with
    | mk s3 e =>
      cases e with
      | ret b =>
        obtain ⟨i1, i2, i3⟩ := ih s3
        cases b with
        | false =>
          simp only
          refine ⟨?_, ?_, ?_⟩
          · rw [i1]; simp
          · rw [i2]; simp
          · rw [i3]; simp
        | true => simp [eq_comm]
      | inhibit => simp [eq_comm]
      | raised => simp [eq_comm]

/-- **C24**: after a value is stored for a plugin under a key of a context, and any further
operations that do not overwrite or delete exactly that key (or all of that plugin's data) of
that context, reading it gives the value; if it was deleted and not stored again, reading fails
with `KeyError`. -/
theorem C24_private (w : Nat → Data V) (i : Nat) (p k : Str) (v : V) (ops : List (DataOp V))
    (h : ∀ op ∈ ops, ¬ op.touches i p k) :
    (getData (dataRun (dataStep w (.set i p k v)) ops i) p k).2 = some v ∧
    (∀ d, d = none ∨ d = some k →
      (getData (dataRun (dataStep w (.del i p d)) ops i) p k).2 = none ∧
      (getData (dataRun (dataStep w (.pop i p d)) ops i) p k).2 = none) ∧
    (getData (dataRun w ops i) p k).2 = (getData (w i) p k).2 := by
  have run_un : ∀ w : Nat → Data V, Dict.get? (Data.of (dataRun w ops i) p) k = Dict.get? (Data.of (w i) p) k := by
    induction ops with
    | nil => intro w; rfl
    | cons o os ih =>
      intro w
      show Dict.get? (Data.of (dataRun (dataStep w o) os i) p) k = _
      rw [ih (fun op hop => h op (List.mem_cons_of_mem _ hop)), dataStep_untouched w o i p k (h o (by simp))]
  simp only [getData, run_un, and_true]
  refine ⟨?_, ?_⟩
  · simp [dataStep, setData, of_set, Dict.get?_set]
  · rintro d (rfl | rfl)
    · simp [dataStep, delData, popData, of_del, Dict.get?]
    · simp [dataStep, delData, popData, of_set, Dict.get?_del]

/-- **C24** (reloading): a plugin that is loaded again, or unloaded, finds nothing of what was
stored under its name before, except the defaults it stores itself; the data of other plugins is
unchanged. -/
theorem C24_reload (c : Ctx V) (name : Str) (hp : Bool) (p : Plugin) (defaults : List (Str × V))
    (q k : Str) (hl : Dict.has c.plugins (className name) = true) (hd : hp = true ∨ '.' ∈ name)
    (hnd : (defaults.map Prod.fst).Nodup) :
    (getData (load c name hp (.ok p defaults)).1.data q k).2 =
      (if q = className name then Dict.get? defaults k else (getData c.data q k).2) ∧
    (getData (unload c (className name)).1.data q k).2 =
      (if q = className name then none else (getData c.data q k).2) := by
  have hun : (unload c (className name)).1.data = Dict.del c.data (className name) := by
    unfold unload
    unfold Dict.has at hl
    cases hg : Dict.get? c.plugins (className name) with
    | none => rw [hg] at hl; cases hl
    | some x => rfl
  have hdel : ∀ q, Data.of (Dict.del c.data (className name)) q =
      if q = className name then [] else Data.of c.data q := by
    intro q
    rw [of_del]
    by_cases h : q = className name
    · simp [h]
    · simp [h, Ne.symm h]
  have hfold : ∀ (ds : List (Str × V)) (d : Data V), (ds.map Prod.fst).Nodup →
      Dict.get? (Data.of (ds.foldl (fun (d : Data V) (kv : Str × V) => setData d (className name) kv.1 kv.2) d) q) k =
      if q = className name then (match Dict.get? ds k with
        | some v => some v
        | none => Dict.get? (Data.of d q) k) else Dict.get? (Data.of d q) k := by
    intro ds
    induction ds with
    | nil => intro d _; simp
    | cons x xs ih =>
      intro d hnd
      simp only [List.map_cons, List.nodup_cons] at hnd
      rw [List.foldl_cons, ih _ hnd.2]
      by_cases hq : q = className name
      · subst hq
        simp only [if_true, setData, of_set, Dict.get?_set]
        by_cases hx : x.1 = k
        · subst hx
          have : Dict.get? xs x.1 = none := (Dict.get?_eq_none_iff _ _).2 hnd.1
          simp [this, Dict.get?]
        · have hg : Dict.get? (x :: xs) k = Dict.get? xs k := by
            obtain ⟨a, b⟩ := x
            simp only [Dict.get?]
            rw [if_neg hx]
          rw [hg]
          simp [hx]
      · simp [hq, Ne.symm hq, setData, of_set]
  have hrs : (rsplit1 '.' name).isNone = true → hp = true := by
    intro h
    rcases hd with h' | h'
    · exact h'
    · exfalso
      have := (rsplit1_isSome '.' name).2 h'
      cases hx : rsplit1 '.' name with
      | none => rw [hx] at this; cases this
      | some y => rw [hx] at h; cases h
  constructor
  · have hdata : (load c name hp (.ok p defaults)).1.data =
        defaults.foldl (fun (d : Data V) (kv : Str × V) => setData d (className name) kv.1 kv.2)
          (Dict.del c.data (className name)) := by
      unfold load
      simp only [hl, if_true]
      rw [if_neg]
      · rw [hun]
        split
        · rfl
        · split <;> rfl
      · intro h
        simp only [Bool.and_eq_true, Bool.not_eq_true'] at h
        rw [hrs h.2] at h
        cases h.1
    simp only [getData]
    rw [hdata, hfold defaults _ hnd, hdel]
    by_cases hq : q = className name
    · simp only [hq, if_true]
      cases Dict.get? defaults k <;> rfl
    · simp [hq]
  · simp only [getData]
    rw [hun, hdel]
    by_cases hq : q = className name
    · simp [hq]
    · simp [hq]

example : Dict.has (run (V := Nat) Ctx.empty [.load c!"a.B" false (.ok ⟨1, [], []⟩ [(c!"k", 1)])]).plugins
    (className c!"a.B") = true ∧
    (getData (load (run (V := Nat) Ctx.empty [.load c!"a.B" false (.ok ⟨1, [], []⟩ [(c!"k", 1), (c!"l", 2)])])
      c!"a.B" false (.ok ⟨2, [], []⟩ [(c!"k", 3)])).1.data c!"B" c!"l").2 = none := by decide

/-! Concrete cases. -/

/-- Two plugins, one reloaded, one unloaded, one failing. -/
def demoHistory : List (Op Nat) :=
  [.load c!"oa.plugins.spf.SpfPlugin" false (.ok ⟨1, [(c!"check_for_spf_pass", true)], []⟩ []),
   .load c!"oa.plugins.dkim.DKIMPlugin" false (.ok ⟨2, [(c!"check_dkim_valid", true)], []⟩ []),
   .load c!"oa.plugins.spf.SpfPlugin" false (.ok ⟨3, [(c!"check_for_spf_pass", true)], []⟩ []),
   .load c!"NoDot" false (.ok ⟨4, [], []⟩ []),
   .load c!"oa.plugins.nope.Nope" false (.failed .loadError),
   .load c!"oa.plugins.uri_detail.URIDetailPlugin" false (.ok ⟨5, [], [(c!"uri_detail", true)]⟩ []),
   .unload c!"DKIMPlugin"]

example : (survivors demoHistory).map (fun e => (e.1, e.2.id)) =
    [(c!"SpfPlugin", 3), (c!"URIDetailPlugin", 5)] := by decide

example : (∀ op ∈ demoHistory, op.notHalfway) ∧
    (∀ op ∈ demoHistory, op.declaresEval c!"check_for_spf_pass" → op.about = c!"SpfPlugin") := by
  constructor
  · simp [demoHistory, Op.notHalfway]
  · simp [demoHistory, Op.declaresEval, Op.about, className]; decide

example : ((Dict.get? (run Ctx.empty demoHistory).evalRules c!"check_for_spf_pass").map Plugin.id) = some 3 := by
  decide

example : chain (fun (p : Nat) (s : List Nat) => (s ++ [p], if p = 2 then Cb.inhibit else .ret false))
    [1, 2, 3] [] = ([1, 2], .result true) := by decide

example : (∀ op ∈ ([.set 0 c!"A" c!"y" 3, .pop 1 c!"A" none, .del 0 c!"B" none] : List (DataOp Nat)),
    ¬ op.touches 0 c!"A" c!"x") := by simp [DataOp.touches]

end Verif.Props
