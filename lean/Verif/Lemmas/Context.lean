import Verif.Lemmas.Py
import Verif.Spec.Context

namespace Verif.Context
open Verif Py

variable {V : Type}

theorem rsplit1_isSome (c : Char) (s : Str) : (rsplit1 c s).isSome = true ↔ c ∈ s := by
  unfold rsplit1
  have h := split1_none_iff [c] s.reverse
  have h2 : [c] <:+: s.reverse ↔ c ∈ s := by
    rw [← List.mem_reverse]
    constructor
    · intro h; exact h.subset (by simp)
    · intro h
      obtain ⟨a, b, hab⟩ := List.append_of_mem h
      exact ⟨a, b, by simp [hab]⟩
  cases hs : split1 [c] s.reverse with
  | none => rw [h2] at h; simp; exact h.1 hs
  | some p =>
    simp only [Option.isSome_some, true_iff]
    rw [← h2]
    exact Classical.not_not.1 (fun hn => by rw [h.2 hn] at hs; cases hs)

/-- What a load amounts to. -/
theorem load_plugins (c : Ctx V) (n : Str) (h : Bool) (i : Import V) :
    (load c n h i).1.plugins =
      match (Op.load n h i).goodLoad with
      | some p => Dict.set (Dict.del c.plugins (className n)) (className n) p
      | none => Dict.del c.plugins (className n) := by
  have hc1 : (if Dict.has c.plugins (className n) then (unload c (className n)).1 else c).plugins =
      Dict.del c.plugins (className n) := by
    unfold Dict.has
    cases hg : Dict.get? c.plugins (className n) with
    | none =>
      simp only [Option.isSome_none, Bool.false_eq_true, if_false]
      unfold Dict.del
      rw [eq_comm, List.filter_eq_self]
      intro p hp
      have := (Dict.get?_eq_none_iff _ _).1 hg
      simp only [Bool.not_eq_eq_eq_not, Bool.not_true, decide_eq_false_iff_not]
      intro he
      exact this (he ▸ List.mem_map_of_mem hp)
    | some p => simp [unload, hg]
  have reg : ∀ (p : Plugin) (rs : List (Str × Bool)) (d : Dict Str Plugin),
      (register p rs d).2 = true ↔ ∀ r ∈ rs, r.2 = true := by
    intro p rs
    induction rs with
    | nil => intro d; simp [register]
    | cons r rs ih =>
      intro d
      obtain ⟨r, g⟩ := r
      cases g <;> simp [register, ih]
  unfold load
  simp only
  by_cases hd : (!h && (rsplit1 '.' n).isNone) = true
  · have : (Op.load n h i).goodLoad = none := by
      cases i <;> simp only [Op.goodLoad]
      simp only [Bool.and_eq_true, Bool.not_eq_true', Option.isNone_iff_eq_none] at hd
      have h2 : ¬ '.' ∈ n := by
        rw [← rsplit1_isSome, hd.2]; simp
      simp [hd.1, h2]
    rw [if_pos hd, this, hc1]
  · rw [if_neg hd]
    have hd' : h = true ∨ '.' ∈ n := by
      cases h with
      | true => simp
      | false =>
        right
        rw [← rsplit1_isSome]
        cases hr : rsplit1 '.' n with
        | none => simp [hr] at hd
        | some _ => rfl
    cases i with
    | failed e => simp [Op.goodLoad, hc1]
    | missing => simp [Op.goodLoad, hc1]
    | notPlugin => simp [Op.goodLoad, hc1]
    | ok p ds =>
      simp only [Op.goodLoad, hd', true_and]
      generalize hC : (if Dict.has c.plugins (className n) then (unload c (className n)).1 else c) = C at *
      cases hr1 : register p p.cmds C.cmds with
      | mk cmds' b1 =>
        have e1 := reg p p.cmds C.cmds
        rw [hr1] at e1
        cases b1 with
        | false =>
          have : ¬ ∀ r ∈ p.cmds, r.2 = true := fun hh => by simpa using e1.2 hh
          rw [if_neg (fun h => this h.1)]
          exact hc1
        | true =>
          have h1 := e1.1 rfl
          simp only
          cases hr2 : register p p.evalRules C.evalRules with
          | mk ev' b2 =>
            have e2 := reg p p.evalRules C.evalRules
            rw [hr2] at e2
            cases b2 with
            | false =>
              have : ¬ ∀ r ∈ p.evalRules, r.2 = true := fun hh => by simpa using e2.2 hh
              rw [if_neg (fun h => this h.2)]
              exact hc1
            | true =>
              have h2 := e2.1 rfl
              rw [if_pos ⟨h1, h2⟩]
              simp [hc1]

theorem del_eq_self (d : Dict Str Plugin) (k : Str) (h : Dict.get? d k = none) : Dict.del d k = d := by
  unfold Dict.del
  rw [List.filter_eq_self]
  intro p hp
  have := (Dict.get?_eq_none_iff _ _).1 h
  simp only [Bool.not_eq_eq_eq_not, Bool.not_true, decide_eq_false_iff_not]
  intro he
  exact this (he ▸ List.mem_map_of_mem hp)

/-- One operation on the registry of plugins. -/
theorem step_plugins (c : Ctx V) (op : Op V) :
    (step c op).plugins = Dict.del c.plugins op.about ++
      (match op.goodLoad with
      | some p => [(op.about, p)]
      | none => []) := by
  cases op with
  | load n h i =>
    show (load c n h i).1.plugins = _
    rw [load_plugins]
    cases (Op.load n h i).goodLoad with
    | none => simp [Op.about]
    | some p =>
      simp only [Op.about]
      rw [Dict.set_of_not_mem]
      rw [← Dict.get?_eq_none_iff, Dict.get?_del]
      simp
  | unload n =>
    show (unload c n).1.plugins = _
    unfold unload
    cases hg : Dict.get? c.plugins n with
    | none => simp [Op.about, Op.goodLoad, del_eq_self _ _ hg]
    | some p => simp [Op.about, Op.goodLoad]

theorem survivors_snoc (ops : List (Op V)) (op : Op V) :
    survivors (ops ++ [op]) = Dict.del (survivors ops) op.about ++
      (match op.goodLoad with
      | some p => [(op.about, p)]
      | none => []) := by
  induction ops with
  | nil =>
    simp only [List.nil_append, survivors, Dict.del]
    cases op.goodLoad <;> simp
  | cons o os ih =>
    simp only [List.cons_append, survivors, ih]
    cases hg : o.goodLoad with
    | none => rfl
    | some p =>
      simp only
      by_cases h1 : ∀ x ∈ os, x.about ≠ o.about
      · by_cases h2 : op.about = o.about
        · have : ¬ ∀ x ∈ os ++ [op], x.about ≠ o.about := fun hh => hh op (by simp) h2
          rw [if_neg this, if_pos h1]
          simp [Dict.del, h2]
        · have : ∀ x ∈ os ++ [op], x.about ≠ o.about := by
            intro x hx
            rcases List.mem_append.1 hx with hx | hx
            · exact h1 x hx
            · exact (List.mem_singleton.1 hx) ▸ h2
          rw [if_pos this, if_pos h1]
          simp [Dict.del, Ne.symm h2]
      · have : ¬ ∀ x ∈ os ++ [op], x.about ≠ o.about := fun hh => h1 (fun x hx => hh x (List.mem_append_left _ hx))
        rw [if_neg this, if_neg h1]

theorem run_snoc (c : Ctx V) (ops : List (Op V)) (op : Op V) : run c (ops ++ [op]) = step (run c ops) op := by
  simp [run]

/-- Induction on histories from the end. -/
theorem snocInd {α : Type} {P : List α → Prop} (h0 : P []) (h1 : ∀ l x, P l → P (l ++ [x])) : ∀ l, P l := by
  intro l
  have : ∀ l, P (List.reverse l) := by
    intro l
    induction l with
    | nil => exact h0
    | cons x xs ih => simpa using h1 _ x ih
  simpa using this l.reverse

theorem run_plugins (ops : List (Op V)) : (run Ctx.empty ops).plugins = survivors ops := by
  induction ops using snocInd with
  | h0 => rfl
  | h1 l x ih => rw [run_snoc, step_plugins, survivors_snoc, ih]

/-! ### The tables of eval rules and rule types -/

theorem register_good (p : Plugin) (rs : List (Str × Bool)) (d : Dict Str Plugin)
    (h : ∀ r ∈ rs, r.2 = true) :
    (register p rs d).2 = true ∧
    ∀ r, Dict.get? (register p rs d).1 r = if r ∈ rs.map Prod.fst then some p else Dict.get? d r := by
  induction rs generalizing d with
  | nil => simp [register]
  | cons x xs ih =>
    obtain ⟨x, g⟩ := x
    have hg : g = true := h (x, g) (by simp)
    subst hg
    have := ih (Dict.set d x p) (fun r hr => h r (List.mem_cons_of_mem _ hr))
    simp only [register, if_true]
    refine ⟨this.1, fun r => ?_⟩
    rw [this.2 r, Dict.get?_set]
    by_cases h1 : r ∈ xs.map Prod.fst
    · rw [if_pos h1, if_pos (by simp only [List.map_cons, List.mem_cons]; exact Or.inr h1)]
    · rw [if_neg h1]
      by_cases h2 : x = r
      · rw [if_pos h2, if_pos (by simp [h2])]
      · rw [if_neg h2, if_neg]
        simp only [List.map_cons, List.mem_cons, not_or]
        exact ⟨Ne.symm h2, h1⟩

theorem foldl_del (rs : List (Str × Bool)) (d : Dict Str Plugin) (r : Str) :
    Dict.get? (rs.foldl (fun d x => Dict.del d x.1) d) r =
      if r ∈ rs.map Prod.fst then none else Dict.get? d r := by
  induction rs generalizing d with
  | nil => simp
  | cons x xs ih =>
    simp only [List.foldl_cons, ih, Dict.get?_del, List.map_cons, List.mem_cons]
    by_cases h1 : r ∈ xs.map Prod.fst
    · simp [h1]
    · by_cases h2 : x.1 = r
      · simp [h2]
      · simp [h1, h2, Ne.symm h2]

/-- The table of names a plugin declares, and where the context keeps it. -/
structure Table (V : Type) where
  names : Plugin → List Str
  tbl : Ctx V → Dict Str Plugin
  empty : tbl Ctx.empty = []
  unload : ∀ c n r, Dict.get? (tbl (Context.unload c n).1) r =
    match Dict.get? c.plugins n with
    | some p => if r ∈ names p then none else Dict.get? (tbl c) r
    | none => Dict.get? (tbl c) r
  load : ∀ c n h i r, (Op.load n h i : Op V).notHalfway → Dict.get? (tbl (Context.load c n h i).1) r =
    let before := match Dict.get? c.plugins (className n) with
      | some p => if r ∈ names p then none else Dict.get? (tbl c) r
      | none => Dict.get? (tbl c) r
    match (Op.load n h i).goodLoad with
    | some p => if r ∈ names p then some p else before
    | none => before

def isNamed (r : Str) (p : Plugin) (names : Plugin → List Str) : Prop := r ∈ names p

theorem load_cases (c : Ctx V) (n : Str) (h : Bool) (i : Import V) (hn : (Op.load n h i).notHalfway) :
    let c1 := if Dict.has c.plugins (className n) then (unload c (className n)).1 else c
    match (Op.load n h i).goodLoad with
    | some p => (load c n h i).1.cmds = (register p p.cmds c1.cmds).1 ∧
        (load c n h i).1.evalRules = (register p p.evalRules c1.evalRules).1 ∧
        (∀ r ∈ p.cmds, r.2 = true) ∧ (∀ r ∈ p.evalRules, r.2 = true)
    | none => (load c n h i).1.cmds = c1.cmds ∧ (load c n h i).1.evalRules = c1.evalRules := by
  intro c1
  cases i with
  | failed e =>
    simp only [Op.goodLoad]
    unfold load
    simp only
    split <;> exact ⟨rfl, rfl⟩
  | missing =>
    simp only [Op.goodLoad]
    unfold load
    simp only
    split <;> exact ⟨rfl, rfl⟩
  | notPlugin =>
    simp only [Op.goodLoad]
    unfold load
    simp only
    split <;> exact ⟨rfl, rfl⟩
  | ok p ds =>
    simp only [Op.notHalfway] at hn
    by_cases hd : (!h && (rsplit1 '.' n).isNone) = true
    · have : (Op.load n h (.ok p ds)).goodLoad = none := by
        simp only [Op.goodLoad]
        simp only [Bool.and_eq_true, Bool.not_eq_true', Option.isNone_iff_eq_none] at hd
        have h2 : ¬ '.' ∈ n := by
          rw [← rsplit1_isSome, hd.2]; simp
        simp [hd.1, h2]
      rw [this]
      unfold load
      simp only [if_pos hd]
      exact ⟨rfl, rfl⟩
    · have hd' : h = true ∨ '.' ∈ n := by
        cases h with
        | true => simp
        | false =>
          right
          rw [← rsplit1_isSome]
          cases hr : rsplit1 '.' n with
          | none => simp [hr] at hd
          | some _ => rfl
      have : (Op.load n h (.ok p ds)).goodLoad = some p := by
        simp only [Op.goodLoad]
        rw [if_pos ⟨hd', hn.1, hn.2⟩]
      rw [this]
      unfold load
      simp only [if_neg hd]
      have r1 := (register_good p p.cmds c1.cmds hn.1).1
      have r2 := (register_good p p.evalRules c1.evalRules hn.2).1
      simp only [c1] at r1 r2 ⊢
      cases hr1 : register p p.cmds (if Dict.has c.plugins (className n) = true then (unload c (className n)).1 else c).cmds with
      | mk a b =>
        rw [hr1] at r1
        simp only at r1
        subst r1
        cases hr2 : register p p.evalRules (if Dict.has c.plugins (className n) = true then (unload c (className n)).1 else c).evalRules with
        | mk a' b' =>
          rw [hr2] at r2
          simp only at r2
          subst r2
          exact ⟨rfl, rfl, hn.1, hn.2⟩

def evalTable : Table V where
  names := fun p => p.evalRules.map Prod.fst
  tbl := fun c => c.evalRules
  empty := rfl
  unload := by
    intro c n r
    unfold Context.unload
    cases Dict.get? c.plugins n with
    | none => rfl
    | some p => simp only [foldl_del]
  load := by
    intro c n h i r hn
    have hl := load_cases c n h i hn
    simp only at hl ⊢
    have hb : Dict.get? (if Dict.has c.plugins (className n) = true then (Context.unload c (className n)).1 else c).evalRules r =
        (match Dict.get? c.plugins (className n) with
        | some p => if r ∈ p.evalRules.map Prod.fst then none else Dict.get? c.evalRules r
        | none => Dict.get? c.evalRules r) := by
      unfold Dict.has Context.unload
      cases Dict.get? c.plugins (className n) with
      | none => rfl
      | some p => simp only [Option.isSome_some, if_true, foldl_del]
    cases hg : (Op.load n h i).goodLoad with
    | none => rw [hg] at hl; simp only at hl ⊢; rw [hl.2, hb]
    | some p =>
      rw [hg] at hl
      simp only at hl ⊢
      rw [hl.2.1, (register_good p p.evalRules _ hl.2.2.2).2, hb]

def cmdTable : Table V where
  names := fun p => p.cmds.map Prod.fst
  tbl := fun c => c.cmds
  empty := rfl
  unload := by
    intro c n r
    unfold Context.unload
    cases Dict.get? c.plugins n with
    | none => rfl
    | some p => simp only [foldl_del]
  load := by
    intro c n h i r hn
    have hl := load_cases c n h i hn
    simp only at hl ⊢
    have hb : Dict.get? (if Dict.has c.plugins (className n) = true then (Context.unload c (className n)).1 else c).cmds r =
        (match Dict.get? c.plugins (className n) with
        | some p => if r ∈ p.cmds.map Prod.fst then none else Dict.get? c.cmds r
        | none => Dict.get? c.cmds r) := by
      unfold Dict.has Context.unload
      cases Dict.get? c.plugins (className n) with
      | none => rfl
      | some p => simp only [Option.isSome_some, if_true, foldl_del]
    cases hg : (Op.load n h i).goodLoad with
    | none => rw [hg] at hl; simp only at hl ⊢; rw [hl.1, hb]
    | some p =>
      rw [hg] at hl
      simp only at hl ⊢
      rw [hl.1, (register_good p p.cmds _ hl.2.2.1).2, hb]

/-- The effect of one operation on the entry `r` of a table. -/
theorem Table.step (T : Table V) (c : Ctx V) (op : Op V) (r : Str) (hn : op.notHalfway) :
    Dict.get? (T.tbl (Context.step c op)) r =
      let before := match Dict.get? c.plugins op.about with
        | some p => if r ∈ T.names p then none else Dict.get? (T.tbl c) r
        | none => Dict.get? (T.tbl c) r
      match op.goodLoad with
      | some p => if r ∈ T.names p then some p else before
      | none => before := by
  cases op with
  | load n h i => exact T.load c n h i r hn
  | unload n => exact T.unload c n r

theorem get?_append_none {d e : Dict Str Plugin} {k : Str} (h : Dict.get? d k = none) :
    Dict.get? (d ++ e) k = Dict.get? e k := by
  induction d with
  | nil => rfl
  | cons p ps ih =>
    rw [Dict.get?_cons] at h
    rw [List.cons_append, Dict.get?_cons]
    split at h
    · cases h
    · rename_i hp; rw [if_neg hp]; exact ih h

theorem get?_append_some {d e : Dict Str Plugin} {k : Str} {v : Plugin} (h : Dict.get? d k = some v) :
    Dict.get? (d ++ e) k = some v := by
  induction d with
  | nil => cases h
  | cons p ps ih =>
    rw [Dict.get?_cons] at h
    rw [List.cons_append, Dict.get?_cons]
    split at h
    · rename_i hp; rw [if_pos hp]; exact h
    · rename_i hp; rw [if_neg hp]; exact ih h

theorem step_get? (c : Ctx V) (op : Op V) (k : Str) :
    Dict.get? (step c op).plugins k =
      if op.about = k then op.goodLoad else Dict.get? c.plugins k := by
  rw [step_plugins]
  by_cases h : op.about = k
  · rw [if_pos h, get?_append_none (by rw [Dict.get?_del, if_pos h])]
    cases op.goodLoad with
    | none => rfl
    | some p => simp [Dict.get?, h]
  · rw [if_neg h]
    cases hg : Dict.get? c.plugins k with
    | none =>
      rw [get?_append_none (by rw [Dict.get?_del, if_neg h]; exact hg)]
      cases op.goodLoad with
      | none => rfl
      | some p => simp [Dict.get?, h]
    | some v => rw [get?_append_some (by rw [Dict.get?_del, if_neg h]; exact hg)]

/-- A name declared by one class only. -/
theorem Table.single (T : Table V) (r cls : Str) (ops : List (Op V))
    (hn : ∀ op ∈ ops, op.notHalfway)
    (hone : ∀ op ∈ ops, ∀ p, op.goodLoad = some p → r ∈ T.names p → op.about = cls) :
    (∀ k p, Dict.get? (run Ctx.empty ops).plugins k = some p → r ∈ T.names p → k = cls) ∧
    Dict.get? (T.tbl (run Ctx.empty ops)) r =
      match Dict.get? (run Ctx.empty ops).plugins cls with
      | some p => if r ∈ T.names p then some p else none
      | none => none := by
  induction ops using snocInd with
  | h0 =>
    refine ⟨fun k p h => by simp [run, Ctx.empty, Dict.get?] at h, ?_⟩
    rw [show run Ctx.empty [] = (Ctx.empty : Ctx V) from rfl, T.empty]
    rfl
  | h1 l x ih =>
    obtain ⟨i1, i2⟩ := ih (fun op h => hn op (List.mem_append_left _ h))
      (fun op h => hone op (List.mem_append_left _ h))
    have hx := hone x (by simp)
    rw [run_snoc]
    refine ⟨?_, ?_⟩
    · intro k p hk hr
      rw [step_get?] at hk
      split at hk
      · rename_i he
        exact he ▸ hx p hk hr
      · exact i1 k p hk hr
    · rw [T.step _ _ _ (hn x (by simp)), step_get?]
      simp only
      by_cases hc : x.about = cls
      · rw [if_pos hc, hc]
        have hb : (match Dict.get? (run Ctx.empty l).plugins cls with
          | some p => if r ∈ T.names p then none else Dict.get? (T.tbl (run Ctx.empty l)) r
          | none => Dict.get? (T.tbl (run Ctx.empty l)) r) = none := by
          rw [i2]
          cases Dict.get? (run Ctx.empty l).plugins cls with
          | none => rfl
          | some p =>
            simp only
            by_cases hr : r ∈ T.names p <;> simp [hr]
        rw [hb]
      · rw [if_neg hc]
        have hb : (match Dict.get? (run Ctx.empty l).plugins x.about with
          | some p => if r ∈ T.names p then none else Dict.get? (T.tbl (run Ctx.empty l)) r
          | none => Dict.get? (T.tbl (run Ctx.empty l)) r) = Dict.get? (T.tbl (run Ctx.empty l)) r := by
          cases hg : Dict.get? (run Ctx.empty l).plugins x.about with
          | none => rfl
          | some p =>
            simp only
            rw [if_neg]
            intro hr
            exact hc (i1 _ p hg hr)
        rw [hb]
        cases hg : x.goodLoad with
        | none => exact i2
        | some p =>
          simp only
          rw [if_neg]
          · exact i2
          · intro hr; exact hc (hx p hg hr)

/-- Nothing is ever unloaded. -/
theorem Table.latest (T : Table V) (r : Str) (ops : List (Op V))
    (hg : ∀ op ∈ ops, ∃ p, op.goodLoad = some p) (hd : (ops.map Op.about).Nodup) :
    Dict.get? (T.tbl (run Ctx.empty ops)) r =
      ((survivors ops).reverse.find? (fun e => decide (r ∈ T.names e.2))).map Prod.snd := by
  induction ops using snocInd with
  | h0 => simp [run, T.empty, Dict.get?, survivors]
  | h1 l x ih =>
    have hd' : (l.map Op.about).Nodup ∧ x.about ∉ l.map Op.about := by
      rw [List.map_append, List.nodup_append] at hd
      refine ⟨hd.1, fun h => ?_⟩
      exact hd.2.2 _ h x.about (by simp) rfl
    have i := ih (fun op h => hg op (List.mem_append_left _ h)) hd'.1
    obtain ⟨p, hp⟩ := hg x (by simp)
    have hnh : x.notHalfway := by
      cases x with
      | unload n => trivial
      | load n h im =>
        cases im with
        | ok q ds =>
          simp only [Op.goodLoad] at hp
          split at hp
          · rename_i h; exact ⟨h.2.1, h.2.2⟩
          · cases hp
        | _ => trivial
    have hsurv : ∀ (l : List (Op V)) (e : Str × Plugin), e ∈ survivors l → e.1 ∈ l.map Op.about := by
      intro l
      induction l with
      | nil => simp [survivors]
      | cons o os ih =>
        intro e he
        simp only [survivors] at he
        split at he
        · split at he
          · rcases List.mem_cons.1 he with h | h
            · simp [h]
            · exact List.mem_cons_of_mem _ (ih e h)
          · exact List.mem_cons_of_mem _ (ih e he)
        · exact List.mem_cons_of_mem _ (ih e he)
    have hnone : Dict.get? (survivors l) x.about = none := by
      rw [Dict.get?_eq_none_iff]
      intro h
      obtain ⟨e, he, hee⟩ := List.mem_map.1 h
      exact hd'.2 (hee ▸ hsurv l e he)
    rw [run_snoc, T.step _ _ _ hnh, survivors_snoc, hp, run_plugins, hnone, del_eq_self _ _ hnone]
    simp only [List.reverse_append, List.reverse_cons, List.reverse_nil, List.nil_append,
      List.singleton_append, List.find?_cons]
    by_cases hr : r ∈ T.names p
    · simp [hr]
    · simp [hr, i]

/-! ### Plugin data -/

theorem of_set (d : Data V) (p q : Str) (e : Dict Str V) :
    Data.of (Dict.set d p e) q = if p = q then e else Data.of d q := by
  unfold Data.of
  rw [Dict.get?_set]
  split <;> rfl

theorem of_del (d : Data V) (p q : Str) :
    Data.of (Dict.del d p) q = if p = q then [] else Data.of d q := by
  unfold Data.of
  rw [Dict.get?_del]
  split <;> rfl

theorem dataStep_untouched (w : Nat → Data V) (op : DataOp V) (i : Nat) (p k : Str)
    (h : ¬ op.touches i p k) :
    Dict.get? (Data.of (dataStep w op i) p) k = Dict.get? (Data.of (w i) p) k := by
  cases op with
  | set j q l v =>
    simp only [dataStep, setData]
    by_cases hi : i = j
    · subst hi
      simp only [if_true, of_set]
      by_cases hq : q = p
      · subst hq
        simp only [if_true]
        rw [Dict.get?_set_ne]
        intro hl
        exact h ⟨rfl, rfl, hl⟩
      · simp [hq]
    · simp [hi]
  | get j q l =>
    simp only [dataStep, getData]
    by_cases hi : i = j
    · subst hi
      simp only [if_true, of_set]
      by_cases hq : q = p
      · subst hq; simp
      · simp [hq]
    · simp [hi]
  | del j q l =>
    simp only [dataStep]
    by_cases hi : i = j
    · subst hi
      simp only [if_true]
      cases l with
      | none =>
        simp only [delData, of_del]
        rw [if_neg]
        intro hq
        exact h ⟨rfl, hq, Or.inl rfl⟩
      | some l =>
        simp only [delData, of_set]
        by_cases hq : q = p
        · subst hq
          simp only [if_true, Dict.get?_del]
          rw [if_neg]
          intro hl
          exact h ⟨rfl, rfl, Or.inr (by rw [hl])⟩
        · simp [hq]
    · simp [hi]
  | pop j q l =>
    simp only [dataStep]
    by_cases hi : i = j
    · subst hi
      simp only [if_true]
      cases l with
      | none =>
        simp only [popData, of_del]
        rw [if_neg]
        intro hq
        exact h ⟨rfl, hq, Or.inl rfl⟩
      | some l =>
        simp only [popData, of_set]
        by_cases hq : q = p
        · subst hq
          simp only [if_true, Dict.get?_del]
          rw [if_neg]
          intro hl
          exact h ⟨rfl, rfl, Or.inr (by rw [hl])⟩
        · simp [hq]
    · simp [hi]

/-- A load that raises nothing has registered the plugin. -/
theorem load_registers {V : Type} (c : Ctx V) (n : Str) (hp : Bool) (imp : Import V)
    (h : (load c n hp imp).2 = none) : Dict.has (load c n hp imp).1.plugins (className n) = true := by
  unfold load at h ⊢
  simp only at h ⊢
  split
  · rename_i hx; rw [if_pos hx] at h; cases h
  · rename_i hx
    rw [if_neg hx] at h
    cases imp with
    | failed e => cases h
    | missing => cases h
    | notPlugin => cases h
    | ok p defaults =>
      simp only at h ⊢
      split
      · rename_i hr; rw [hr] at h; cases h
      · rename_i hr
        rw [hr] at h
        simp only at h
        split
        · rename_i hr2; rw [hr2] at h; cases h
        · unfold Dict.has; rw [Dict.get?_set_self]; rfl

end Verif.Context
