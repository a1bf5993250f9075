import Verif.Model.Py

/-! Lemmas about the Python primitives. -/

namespace Verif.Py
open Verif

variable {K V : Type} [DecidableEq K]

@[simp] theorem Dict.get?_nil (k : K) : Dict.get? ([] : Dict K V) k = none := rfl

theorem Dict.get?_cons (p : K × V) (d : Dict K V) (k : K) :
    Dict.get? (p :: d) k = if p.1 = k then some p.2 else Dict.get? d k := rfl

theorem Dict.get?_set (d : Dict K V) (k k' : K) (v : V) :
    Dict.get? (Dict.set d k v) k' = if k = k' then some v else Dict.get? d k' := by
  induction d with
  | nil => simp [Dict.set, Dict.get?]
  | cons p d ih =>
    obtain ⟨a, b⟩ := p
    simp only [Dict.set]
    by_cases h : a = k
    · subst h
      simp only [if_true, Dict.get?_cons]
      split <;> rfl
    · simp only [if_neg h, Dict.get?_cons]
      by_cases h2 : a = k'
      · subst h2; simp [Ne.symm h]
      · simp [h2, ih]

@[simp] theorem Dict.get?_set_self (d : Dict K V) (k : K) (v : V) :
    Dict.get? (Dict.set d k v) k = some v := by simp [Dict.get?_set]

theorem Dict.get?_set_ne (d : Dict K V) {k k' : K} (v : V) (h : k ≠ k') :
    Dict.get? (Dict.set d k v) k' = Dict.get? d k' := by simp [Dict.get?_set, h]

theorem Dict.get?_del (d : Dict K V) (k k' : K) :
    Dict.get? (Dict.del d k) k' = if k = k' then none else Dict.get? d k' := by
  induction d with
  | nil => simp [Dict.del]
  | cons p d ih =>
    obtain ⟨a, b⟩ := p
    simp only [Dict.del, List.filter_cons] at *
    by_cases h : a = k
    · subst h
      simp only [decide_true, Bool.not_true, Bool.false_eq_true, if_false, ih, Dict.get?_cons]
      split <;> rfl
    · simp only [h, decide_false, Bool.not_false, if_true, Dict.get?_cons]
      by_cases h2 : a = k'
      · subst h2; simp [Ne.symm h]
      · simp [h2, ih]

theorem Dict.mem_keys_iff (d : Dict K V) (k : K) :
    k ∈ Dict.keys d ↔ ∃ v, Dict.get? d k = some v := by
  induction d with
  | nil => simp [Dict.keys]
  | cons p d ih =>
    obtain ⟨a, b⟩ := p
    simp only [Dict.keys, List.map_cons, List.mem_cons, Dict.get?_cons] at *
    by_cases h : a = k
    · subst h; simp
    · simp [h, ih, Ne.symm h]

theorem Dict.get?_eq_none_iff (d : Dict K V) (k : K) :
    Dict.get? d k = none ↔ k ∉ Dict.keys d := by
  rw [Dict.mem_keys_iff]
  cases h : Dict.get? d k <;> simp

theorem Dict.keys_set_of_mem (d : Dict K V) {k : K} (v : V) (h : k ∈ Dict.keys d) :
    Dict.keys (Dict.set d k v) = Dict.keys d := by
  induction d with
  | nil => simp [Dict.keys] at h
  | cons p d ih =>
    obtain ⟨a, b⟩ := p
    simp only [Dict.set]
    by_cases h2 : a = k
    · simp [h2, Dict.keys]
    · simp only [Dict.keys, List.map_cons, List.mem_cons] at *
      rcases h with h | h
      · exact absurd h.symm h2
      · simp [h2, ih h]

theorem Dict.set_of_not_mem (d : Dict K V) {k : K} (v : V) (h : k ∉ Dict.keys d) :
    Dict.set d k v = d ++ [(k, v)] := by
  induction d with
  | nil => simp [Dict.set]
  | cons p d ih =>
    obtain ⟨a, b⟩ := p
    simp only [Dict.keys, List.map_cons, List.mem_cons, not_or] at *
    simp [Dict.set, Ne.symm h.1, ih h.2]

theorem Dict.keys_set_of_not_mem (d : Dict K V) {k : K} (v : V) (h : k ∉ Dict.keys d) :
    Dict.keys (Dict.set d k v) = Dict.keys d ++ [k] := by
  rw [Dict.set_of_not_mem d v h]; simp [Dict.keys]

theorem Dict.nodup_set (d : Dict K V) (k : K) (v : V) (h : (Dict.keys d).Nodup) :
    (Dict.keys (Dict.set d k v)).Nodup := by
  by_cases hm : k ∈ Dict.keys d
  · rw [Dict.keys_set_of_mem d v hm]; exact h
  · rw [Dict.keys_set_of_not_mem d v hm]
    rw [List.nodup_append]
    refine ⟨h, by simp, ?_⟩
    intro a ha b hb
    simp at hb; subst hb
    intro he; subst he; exact hm ha

theorem Dict.nodup_del (d : Dict K V) (k : K) (h : (Dict.keys d).Nodup) :
    (Dict.keys (Dict.del d k)).Nodup := by
  unfold Dict.keys Dict.del at *
  exact h.sublist (List.Sublist.map _ List.filter_sublist)

theorem Dict.mem_of_get? (d : Dict K V) {k : K} {v : V} (h : Dict.get? d k = some v) :
    (k, v) ∈ d := by
  induction d with
  | nil => simp at h
  | cons p d ih =>
    obtain ⟨a, b⟩ := p
    rw [Dict.get?_cons] at h
    by_cases h2 : a = k
    · simp [h2] at h; simp [h2, h]
    · simp [h2] at h; exact List.mem_cons_of_mem _ (ih h)

theorem Dict.get?_of_mem (d : Dict K V) {k : K} {v : V} (hn : (Dict.keys d).Nodup)
    (h : (k, v) ∈ d) : Dict.get? d k = some v := by
  induction d with
  | nil => simp at h
  | cons p d ih =>
    obtain ⟨a, b⟩ := p
    simp only [Dict.keys, List.map_cons, List.nodup_cons] at hn
    rw [Dict.get?_cons]
    rcases List.mem_cons.1 h with h | h
    · simp only [Prod.mk.injEq] at h; simp [h.1, h.2]
    · have : a ≠ k := by
        intro he; subst he
        exact hn.1 (List.mem_map_of_mem (f := Prod.fst) h)
      simp [this, ih hn.2 h]

/-! ### sorting -/

section sorting
variable {α : Type} (lt : α → α → Bool)

theorem insertBy_perm (x : α) (l : List α) : (insertBy lt x l).Perm (x :: l) := by
  induction l with
  | nil => exact List.Perm.refl _
  | cons y ys ih =>
    simp only [insertBy]
    split
    · exact (ih.cons y).trans (List.Perm.swap x y ys)
    · exact List.Perm.refl _

theorem sortedBy_perm (l : List α) : (sortedBy lt l).Perm l := by
  induction l with
  | nil => exact List.Perm.refl _
  | cons x xs ih => exact (insertBy_perm lt x _).trans (ih.cons x)

/-- for a strict weak order the result is sorted: no element is smaller than an earlier one -/
theorem sortedBy_pairwise (htr : ∀ a b c, lt b a = false → lt c b = false → lt c a = false)
    (has : ∀ a b, lt a b = true → lt b a = false) (l : List α) :
    (sortedBy lt l).Pairwise (fun a b => lt b a = false) := by
  induction l with
  | nil => exact List.Pairwise.nil
  | cons x xs ih =>
    simp only [sortedBy]
    generalize sortedBy lt xs = l at ih
    induction l with
    | nil => simp [insertBy]
    | cons y ys ih2 =>
      simp only [insertBy]
      rw [List.pairwise_cons] at ih
      split
      · rename_i h
        rw [List.pairwise_cons]
        refine ⟨?_, ih2 ih.2⟩
        intro b hb
        have hb' := (insertBy_perm lt x ys).subset hb
        rcases List.mem_cons.1 hb' with hb' | hb'
        · subst hb'; exact has _ _ h
        · exact ih.1 b hb'
      · rename_i h
        have h : lt y x = false := by simpa using h
        rw [List.pairwise_cons, List.pairwise_cons]
        refine ⟨?_, ih⟩
        intro b hb
        rcases List.mem_cons.1 hb with hb | hb
        · subst hb; exact h
        · exact htr _ _ _ h (ih.1 b hb)

/-- stability: any class of mutually incomparable elements keeps its order -/
theorem sortedBy_stable (p : α → Bool) (hp : ∀ a b, p a = true → p b = true → lt a b = false)
    (l : List α) : (sortedBy lt l).filter p = l.filter p := by
  have ins : ∀ x (l : List α), (insertBy lt x l).filter p = (x :: l).filter p := by
    intro x l
    induction l with
    | nil => rfl
    | cons y ys ih =>
      simp only [insertBy]
      split
      · rename_i h
        rw [List.filter_cons, ih]
        by_cases hx : p x = true
        · have hy : p y = false := by
            cases hpy : p y with
            | false => rfl
            | true => rw [hp y x hpy hx] at h; cases h
          simp [List.filter_cons, hx, hy]
        · simp [List.filter_cons, hx]
      · rfl
  induction l with
  | nil => rfl
  | cons x xs ih =>
    simp only [sortedBy]
    rw [ins, List.filter_cons, List.filter_cons, ih]

end sorting

/-! ### split -/

theorem split1_spec {sep s a b : Str} (h : split1 sep s = some (a, b)) : s = a ++ sep ++ b := by
  induction s generalizing a b with
  | nil =>
    simp only [split1] at h
    split at h
    · rename_i he; simp at h; simp [h.1, h.2, List.isEmpty_iff.1 he]
    · cases h
  | cons c cs ih =>
    simp only [split1] at h
    split at h
    · rename_i hp
      simp only [Option.some.injEq, Prod.mk.injEq] at h
      obtain ⟨rfl, rfl⟩ := h
      obtain ⟨t, ht⟩ := List.isPrefixOf_iff_prefix.1 hp
      rw [← ht]; simp
    · cases hs : split1 sep cs with
      | none => simp [hs] at h
      | some p =>
        obtain ⟨x, y⟩ := p
        simp only [hs, Option.some.injEq, Prod.mk.injEq] at h
        obtain ⟨rfl, rfl⟩ := h
        simp [ih hs]

theorem split1_none_iff (sep s : Str) : split1 sep s = none ↔ ¬ sep <:+: s := by
  induction s with
  | nil => cases sep <;> simp [split1]
  | cons c cs ih =>
    simp only [split1]
    split
    · rename_i hp
      simp only [reduceCtorEq, false_iff, Classical.not_not]
      exact (List.isPrefixOf_iff_prefix.1 hp).isInfix
    · rename_i hp
      rw [List.infix_cons_iff]
      have : ¬ sep <+: c :: cs := fun h => hp (List.isPrefixOf_iff_prefix.2 h)
      cases hs : split1 sep cs with
      | none => simp only [true_iff]; rintro (h | h); exact this h; exact (ih.1 hs) h
      | some p =>
        obtain ⟨a, b⟩ := p
        simp only [reduceCtorEq, false_iff, Classical.not_not]
        right
        rw [hs] at ih
        simp at ih; exact ih

theorem hasSub_iff (sub s : Str) : hasSub sub s = true ↔ sub <:+: s := by
  unfold hasSub
  have := split1_none_iff sub s
  cases h : split1 sub s with
  | none => simp [h] at this; simp [this]
  | some p => simp [h] at this; simp [this]

/-- the first part contains no earlier occurrence of a one-character separator -/
theorem split1_char_first {c : Char} {s a b : Str} (h : split1 [c] s = some (a, b)) : c ∉ a := by
  induction s generalizing a b with
  | nil => simp [split1] at h
  | cons d ds ih =>
    simp only [split1] at h
    split at h
    · simp only [Option.some.injEq, Prod.mk.injEq] at h; simp [← h.1]
    · rename_i hp
      cases hs : split1 [c] ds with
      | none => simp [hs] at h
      | some p =>
        obtain ⟨x, y⟩ := p
        simp only [hs, Option.some.injEq, Prod.mk.injEq] at h
        obtain ⟨rfl, rfl⟩ := h
        simp only [List.mem_cons, not_or]
        refine ⟨?_, ih hs⟩
        intro he; subst he; simp at hp

theorem split1_char_append {c : Char} {a : Str} (b : Str) (h : c ∉ a) :
    split1 [c] (a ++ c :: b) = some (a, b) := by
  induction a with
  | nil => simp [split1]
  | cons d ds ih =>
    simp only [List.mem_cons, not_or] at h
    simp [split1, h.1, ih h.2]

end Verif.Py

namespace Verif.Py

theorem replaceAux_fuel (old new : Str) (h : old ≠ []) :
    ∀ (n m : Nat) (s : Str), s.length ≤ n → s.length ≤ m →
      replaceAux old new n s = replaceAux old new m s := by
  intro n
  induction n with
  | zero =>
    intro m s hs _
    have : s = [] := List.length_eq_zero_iff.1 (by omega)
    subst this
    cases m <;> rfl
  | succ n ih =>
    intro m s hs hm
    cases s with
    | nil => cases m <;> rfl
    | cons c cs =>
      cases m with
      | zero => simp at hm
      | succ m =>
        simp only [List.length_cons, replaceAux] at *
        have hl : 0 < old.length := List.length_pos_iff.2 h
        have hd : ((c :: cs).drop old.length).length ≤ cs.length := by
          simp only [List.length_drop, List.length_cons]; omega
        split
        · rw [ih m _ (by omega) (by omega)]
        · rw [ih m _ (by omega) (by omega)]

theorem replace_cons (old new : Str) (h : old ≠ []) (c : Char) (cs : Str) :
    replace old new (c :: cs) =
      if old.isPrefixOf (c :: cs) then new ++ replace old new ((c :: cs).drop old.length)
      else c :: replace old new cs := by
  have hl : 0 < old.length := List.length_pos_iff.2 h
  have hd : ((c :: cs).drop old.length).length ≤ cs.length := by
    simp only [List.length_drop, List.length_cons]; omega
  unfold replace
  rw [List.length_cons, replaceAux]
  split
  · rw [replaceAux_fuel old new h _ _ _ hd (Nat.le_refl _)]
  · rfl

/-- Characters that cannot start an occurrence are copied. -/
theorem replace_pass (o : Char) (old new : Str) (p s : Str) (hp : o ∉ p) :
    replace (o :: old) new (p ++ s) = p ++ replace (o :: old) new s := by
  induction p with
  | nil => rfl
  | cons a as ih =>
    simp only [List.mem_cons, not_or] at hp
    rw [List.cons_append, replace_cons _ _ (by simp)]
    have : (o :: old).isPrefixOf (a :: (as ++ s)) = false := by
      simp [List.isPrefixOf, hp.1]
    rw [this, ih hp.2]
    simp

@[simp] theorem replace_nil (old new : Str) : replace old new [] = [] := rfl

theorem splitChar_join (sep : Char) (parts : List Str) (h0 : parts ≠ []) (h : ∀ w ∈ parts, sep ∉ w) :
    splitChar sep (join [sep] parts) = parts := by
  have plain : ∀ (w rest : Str), sep ∉ w →
      splitChar sep (w ++ sep :: rest) = w :: splitChar sep rest := by
    intro w rest
    induction w with
    | nil => intro _; simp [splitChar]
    | cons c w ih =>
      intro hw
      have hc : c ≠ sep := fun e => hw (by simp [e])
      rw [List.cons_append, splitChar, ih (fun hm => hw (by simp [hm]))]
      simp [hc]
  have last : ∀ w : Str, sep ∉ w → splitChar sep w = [w] := by
    intro w
    induction w with
    | nil => intro _; rfl
    | cons c w ih =>
      intro hw
      have hc : c ≠ sep := fun e => hw (by simp [e])
      rw [splitChar, ih (fun hm => hw (by simp [hm]))]
      simp [hc]
  induction parts with
  | nil => exact absurd rfl h0
  | cons w ws ih =>
    cases ws with
    | nil => exact last w (h w (by simp))
    | cons w' ws =>
      rw [join, List.append_assoc, List.singleton_append, plain w _ (h w (by simp)),
        ih (by simp) (fun x hx => h x (by simp [hx]))]

end Verif.Py
