import Verif.Spec.Awl
import Verif.Lemmas.Py
import Mathlib.Tactic.Linarith
import Mathlib.Tactic.Ring
import Mathlib.Algebra.BigOperators.Group.List.Basic
import Mathlib.Algebra.Order.Ring.Rat

namespace Verif.Awl
open Verif Py

theorem del_of_not_mem (db : Table) (k : Key) (h : k ∉ Dict.keys db) : Dict.del db k = db := by
  unfold Dict.del
  rw [List.filter_eq_self]
  intro x hx
  have : x.1 ≠ k := fun e => h (e ▸ List.mem_map_of_mem (f := Prod.fst) hx)
  simp [this]

theorem set_perm (db : Table) (k : Key) (e : Entry) (hn : (Dict.keys db).Nodup) :
    (Dict.set db k e).Perm ((k, e) :: Dict.del db k) := by
  induction db with
  | nil => exact List.Perm.refl _
  | cons r db ih =>
    obtain ⟨k', e'⟩ := r
    have hn' := List.nodup_cons.1 hn
    by_cases h : k' = k
    · subst h
      have hd : Dict.del ((k', e') :: db) k' = Dict.del db k' := by simp [Dict.del]
      rw [hd, del_of_not_mem db k' hn'.1]
      simp [Dict.set]
    · have hd : Dict.del ((k', e') :: db) k = (k', e') :: Dict.del db k := by simp [Dict.del, h]
      rw [hd]
      simp only [Dict.set, if_neg h]
      exact ((ih hn'.2).cons _).trans (List.Perm.swap _ _ _)

theorem get_perm (db : Table) (k : Key) (e : Entry) (hn : (Dict.keys db).Nodup) (h : Dict.get? db k = some e) :
    db.Perm ((k, e) :: Dict.del db k) := by
  induction db with
  | nil => cases h
  | cons r db ih =>
    obtain ⟨k', e'⟩ := r
    have hn' := List.nodup_cons.1 hn
    simp only [Dict.get?] at h
    by_cases hk : k' = k
    · subst hk
      have hd : Dict.del ((k', e') :: db) k' = Dict.del db k' := by simp [Dict.del]
      rw [hd, del_of_not_mem db k' hn'.1]
      rw [if_pos rfl] at h
      rw [Option.some.inj h]
    · have hd : Dict.del ((k', e') :: db) k = (k', e') :: Dict.del db k := by simp [Dict.del, hk]
      rw [hd]
      rw [if_neg hk] at h
      exact ((ih hn'.2 h).cons _).trans (List.Perm.swap _ _ _)

def plus (a b : Entry) : Entry := ⟨a.count + b.count, a.totscore + b.totscore⟩

theorem total_cons (r : Key × Entry) (rows : List (Key × Entry)) : total (r :: rows) = plus r.2 (total rows) := by
  simp [total, plus]

theorem total_perm {a b : List (Key × Entry)} (h : a.Perm b) : total a = total b := by
  unfold total
  rw [(h.map _).sum_eq, (h.map fun r => r.2.totscore).sum_eq]

theorem rowsOf_perm {u e s : Str} {a b : Table} (h : a.Perm b) : (rowsOf u e s a).Perm (rowsOf u e s b) := h.filter _

/-- the row that was read, before and after -/
theorem merge_perm (db : Table) (hn : (Dict.keys db).Nodup) (user : Str) (m : Mail) (x : Entry) :
    ∃ rest : Table,
      (merge db (getEntry db user m).2 (m.key user) x).Perm ((m.key user, x) :: rest) ∧
      ((getEntry db user m = (⟨0, 0⟩, none) ∧ db.Perm rest) ∨
        ∃ ip, db.Perm ((⟨user, m.email, m.signedby, ip⟩, (getEntry db user m).1) :: rest)) := by
  unfold getEntry
  cases h1 : Dict.get? db (m.key user) with
  | some e =>
    refine ⟨Dict.del db (m.key user), ?_, Or.inr ⟨m.ip, ?_⟩⟩
    · simp only [merge, if_true]
      exact set_perm db _ x hn
    · exact get_perm db _ e hn h1
  | none =>
    have hk : m.key user ∉ Dict.keys db := (Dict.get?_eq_none_iff db _).1 h1
    cases h2 : Dict.get? db ⟨user, m.email, m.signedby, c!"none"⟩ with
    | some e =>
      have hne : (⟨user, m.email, m.signedby, c!"none"⟩ : Key) ≠ m.key user := by
        intro e; rw [e, h1] at h2; cases h2
      refine ⟨Dict.del db ⟨user, m.email, m.signedby, c!"none"⟩, ?_, Or.inr ⟨c!"none", ?_⟩⟩
      · simp only [merge, if_neg hne]
        have hn' := Dict.nodup_del db ⟨user, m.email, m.signedby, c!"none"⟩ hn
        have hk' : m.key user ∉ Dict.keys (Dict.del db ⟨user, m.email, m.signedby, c!"none"⟩) := by
          rw [← Dict.get?_eq_none_iff, Dict.get?_del, if_neg hne]
          exact h1
        have := set_perm _ (m.key user) x hn'
        rwa [del_of_not_mem _ _ hk'] at this
      · exact get_perm db _ e hn h2
    | none =>
      refine ⟨db, ?_, Or.inl ⟨rfl, List.Perm.refl _⟩⟩
      simp only [merge]
      have := set_perm db (m.key user) x hn
      rwa [del_of_not_mem _ _ hk] at this

theorem check_nodup (user : Str) (factor : Rat) (db : Table) (m : Mail) (hn : (Dict.keys db).Nodup) :
    (Dict.keys (check user factor db m).1).Nodup := by
  unfold check
  generalize getEntry db user m = g
  obtain ⟨e, src⟩ := g
  cases src with
  | none => exact Dict.nodup_set _ _ _ hn
  | some k' =>
    simp only [merge]
    apply Dict.nodup_set
    split
    · exact hn
    · exact Dict.nodup_del _ _ hn

theorem check_fst (user : Str) (factor : Rat) (db : Table) (m : Mail) :
    (check user factor db m).1 =
      merge db (getEntry db user m).2 (m.key user) (bump (getEntry db user m).1 m.score) := rfl

theorem check_total (user : Str) (factor : Rat) (db : Table) (m : Mail) (hn : (Dict.keys db).Nodup) (e s : Str) :
    total (rowsOf user e s (check user factor db m).1) =
      plus (if m.email = e ∧ m.signedby = s then ⟨1, m.score⟩ else ⟨0, 0⟩) (total (rowsOf user e s db)) := by
  rw [check_fst]
  obtain ⟨rest, h1, h2⟩ := merge_perm db hn user m (bump (getEntry db user m).1 m.score)
  rw [total_perm (rowsOf_perm h1)]
  have hx : ∀ (ip : Str) (y : Entry), total (rowsOf user e s ((⟨user, m.email, m.signedby, ip⟩, y) :: rest)) =
      plus (if m.email = e ∧ m.signedby = s then y else ⟨0, 0⟩) (total (rowsOf user e s rest)) := by
    intro ip y
    unfold rowsOf
    rw [List.filter_cons]
    by_cases h : m.email = e ∧ m.signedby = s
    · rw [if_pos (by simp [h]), if_pos h, total_cons]
    · rw [if_neg (by simpa using h), if_neg h]
      simp [plus]
  have hk : m.key user = ⟨user, m.email, m.signedby, m.ip⟩ := rfl
  rw [hk, hx]
  rcases h2 with ⟨h3, h4⟩ | ⟨ip, h4⟩
  · rw [total_perm (rowsOf_perm h4), h3]
    by_cases h : m.email = e ∧ m.signedby = s
    · simp [h, bump]
    · simp [h]
  · rw [total_perm (rowsOf_perm h4), hx]
    by_cases h : m.email = e ∧ m.signedby = s
    · simp only [h, and_self, if_true, plus, bump, Entry.mk.injEq]
      constructor
      · omega
      · ring
    · simp [h, plus]

theorem run_snoc (user : Str) (factor : Rat) (db : Table) (ms : List Mail) (m : Mail) :
    run user factor db (ms ++ [m]) = (check user factor (run user factor db ms) m).1 := by
  unfold run
  rw [List.foldl_append]
  rfl

theorem run_nodup (user : Str) (factor : Rat) (db : Table) (hn : (Dict.keys db).Nodup) (ms : List Mail) :
    (Dict.keys (run user factor db ms)).Nodup := by
  unfold run
  induction ms generalizing db with
  | nil => exact hn
  | cons m ms ih => exact ih _ (check_nodup user factor db m hn)

theorem check_get (user : Str) (factor : Rat) (db : Table) (m : Mail) (k : Key) :
    Dict.get? (check user factor db m).1 k =
      if k = m.key user then some (bump (getEntry db user m).1 m.score)
      else if (getEntry db user m).2 = some k then none
      else Dict.get? db k := by
  rw [check_fst]
  generalize getEntry db user m = g
  obtain ⟨e, src⟩ := g
  cases src with
  | none =>
    simp only [merge, Dict.get?_set]
    by_cases h : k = m.key user
    · simp [h]
    · rw [if_neg h, if_neg (fun e => h e.symm)]; simp
  | some k' =>
    simp only [merge, Dict.get?_set]
    by_cases h : k = m.key user
    · simp [h]
    · rw [if_neg h, if_neg (fun e => h e.symm)]
      by_cases hk : k' = m.key user
      · rw [if_pos hk, if_neg (by simp; intro e; exact h (e ▸ hk))]
      · rw [if_neg hk, Dict.get?_del]
        by_cases h' : k' = k
        · simp [h']
        · simp [h']

theorem summary_snoc (ms : List Mail) (m : Mail) : summary (ms ++ [m]) = bump (summary ms) m.score := by
  simp [summary, bump]

end Verif.Awl
