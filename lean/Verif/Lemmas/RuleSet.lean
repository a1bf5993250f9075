import Verif.Lemmas.Py
import Verif.Spec.RuleSet

namespace Verif
open Py Spec

variable {S X : Type} [PyNum S]

theorem record_checked (n : Str) (r : Rule S X) (v : MatchValue) (s : MsgSt S X) :
    (record n r v s).checked = Dict.set s.checked n (asResult (.ret v)) := by
  cases v with
  | text t => rfl
  | val v => simp only [record]; split <;> rfl

theorem record_score (n : Str) (r : Rule S X) (v : MatchValue) (s : MsgSt S X) :
    (record n r v s).score = if Matched (.ret v) then s.score + r.base.score else s.score := by
  cases v with
  | text t => simp [record, Matched, asResult]
  | val v =>
    simp only [record, Matched, asResult]
    by_cases h : v = 0 <;> simp [h]

theorem record_descs (n : Str) (r : Rule S X) (v : MatchValue) (s : MsgSt S X) :
    (record n r v s).descs =
      if Matched (.ret v) then Dict.set s.descs n (shownDesc (.ret v) r) else s.descs := by
  cases v with
  | text t => simp [record, Matched, asResult, shownDesc]
  | val v =>
    simp only [record, Matched, asResult, shownDesc]
    by_cases h : v = 0 <;> simp [h]

/-- the value recorded for an outcome other than stop -/
def normOut : Outcome → MatchValue
  | .ret v => v
  | .raised => .val 0
  | .stop => .val 0

theorem asResult_norm (o : Outcome) : asResult (.ret (normOut o)) = asResult o := by
  cases o <;> simp [normOut, asResult]

theorem runRules_cons (n : Str) (r : Rule S X) (rs : List (Str × Rule S X)) (s : MsgSt S X) :
    runRules ((n, r) :: rs) s =
      if (r.run s).1 = .stop then (r.run s).2
      else runRules rs (record n r (normOut (r.run s).1) (r.run s).2) := by
  simp only [runRules]
  rcases h : r.run s with ⟨o, s'⟩
  cases o <;> simp [normOut]

/-- A run with fixed outcomes: the final state's bookkeeping. -/
theorem runRules_fixed (out : Str → Outcome) (rules : List (Str × Rule S X))
    (hq : ∀ p ∈ rules, Quiet p.2) (ho : ∀ p ∈ rules, ∀ s, (p.2.run s).1 = out p.1)
    (hn : (rules.map Prod.fst).Nodup) (s : MsgSt S X)
    (hs : ∀ p ∈ rules, p.1 ∉ Dict.keys s.checked) :
    (runRules rules s).checked =
      s.checked ++ (executed out rules).map (fun p => (p.1, asResult (out p.1))) ∧
    (runRules rules s).score =
      total s.score (((executed out rules).filter (fun p => Matched (out p.1))).map
        (fun p => p.2.base.score)) ∧
    (∀ n, Dict.get? (runRules rules s).descs n =
      match (executed out rules).find? (fun p => p.1 = n && Matched (out p.1)) with
      | some p => some (shownDesc (out p.1) p.2)
      | none => Dict.get? s.descs n) := by
  induction rules generalizing s with
  | nil => simp [runRules, executed, total]
  | cons p rs ih =>
    obtain ⟨n, r⟩ := p
    rw [runRules_cons]
    have hrun := ho (n, r) (by simp) s
    have hqs := hq (n, r) (by simp) s
    simp only at hrun hqs
    simp only [List.map_cons, List.nodup_cons] at hn
    by_cases hstop : out n = .stop
    · simp [hrun, hstop, executed, total, hqs.1, hqs.2.1, hqs.2.2]
    · rw [if_neg (by rw [hrun]; exact hstop)]
      have hnk : n ∉ Dict.keys s.checked := hs (n, r) (by simp)
      have hchk : (record n r (normOut (r.run s).1) (r.run s).2).checked =
          s.checked ++ [(n, asResult (out n))] := by
        rw [record_checked, hqs.2.1, asResult_norm, hrun, Dict.set_of_not_mem _ _ hnk]
      have := ih (fun p hp => hq p (List.mem_cons_of_mem _ hp))
        (fun p hp => ho p (List.mem_cons_of_mem _ hp)) hn.2
        (record n r (normOut (r.run s).1) (r.run s).2) (by
          intro p hp
          rw [hchk]
          simp only [Dict.keys, List.map_append, List.mem_append, List.map_cons, List.map_nil,
            List.mem_singleton, not_or]
          refine ⟨hs p (List.mem_cons_of_mem _ hp), ?_⟩
          intro he
          exact hn.1 (he ▸ List.mem_map_of_mem (f := Prod.fst) hp))
      obtain ⟨h1, h2, h3⟩ := this
      have hex : executed out ((n, r) :: rs) = (n, r) :: executed out rs := by
        simp [executed, hstop]
      have hM : Matched (.ret (normOut (out n))) = Matched (out n) := by
        simp [Matched, asResult_norm]
      refine ⟨?_, ?_, ?_⟩
      · rw [h1, hchk, hex]; simp
      · rw [h2, record_score, hqs.1, hrun, hM, hex]
        cases hm : Matched (out n) <;> simp [total, List.filter_cons, hm]
      · intro m
        rw [h3 m, hex, List.find?_cons]
        rw [record_descs, hqs.2.2, hrun, hM]
        by_cases hm : Matched (out n) = true
        · by_cases hnm : n = m
          · subst hnm
            have hnone : (executed out rs).find? (fun p => p.1 = n && Matched (out p.1)) = none := by
              rw [List.find?_eq_none]
              intro p hp hc
              simp at hc
              have hp' : p ∈ rs := (List.takeWhile_sublist _).subset hp
              exact hn.1 (hc.1 ▸ List.mem_map_of_mem (f := Prod.fst) hp')
            have hd : shownDesc (.ret (normOut (out n))) r = shownDesc (out n) r := by
              cases ho' : out n with
              | ret v => rfl
              | raised => simp [ho', Matched, asResult] at hm
              | stop => exact absurd ho' hstop
            simp [hnone, hm, hd]
          · simp [hm, hnm, Dict.get?_set_ne]
        · simp [hm]

/-- General (state dependent) bookkeeping for quiet rules. -/
theorem runRules_quiet (rules : List (Str × Rule S X))
    (hq : ∀ p ∈ rules, Quiet p.2) (hn : (rules.map Prod.fst).Nodup) (s : MsgSt S X)
    (hs : ∀ p ∈ rules, p.1 ∉ Dict.keys s.checked) :
    ∃ (n : Nat) (vals : List Int), vals.length = n ∧ n ≤ rules.length ∧
      (runRules rules s).checked = s.checked ++ ((rules.take n).map Prod.fst).zip vals ∧
      (runRules rules s).score = total s.score
        ((((rules.take n).zip vals).filter (fun p => p.2 ≠ 0)).map (fun p => p.1.2.base.score)) ∧
      (n < rules.length → ∃ p s', rules[n]? = some p ∧ (p.2.run s').1 = .stop) := by
  induction rules generalizing s with
  | nil => exact ⟨0, [], rfl, Nat.le_refl _, by simp [runRules], by simp [runRules, total], by simp⟩
  | cons p rs ih =>
    obtain ⟨m, r⟩ := p
    rw [runRules_cons]
    have hqs := hq (m, r) (by simp) s
    simp only at hqs
    simp only [List.map_cons, List.nodup_cons] at hn
    by_cases hstop : (r.run s).1 = .stop
    · refine ⟨0, [], rfl, Nat.zero_le _, ?_, ?_, ?_⟩
      · simp [hstop, hqs.2.1]
      · simp [hstop, hqs.1, total]
      · intro _; exact ⟨(m, r), s, by simp, hstop⟩
    · rw [if_neg hstop]
      have hnk : m ∉ Dict.keys s.checked := hs (m, r) (by simp)
      have hchk : (record m r (normOut (r.run s).1) (r.run s).2).checked =
          s.checked ++ [(m, asResult (r.run s).1)] := by
        rw [record_checked, hqs.2.1, asResult_norm, Dict.set_of_not_mem _ _ hnk]
      obtain ⟨n, vals, hl, hle, h1, h2, h3⟩ := ih (fun p hp => hq p (List.mem_cons_of_mem _ hp)) hn.2
        (record m r (normOut (r.run s).1) (r.run s).2) (by
          intro p hp
          rw [hchk]
          simp only [Dict.keys, List.map_append, List.mem_append, List.map_cons, List.map_nil,
            List.mem_singleton, not_or]
          refine ⟨hs p (List.mem_cons_of_mem _ hp), ?_⟩
          intro he
          exact hn.1 (he ▸ List.mem_map_of_mem (f := Prod.fst) hp))
      refine ⟨n + 1, asResult (r.run s).1 :: vals, by simp [hl], by simp [hle], ?_, ?_, ?_⟩
      · rw [h1, hchk]; simp
      · rw [h2, record_score, hqs.1]
        have hM : Matched (.ret (normOut (r.run s).1)) = Matched (r.run s).1 := by
          simp [Matched, asResult_norm]
        rw [hM]
        by_cases hm : asResult (r.run s).1 = 0 <;> simp [total, Matched, hm]
      · intro hlt
        simp only [List.length_cons, Nat.add_lt_add_iff_right] at hlt
        obtain ⟨p, s', hp, hst⟩ := h3 hlt
        exact ⟨p, s', by simpa using hp, hst⟩

end Verif
