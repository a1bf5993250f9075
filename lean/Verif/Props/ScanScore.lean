import Verif.Props.Scan

/-!
# C141: the score of a message
-/

namespace Verif.MetaExpr
open Verif Py

theorem value_unique {env : Str → Int} {e : Expr} {v : Int} (h : Value env e v) : v = eval env e := by
  induction h with
  | num n => rfl
  | rule s => rfl
  | not_zero _ ih => simp [eval, ← ih, truthy, ofBool]
  | not_nonzero _ hne ih => simp [eval, ← ih, truthy, ofBool, hne]
  | or_first _ hne ih => simp [eval, ← ih, truthy, hne]
  | or_second _ _ ih1 ih2 => simp [eval, ← ih1, ← ih2, truthy]
  | and_first _ ih => simp [eval, ← ih, truthy]
  | and_second _ hne _ ih1 ih2 => simp [eval, ← ih1, ← ih2, truthy, hne]
  | lt _ _ ih1 ih2 => simp [eval, ← ih1, ← ih2, ofBool, Cmp.eval]
  | gt _ _ ih1 ih2 => simp [eval, ← ih1, ← ih2, ofBool, Cmp.eval]
  | le _ _ ih1 ih2 => simp [eval, ← ih1, ← ih2, ofBool, Cmp.eval]
  | ge _ _ ih1 ih2 => simp [eval, ← ih1, ← ih2, ofBool, Cmp.eval]
  | eq _ _ ih1 ih2 => simp [eval, ← ih1, ← ih2, ofBool, Cmp.eval]
  | add _ _ ih1 ih2 => simp [eval, ← ih1, ← ih2]
  | sub _ _ ih1 ih2 => simp [eval, ← ih1, ← ih2]
  | mul _ _ ih1 ih2 => simp [eval, ← ih1, ← ih2]

theorem eval_names {env env' : Str → Int} : ∀ (e : Expr), (∀ n ∈ e.names, env n = env' n) → eval env e = eval env' e
  | .num _, _ => rfl
  | .rule s, h => h s (by simp [Expr.names])
  | .not e, h => by simp only [eval]; rw [eval_names e h]
  | .bin o a b, h => by
    have ha := eval_names a (fun n hn => h n (by simp [Expr.names, hn]))
    have hb := eval_names b (fun n hn => h n (by simp [Expr.names, hn]))
    cases o <;> simp only [eval, ha, hb]

end Verif.MetaExpr

namespace Verif.Props
open Verif Py Spec Build Parser Scan

variable {S R V C : Type} [PyNum S]

theorem gives_unique {L : ReLib R} {rules : Conds R} {m : Facts} {n : Str} {v w : Int} (h : Gives L rules m n v)
    (h' : Gives L rules m n w) : v = w := by
  induction h generalizing w with
  | yes h1 h2 h3 =>
    cases h' with
    | yes => rfl
    | no k1 k2 k3 => rw [h1] at k1; cases k1; exact absurd h3 k3
    | answer k1 => rw [h1] at k1; cases k1; exact h2.elim
    | combine env k1 => rw [h1] at k1; cases k1; exact h2.elim
  | no h1 h2 h3 =>
    cases h' with
    | yes k1 k2 k3 => rw [h1] at k1; cases k1; exact absurd k3 h3
    | no => rfl
    | answer k1 => rw [h1] at k1; cases k1; exact h2.elim
    | combine env k1 => rw [h1] at k1; cases k1; exact h2.elim
  | answer h1 =>
    cases h' with
    | yes k1 k2 k3 => rw [h1] at k1; cases k1; exact k2.elim
    | no k1 k2 k3 => rw [h1] at k1; cases k1; exact k2.elim
    | answer k1 => rw [h1] at k1; cases k1; rfl
    | combine env k1 => rw [h1] at k1; cases k1
  | combine env h1 h2 h3 ih =>
    cases h' with
    | yes k1 k2 k3 => rw [h1] at k1; cases k1; exact k2.elim
    | no k1 k2 k3 => rw [h1] at k1; cases k1; exact k2.elim
    | answer k1 => rw [h1] at k1; cases k1
    | combine env' k1 k2 k3 =>
      rw [h1] at k1
      simp only [Option.some.injEq, Cond.combine.injEq] at k1
      subst k1
      rw [MetaExpr.value_unique h3, MetaExpr.value_unique k3]
      exact MetaExpr.eval_names _ (fun n hn => ih n hn (k2 n hn))

theorem works_mono {rules : Conds R} {k n} (h : Works rules k n) : ∀ {j}, k ≤ j → Works rules j n := by
  induction h with
  | plain h1 h2 => exact fun _ => .plain h1 h2
  | combine h1 _ ih =>
    intro j hj
    cases j with
    | zero => omega
    | succ j => exact .combine h1 (fun m hm => ih m hm (by omega))

theorem works_all {rules : Conds R} : ∀ (l : List Str), (∀ m ∈ l, ∃ k, Works rules k m) → ∃ k, ∀ m ∈ l, Works rules k m
  | [], _ => ⟨0, by simp⟩
  | a :: l, h => by
    obtain ⟨k1, h1⟩ := h a (by simp)
    obtain ⟨k2, h2⟩ := works_all l (fun m hm => h m (by simp [hm]))
    refine ⟨max k1 k2, fun m hm => ?_⟩
    rcases List.mem_cons.1 hm with rfl | hm
    · exact works_mono h1 (by omega)
    · exact works_mono (h2 m hm) (by omega)

/-! ### The rules of the set -/

theorem build_all (B : BuildEnv S R V) (hpar : B.paranoid = false) (good : Str → Bool) (RD : Str → RuleDef S R V) :
    ∀ (res : List (Str × Data)) (rs : Rules S R V),
    (∀ p ∈ res, good p.1 = true → one B p.1 p.2 = .ok (RD p.1) ∧ (RD p.1).base.name = p.1) →
    (∀ p ∈ res, good p.1 = false → ∃ e, e ≠ .other ∧ one B p.1 p.2 = .error e) → (res.map Prod.fst).Nodup →
    (∀ p ∈ rs.checked, p.1 ∉ res.map Prod.fst) → (∀ p ∈ rs.notChecked, p.1 ∉ res.map Prod.fst) →
    build B res rs =
      ({ checked := rs.checked ++
          (((res.map Prod.fst).filter good).filter (fun n => (RD n).base.shouldCheck)).map (fun n => (n, RD n)),
         notChecked := rs.notChecked ++
          (((res.map Prod.fst).filter good).filter (fun n => !(RD n).base.shouldCheck)).map (fun n => (n, RD n)) }, none)
  | [], rs, _, _, _, _, _ => by simp [build]
  | (n, d) :: res, rs, h, hbad, hn, h1, h2 => by
    simp only [List.map_cons, List.nodup_cons] at hn
    have ih := fun rs' => build_all B hpar good RD res rs' (fun p hp => h p (List.mem_cons_of_mem _ hp))
      (fun p hp => hbad p (List.mem_cons_of_mem _ hp)) hn.2
    rw [build_cons]
    cases hg : good n with
    | false =>
      obtain ⟨e, he, ho⟩ := hbad (n, d) (by simp) hg
      simp only at ho
      rw [ho]
      have ih' := ih rs (fun p hp hm => h1 p hp (by simp [hm])) (fun p hp hm => h2 p hp (by simp [hm]))
      cases e <;> simp_all
    | true =>
    obtain ⟨ho, hname⟩ := h (n, d) (by simp) hg
    simp only at ho hname
    rw [ho]
    simp only
    have k1 : ∀ p ∈ rs.checked, p.1 ≠ (RD n).base.name := fun p hp e => h1 p hp (by rw [e, hname]; simp)
    have k2 : ∀ p ∈ rs.notChecked, p.1 ≠ (RD n).base.name := fun p hp e => h2 p hp (by rw [e, hname]; simp)
    have hp : put rs (RD n) = { checked := rs.checked ++ (if (RD n).base.shouldCheck then [(n, RD n)] else []),
                                notChecked := rs.notChecked ++ (if (RD n).base.shouldCheck then [] else [(n, RD n)]) } := by
      rw [put_append k1 k2]
      unfold put noRules
      cases (RD n).base.shouldCheck <;> simp [Dict.set, hname]
    rw [hp, ih]
    · cases hc : (RD n).base.shouldCheck <;> simp [hc, hg]
    · intro p hp hm
      simp only [List.mem_append] at hp
      rcases hp with hp | hp
      · exact h1 p hp (by simp [hm])
      · split at hp
        · simp only [List.mem_singleton] at hp; subst hp; exact hn.1 hm
        · cases hp
    · intro p hp hm
      simp only [List.mem_append] at hp
      rcases hp with hp | hp
      · exact h2 p hp (by simp [hm])
      · split at hp
        · cases hp
        · simp only [List.mem_singleton] at hp; subst hp; exact hn.1 hm

theorem get_tagged (f : Str → α) (l : List Str) (hn : l.Nodup) (n : Str) (l' : List (Str × α)) (hp : l'.Perm (l.map (fun n => (n, f n)))) :
    Dict.get? l' n = if n ∈ l then some (f n) else none := by
  have hk : (Dict.keys l').Perm l := by
    have := hp.map Prod.fst
    simpa [Dict.keys, Function.comp_def] using this
  split
  · rename_i h
    apply Dict.get?_of_mem _ (hk.nodup_iff.2 hn)
    exact hp.mem_iff.2 (List.mem_map.2 ⟨n, h, rfl⟩)
  · rename_i h
    rw [Dict.get?_eq_none_iff]
    exact fun hh => h (hk.mem_iff.1 hh)

/-- The set of rules the files define. -/
def theRules (N : List Str) (RD : Str → RuleDef S R V) : Rules S R V :=
  { checked := (N.filter (fun n => (RD n).base.shouldCheck)).map (fun n => (n, RD n)),
    notChecked := (N.filter (fun n => !(RD n).base.shouldCheck)).map (fun n => (n, RD n)) }

theorem sorted_perm (rs : Rules S R V) : (sortDefs rs).checked.Perm rs.checked := sortedBy_perm _ _

theorem find_rules (N : List Str) (hN : N.Nodup) (RD : Str → RuleDef S R V) (n : Str) :
    (sortDefs (theRules N RD)).find n = if n ∈ N then some (RD n) else none := by
  unfold Rules.find
  rw [get_tagged RD (N.filter (fun n => (RD n).base.shouldCheck)) (hN.filter _) n _ (sorted_perm _)]
  rw [get_tagged RD (N.filter (fun n => !(RD n).base.shouldCheck)) (hN.filter _) n (sortDefs (theRules N RD)).notChecked
    (List.Perm.refl _)]
  by_cases h : n ∈ N <;> cases hc : (RD n).base.shouldCheck <;> simp [h, hc]

theorem get_defs (N : List Str) (hN : N.Nodup) (RD : Str → RuleDef S R V) (n : Str) :
    (defs (sortDefs (theRules N RD))).get n = if n ∈ N then some (defOf (RD n).kind) else none := by
  unfold DefSet.get defs
  have e : ∀ l : List Str, (l.map (fun n => (n, RD n))).map (fun p => (p.1, defOf p.2.kind)) =
      l.map (fun n => (n, defOf (RD n).kind)) := by intro l; simp [Function.comp_def]
  simp only
  rw [get_tagged (fun n => defOf (RD n).kind) (N.filter (fun n => (RD n).base.shouldCheck)) (hN.filter _) n _
    (by rw [← e]; exact (sorted_perm _).map _)]
  rw [get_tagged (fun n => defOf (RD n).kind) (N.filter (fun n => !(RD n).base.shouldCheck)) (hN.filter _) n _
    (by rw [← e]; exact List.Perm.refl _)]
  by_cases h : n ∈ N <;> cases hc : (RD n).base.shouldCheck <;> simp [h, hc]

theorem defs_distinct (N : List Str) (hN : N.Nodup) (RD : Str → RuleDef S R V) :
    (defs (sortDefs (theRules N RD))).Distinct := by
  unfold DefSet.Distinct
  have h1 : ((defs (sortDefs (theRules N RD))).checked.map Prod.fst).Perm (N.filter (fun n => (RD n).base.shouldCheck)) := by
    have := ((sorted_perm (theRules N RD)).map (fun p => (p.1, defOf p.2.kind))).map Prod.fst
    simpa [defs, theRules, Function.comp_def] using this
  have h2 : (defs (sortDefs (theRules N RD))).notChecked.map Prod.fst = N.filter (fun n => !(RD n).base.shouldCheck) := by
    simp [defs, theRules, Function.comp_def, sortDefs]
  unfold Dict.keys
  rw [List.nodup_append]
  refine ⟨h1.nodup_iff.2 (hN.filter _), by rw [h2]; exact hN.filter _, ?_⟩
  intro a ha b hb he
  subst he
  rw [h1.mem_iff] at ha
  rw [h2] at hb
  simp only [List.mem_filter] at ha hb
  simp [ha.2] at hb

/-- Resolution only deletes. -/
theorem postItems_less (par b : Bool) : ∀ (items : List (Str × Def)) (rs : DefSet) (done : List Str) (n : Str),
    (Dict.get? rs.checked n = none → Dict.get? (postItems par b items rs done).2.1.checked n = none) ∧
    (Dict.get? rs.notChecked n = none → Dict.get? (postItems par b items rs done).2.1.notChecked n = none)
  | [], rs, done, n => ⟨id, id⟩
  | (m, d) :: items, rs, done, n => by
    unfold postItems
    split
    · exact postItems_less par b items rs _ n
    · split
      · exact ⟨id, id⟩
      · have ih := postItems_less par b items (rs.del b m) (resolve rs (metaMaxRecursion + 1) m d done).2 n
        rename_i done' hr _
        rw [hr] at ih
        have hdel : (Dict.get? rs.checked n = none → Dict.get? (rs.del b m).checked n = none) ∧
            (Dict.get? rs.notChecked n = none → Dict.get? (rs.del b m).notChecked n = none) := by
          unfold DefSet.del
          cases b <;> simp only [Bool.false_eq_true, if_true, if_false]
          · refine ⟨id, fun h => ?_⟩
            rw [Dict.get?_del]; split <;> simp [h]
          · refine ⟨fun h => ?_, id⟩
            rw [Dict.get?_del]; split <;> simp [h]
        exact ⟨fun h => ih.1 (hdel.1 h), fun h => ih.2 (hdel.2 h)⟩
    · exact ⟨id, id⟩

theorem post_less (par : Bool) (rs : DefSet) (n : Str) :
    (Dict.get? rs.checked n = none → Dict.get? (callPostparsing par rs).2.checked n = none) ∧
    (Dict.get? rs.notChecked n = none → Dict.get? (callPostparsing par rs).2.notChecked n = none) := by
  unfold callPostparsing
  have h1 := postItems_less par true rs.checked rs [] n
  cases hp : postItems par true rs.checked rs [] with
  | mk r p =>
    obtain ⟨rs1, done1⟩ := p
    rw [hp] at h1
    cases r with
    | ok =>
      simp only
      have h2 := postItems_less par false rs1.notChecked rs1 done1 n
      cases hq : postItems par false rs1.notChecked rs1 done1 with
      | mk r p =>
        obtain ⟨rs2, done2⟩ := p
        rw [hq] at h2
        exact ⟨fun h => h2.1 (h1.1 h), fun h => h2.2 (h1.2 h)⟩
    | invalid => exact h1
    | syntaxErr => exact h1

/-! ### Running the rules -/

theorem evalMeta_value {X : Type} {Inv : X → Prop} {call : Str → X → Option Int × X} {env : Str → Int} :
    ∀ (e : MetaExpr.Expr), (∀ n ∈ e.names, n ∉ MetaExpr.ownNames ∧ ∀ x, Inv x → ∃ x', Inv x' ∧ call n x = (some (env n), x')) →
    ∀ x, Inv x → ∃ x', Inv x' ∧ evalMeta call e x = (some (MetaExpr.eval env e), x')
  | .num n, _, x, hx => ⟨x, hx, rfl⟩
  | .rule s, h, x, hx => by
    obtain ⟨h1, h2⟩ := h s (by simp [MetaExpr.Expr.names])
    simpa [evalMeta, h1, MetaExpr.eval] using h2 x hx
  | .not e, h, x, hx => by
    obtain ⟨x1, h1, he⟩ := evalMeta_value e h x hx
    exact ⟨x1, h1, by simp [evalMeta, he, MetaExpr.eval]⟩
  | .bin o a b, h, x, hx => by
    obtain ⟨x1, h1, ha⟩ := evalMeta_value a (fun n hn => h n (by simp [MetaExpr.Expr.names, hn])) x hx
    obtain ⟨x2, h2, hb⟩ := evalMeta_value b (fun n hn => h n (by simp [MetaExpr.Expr.names, hn])) x1 h1
    cases o with
    | or =>
      cases ht : MetaExpr.truthy (MetaExpr.eval env a) with
      | true => exact ⟨x1, h1, by simp [evalMeta, ha, MetaExpr.eval, ht]⟩
      | false => exact ⟨x2, h2, by simp [evalMeta, ha, hb, MetaExpr.eval, ht]⟩
    | and =>
      cases ht : MetaExpr.truthy (MetaExpr.eval env a) with
      | true => exact ⟨x2, h2, by simp [evalMeta, ha, hb, MetaExpr.eval, ht]⟩
      | false => exact ⟨x1, h1, by simp [evalMeta, ha, MetaExpr.eval, ht]⟩
    | cmp c => exact ⟨x2, h2, by simp [evalMeta, ha, hb, MetaExpr.eval]⟩
    | add => exact ⟨x2, h2, by simp [evalMeta, ha, hb, MetaExpr.eval]⟩
    | sub => exact ⟨x2, h2, by simp [evalMeta, ha, hb, MetaExpr.eval]⟩
    | mul => exact ⟨x2, h2, by simp [evalMeta, ha, hb, MetaExpr.eval]⟩

theorem kind_runs (E : ScanEnv S R V C) (c : C) {m : Facts} {rules : Conds R} {rs : Rules S R V} {RD : Str → RuleDef S R V}
    (hr : ∀ n cond, rules n = some cond → rs.find n = some (RD n) ∧ KindFor E c m cond (RD n).kind)
    {k : Nat} {n : Str} (h : Works rules k n) :
    ∃ v, Gives E.re rules m n v ∧
      ∀ x, Shows E.mail m x → ∃ x', Shows E.mail m x' ∧ runKind E c rs k (RD n).kind x = (some v, x') := by
  induction h with
  | @plain k n cond h1 h2 =>
    have hk := (hr n cond h1).2
    have fl : cond.Test → ∀ b : Bool, (b = true ↔ cond.Holds E.re m) → Gives E.re rules m n (flag b) := by
      intro ht b hb
      cases b with
      | true => exact .yes h1 ht (hb.1 rfl)
      | false => exact .no h1 ht (fun hh => by simpa using hb.2 hh)
    generalize (RD n).kind = kind at hk
    cases hk with
    | body r =>
      refine ⟨_, fl trivial (E.re.search r m.text) Iff.rfl, fun x hx => ⟨x, hx, ?_⟩⟩
      simp [runKind, Pat.test, hx.1]
    | rawbody r =>
      refine ⟨_, fl trivial (E.re.search r m.rawText) Iff.rfl, fun x hx => ⟨x, hx, ?_⟩⟩
      simp [runKind, Pat.test, hx.2.1]
    | full r =>
      refine ⟨_, fl trivial (E.re.search r m.raw) Iff.rfl, fun x hx => ⟨x, hx, ?_⟩⟩
      simp [runKind, Pat.test, hx.2.2.1]
    | uri r =>
      refine ⟨_, fl trivial (m.uris.any (E.re.search r)) (by simp [Cond.Holds]), fun x hx => ⟨x, hx, ?_⟩⟩
      have ht : Pat.test E.re ⟨r, false⟩ = E.re.search r := by funext s; simp [Pat.test]
      simp [runKind, ht, hx.2.2.2.1]
    | @asks fn args t vals hans =>
      refine ⟨_, .answer h1, fun x hx => ?_⟩
      obtain ⟨x', hx', he | ⟨he, h0⟩⟩ := hans x hx
      · exact ⟨x', hx', by simp [runKind, he]⟩
      · exact ⟨x', hx', by simp [runKind, he, h0]⟩
    | header ht hd =>
      obtain ⟨b, ops0, -, hb⟩ := hd []
      refine ⟨_, fl ht b hb, fun x hx => ?_⟩
      obtain ⟨h1, h2, h3, h4, ops, hm⟩ := hx
      obtain ⟨b', ops', he, hb'⟩ := hd ops
      have : b' = b := by
        rw [Bool.eq_iff_iff]; exact hb'.trans hb.symm
      subst this
      refine ⟨{ x with mail := accessed E.mail m.headers m.partHeaders ops' }, ⟨h1, h2, h3, h4, ops', rfl⟩, ?_⟩
      simp [runKind, hm, he]
    | combine => exact absurd rfl (h2 _)
  | @combine k n e h1 hw ih =>
    have hk := (hr n _ h1).2
    have henv : ∃ env : Str → Int, ∀ a ∈ e.names, Gives E.re rules m a (env a) ∧
        ∀ x, Shows E.mail m x → ∃ x', Shows E.mail m x' ∧ runKind E c rs k (RD a).kind x = (some (env a), x') := by
      refine ⟨fun a => if ha : a ∈ e.names then (ih a ha).choose else 0, fun a ha => ?_⟩
      simp only [ha, dif_pos]
      exact (ih a ha).choose_spec
    obtain ⟨env, henv⟩ := henv
    refine ⟨MetaExpr.eval env e, .combine env h1 (fun a ha => (henv a ha).1) (MetaExpr.value_eval env e), fun x hx => ?_⟩
    generalize (RD n).kind = kind at hk
    cases hk with
    | header h => exact h.elim
    | @combine _ text hc hn ho =>
      simp only [runKind, hc]
      refine evalMeta_value e (fun a ha => ⟨ho a ha, fun x hx => ?_⟩) x hx
      have hf : rs.find a = some (RD a) := by
        cases hw a ha with
        | plain k1 => exact (hr a _ k1).1
        | combine k1 => exact (hr a _ k1).1
      simp only [hf]
      exact (henv a ha).2 x hx

theorem handleTwo_ctx (E : Env C) (raw : Str) (s : State C) (hl : keyword raw ≠ c!"lang") :
    (handleTwo E (logical raw) s).1.ctx = s.ctx := by
  have st : ∀ t n v, (store E t n v s).1.ctx = s.ctx := by
    intro t n v
    unfold store
    simp only
    split
    · split
      · rfl
      · split <;> rfl
    · rfl
  unfold handleTwo
  rcases splitNone_two_cases (logical raw) with ⟨t, n, v, h3⟩ | h3
  · rw [h3]
    have hkt := keyword_of_three h3
    simp only
    rw [if_neg (by rw [← hkt]; exact hl)]
    split <;> exact st _ _ _
  · split
    · rename_i heq; rw [heq] at h3; simp at h3
    · rfl

theorem store_calm (E : Env C) (t n : Str) (v : PVal) (s : State C) (ht : E.isCmd s.ctx c!"tflags" = false)
    (hv : (∃ x, v = .str x) ∨ t = c!"tflags") :
    (store E t n v s).2 = none ∧ (store E t n v s).1.ignore = s.ignore := by
  unfold store
  simp only
  split
  · rename_i hr
    rcases hv with ⟨x, rfl⟩ | rfl
    · simp
    · have : ¬ (c!"tflags" ∈ ruleTypes ∨ E.isCmd s.ctx c!"tflags" = true) := by
        rw [ht]
        simp [ruleTypes]
      exact absurd hr this
  · simp

theorem two_calm (E : Env C) (raw : Str) (s : State C) (ht : E.isCmd s.ctx c!"tflags" = false) (hl : keyword raw ≠ c!"lang") :
    ((handleTwo E (logical raw) s).2 = none ∨ (handleTwo E (logical raw) s).2 = some .syntax) ∧
    (handleTwo E (logical raw) s).1.ignore = s.ignore := by
  unfold handleTwo
  rcases splitNone_two_cases (logical raw) with ⟨t, n, v, h3⟩ | h3
  · rw [h3]
    have hkt := keyword_of_three h3
    simp only
    rw [if_neg (by rw [← hkt]; exact hl)]
    split
    · rename_i heq
      have := store_calm E t n (.list (splitWs v)) s ht (Or.inr heq)
      exact ⟨Or.inl this.1, this.2⟩
    · have := store_calm E t n (.str v) s ht (Or.inl ⟨_, rfl⟩)
      exact ⟨Or.inl this.1, this.2⟩
  · split
    · rename_i heq; rw [heq] at h3; simp at h3
    · simp

theorem configured_cons (E : Env C) (l : Str) (lines : List Str) (c : C) :
    configured E (l :: lines) c = configured E lines (configured E [l] c) := rfl

theorem configured_cmd (E : Env C) (hcmd : ∀ c k v t, E.isCmd (E.parseConfig c k v).1 t = E.isCmd c t) (t : Str) :
    ∀ (lines : List Str) (c : C), E.isCmd (configured E lines c) t = E.isCmd c t
  | [], c => rfl
  | l :: lines, c => by
    rw [configured_cons, configured_cmd E hcmd t lines]
    simp only [configured, List.foldl_cons, List.foldl_nil]
    split
    · rfl
    · exact hcmd _ _ _ _

theorem calm_tail {E : Env C} (hcmd : ∀ c k v t, E.isCmd (E.parseConfig c k v).1 t = E.isCmd c t) {c : C} {l : Str} {lines : List Str}
    (h : CalmLines E c (l :: lines)) : CalmLines E (configured E [l] c) lines where
  tolerant := h.tolerant
  tflags := by rw [configured_cmd E hcmd]; exact h.tflags
  config := by
    intro before x after e hs hk hc
    rw [configured_cmd E hcmd] at hc
    have := h.config (l :: before) x after (by rw [e]; rfl) hs hk hc
    rw [configured_cons] at this
    exact this

theorem readText_calm (E : Env C) (hcmd : ∀ c k v t, E.isCmd (E.parseConfig c k v).1 t = E.isCmd c t) :
    ∀ (lines : List Str), (∀ l ∈ lines, Defining l) → ∀ s : State C, s.ignore = false → CalmLines E s.ctx lines →
    (readText E lines s).2 = none ∧ (readText E lines s).1.ctx = configured E lines s.ctx ∧ (readText E lines s).1.ignore = false
  | [], _, s, hi, _ => ⟨rfl, rfl, hi⟩
  | l :: lines, hd, s, hi, h => by
    obtain ⟨⟨hc, hp⟩, hl⟩ := hd l (by simp)
    have key : ((handleLine E (fun _ s => (s, none)) [] l s).2 = none ∨ (handleLine E (fun _ s => (s, none)) [] l s).2 = some .syntax) ∧
        (handleLine E (fun _ s => (s, none)) [] l s).1.ctx = configured E [l] s.ctx ∧
        (handleLine E (fun _ s => (s, none)) [] l s).1.ignore = false := by
      by_cases hs : Skipped l
      · rw [hl_skipped _ _ _ _ _ hc (Or.inl hs)]
        simp [configured, hs, hi]
      · rw [hl_main _ _ _ _ _ hc hs hi]
        unfold dispatch
        rw [if_neg (hp hs).1, if_neg (hp hs).2, if_neg (hl hs).2]
        split
        · rename_i hk
          obtain ⟨t1, t2⟩ := two_calm E l s h.tflags (hl hs).1
          rw [handleTwo_ctx E l s (hl hs).1, t2]
          refine ⟨t1, ?_, hi⟩
          simp [configured, hs, hk]
        · rename_i hk
          simp only [not_or] at hk
          obtain ⟨b, hb⟩ := h.config [] l lines rfl hs hk.1 (by simpa using hk.2)
          have hb : (E.parseConfig s.ctx (keyword l) (argument l)).2 = .done b := hb
          have hcf : configured E [l] s.ctx = (E.parseConfig s.ctx (keyword l) (argument l)).1 := by
            simp only [configured, List.foldl_cons, List.foldl_nil]
            rw [if_neg (by simp only [hs, false_or, not_or]; exact hk)]
          rw [hcf]
          unfold handleConfig
          cases hx : E.parseConfig s.ctx (keyword l) (argument l) with
          | mk c r =>
            rw [hx] at hb
            simp only at hb
            subst hb
            exact ⟨Or.inl rfl, rfl, hi⟩
    have hstep : readText E (l :: lines) s = readText E lines (handleLine E (fun _ s => (s, none)) [] l s).1 := by
      unfold readText
      rw [parseLines_cons]
      unfold andThen
      cases hh : handleLine E (fun _ s => (s, none)) [] l s with
      | mk s' e =>
        rw [hh] at key
        rcases key.1 with e | e <;> simp only at e <;> subst e
        · rfl
        · simp [h.tolerant]
    have ih := readText_calm E hcmd lines (fun a ha => hd a (List.mem_cons_of_mem _ ha)) _ key.2.2 (by rw [key.2.1]; exact calm_tail hcmd h)
    rw [hstep, configured_cons, ← key.2.1]
    exact ih

theorem parseFiles_text (E : Env C) (s0 : State C) {done files lines : List Str} (hf : Lines E s0 done files lines) :
    ∀ (s : State C), readText E done s0 = (s, none) → s.ignore = false → (readText E lines s).2 = none →
      parseFiles E files s = readText E lines s := by
  induction hf with
  | nil => intro s _ _ _; rfl
  | @file done f text counted files out hf hc _ ih =>
    intro s hd hi hn
    obtain ⟨h1, h2⟩ := C12_nested_partial E s0 hc s hd hi
    have hone : parse E f s = readText E counted s := by
      unfold parse parseFile
      rw [hf]
      exact h1
    unfold parseFiles
    rw [readText_cut] at hn
    rw [hone, readText_cut]
    cases hr : readText E counted s with
    | mk s1 e =>
      rw [hr] at hn h2
      cases e with
      | some e => cases hn
      | none => exact ih s1 (by rw [readText_cut, hd]; exact hr) h2 hn
  | @missing done f files out hf _ ih =>
    intro s hd hi hn
    have hone : parse E f s = (s, none) := by
      unfold parse parseFile
      rw [hf]
    unfold parseFiles
    rw [hone]
    exact ih s hd hi hn

theorem rules_run {ML : Mail.MailLib} {m : Facts} (run : Str → Rule S Seen) (val : Str → Int) :
    ∀ (order : List Str), order.Nodup →
    (∀ n ∈ order, ∀ s : MsgSt S Seen, Shows ML m s.rest →
      ∃ x', Shows ML m x' ∧ (run n).run s = (.ret (.val (val n)), { s with rest := x' })) →
    ∀ s : MsgSt S Seen, Shows ML m s.rest → (∀ n ∈ order, n ∉ Dict.keys s.checked) →
    (runRules (order.map (fun n => (n, run n))) s).checked = s.checked ++ order.map (fun n => (n, val n)) ∧
    (runRules (order.map (fun n => (n, run n))) s).score =
      total s.score ((order.filter (fun n => decide (val n ≠ 0))).map (fun n => (run n).base.score)) ∧
    Shows ML m (runRules (order.map (fun n => (n, run n))) s).rest ∧
    ∀ n, Dict.get? (runRules (order.map (fun n => (n, run n))) s).descs n =
      if n ∈ order ∧ val n ≠ 0 then some (run n).base.description else Dict.get? s.descs n
  | [], _, _, s, hs, _ => by simp [runRules, total]; exact hs
  | n :: order, hnd, hrun, s, hs, hk => by
    rw [List.nodup_cons] at hnd
    obtain ⟨x', hx', he⟩ := hrun n (by simp) s hs
    simp only [List.map_cons, runRules, he]
    have hck : (record n (run n) (.val (val n)) { s with rest := x' }).checked = s.checked ++ [(n, val n)] := by
      unfold record
      simp only
      split <;> exact Dict.set_of_not_mem _ _ (hk n (by simp))
    have hre : (record n (run n) (.val (val n)) { s with rest := x' }).rest = x' := by
      unfold record; simp only; split <;> rfl
    obtain ⟨h1, h2, h3, h4⟩ := rules_run run val order hnd.2 (fun a ha => hrun a (List.mem_cons_of_mem _ ha))
      (record n (run n) (.val (val n)) { s with rest := x' }) (by rw [hre]; exact hx') (by
        intro a ha
        rw [hck]
        simp only [Dict.keys, List.map_append, List.mem_append, List.map_cons, List.map_nil, List.mem_singleton, not_or]
        exact ⟨hk a (by simp [ha]), fun e => hnd.1 (e ▸ ha)⟩)
    rw [h1, h2, hck]
    refine ⟨by simp, ?_, h3, ?_⟩
    · unfold record
      by_cases hv : val n = 0 <;> simp [hv, total]
    · intro x
      rw [h4]
      by_cases hx : x ∈ order
      · by_cases hv : val x = 0
        · have hne : x ≠ n := fun e => hnd.1 (e ▸ hx)
          simp only [hv, ne_eq, not_true_eq_false, and_false, if_false]
          unfold record
          by_cases hv' : val n = 0
          · simp [hv']
          · simp only [ne_eq, hv', not_false_eq_true, if_true]
            exact Dict.get?_set_ne _ _ (Ne.symm hne)
        · simp [hx, hv]
      · by_cases hxn : x = n
        · subst hxn
          by_cases hv : val x = 0
          · simp [hv, record]
          · simp [hx, hv, record, Dict.get?_set_self]
        · simp only [hx, false_and, if_false, List.mem_cons, hxn, false_or]
          unfold record
          by_cases hv' : val n = 0
          · simp [hv']
          · simp only [ne_eq, hv', not_false_eq_true, if_true]
            exact Dict.get?_set_ne _ _ (Ne.symm hxn)

/-! ### From files to the score -/

theorem works_usable {E : ScanEnv S R V C} {c : C} {m : Facts} {N : List Str} {RD : Str → RuleDef S R V} {docs : Str → Doc S R}
    (hN : N.Nodup) (hb : ∀ n ∈ N, Built E c m n (docs n) (RD n)) :
    let get := (defs (sortDefs (theRules N RD))).get
    let rules : Conds R := fun n => if n ∈ N then some (docs n).cond else none
    AllCompile get ∧ (∀ k n, Works rules k n → UsableWithin get k n) ∧ (∀ n, Usable get n → ∃ k, Works rules k n) := by
  intro get rules
  have hg : ∀ n, get n = if n ∈ N then some (defOf (RD n).kind) else none := get_defs N hN RD
  have plain : ∀ n, n ∈ N → (∀ e, (docs n).cond ≠ .combine e) → get n = some .plain := by
    intro n hn hp
    rw [hg, if_pos hn]
    have := (hb n hn).kind
    generalize (docs n).cond = c at this hp
    generalize (RD n).kind = k at this
    cases this with
    | combine => exact absurd rfl (hp _)
    | _ => rfl
  have comb : ∀ n e, n ∈ N → (docs n).cond = .combine e →
      ∃ subs, get n = some (.metaR subs true) ∧ ∀ a, a ∈ subs ↔ a ∈ e.names := by
    intro n e hn he
    rw [hg, if_pos hn]
    have := (hb n hn).kind
    rw [he] at this
    generalize (RD n).kind = k at this
    cases this with
    | header h => exact h.elim
    | @combine _ text h1 h2 => exact ⟨_, by simp [defOf, h1], h2⟩
  have cases' : ∀ n, n ∈ N → (∀ e, (docs n).cond ≠ .combine e) ∨ ∃ e, (docs n).cond = .combine e := by
    intro n _
    cases (docs n).cond with
    | combine e => exact Or.inr ⟨e, rfl⟩
    | _ => exact Or.inl (by intro e h; cases h)
  have hr : ∀ n c, rules n = some c ↔ n ∈ N ∧ (docs n).cond = c := by
    intro n c
    show (if n ∈ N then some (docs n).cond else none) = some c ↔ _
    by_cases h : n ∈ N <;> simp [h]
  have hin : ∀ n d, get n = some d → n ∈ N := by
    intro n d h
    rw [hg] at h
    by_cases hh : n ∈ N
    · exact hh
    · simp [hh] at h
  refine ⟨?_, ?_, ?_⟩
  · intro n subs c h
    have hn := hin n _ h
    rcases cases' n hn with hp | ⟨e, he⟩
    · rw [plain n hn hp] at h; cases h
    · obtain ⟨s, h1, -⟩ := comb n e hn he
      rw [h1] at h; cases h; rfl
  · intro k n h
    induction h with
    | plain h1 h2 =>
      obtain ⟨hn, rfl⟩ := (hr _ _).1 h1
      exact .plain (plain _ hn h2)
    | combine h1 _ ih =>
      obtain ⟨hn, he⟩ := (hr _ _).1 h1
      obtain ⟨s, h1, h2⟩ := comb _ _ hn he
      exact .metaR h1 (fun a ha => ih a ((h2 a).1 ha))
  · intro n h
    induction h with
    | @plain n h1 =>
      have hn := hin _ _ h1
      rcases cases' _ hn with hp | ⟨e, he⟩
      · exact ⟨0, .plain ((hr _ _).2 ⟨hn, rfl⟩) hp⟩
      · obtain ⟨s, h2, -⟩ := comb _ e hn he
        rw [h2] at h1; cases h1
    | @metaR n subs c h1 _ ih =>
      have hn := hin _ _ h1
      rcases cases' _ hn with hp | ⟨e, he⟩
      · rw [plain _ hn hp] at h1; cases h1
      · obtain ⟨s, h2, h3⟩ := comb _ e hn he
        rw [h2] at h1
        cases h1
        obtain ⟨k, hk⟩ := works_all e.names (fun a ha => ih a ((h3 a).2 ha))
        exact ⟨k + 1, .combine ((hr _ _).2 ⟨hn, he⟩) hk⟩

theorem one_unknown (E : ScanEnv S R V C) (c : C) {as : List (Str × Str × PVal)} (hsh : Shaped as) {n : Str} {doc : Doc S R}
    (hs : Says E.float E.re (E.conf c) as n doc) {fn : Str} {args : List Str} {tg : Str} {vals : List V}
    (hc : doc.cond = .asks fn args tg) (hvals : args.map E.evalArg = vals.map .ok) (hno : E.hasEval c fn = false) {d : Data}
    (hd : ∀ a, Dict.get? d a = lastValue as n a) : one (E.build c) n d = .error .invalidRule := by
  obtain ⟨⟨t, v, ht, hv, hmean⟩, ⟨given, flags, hgiven, hflags, -, -⟩, -⟩ := hs
  rw [← hd] at ht hv
  have hS : Scores (E.build c) d given := by
    rcases hgiven with ⟨h1, h2⟩ | ⟨s, fs, h1, h2, h3, h4⟩
    · exact Or.inl ⟨by rw [hd]; exact h1, h2⟩
    · exact Or.inr ⟨s, fs, by rw [hd]; exact h1, h2, h3, h4⟩
  have hT : ∀ a, a ≠ c!"tflags" → Textual d a := by
    intro a ha
    unfold Textual
    rw [hd]
    exact last_text hsh ha
  obtain ⟨tf, hF⟩ : ∃ tf, Flags d tf := by
    rcases hflags with ⟨h1, h2⟩ | ⟨h1, h2⟩
    · exact ⟨none, Or.inl ⟨by rw [hd]; exact h1, rfl⟩⟩
    · exact ⟨some flags, Or.inr ⟨flags, h1, by rw [hd]; exact h2, by rw [last_flags hsh h2]⟩⟩
  obtain ⟨hkw, b, hb⟩ := mkBase_good (E := E.build c) n hS (hT c!"describe" (by decide)) (hT c!"priority" (by decide)) hF
  have hb : mkBase n ⟨given, attr d c!"describe", attr d c!"priority", tf⟩ = .ok b := hb
  rcases hmean with hmean | ⟨rfl, tg', fn', args', trail, htg, rfl, ⟨hc1, hc2, hc3, hc4⟩, hcond⟩
  · rw [hc] at hmean; cases hmean
  · rw [hc] at hcond
    cases hcond
    rw [← hd] at htg
    have hcall := C58_call_partial (E.build c) n fn trail args vals (some tg) _ b hb hc1 hc2 hc4 hc3 hvals
    have hk' : (E.build c).hasEval fn = false := hno
    unfold one
    simp [ht, Build.getRule, Parser.ruleTypes, hkw, hv, textAttr, htg, hcall, preprocess, hk']

theorem one_broken (E : ScanEnv S R V C) (c : C) {as : List (Str × Str × PVal)} (hsh : Shaped as) {n : Str}
    (hb : Broken E c as n) {d : Data}
    (hd : ∀ a, Dict.get? d a = lastValue as n a) :
    ∃ e, e ≠ .other ∧ one (E.build c) n d = .error e := by
  cases hb with
  | undefined h =>
    rw [← hd] at h
    exact ⟨.invalidRule, by simp, by unfold one; simp [h]⟩
  | unknown h1 h2 h3 h4 => exact ⟨.invalidRule, by simp, one_unknown E c hsh h1 h2 h3 h4 hd⟩
  | @pattern t v ht h1 h2 h3 h4 =>
    rw [← hd] at h1 h2
    have hkw : ∃ k, kwargs (E.build c) d = .ok k := by
      have hT : ∀ a, a ≠ c!"tflags" → ∃ o, textAttr d a = .ok o := by
        intro a ha
        unfold textAttr
        rw [hd]
        rcases last_text hsh (n := n) ha with h | ⟨s, h⟩ <;> simp [h]
      obtain ⟨o1, e1⟩ := hT c!"score" (by decide)
      obtain ⟨o2, e2⟩ := hT c!"describe" (by decide)
      obtain ⟨o3, e3⟩ := hT c!"priority" (by decide)
      unfold kwargs
      rw [e1, e2, e3]
      simp only
      cases o1 with
      | none => exact ⟨_, rfl⟩
      | some s =>
        have hs : lastValue as n c!"score" = some (.str s) := by
          rw [← hd]
          unfold textAttr at e1
          cases hq : Dict.get? d c!"score" with
          | none => rw [hq] at e1; cases e1
          | some x =>
            rw [hq] at e1
            cases x with
            | list l => cases e1
            | str t => simp only [Except.ok.injEq, Option.some.injEq] at e1; rw [e1]
        obtain ⟨fs, hfs⟩ := h4 s hs
        have fl : ∀ (ws : List Str) (fs : List S), ws.map E.float = fs.map some → floats E.float ws = some fs := by
          intro ws
          induction ws with
          | nil => intro fs h; cases fs <;> simp_all [floats]
          | cons w ws ih =>
            intro fs h
            cases fs with
            | nil => simp at h
            | cons f fs =>
              simp only [List.map_cons, List.cons.injEq] at h
              simp [floats, h.1, ih fs h.2]
        have : floats (E.build c).float (splitWs s) = some fs := fl _ _ hfs
        simp only [this]
        exact ⟨_, rfl⟩
    obtain ⟨k, hk⟩ := hkw
    have hp : perl2re (E.build c).re v false = .error .invalidRegex := by
      obtain ⟨dl, el, lead, pre, tx, flags, trail, w1, w2, w3, w4, rfl, w6⟩ := h3
      show perl2re E.re _ false = _
      rw [C17_text_partial E.re tx false w1 w2 w4 (fun h => absurd h w3)]
      simp [compiled, w6]
    refine ⟨.invalidRegex, by simp, ?_⟩
    unfold one
    simp only [h1]
    have : Build.getRule (E.build c) n t d = .error .invalidRegex := by
      simp only [List.mem_cons, List.not_mem_nil, or_false] at ht
      rcases ht with rfl | rfl | rfl | rfl <;> simp [Build.getRule, Parser.ruleTypes, hk, h2, patternRule, hp]
    rw [this]

theorem base_description {n : Str} {k : Kwargs S} {b : BaseRule S} (h : mkBase n k = .ok b) :
    b.description = k.desc.getD c!"No description available." := by
  unfold mkBase BaseRule.init at h
  simp only at h
  repeat' split at h
  all_goals first | cases h; rfl | cases h

theorem kwargs_description {E : BuildEnv S R V} {d : Data} {k : Kwargs S} (h : kwargs E d = .ok k) :
    k.desc = (match Dict.get? d c!"describe" with | some (.str s) => some (strip s) | _ => none) := by
  have key : ∃ desc, textAttr d c!"describe" = .ok desc ∧ k.desc = desc.map strip := by
    unfold kwargs at h
    split at h
    · rename_i desc _ _ h2 _
      refine ⟨desc, h2, ?_⟩
      simp only at h
      split at h
      · cases h; rfl
      · split at h
        · cases h
        · cases h; rfl
    · cases h
  obtain ⟨desc, h1, h2⟩ := key
  rw [h2]
  unfold textAttr at h1
  split at h1
  · rename_i hd; cases h1; rw [hd]; rfl
  · rename_i hd; cases h1; rw [hd]; rfl
  · cases h1

/-- The label of each type of rules. -/
def typeLabel (t : Str) : Str :=
  if t = c!"body" ∨ t = c!"mimeheader" then c!"BODY: " else if t = c!"rawbody" then c!"RAW: "
  else if t = c!"uri" then c!"URI: " else []

theorem mkRule_facts {n : Str} {k : Kwargs S} {kind : Kind R V} {r : RuleDef S R V} (h : mkRule n k kind = .ok (some r)) :
    r.base.description = k.desc.getD c!"No description available." ∧ r.kind = kind := by
  unfold mkRule at h
  split at h
  · cases h
  · rename_i b hb
    cases h
    exact ⟨base_description hb, rfl⟩

/-- The description and the label of a rule as built. -/
theorem one_facts {B : BuildEnv S R V} {n : Str} {d : Data} {r : RuleDef S R V} (h : one B n d = .ok r) {t : Str}
    (ht : Dict.get? d c!"type" = some (.str t)) (hr : t ∈ Parser.ruleTypes) :
    r.base.description = (match Dict.get? d c!"describe" with | some (.str s) => strip s | _ => c!"No description available.") ∧
      rtypeOf r.kind = typeLabel t := by
  unfold one at h
  rw [ht] at h
  simp only at h
  split at h
  · cases h
  · cases h
  rename_i r0 hg
  have hpre : r.base.description = r0.base.description ∧ r.kind = r0.kind := by
    have hd : (r0.base.preprocess B.conf).description = r0.base.description := by
      unfold BaseRule.preprocess
      repeat' split
      all_goals rfl
    unfold preprocess at h
    simp only at h
    repeat' split at h
    all_goals first | cases h; exact ⟨hd, rfl⟩ | cases h
  rw [hpre.1, hpre.2]
  unfold Build.getRule at hg
  rw [if_pos hr] at hg
  cases hk : kwargs B d with
  | error e => rw [hk] at hg; cases hg
  | ok k =>
    rw [hk] at hg
    have hdesc := kwargs_description hk
    have hdd : k.desc.getD c!"No description available." =
        (match Dict.get? d c!"describe" with | some (.str s) => strip s | _ => c!"No description available.") := by
      rw [hdesc]
      cases hx : Dict.get? d c!"describe" with
      | none => rfl
      | some x => cases x <;> rfl
    rw [← hdd]
    simp only at hg
    have pat : ∀ mk : Pat R → Kind R V, ∀ v, patternRule B mk n v k = .ok (some r0) →
        r0.base.description = k.desc.getD c!"No description available." ∧ ∃ p, r0.kind = mk p := by
      intro mk v hp
      unfold patternRule at hp
      split at hp
      · cases hp
      · exact ⟨(mkRule_facts hp).1, _, (mkRule_facts hp).2⟩
    have head : ∀ x : Except RuleErr (Option (HRule R)), headerKind n k x = .ok (some r0) →
        r0.base.description = k.desc.getD c!"No description available." ∧ ∃ hr, x = .ok (some hr) ∧ r0.kind = .header hr := by
      intro x hp
      unfold headerKind at hp
      split at hp
      · cases hp
      · cases hp
      · exact ⟨(mkRule_facts hp).1, _, rfl, (mkRule_facts hp).2⟩
      · exact ⟨(mkRule_facts hp).1, _, rfl, (mkRule_facts hp).2⟩
    split at hg
    · rename_i v hv
      by_cases h1 : t = c!"full"
      · subst h1
        obtain ⟨a, p, b⟩ := pat _ _ (by simpa using hg)
        exact ⟨a, by rw [b]; rfl⟩
      by_cases h2 : t = c!"body"
      · subst h2
        obtain ⟨a, p, b⟩ := pat _ _ (by simpa using hg)
        exact ⟨a, by rw [b]; rfl⟩
      by_cases h3 : t = c!"rawbody"
      · subst h3
        obtain ⟨a, p, b⟩ := pat _ _ (by simpa using hg)
        exact ⟨a, by rw [b]; rfl⟩
      by_cases h4 : t = c!"uri"
      · subst h4
        obtain ⟨a, p, b⟩ := pat _ _ (by simpa using hg)
        exact ⟨a, by rw [b]; rfl⟩
      by_cases h5 : t = c!"meta"
      · subst h5
        obtain ⟨a, b⟩ := mkRule_facts (by simpa using hg)
        exact ⟨a, by rw [b]; rfl⟩
      by_cases h6 : t = c!"header"
      · subst h6
        obtain ⟨a, hr', b1, b2⟩ := head _ (by simpa using hg)
        refine ⟨a, ?_⟩
        have := headerRule_not_mime b1
        rw [b2]
        cases hr' with
        | mime x y z => exact absurd rfl (this x y z)
        | _ => rfl
      by_cases h7 : t = c!"mimeheader"
      · subst h7
        obtain ⟨a, hr', b1, b2⟩ := head _ (by simpa using hg)
        refine ⟨a, ?_⟩
        obtain ⟨x, y, z, rfl⟩ : ∃ x y z, hr' = .mime x y z := by
          unfold mimeHeaderRule at b1
          simp only at b1
          repeat' split at b1
          all_goals first | cases b1; exact ⟨_, _, _, rfl⟩ | cases b1
        rw [b2]; rfl
      have h8 : t = c!"eval" := by
        simp only [Parser.ruleTypes, List.mem_cons, List.not_mem_nil, or_false] at hr
        rcases hr with h | h | h | h | h | h | h | h
        all_goals first | exact h | contradiction
      subst h8
      rw [if_neg h1, if_neg h2, if_neg h3, if_neg h4, if_neg h5, if_neg h6, if_neg h7] at hg
      split at hg
      · unfold evalRule at hg
        simp only at hg
        split at hg
        · cases hg
        · rename_i b hb
          split at hg
          · cases hg
          · split at hg
            · cases hg
            · cases hg
              exact ⟨base_description hb, rfl⟩
      · cases hg
    · cases hg

theorem says_type {float : Str → Option S} {L : ReLib R} {conf : ScoreConf} {as : List (Str × Str × PVal)} {n : Str} {d : Doc S R}
    (h : Says float L conf as n d) : ∃ t, lastValue as n c!"type" = some (.str t) ∧ t ∈ Parser.ruleTypes := by
  obtain ⟨t, v, ht, hv, hm⟩ := h.cond
  refine ⟨t, ht, ?_⟩
  rcases hm with hm | ⟨rfl, -⟩
  · generalize d.cond = cond at hm
    cases hm <;> simp [Parser.ruleTypes]
  · simp [Parser.ruleTypes]

/-- Loading the files and checking a message, in detail. -/
theorem scan_core (E : ScanEnv S R V C)
    (c0 : C) (files : List Str) (s1 : State C) (as : List (Str × Str × PVal)) (hsh : Shaped as) (htol : E.parser.paranoid = false)
    (hparse : parseFiles E.parser files { results := [], ignore := false, ctx := c0 } = (s1, none))
    (hkeys : s1.results.map Prod.fst = firstMentions (as.map (fun a => a.1)))
    (hattr : ∀ p ∈ s1.results, ∀ a, Dict.get? p.2 a = lastValue as p.1 a) (good : Str → Bool)
    (docs : Str → Doc S R) (m : Facts) (hm : Reads E.mail m.headers m.dec m.addrs)
    (hmp : ∀ q ∈ m.partHeaders, E.mail.decode q.2 = some (m.dec q.2)) (ops : List Access) :
    let defined := (firstMentions (as.map (fun a => a.1))).filter good
    let rules : Conds R := fun n => if n ∈ defined then some (docs n).cond else none
    (∀ n ∈ firstMentions (as.map (fun a => a.1)),
      (good n = true → Says E.float E.re (E.conf s1.ctx) as n (docs n)) ∧
      (good n = false → Broken E s1.ctx as n)) →
    (∀ n ∈ defined, lastValue as n c!"type" = some (.str c!"mimeheader") → (docs n).priority = 0) →
    (∀ n ∈ defined, ∀ fn args t, (docs n).cond = .asks fn args t → Answers E s1.ctx m fn args t) →
    (∀ n k, Works rules k n → Works rules 11 n) →
    ∃ (l : Loaded S R V C) (RD : Str → RuleDef S R V) (order : List Str) (val : Str → Int),
      load E c0 files = some l ∧ l.ctx = s1.ctx ∧ l.checked = order.map (fun n => (n, RD n)) ∧
      (∀ n ∈ order, (RD n).base.name = n ∧ (RD n).base.score = (docs n).score ∧ (RD n).base.description = describedAs as n ∧
        rtypeOf (RD n).kind = labelOf as n) ∧
      InOrder defined docs rules order ∧ (∀ n ∈ order, Gives E.re rules m n (val n)) ∧
      (check E l ⟨m.text, m.rawText, m.raw, m.uris, accessed E.mail m.headers m.partHeaders ops⟩).checked = order.map (fun n => (n, val n)) ∧
      (check E l ⟨m.text, m.rawText, m.raw, m.uris, accessed E.mail m.headers m.partHeaders ops⟩).score =
        total 0 ((order.filter (fun n => decide (val n ≠ 0))).map (fun n => (docs n).score)) ∧
      Shows E.mail m (check E l ⟨m.text, m.rawText, m.raw, m.uris, accessed E.mail m.headers m.partHeaders ops⟩).rest ∧
      ∀ n ∈ order, val n ≠ 0 → Dict.get? (check E l ⟨m.text, m.rawText, m.raw, m.uris, accessed E.mail m.headers m.partHeaders ops⟩).descs n = some (describedAs as n) := by
  intro N rules hsays hmime hans hdepth
  let s0 : State C := { results := [], ignore := false, ctx := c0 }
  have hM : (s1.results.map Prod.fst).Nodup := by rw [hkeys]; exact firstMentions_nodup _
  have hN : N.Nodup := (firstMentions_nodup _).filter _
  -- the rules
  have hone : ∀ p ∈ s1.results, good p.1 = true →
      ∃ r, one (E.build s1.ctx) p.1 p.2 = .ok r ∧ Built E s1.ctx m p.1 (docs p.1) r := by
    intro p hp hg
    have hn : p.1 ∈ firstMentions (as.map (fun a => a.1)) := by rw [← hkeys]; exact List.mem_map_of_mem hp
    refine one_built E s1.ctx hm hmp hsh ?_ ?_
      (hmime p.1 (List.mem_filter.2 ⟨hn, hg⟩)) (hattr p hp)
    · exact (hsays _ hn).1 hg
    · exact hans p.1 (List.mem_filter.2 ⟨hn, hg⟩)
  have hbad : ∀ p ∈ s1.results, good p.1 = false → ∃ e, e ≠ .other ∧ one (E.build s1.ctx) p.1 p.2 = .error e := by
    intro p hp hg
    have hn : p.1 ∈ firstMentions (as.map (fun a => a.1)) := by rw [← hkeys]; exact List.mem_map_of_mem hp
    exact one_broken E s1.ctx hsh ((hsays _ hn).2 hg) (hattr p hp)
  have hRD : ∃ RD : Str → RuleDef S R V, ∀ p ∈ s1.results, good p.1 = true →
      one (E.build s1.ctx) p.1 p.2 = .ok (RD p.1) ∧ Built E s1.ctx m p.1 (docs p.1) (RD p.1) := by
    refine ⟨fun n => match Dict.get? s1.results n with
      | some d => (match one (E.build s1.ctx) n d with
        | .ok r => r
        | .error _ => ⟨⟨[], [], none, [], 0, 0⟩, .metaR []⟩)
      | none => ⟨⟨[], [], none, [], 0, 0⟩, .metaR []⟩, fun p hp hgood => ?_⟩
    have hg : Dict.get? s1.results p.1 = some p.2 := Dict.get?_of_mem _ hM hp
    obtain ⟨r, hr, hb⟩ := hone p hp hgood
    simp only [hg, hr]
    simpa using hb
  obtain ⟨RD, hRD⟩ := hRD
  have hbuilt : ∀ n ∈ N, Built E s1.ctx m n (docs n) (RD n) := by
    intro n hn
    obtain ⟨hn, hg⟩ := List.mem_filter.1 hn
    rw [← hkeys] at hn
    obtain ⟨p, hp, rfl⟩ := List.mem_map.1 hn
    exact (hRD p hp hg).2
  have hfacts : ∀ n ∈ N, (RD n).base.description = describedAs as n ∧ rtypeOf (RD n).kind = labelOf as n := by
    intro n hn
    obtain ⟨hn, hg⟩ := List.mem_filter.1 hn
    obtain ⟨t, ht, htr⟩ := says_type ((hsays n hn).1 hg)
    rw [← hkeys] at hn
    obtain ⟨p, hp, rfl⟩ := List.mem_map.1 hn
    obtain ⟨k1, k2⟩ := one_facts (hRD p hp hg).1 (by rw [hattr p hp]; exact ht) htr
    rw [hattr p hp] at k1
    refine ⟨k1, k2.trans ?_⟩
    unfold labelOf
    rw [ht]
    rfl
  have hbuild : build (E.build s1.ctx) s1.results { checked := [], notChecked := [] } = (theRules N RD, none) := by
    rw [build_all _ htol good RD _ _ (fun p hp hg => ⟨(hRD p hp hg).1, (hRD p hp hg).2.name⟩) hbad hM (by simp) (by simp)]
    simp only [hkeys, List.nil_append]
    rfl
  -- resolution
  obtain ⟨hac, hwu, huw⟩ := works_usable hN hbuilt
  have hdist := defs_distinct N hN RD
  obtain ⟨ds, hcp, hsub, hus, -, hkeep⟩ := C09_resolution _ hdist hac
  have hless := post_less false (defs (sortDefs (theRules N RD)))
  rw [hcp] at hless
  simp only at hless
  have hgd := get_defs N hN RD
  have hchk : ∀ n, n ∈ (sortDefs (theRules N RD)).checked.map Prod.fst ↔ n ∈ N ∧ (RD n).base.shouldCheck = true := by
    intro n
    have := (sorted_perm (theRules N RD)).map Prod.fst
    rw [this.mem_iff]
    simp [theRules, Function.comp_def]
  have hshould : ∀ n ∈ N, ((RD n).base.shouldCheck = true ↔ ¬ c!"__" <+: n ∧ (docs n).score ≠ 0) := by
    intro n hn
    unfold BaseRule.shouldCheck
    rw [(hbuilt n hn).name, (hbuilt n hn).score]
    by_cases hu : dunder n = true
    · have := (startsWith_iff c!"__" n).1 hu
      simp [hu, this]
    · have : ¬ c!"__" <+: n := fun hh => hu ((startsWith_iff c!"__" n).2 hh)
      simp [hu, this]
  have hhas : ∀ n, n ∈ N → (RD n).base.shouldCheck = true →
      (Dict.has ds.checked n = true ↔ ∃ k, Works rules k n) := by
    intro n hn hc
    have hnc : Dict.get? (defs (sortDefs (theRules N RD))).notChecked n = none := by
      rw [Dict.get?_eq_none_iff]
      simp [defs, sortDefs, theRules, Function.comp_def, Dict.keys, hc]
    have hnc' := (hless n).2 hnc
    have hget : ds.get n = Dict.get? ds.checked n := by
      unfold DefSet.get
      rw [hnc']
      cases Dict.get? ds.checked n <;> rfl
    unfold Dict.has
    rw [← hget]
    constructor
    · intro hh
      obtain ⟨d, hd⟩ := Option.isSome_iff_exists.1 hh
      exact huw n (hus n d hd)
    · rintro ⟨k, hk⟩
      rw [hkeep n (hwu 11 n (hdepth n k hk)), hgd, if_pos hn]
      rfl
  -- the order
  let flt := (sortDefs (theRules N RD)).checked.filter (fun p => Dict.has ds.checked p.1)
  let order := flt.map Prod.fst
  have htag : ∀ p ∈ (sortDefs (theRules N RD)).checked, p = (p.1, RD p.1) := by
    intro p hp
    rw [(sorted_perm (theRules N RD)).mem_iff] at hp
    obtain ⟨n, -, rfl⟩ := List.mem_map.1 hp
    rfl
  have hflt : flt = order.map (fun n => (n, RD n)) := by
    show flt = (flt.map Prod.fst).map _
    rw [List.map_map]
    conv => lhs; rw [← List.map_id flt]
    apply List.map_congr_left
    intro p hp
    exact htag p (List.mem_filter.1 hp).1
  have hmem : ∀ n, n ∈ order ↔ n ∈ N ∧ ¬ c!"__" <+: n ∧ (docs n).score ≠ 0 ∧ ∃ k, Works rules k n := by
    intro n
    constructor
    · intro hn
      obtain ⟨p, hp, rfl⟩ := List.mem_map.1 hn
      obtain ⟨h1, h2⟩ := List.mem_filter.1 hp
      obtain ⟨h3, h4⟩ := (hchk p.1).1 (List.mem_map_of_mem h1)
      obtain ⟨h5, h6⟩ := (hshould _ h3).1 h4
      exact ⟨h3, h5, h6, (hhas _ h3 h4).1 h2⟩
    · rintro ⟨h3, h5, h6, h7⟩
      have h4 := (hshould _ h3).2 ⟨h5, h6⟩
      obtain ⟨p, hp, rfl⟩ := List.mem_map.1 ((hchk n).2 ⟨h3, h4⟩)
      exact List.mem_map_of_mem (List.mem_filter.2 ⟨hp, (hhas _ h3 h4).2 h7⟩)
  have hnodup : order.Nodup := by
    have h1 : ((sortDefs (theRules N RD)).checked.map Prod.fst).Nodup := by
      have := (sorted_perm (theRules N RD)).map Prod.fst
      rw [this.nodup_iff]
      simp only [theRules, List.map_map, Function.comp_def, List.map_id']
      exact hN.filter _
    exact (List.Sublist.map Prod.fst List.filter_sublist).nodup h1
  have hprio : ∀ n ∈ N, (RD n).base.priority = (docs n).priority := fun n hn => (hbuilt n hn).priority
  have hinorder : InOrder N docs rules order := by
    refine ⟨hmem, hnodup, ?_, ?_⟩
    · have hp : (sortDefs (theRules N RD)).checked.Pairwise (fun a b => b.2.base.priority ≤ a.2.base.priority) := by
        have := sortedBy_pairwise (fun a b : Str × RuleDef S R V => decide (b.2.base.priority < a.2.base.priority))
          (by intro a b c; simp; omega) (by intro a b; simp; omega) (theRules N RD).checked
        refine this.imp ?_
        intro a b hab
        simpa using hab
      have hp2 := hp.sublist (List.filter_sublist (p := fun p => Dict.has ds.checked p.1))
      show (flt.map Prod.fst).Pairwise _
      rw [List.pairwise_map]
      refine hp2.imp_of_mem ?_
      intro a b ha hb hab
      have ha' : a.1 ∈ N := ((hmem a.1).1 (List.mem_map_of_mem ha)).1
      have hb' : b.1 ∈ N := ((hmem b.1).1 (List.mem_map_of_mem hb)).1
      have ea := htag a (List.mem_filter.1 ha).1
      have eb := htag b (List.mem_filter.1 hb).1
      rw [ea, eb] at hab
      simp only [hprio _ ha', hprio _ hb'] at hab
      exact hab
    · intro k
      have h1 : (order.filter (fun n => decide ((docs n).priority = k))) =
          (flt.filter (fun p => decide (p.2.base.priority = k))).map Prod.fst := by
        show (flt.map Prod.fst).filter _ = _
        rw [List.filter_map]
        congr 1
        apply List.filter_congr
        intro p hp
        have hp' : p.1 ∈ N := ((hmem p.1).1 (List.mem_map_of_mem hp)).1
        have e := htag p (List.mem_filter.1 hp).1
        have : p.2.base.priority = (docs p.1).priority := by rw [e]; exact hprio _ hp'
        simp [this]
      rw [h1]
      have h2 : (flt.filter (fun p => decide (p.2.base.priority = k))).Sublist
          ((theRules N RD).checked.filter (fun p => decide (p.2.base.priority = k))) := by
        rw [← sortedBy_stable (fun a b : Str × RuleDef S R V => decide (b.2.base.priority < a.2.base.priority))
          (fun p => decide (p.2.base.priority = k)) (by intro a b; simp; omega) (theRules N RD).checked]
        exact List.filter_sublist.filter _
      refine (h2.map Prod.fst).trans ?_
      refine (List.filter_sublist.map Prod.fst).trans ?_
      simp only [theRules, List.map_map, Function.comp_def, List.map_id']
      exact List.filter_sublist
  -- the results
  have hfind : ∀ n cond, rules n = some cond →
      (sortDefs (theRules N RD)).find n = some (RD n) ∧ KindFor E s1.ctx m cond (RD n).kind := by
    intro n cond hh
    have hn : n ∈ N ∧ (docs n).cond = cond := by
      change (if n ∈ N then some (docs n).cond else none) = some cond at hh
      by_cases hn : n ∈ N
      · simp [hn] at hh; exact ⟨hn, hh⟩
      · simp [hn] at hh
    rw [find_rules N hN RD, if_pos hn.1]
    exact ⟨rfl, hn.2 ▸ (hbuilt n hn.1).kind⟩
  have hval : ∀ n ∈ order, ∃ v, Gives E.re rules m n v ∧ ∀ x, Shows E.mail m x → ∃ x', Shows E.mail m x' ∧
      runKind E s1.ctx (sortDefs (theRules N RD)) (depth (sortDefs (theRules N RD))) (RD n).kind x = (some v, x') := by
    intro n hn
    obtain ⟨-, -, -, k, hk⟩ := (hmem n).1 hn
    exact kind_runs E s1.ctx hfind (works_mono (hdepth n k hk) (by unfold depth metaMaxRecursion; omega))
  have hv : ∃ val : Str → Int, ∀ n ∈ order, Gives E.re rules m n (val n) ∧ ∀ x, Shows E.mail m x → ∃ x', Shows E.mail m x' ∧
      runKind E s1.ctx (sortDefs (theRules N RD)) (depth (sortDefs (theRules N RD))) (RD n).kind x = (some (val n), x') := by
    refine ⟨fun n => if hn : n ∈ order then (hval n hn).choose else 0, fun n hn => ?_⟩
    simp only [hn, dif_pos]
    exact (hval n hn).choose_spec
  obtain ⟨val, hv⟩ := hv
  have hload : load E c0 files = some ⟨s1.ctx, sortDefs (theRules N RD), flt⟩ := by
    unfold load
    rw [hparse]
    simp only [hbuild, htol, hcp]
    rfl
  obtain ⟨r1, r2, r3, r4⟩ := rules_run (ML := E.mail) (m := m) (fun n => toRule E s1.ctx (sortDefs (theRules N RD)) (RD n)) val order hnodup (by
      intro n hn s hs
      obtain ⟨x', hx', he⟩ := (hv n hn).2 s.rest hs
      refine ⟨x', hx', ?_⟩
      simp only [toRule, he])
    { score := 0, checked := [], descs := [],
      rest := ⟨m.text, m.rawText, m.raw, m.uris, accessed E.mail m.headers m.partHeaders ops⟩ }
    ⟨rfl, rfl, rfl, rfl, ops, rfl⟩ (by simp [Dict.keys])
  have hrun : flt.map (fun p => (p.1, toRule E s1.ctx (sortDefs (theRules N RD)) p.2)) =
      order.map (fun n => (n, toRule E s1.ctx (sortDefs (theRules N RD)) (RD n))) := by
    generalize order = o at hflt
    rw [hflt, List.map_map]
    rfl
  refine ⟨⟨s1.ctx, sortDefs (theRules N RD), flt⟩, RD, order, val, hload, rfl, hflt, ?_, hinorder, fun n hn => (hv n hn).1, ?_, ?_, ?_, ?_⟩
  · intro n hn
    have hn' : n ∈ N := ((hmem n).1 hn).1
    exact ⟨(hbuilt n hn').name, (hbuilt n hn').score, (hfacts n hn').1, (hfacts n hn').2⟩
  · unfold check
    simp only [hrun]
    simpa using r1
  · unfold check
    simp only [hrun]
    rw [r2]
    congr 1
    apply List.map_congr_left
    intro n hn
    have hn' : n ∈ N := ((hmem n).1 (List.mem_filter.1 hn).1).1
    exact (hbuilt n hn').score
  · unfold check
    simp only [hrun]
    exact r3
  · intro n hn hvn
    unfold check
    simp only [hrun]
    rw [r4, if_pos ⟨hn, hvn⟩]
    exact congrArg some (hfacts n ((hmem n).1 hn).1).1

theorem scan_details (E : ScanEnv S R V C)
    (hcmd : ∀ c k v t, E.parser.isCmd (E.parser.parseConfig c k v).1 t = E.parser.isCmd c t)
    (c0 : C) (files lines : List Str) (h : CalmLines E.parser c0 lines) (hf : Lines E.parser ⟨[], false, c0⟩ [] files lines) (hdl : ∀ l ∈ lines, Defining l) (good : Str → Bool)
    (docs : Str → Doc S R) (m : Facts) (hm : Reads E.mail m.headers m.dec m.addrs)
    (hmp : ∀ q ∈ m.partHeaders, E.mail.decode q.2 = some (m.dec q.2)) (ops : List Access) :
    let as := lines.flatMap (assigns (E.parser.isCmd c0))
    let defined := (firstMentions (as.map (fun a => a.1))).filter good
    let rules : Conds R := fun n => if n ∈ defined then some (docs n).cond else none
    (∀ n ∈ firstMentions (as.map (fun a => a.1)),
      (good n = true → Says E.float E.re (E.conf (configured E.parser lines c0)) as n (docs n)) ∧
      (good n = false → Broken E (configured E.parser lines c0) as n)) →
    (∀ n ∈ defined, lastValue as n c!"type" = some (.str c!"mimeheader") → (docs n).priority = 0) →
    (∀ n ∈ defined, ∀ fn args t, (docs n).cond = .asks fn args t → Answers E (configured E.parser lines c0) m fn args t) →
    (∀ n k, Works rules k n → Works rules 11 n) →
    ∃ (l : Loaded S R V C) (RD : Str → RuleDef S R V) (order : List Str) (val : Str → Int),
      load E c0 files = some l ∧ l.ctx = configured E.parser lines c0 ∧ l.checked = order.map (fun n => (n, RD n)) ∧
      (∀ n ∈ order, (RD n).base.name = n ∧ (RD n).base.score = (docs n).score ∧ (RD n).base.description = describedAs as n ∧
        rtypeOf (RD n).kind = labelOf as n) ∧
      InOrder defined docs rules order ∧ (∀ n ∈ order, Gives E.re rules m n (val n)) ∧
      (check E l ⟨m.text, m.rawText, m.raw, m.uris, accessed E.mail m.headers m.partHeaders ops⟩).checked = order.map (fun n => (n, val n)) ∧
      (check E l ⟨m.text, m.rawText, m.raw, m.uris, accessed E.mail m.headers m.partHeaders ops⟩).score =
        total 0 ((order.filter (fun n => decide (val n ≠ 0))).map (fun n => (docs n).score)) ∧
      Shows E.mail m (check E l ⟨m.text, m.rawText, m.raw, m.uris, accessed E.mail m.headers m.partHeaders ops⟩).rest ∧
      ∀ n ∈ order, val n ≠ 0 → Dict.get? (check E l ⟨m.text, m.rawText, m.raw, m.uris, accessed E.mail m.headers m.partHeaders ops⟩).descs n = some (describedAs as n) := by
  intro as N rules hsays hmime hans hdepth
  let s0 : State C := { results := [], ignore := false, ctx := c0 }
  obtain ⟨hnone, hctx, -⟩ := readText_calm E.parser hcmd lines hdl s0 rfl h
  have hctx : (readText E.parser lines s0).1.ctx = configured E.parser lines c0 := hctx
  have hparse : parseFiles E.parser files s0 = readText E.parser lines s0 :=
    parseFiles_text E.parser s0 hf s0 rfl rfl hnone
  obtain ⟨hkeys, hattr⟩ := results_of E.parser hcmd lines hdl c0 hnone
  have hkeys : (readText E.parser lines s0).1.results.map Prod.fst = firstMentions (as.map (fun a => a.1)) := hkeys
  have hattr : ∀ p ∈ (readText E.parser lines s0).1.results, ∀ a, Dict.get? p.2 a = lastValue as p.1 a := hattr
  generalize readText E.parser lines s0 = rt at hparse hnone hctx hkeys hattr
  obtain ⟨s1, e1⟩ := rt
  simp only at hnone hctx hkeys hattr
  subst hnone
  rw [← hctx] at hsays hans ⊢
  exact scan_core E c0 files s1 as (shaped_lines _ _) h.tolerant hparse hkeys hattr good docs m hm hmp ops hsays hmime hans hdepth

/-- **C141** (the part that holds).  Rule files, with includes and with sections for plugins, whose lines define rules and set
options.  Every rule that they mention is either well documented (its last definition can be read, its score and priority are
numbers) or no rule (`good` says which), and no rule is nested deeper than eleven levels.  Then checking a message evaluates
exactly the rules that have a score, are not named `__…` and can be evaluated, each once, higher priorities first, otherwise
in the order in which the files mention them; each gives what its definition says about the message; and the score of the
message is the sum of the scores of the rules that do not give 0, in that order. -/
theorem C141_score_partial (E : ScanEnv S R V C)
    (hcmd : ∀ c k v t, E.parser.isCmd (E.parser.parseConfig c k v).1 t = E.parser.isCmd c t)
    (c0 : C) (files lines : List Str) (h : CalmLines E.parser c0 lines) (hf : Lines E.parser ⟨[], false, c0⟩ [] files lines) (hdl : ∀ l ∈ lines, Defining l) (good : Str → Bool)
    (docs : Str → Doc S R) (m : Facts) (hm : Reads E.mail m.headers m.dec m.addrs)
    (hmp : ∀ q ∈ m.partHeaders, E.mail.decode q.2 = some (m.dec q.2)) (ops : List Access) :
    let as := lines.flatMap (assigns (E.parser.isCmd c0))
    let defined := (firstMentions (as.map (fun a => a.1))).filter good
    let rules : Conds R := fun n => if n ∈ defined then some (docs n).cond else none
    (∀ n ∈ firstMentions (as.map (fun a => a.1)),
      (good n = true → Says E.float E.re (E.conf (configured E.parser lines c0)) as n (docs n)) ∧
      (good n = false → Broken E (configured E.parser lines c0) as n)) →
    (∀ n ∈ defined, lastValue as n c!"type" = some (.str c!"mimeheader") → (docs n).priority = 0) →
    (∀ n ∈ defined, ∀ fn args t, (docs n).cond = .asks fn args t → Answers E (configured E.parser lines c0) m fn args t) →
    (∀ n k, Works rules k n → Works rules 11 n) →
    ∃ (st : MsgSt S Seen) (order : List Str) (val : Str → Int),
      scan E c0 files ⟨m.text, m.rawText, m.raw, m.uris, accessed E.mail m.headers m.partHeaders ops⟩ = some st ∧
      InOrder defined docs rules order ∧ (∀ n ∈ order, Gives E.re rules m n (val n)) ∧
      st.checked = order.map (fun n => (n, val n)) ∧
      st.score = total 0 ((order.filter (fun n => decide (val n ≠ 0))).map (fun n => (docs n).score)) := by
  intro as defined rules hsays hmime hans hdepth
  obtain ⟨l, RD, order, val, h1, -, -, -, h2, h3, h4, h5, -, -⟩ :=
    scan_details E hcmd c0 files lines h hf hdl good docs m hm hmp ops hsays hmime hans hdepth
  exact ⟨_, order, val, by unfold scan; rw [h1]; rfl, h2, h3, h4, h5⟩

theorem two_orders {a b : Str} : ∀ {N : List Str}, N.Nodup → [a, b].Sublist N → [b, a].Sublist N → False
  | [], _, h, _ => by cases h
  | x :: N, hn, h1, h2 => by
    rw [List.nodup_cons] at hn
    cases h1 with
    | cons _ h1 =>
      cases h2 with
      | cons _ h2 => exact two_orders hn.2 h1 h2
      | cons_cons _ h2 => exact hn.1 (h1.subset (by simp))
    | cons_cons _ h1 =>
      cases h2 with
      | cons _ h2 => exact hn.1 (h2.subset (by simp))
      | cons_cons _ h2 => exact hn.1 (h1.subset (by simp))

/-- **C141**.  What is evaluated and with which results is determined by what the files say and by the message: there is only
one such order, and every rule in it gives one value. -/
theorem C141_determined (L : ReLib R) (m : Facts) (as : List (Str × Str × PVal)) (docs : Str → Doc S R) (rules : Conds R)
    (good : Str → Bool) (o1 o2 : List Str) (v1 v2 : Str → Int)
    (h1 : InOrder ((firstMentions (as.map (fun a => a.1))).filter good) docs rules o1)
    (h2 : InOrder ((firstMentions (as.map (fun a => a.1))).filter good) docs rules o2) (g1 : ∀ n ∈ o1, Gives L rules m n (v1 n))
    (g2 : ∀ n ∈ o2, Gives L rules m n (v2 n)) :
    o1 = o2 ∧ ∀ n ∈ o1, v1 n = v2 n := by
  have hN : ((firstMentions (as.map (fun a => a.1))).filter good).Nodup :=
    List.Pairwise.filter good (firstMentions_nodup _)
  generalize (firstMentions (as.map (fun a => a.1))).filter good = N at *
  have hmem : ∀ n, n ∈ o1 ↔ n ∈ o2 := fun n => by rw [h1.exact, h2.exact]
  have hpw : ∀ o, InOrder N docs rules o → o.Pairwise (fun a b => (docs b).priority ≤ (docs a).priority ∧
      ((docs a).priority = (docs b).priority → [a, b].Sublist N)) := by
    intro o ho
    refine List.pairwise_iff_forall_sublist.2 ?_
    intro a b hab
    refine ⟨List.pairwise_iff_forall_sublist.1 ho.sorted hab, fun e => ?_⟩
    have := hab.filter (fun n => decide ((docs n).priority = (docs a).priority))
    simp only [List.filter_cons, decide_true, if_true, e, List.filter_nil] at this
    exact (e ▸ this).trans (ho.stable _)
  have he : o1 = o2 := by
    refine List.Perm.eq_of_pairwise ?_ (hpw o1 h1) (hpw o2 h2) ((List.perm_ext_iff_of_nodup h1.once h2.once).2 hmem)
    intro a b _ _ hab hba
    have e : (docs a).priority = (docs b).priority := by omega
    exact (two_orders hN (hab.2 e) (hba.2 e.symm)).elim
  refine ⟨he, fun n hn => ?_⟩
  exact gives_unique (g1 n hn) (g2 n (he ▸ hn))

/-! ### The hypotheses are met -/

def moreLines : List Str :=
  [c!"meta N A + GONE > 1", c!"body E eval:check_it(1, x) ", c!"score E 4", c!"full U eval:nobody()",
    c!"mimeheader P Content-Type:raw !~ /html/"]

/-- A file that includes another one. -/
def scanFiles (f : Str) : Option (List Str) :=
  if f = c!"/etc/a.cf" then
    some [c!"body A /buy/", c!"score A 2", c!"include b.cf", c!"meta M A && !__B", c!"score M 5", c!"priority M 7",
      c!"score A 3 # more", c!"use_bayes 0", c!"score GONE 4"]
  else if f = c!"/etc/c.cf" then
    some [c!"ifplugin Bar", c!"ifplugin Foo", c!"score A 9", c!"else", c!"include d.cf", c!"endif", c!"else", c!"score A 8", c!"endif"]
  else if f = c!"/etc/d.cf" then some moreLines
  else if f = c!"/etc/b.cf" then some [c!"header __B Subject =~ /re/i", c!"header C exists:To", c!"score C 0"]
  else none

def scanEnv : ScanEnv Int (Str × ReFlags) Unit Unit where
  parser := { quietEnv with files := scanFiles, hasPlugin := fun _ p => p == c!"Bar" }
  float := int?
  re := textLib
  evalArg := fun _ => .ok ()
  hasEval := fun _ f => f == c!"check_it"
  cmd := fun _ _ => none
  conf := fun _ => ⟨false, false, false, false⟩
  mail := plainMail false
  evalFn := fun _ _ _ _ x => (some 2, x)
  plugin := fun _ _ x => (none, x)

example (lines : List Str) : CalmLines scanEnv.parser () lines :=
  ⟨rfl, rfl, fun _ _ _ _ _ _ _ => ⟨true, rfl⟩⟩

def scanLines : List Str :=
  [c!"body A /buy/", c!"score A 2", c!"header __B Subject =~ /re/i", c!"header C exists:To", c!"score C 0",
    c!"meta M A && !__B", c!"score M 5", c!"priority M 7", c!"score A 3 # more", c!"use_bayes 0",
    c!"score GONE 4"]

example : ∀ l ∈ scanLines ++ moreLines, Defining l := by decide

example : Lines scanEnv.parser ⟨[], false, ()⟩ [] [c!"/etc/a.cf", c!"/etc/c.cf", c!"/etc/none.cf"] (scanLines ++ moreLines) := by
  have close : ∀ l ∈ [c!"score A 9", c!"score A 8"], ¬ Closer l := by decide
  refine .file (text := [c!"body A /buy/", c!"score A 2", c!"include b.cf", c!"meta M A && !__B", c!"score M 5", c!"priority M 7",
      c!"score A 3 # more", c!"use_bayes 0", c!"score GONE 4"]) (counted := scanLines) (by decide) ?_ ?_
  · refine .line (by decide) (.line (by decide) (.pasted (g := c!"/etc/b.cf") (pasted := [c!"header __B Subject =~ /re/i", c!"header C exists:To", c!"score C 0"])
      (by decide) rfl ?_ ?_))
    · exact .line (by decide) (.line (by decide) (.line (by decide) .nil))
    · exact .line (by decide) (.line (by decide) (.line (by decide) (.line (by decide) (.line (by decide) (.line (by decide) .nil)))))
  · refine .file (counted := moreLines) (out := []) rfl ?_ (.missing rfl .nil)
    refine .enabledElse (o := c!"ifplugin Bar") (body := [c!"ifplugin Foo", c!"score A 9", c!"else", c!"include d.cf", c!"endif"]) (el := c!"else")
      (other := [c!"score A 8"]) (e := c!"endif") (ls := []) (taken := moreLines) (out := [])
      ⟨by decide, by decide, by decide⟩ ?_ ?_ (by unfold beginsWith; decide) (fun l hl => close l (by simp at hl; simp [hl])) (by unfold beginsWith; decide) .nil
    · unfold Enabled; decide
    · refine .disabledElse (o := c!"ifplugin Foo") (body := [c!"score A 9"]) (el := c!"else") (other := [c!"include d.cf"]) (e := c!"endif") (ls := [])
        (taken := moreLines) (out := []) ⟨by decide, by decide, by decide⟩ ?_ (fun l hl => close l (by simp at hl; simp [hl]))
        (by unfold beginsWith; decide) ?_ (by unfold beginsWith; decide) .nil
      · unfold Enabled; decide
      · exact .pasted (g := c!"/etc/d.cf") (pasted := moreLines) (out := []) (by decide) rfl
          (.line (by decide) (.line (by decide) (.line (by decide) (.line (by decide) (.line (by decide) .nil))))) .nil

def scanAssigns : List (Str × Str × PVal) :=
  (scanLines ++ moreLines).flatMap (assigns (scanEnv.parser.isCmd ()))

set_option maxRecDepth 8000 in
example : firstMentions (scanAssigns.map (fun a => a.1)) = [c!"A", c!"__B", c!"C", c!"M", c!"GONE", c!"N", c!"E", c!"U", c!"P"] := by decide +kernel

/-- All but two are defined. -/
def scanGood (n : Str) : Bool := n != c!"GONE" && n != c!"U"

def scanDocs (n : Str) : Doc Int (Str × ReFlags) :=
  if n = c!"A" then ⟨.body (c!"buy", wantFlags []), 3, 0⟩
  else if n = c!"__B" then ⟨.header .decoded c!"Subject" false (c!"re", wantFlags c!"i"), 0, 0⟩
  else if n = c!"C" then ⟨.present c!"To", 0, 0⟩
  else if n = c!"M" then ⟨.combine (.bin .and (.rule c!"A") (.not (.rule c!"__B"))), 5, 7⟩
  else if n = c!"E" then ⟨.asks c!"check_it" [c!"1", c!" x"] c!"body", 4, 0⟩
  else if n = c!"P" then ⟨.partHeader true c!"Content-Type" true (c!"html", wantFlags []), 1, 0⟩
  else ⟨.combine (.bin (.cmp .gt) (.bin .add (.rule c!"A") (.rule c!"GONE")) (.num 1)), 1, 0⟩

set_option maxRecDepth 8000 in
example : Broken scanEnv () scanAssigns c!"GONE" := .undefined (by decide +kernel)

set_option maxRecDepth 8000 in
example : Broken scanEnv () scanAssigns c!"U" := by
  refine .unknown (d := ⟨.asks c!"nobody" [] c!"full", 1, 0⟩) (vals := []) ⟨⟨c!"eval", c!"eval:nobody()", by decide +kernel, by decide +kernel,
      Or.inr ⟨rfl, c!"full", c!"nobody", [], [], by decide +kernel, by decide +kernel, ⟨⟨'n', c!"obody", rfl, by decide, by decide⟩,
        by decide, by decide, by decide⟩, rfl⟩⟩,
      ⟨none, [], Or.inl ⟨by decide +kernel, rfl⟩, Or.inl ⟨by decide +kernel, rfl⟩, by decide +kernel, by simp⟩,
      Or.inl ⟨by decide +kernel, rfl⟩⟩ rfl rfl rfl

/-- What is known of the message of the example. -/
def scanFacts : Facts :=
  ⟨c!"buy now", [], [], [], [(c!"To", c!"me"), (c!"Subject", c!"x")], [(c!"content-type", c!"text/plain")], id, fun t => [([], t)], fun _ _ _ => 2⟩

example : Reads scanEnv.mail scanFacts.headers scanFacts.dec scanFacts.addrs ∧
    ∀ q ∈ scanFacts.partHeaders, scanEnv.mail.decode q.2 = some (scanFacts.dec q.2) :=
  ⟨⟨fun _ _ => rfl, fun _ => rfl⟩, fun _ _ => rfl⟩

set_option maxRecDepth 8000 in
example : ∀ n ∈ [c!"A", c!"__B", c!"C", c!"M", c!"N", c!"E", c!"P"],
    lastValue scanAssigns n c!"type" = some (.str c!"mimeheader") → (scanDocs n).priority = 0 := by decide +kernel

example (n : Str) (_ : n ∈ [c!"A", c!"__B", c!"C", c!"M", c!"N", c!"E", c!"P"]) (fn : Str) (args : List Str) (t : Str)
    (h : (scanDocs n).cond = .asks fn args t) : Answers scanEnv () scanFacts fn args t := by
  have : fn = c!"check_it" := by
    unfold scanDocs at h
    repeat' split at h
    all_goals cases h
    rfl
  subst this
  exact ⟨rfl, args.map (fun _ => ()), by simp [scanEnv], fun x hx => ⟨x, hx, Or.inl rfl⟩⟩

set_option maxRecDepth 8000 in
example : ∀ n ∈ [c!"A", c!"__B", c!"C", c!"M", c!"N", c!"E", c!"P"],
    Says scanEnv.float scanEnv.re (scanEnv.conf (configured scanEnv.parser scanLines ())) scanAssigns n (scanDocs n) := by
  intro n hn
  simp only [List.mem_cons, List.not_mem_nil, or_false] at hn
  rcases hn with rfl | rfl | rfl | rfl | rfl | rfl | rfl
  · refine ⟨⟨c!"body", c!"/buy/", by decide +kernel, by decide +kernel, Or.inl (.body ⟨'/', '/', [], [], c!"buy", [], [], ?_⟩)⟩,
      ⟨some [3], [], Or.inr ⟨c!"3", [3], by decide +kernel, by decide +kernel, by decide, rfl⟩, Or.inl ⟨by decide +kernel, rfl⟩,
        by decide +kernel, by simp⟩, Or.inl ⟨by decide +kernel, rfl⟩⟩
    refine ⟨⟨by unfold Delimiters; decide, by unfold Blank; decide, by decide, by decide, by decide, by unfold Blank; decide⟩,
      by unfold NoPerlisms; decide, by decide, by decide, by decide, by decide⟩
  · refine ⟨⟨c!"header", c!"Subject =~ /re/i", by decide +kernel, by decide +kernel,
      Or.inl (.header (view := .decoded) (neg := false) (name := c!"Subject") (sp := c!" ") (pat := c!" /re/i")
        (by unfold PlainName; decide) (Or.inl (by decide)) (by unfold Blank; decide)
        ⟨'/', '/', c!" ", [], c!"re", c!"i", [], ?_⟩ (by intro h; cases h))⟩,
      ⟨none, [], Or.inl ⟨by decide +kernel, rfl⟩, Or.inl ⟨by decide +kernel, rfl⟩, by decide +kernel, by simp⟩,
      Or.inl ⟨by decide +kernel, rfl⟩⟩
    refine ⟨⟨by unfold Delimiters; decide, by unfold Blank; decide, by decide, by decide, by decide, by unfold Blank; decide⟩,
      by unfold NoPerlisms; decide, by decide, by decide, by decide, by decide⟩
  · refine ⟨⟨c!"header", c!"exists:To", by decide +kernel, by decide +kernel,
      Or.inl (.present (name := c!"To") (by unfold PlainName; decide) (by decide))⟩,
      ⟨some [0], [], Or.inr ⟨c!"0", [0], by decide +kernel, by decide +kernel, by decide, rfl⟩, Or.inl ⟨by decide +kernel, rfl⟩,
        by decide +kernel, by simp⟩, Or.inl ⟨by decide +kernel, rfl⟩⟩
  · refine ⟨⟨c!"meta", c!"A && !__B", by decide +kernel, by decide +kernel,
      Or.inl (.combine (e := .bin .and (.rule c!"A") (.not (.rule c!"__B"))) (by decide) ?_)⟩,
      ⟨some [5], [], Or.inr ⟨c!"5", [5], by decide +kernel, by decide +kernel, by decide, rfl⟩, Or.inl ⟨by decide +kernel, rfl⟩,
        by decide +kernel, by simp⟩, Or.inr ⟨c!"7", by decide +kernel, by decide +kernel⟩⟩
    intro n hn
    simp only [MetaExpr.Expr.names, List.mem_append, List.mem_singleton] at hn
    rcases hn with rfl | rfl <;> (unfold MetaExpr.PlainName; decide)
  · refine ⟨⟨c!"meta", c!"A + GONE > 1", by decide +kernel, by decide +kernel,
      Or.inl (.combine (e := .bin (.cmp .gt) (.bin .add (.rule c!"A") (.rule c!"GONE")) (.num 1)) (by decide) ?_)⟩,
      ⟨none, [], Or.inl ⟨by decide +kernel, rfl⟩, Or.inl ⟨by decide +kernel, rfl⟩, by decide +kernel, by simp⟩,
      Or.inl ⟨by decide +kernel, rfl⟩⟩
    intro n hn
    simp only [MetaExpr.Expr.names, List.mem_append, List.mem_singleton, List.not_mem_nil, or_false] at hn
    rcases hn with rfl | rfl <;> (unfold MetaExpr.PlainName; decide)
  · refine ⟨⟨c!"eval", c!"eval:check_it(1, x)", by decide +kernel, by decide +kernel,
      Or.inr ⟨rfl, c!"body", c!"check_it", [c!"1", c!" x"], [], by decide +kernel, by decide +kernel,
        ⟨⟨'c', c!"heck_it", rfl, by decide, by decide⟩, by decide, by decide, by decide⟩, rfl⟩⟩,
      ⟨some [4], [], Or.inr ⟨c!"4", [4], by decide +kernel, by decide +kernel, by decide, rfl⟩, Or.inl ⟨by decide +kernel, rfl⟩,
        by decide +kernel, by simp⟩, Or.inl ⟨by decide +kernel, rfl⟩⟩
  · refine ⟨⟨c!"mimeheader", c!"Content-Type:raw !~ /html/", by decide +kernel, by decide +kernel,
      Or.inl (.partHeader (raw := true) (neg := true) (name := c!"Content-Type") (sp := c!" ") (pat := c!" /html/")
        (by unfold PlainName; decide) (by unfold Blank; decide) ⟨'/', '/', c!" ", [], c!"html", [], [], ?_⟩ ?_)⟩,
      ⟨none, [], Or.inl ⟨by decide +kernel, rfl⟩, Or.inl ⟨by decide +kernel, rfl⟩, by decide +kernel, by simp⟩,
      Or.inl ⟨by decide +kernel, rfl⟩⟩
    · refine ⟨⟨by unfold Delimiters; decide, by unfold Blank; decide, by decide, by decide, by decide, by unfold Blank; decide⟩,
        by unfold NoPerlisms; decide, by decide, by decide, by decide, by decide⟩
    · intro _; decide

/-- Nothing is nested deeper than one level. -/
example (n : Str) (k : Nat) :
    let rules : Conds (Str × ReFlags) := fun n => if n ∈ [c!"A", c!"__B", c!"C", c!"M", c!"N", c!"E", c!"P"] then some (scanDocs n).cond else none
    Works rules k n → Works rules 11 n := by
  intro rules h
  have flat : ∀ n e, rules n = some (.combine e) → ∀ m ∈ e.names, ∀ e', rules m ≠ some (.combine e') := by
    intro n e h1 m hm e' h2
    have hn : n ∈ [c!"A", c!"__B", c!"C", c!"M", c!"N", c!"E", c!"P"] := by
      by_cases hn : n ∈ [c!"A", c!"__B", c!"C", c!"M", c!"N", c!"E", c!"P"]
      · exact hn
      · simp only [rules, if_neg hn] at h1; cases h1
    simp only [List.mem_cons, List.not_mem_nil, or_false] at hn
    rcases hn with rfl | rfl | rfl | rfl | rfl | rfl | rfl <;> simp [rules, scanDocs] at h1 <;> subst h1 <;>
      simp [MetaExpr.Expr.names] at hm <;> rcases hm with rfl | rfl <;> simp [rules, scanDocs] at h2
  cases h with
  | plain h1 h2 => exact .plain h1 h2
  | combine h1 h2 =>
    refine .combine h1 (fun m hm => ?_)
    cases h2 m hm with
    | plain k1 k2 => exact .plain k1 k2
    | combine k1 _ => exact absurd k1 (flat _ _ h1 m hm _)

set_option maxRecDepth 8000 in
example : ((scan scanEnv () [c!"/etc/a.cf", c!"/etc/c.cf"] ⟨c!"buy now", [], [], [], Mail.Msg.ofHeaders [(c!"To", c!"me"), (c!"Subject", c!"x")] [(c!"content-type", c!"text/plain")]⟩).map
    (fun st => (st.checked, st.score))) = some ([(c!"M", 1), (c!"A", 1), (c!"E", 2), (c!"P", 1)], 13) := by decide +kernel

end Verif.Props
