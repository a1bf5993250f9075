import Verif.Lemmas.RuleSet

/-!
# C01–C06, C08: scoring and matching
-/

namespace Verif.Props
open Verif Py Spec

variable {S X : Type} [PyNum S]

/-! ## C01 -/

/-- **C01** (outcomes may depend on the evolving state).  For rules that do not
write the score themselves: the rules with a recorded result are exactly the
first `n` rules, each once and in order; the final score is the starting score
plus, in order, the score of each rule whose recorded result is truthy; and `n`
is all of them unless the `n`-th rule asked to stop. -/
theorem C01_score_accounting (rules : Dict Str (Rule S X)) (s : MsgSt S X)
    (hq : ∀ p ∈ rules, Quiet p.2) (hn : (rules.map Prod.fst).Nodup) (hs : s.checked = []) :
    ∃ (n : Nat) (vals : List Int), vals.length = n ∧ n ≤ rules.length ∧
      (runRules rules s).checked = ((rules.take n).map Prod.fst).zip vals ∧
      (runRules rules s).score = total s.score
        ((((rules.take n).zip vals).filter (fun p => p.2 ≠ 0)).map (fun p => p.1.2.base.score)) ∧
      (n < rules.length → ∃ p s', rules[n]? = some p ∧ (p.2.run s').1 = .stop) := by
  simpa [hs] using runRules_quiet rules hq hn s (by simp [hs, Dict.keys])

/-- **C01** (outcomes given).  When each rule's outcome on the message is `out`,
the recorded results and the score are exactly the ones of the executed rules. -/
theorem C01_score_exact (out : Str → Outcome) (rules : Dict Str (Rule S X)) (s : MsgSt S X)
    (hq : ∀ p ∈ rules, Quiet p.2) (ho : ∀ p ∈ rules, ∀ s, (p.2.run s).1 = out p.1)
    (hn : (rules.map Prod.fst).Nodup) (hs : s.checked = []) :
    (runRules rules s).checked = (executed out rules).map (fun p => (p.1, asResult (out p.1))) ∧
    (runRules rules s).score = total s.score
      (((executed out rules).filter (fun p => Matched (out p.1))).map (fun p => p.2.base.score)) := by
  have := runRules_fixed out rules hq ho hn s (by simp [hs, Dict.keys])
  rw [hs, List.nil_append] at this
  exact ⟨this.1, this.2.1⟩

/-- **C01** (checking again): after `clear_matches` a message is scored from zero, and only the
results of the new check are recorded, whatever the earlier check left behind. -/
theorem C01_checked_again (out : Str → Outcome) (rules : Dict Str (Rule S X)) (s : MsgSt S X)
    (hq : ∀ p ∈ rules, Quiet p.2) (ho : ∀ p ∈ rules, ∀ s, (p.2.run s).1 = out p.1)
    (hn : (rules.map Prod.fst).Nodup) :
    (runRules rules (clearMatches s)).checked =
      (executed out rules).map (fun p => (p.1, asResult (out p.1))) ∧
    (runRules rules (clearMatches s)).score = total 0
      (((executed out rules).filter (fun p => Matched (out p.1))).map (fun p => p.2.base.score)) :=
  C01_score_exact out rules (clearMatches s) hq ho hn rfl

/-- A constant rule, used in the examples. -/
def constRule (n : Str) (sc : Int) (o : Outcome) : Rule Int Unit :=
  { base := { name := n, scores := [sc], tflags := none, description := c!"d", priority := 0,
              score := sc }
    rtype := []
    run := fun s => (o, s) }

def startMsg : MsgSt Int Unit := { score := 0, checked := [], descs := [], rest := () }

def demoRules : Dict Str (Rule Int Unit) :=
  [(c!"A", constRule c!"A" 2 (.ret (.val 1))), (c!"B", constRule c!"B" 4 .raised),
   (c!"C", constRule c!"C" 8 (.ret (.text c!"t"))), (c!"D", constRule c!"D" 16 .stop),
   (c!"E", constRule c!"E" 32 (.ret (.val 1)))]

theorem constRule_quiet (n : Str) (sc : Int) (o : Outcome) : Quiet (constRule n sc o) := by
  intro s; simp [constRule]

/-- the hypotheses of C01 are met by a list with every kind of outcome -/
example : (∀ p ∈ demoRules, Quiet p.2) ∧ (demoRules.map Prod.fst).Nodup ∧
    startMsg.checked = [] ∧ (runRules demoRules startMsg).score = 10 ∧
    (runRules demoRules startMsg).checked = [(c!"A", 1), (c!"B", 0), (c!"C", 1)] := by
  refine ⟨?_, by decide, rfl, by decide, by decide⟩
  intro p hp
  simp only [demoRules, List.mem_cons, List.not_mem_nil, or_false] at hp
  rcases hp with h | h | h | h | h <;> subst h <;> exact constRule_quiet _ _ _

/-! ## C02 -/

/-- The rule that does the same, except that where `r` fails, it just does not match. -/
def calm (r : Rule S X) : Rule S X :=
  { r with run := fun s => match r.run s with
      | (.raised, s') => (.ret (.val 0), s')
      | x => x }

/-- **C02**: replacing any set of rules by versions that do not match instead of
failing changes nothing at all (no assumption on the rules). -/
theorem C02_failure_is_no_match (h1 h2 : MsgSt S X → MsgSt S X) (sel : Str → Bool)
    (rules : Dict Str (Rule S X)) (s : MsgSt S X) :
    matchMsg h1 h2 rules s =
      matchMsg h1 h2 (rules.map (fun p => if sel p.1 then (p.1, calm p.2) else p)) s := by
  unfold matchMsg
  congr 2
  induction rules generalizing s with
  | nil => rfl
  | cons p rs ih =>
    obtain ⟨n, r⟩ := p
    simp only [List.map_cons]
    split
    · simp only [runRules]
      have hc : (calm r).run s = match r.run s with
        | (.raised, s') => (.ret (.val 0), s')
        | x => x := rfl
      have hrec : ∀ v s', record n (calm r) v s' = record n r v s' := fun _ _ => rfl
      rw [hc]
      rcases r.run s with ⟨o, s'⟩
      cases o <;> simp only [ih, hrec]
    · simp only [runRules]
      rcases r.run s with ⟨o, s'⟩
      cases o <;> simp [ih]

theorem executed_append (out : Str → Outcome) (a b : List (Str × Rule S X)) :
    executed out (a ++ b) = if (∀ p ∈ a, out p.1 ≠ .stop) then a ++ executed out b
      else executed out a := by
  induction a with
  | nil => simp
  | cons p a ih =>
    by_cases h : out p.1 = .stop
    · simp [executed, h]
    · simp only [executed, List.cons_append] at *
      rw [List.takeWhile_cons_of_pos (by simpa using h),
        List.takeWhile_cons_of_pos (by simpa using h), ih]
      by_cases h2 : ∀ p ∈ a, out p.1 ≠ Outcome.stop
      · rw [if_pos h2, if_pos (by simpa [h] using h2)]
      · rw [if_neg h2, if_neg (by simpa [h] using h2)]

/-- **C02** (removal form): a failing rule can be deleted from the ruleset without
changing the score or any other rule's result. -/
theorem C02_failing_rule_removable (out : Str → Outcome) (pre post : Dict Str (Rule S X))
    (n : Str) (r : Rule S X) (s : MsgSt S X)
    (hq : ∀ p ∈ pre ++ (n, r) :: post, Quiet p.2)
    (ho : ∀ p ∈ pre ++ (n, r) :: post, ∀ s, (p.2.run s).1 = out p.1)
    (hn : ((pre ++ (n, r) :: post).map Prod.fst).Nodup) (hs : s.checked = [])
    (hr : out n = .raised) :
    (runRules (pre ++ (n, r) :: post) s).score = (runRules (pre ++ post) s).score ∧
    ∀ m, m ≠ n → Dict.get? (runRules (pre ++ (n, r) :: post) s).checked m =
      Dict.get? (runRules (pre ++ post) s).checked m := by
  have hsub : List.Sublist (pre ++ post) (pre ++ (n, r) :: post) :=
    List.Sublist.append (List.Sublist.refl _) (List.sublist_cons_self _ _)
  have hA := C01_score_exact out _ s hq ho hn hs
  have hB := C01_score_exact out (pre ++ post) s (fun p hp => hq p (hsub.subset hp))
    (fun p hp => ho p (hsub.subset hp)) (hn.sublist (hsub.map _)) hs
  have hM : Matched (out n) = false := by simp [hr, Matched, asResult]
  have hcons : executed out ((n, r) :: post) = (n, r) :: executed out post := by
    simp [executed, hr]
  refine ⟨?_, ?_⟩
  · rw [hA.2, hB.2, executed_append, executed_append]
    split
    · rw [hcons]; simp [List.filter_append, List.filter_cons, hM]
    · rfl
  · intro m hm
    rw [hA.1, hB.1, executed_append, executed_append]
    split
    · rw [hcons]
      generalize executed out post = l
      induction pre with
      | nil => simp [Dict.get?, Ne.symm hm]
      | cons q pre ihp => 
        clear hA hB
        have key : ∀ pre : List (Str × Rule S X),
            Dict.get? (List.map (fun p => (p.1, asResult (out p.1))) (pre ++ (n, r) :: l)) m =
            Dict.get? (List.map (fun p => (p.1, asResult (out p.1))) (pre ++ l)) m := by
          intro pre
          induction pre with
          | nil => simp [Dict.get?, Ne.symm hm]
          | cons a b ih => simp only [List.cons_append, List.map_cons, Dict.get?_cons, ih]
        exact key (q :: pre)
    · rfl

/-- **C02** for eval rules: whatever the plugin method does (even a stop request),
the rule itself neither fails nor stops. -/
theorem C02_eval_rule_never_raises (method : MsgSt S X → Outcome × MsgSt S X) (s : MsgSt S X) :
    ∃ v, (evalRuleRun method s).1 = .ret v ∧
      ((method s).1 = .raised → v = .val 0) ∧ (∀ w, (method s).1 = .ret w → v = w) ∧
      (evalRuleRun method s).2 = (method s).2 := by
  unfold evalRuleRun
  rcases method s with ⟨o, s'⟩
  cases o <;> simp

example : (runRules demoRules startMsg).score = (runRules (demoRules.filter (·.1 ≠ c!"B")) startMsg).score
    ∧ Dict.get? (runRules demoRules startMsg).checked c!"B" = some 0 := by decide

/-! ## C03 -/

/-- **C03**: when rule `r` (after `pre`, none of which stops) asks to stop, the
outcome does not depend on the later rules `post` at all, everything recorded by
`pre` is kept, and both notifications are still delivered, once each, in order. -/
theorem C03_stop (h1 h2 : MsgSt S X → MsgSt S X) (pre post : Dict Str (Rule S X))
    (n : Str) (r : Rule S X) (s : MsgSt S X)
    (hpre : ∀ p ∈ pre, ∀ s, (p.2.run s).1 ≠ .stop)
    (hr : (r.run (runRules pre s)).1 = .stop) :
    matchMsg h1 h2 (pre ++ (n, r) :: post) s = h2 (h1 (r.run (runRules pre s)).2) := by
  unfold matchMsg
  congr 2
  induction pre generalizing s with
  | nil => simp only [List.nil_append, runRules_cons]; exact if_pos hr
  | cons p pre ih =>
    obtain ⟨m, q⟩ := p
    have hq := hpre (m, q) (by simp) s
    simp only at hq
    rw [runRules_cons, if_neg hq] at hr
    simp only [List.cons_append, runRules_cons, if_neg hq]
    exact ih _ (fun p hp => hpre p (List.mem_cons_of_mem _ hp)) hr

/-- **C03** (no stop): without a stop request every rule gets a recorded result,
and the notifications are delivered once each. -/
theorem C03_no_stop (h1 h2 : MsgSt S X → MsgSt S X) (rules : Dict Str (Rule S X)) (s : MsgSt S X)
    (hq : ∀ p ∈ rules, Quiet p.2) (hn : (rules.map Prod.fst).Nodup) (hs : s.checked = [])
    (hns : ∀ p ∈ rules, ∀ s, (p.2.run s).1 ≠ .stop) :
    ∃ s', matchMsg h1 h2 rules s = h2 (h1 s') ∧ Dict.keys s'.checked = rules.map Prod.fst := by
  refine ⟨runRules rules s, rfl, ?_⟩
  obtain ⟨n, vals, hl, hle, hc, -, hst⟩ := C01_score_accounting rules s hq hn hs
  have hfull : n = rules.length := by
    rcases Nat.lt_or_ge n rules.length with h | h
    · obtain ⟨p, s', hp, hstop⟩ := hst h
      exact absurd hstop (hns p (List.mem_of_getElem? hp) s')
    · omega
  rw [hc, Dict.keys, hfull, List.take_length, List.map_fst_zip]
  simp [hl, hfull]

example : (∀ p ∈ demoRules.take 3, ∀ s : MsgSt Int Unit, (p.2.run s).1 ≠ .stop) ∧
    ((constRule c!"D" 16 .stop).run (runRules (demoRules.take 3) startMsg)).1 = .stop := by
  refine ⟨?_, rfl⟩
  intro p hp s
  simp only [demoRules, List.take, List.mem_cons, List.not_mem_nil, or_false] at hp
  rcases hp with h | h | h <;> subst h <;> simp [constRule]

/-! ## C04 -/

/-- **C04**: the rules are evaluated in order of decreasing priority; rules of equal
priority keep the order in which they were defined; nothing is lost or duplicated. -/
theorem C04_order (d : Dict Str (Rule S X)) :
    (sortRules d).Perm d ∧
    (sortRules d).Pairwise (fun a b => b.2.base.priority ≤ a.2.base.priority) ∧
    ∀ k : Int, (sortRules d).filter (fun p => p.2.base.priority = k) =
      d.filter (fun p => p.2.base.priority = k) := by
  refine ⟨sortedBy_perm _ _, ?_, ?_⟩
  · refine (sortedBy_pairwise _ ?_ ?_ d).imp ?_
    · intro a b c; simp only [ruleLt, decide_eq_false_iff_not]; omega
    · intro a b; simp only [ruleLt, decide_eq_false_iff_not, decide_eq_true_eq]; omega
    · intro a b; simp only [ruleLt, decide_eq_false_iff_not]; omega
  · intro k
    apply sortedBy_stable
    intro a b; simp only [ruleLt, decide_eq_false_iff_not, decide_eq_true_eq]; omega

/-- concrete: two priorities, ties keep definition order -/
example : (sortRules (S := Int) (X := Unit)
    [(c!"A", constRule c!"A" 1 .raised),
     (c!"B", { constRule c!"B" 1 .raised with base := { (constRule c!"B" 1 .raised).base with priority := 5 } }),
     (c!"C", constRule c!"C" 1 .raised)]).map Prod.fst = [c!"B", c!"A", c!"C"] := by decide

/-- **C04**: the priority of a rule is the integer given for it; 0 if none is given or the text is
not an integer. -/
theorem C04_priority (name : Str) (score : Option (List S)) (desc : Option Str)
    (tflags : Option (List Str)) (r : BaseRule S) (p : Option Str)
    (h : BaseRule.init name score desc p tflags = .ok r) :
    (∀ t n, p = some t → int? t = some n → r.priority = n) ∧
    (p = none → r.priority = 0) ∧ (∀ t, p = some t → int? t = none → r.priority = 0) := by
  have hr : r.priority = match p with
      | none => 0
      | some p => (int? p).getD 0 := by
    unfold BaseRule.init at h
    simp only at h
    split at h
    · split at h
      · cases h; cases p <;> rfl
      · cases h
    · cases h
  refine ⟨?_, ?_, ?_⟩
  · rintro t n rfl hn; rw [hr]; simp [hn]
  · rintro rfl; exact hr
  · rintro t rfl hn; rw [hr]; simp [hn]

example : (BaseRule.init (S := Int) c!"R" none none (some c!" -5 ") none).toOption.map BaseRule.priority =
    some (-5) := by decide

/-! ## C06 -/

theorem dunder_iff (n : Str) : dunder n = true ↔ "__".toList <+: n := by
  unfold dunder startsWith
  rw [List.isPrefixOf_iff_prefix]; rfl

theorem hasFlag_iff (fl : List Str) (f : Str) : hasFlag (some fl) f = true ↔ f ∈ fl := by
  simp [hasFlag]

/-- Effective score of a rule built from a configuration: construct, then preprocess. -/
def codeScore (name : Str) (given : Option (List S)) (flags : List Str) (c : ScoreConf) : Option S :=
  match BaseRule.init name given none none (some flags) with
  | .ok r => some (r.preprocess c).score
  | .error _ => none

/-- **C06** the documented score is what the code uses, provided a four-score list
does not start with zero (see `C06_first_score_zero_violated`). -/
theorem C06_score_selection_partial (name : Str) (given : Option (List S)) (flags : List Str)
    (c : ScoreConf) (h4 : ∀ a b d e, given = some [a, b, d, e] → a ≠ 0) :
    codeScore name given flags c = documentedScore name given flags c := by
  have hd := dunder_iff name
  have hf := hasFlag_iff flags
  have e1 : "net".toList = c!"net" := rfl
  have e2 : "noautolearn".toList = c!"noautolearn" := rfl
  have e3 : "learn".toList = c!"learn" := rfl
  have e4 : "userconf".toList = c!"userconf" := rfl
  have e5 : "nice".toList = c!"nice" := rfl
  unfold codeScore documentedScore BaseRule.init initScores
  simp only [e1, e2, e3, e4, e5, ← hd, ← hf]
  obtain ⟨un, al, ub, uc⟩ := c
  by_cases hdd : dunder name = true
  · -- names starting with "__": the score list is [0]
    have hone : ∀ r : BaseRule S, r.scores = [0] → r.score = 0 →
        (r.preprocess ⟨un, al, ub, uc⟩).score = 0 := by
      intro r h1 h2
      unfold BaseRule.preprocess
      rw [h1]
      repeat' split
      all_goals first | rfl | exact h2
    simp only [hdd, if_true, List.length_nil, true_or]
    rw [hone _ rfl rfl]
    split <;> simp
  · simp only [hdd, Bool.false_eq_true, if_false, false_or]
    have hone : ∀ x : S, ∀ r : BaseRule S, r.scores = [x] → r.score = x → r.tflags = some flags →
        (r.preprocess ⟨un, al, ub, uc⟩).score =
          if (hasFlag (some flags) c!"net" = true ∧ un = false) ∨
             (hasFlag (some flags) c!"noautolearn" = true ∧ al = true) ∨
             (hasFlag (some flags) c!"learn" = true ∧ ub = false) ∨
             (hasFlag (some flags) c!"userconf" = true ∧ uc = false) then 0 else x := by
      intro x r h1 h2 h3
      unfold BaseRule.preprocess
      rw [h1, h3]
      cases un <;> cases al <;> cases ub <;> cases uc <;>
        cases hasFlag (some flags) c!"net" <;> cases hasFlag (some flags) c!"noautolearn" <;>
        cases hasFlag (some flags) c!"learn" <;> cases hasFlag (some flags) c!"userconf" <;>
        simp [h2]
    match given, h4 with
    | none, _ =>
      by_cases hnice : hasFlag (some flags) c!"nice" = true
      · simp only [hnice, if_true, List.length_nil, true_or]
        rw [hone (-1) _ rfl rfl rfl]
        split <;> rfl
      · simp only [hnice, Bool.false_eq_true, if_false, List.length_nil, true_or, if_true]
        rw [hone 1 _ rfl rfl rfl]
        split <;> rfl
    | some [], _ => rfl
    | some [x], _ =>
      simp only [List.length_nil, true_or, if_true]
      rw [hone x _ rfl rfl rfl]
      split <;> rfl
    | some [a, b], _ => simp
    | some [a, b, d], _ => simp
    | some [a, b, d, e], h4 =>
      have ha := h4 a b d e rfl
      simp only [List.length_cons, List.length_nil, Nat.zero_add, Nat.reduceAdd, or_true, if_true]
      unfold BaseRule.preprocess
      simp only [ha, if_false]
      cases un <;> cases al <;> cases ub <;> cases uc <;>
        cases hasFlag (some flags) c!"net" <;> cases hasFlag (some flags) c!"noautolearn" <;>
        cases hasFlag (some flags) c!"learn" <;> cases hasFlag (some flags) c!"userconf" <;>
        simp
    | some (a :: b :: d :: e :: f :: g), _ => simp

theorem init_no_flags (name : Str) (given : Option (List S)) (c : ScoreConf) :
    ((BaseRule.init name given none none none).toOption.map fun r : BaseRule S => (r.preprocess c).score) =
      codeScore name given [] c := by
  unfold codeScore BaseRule.init
  have hf : ∀ f, hasFlag none f = hasFlag (some []) f := fun f => by simp [hasFlag]
  have hi : initScores name given none = initScores name given (some []) := by
    unfold initScores
    simp only [hf]
  have hp : ∀ sc : List S, ∀ x p d, (BaseRule.preprocess c ⟨name, sc, none, d, p, x⟩).score =
      (BaseRule.preprocess c ⟨name, sc, some [], d, p, x⟩).score := by
    intro sc x p d
    unfold BaseRule.preprocess
    simp only [hf]
    simp only [show ∀ f, hasFlag (some []) f = false from fun f => by simp [hasFlag], Bool.and_false,
      Bool.false_eq_true, if_false]
    split
    · split <;> rfl
    · rfl
  simp only [hi]
  split
  · split
    · simp only [Except.toOption, Option.map_some]
      rw [hp]
    · rfl
  · rfl

/-- **C06** (partial, as `C06_score_selection_partial`): a rule without `tflags` has the score
documented for a rule with no flags. -/
theorem C06_no_flags_partial (name : Str) (given : Option (List S)) (c : ScoreConf)
    (h4 : ∀ a b d e, given = some [a, b, d, e] → a ≠ 0) :
    ((BaseRule.init name given none none none).toOption.map fun r : BaseRule S => (r.preprocess c).score) =
      documentedScore name given [] c := by
  rw [init_no_flags, C06_score_selection_partial name given [] c h4]

/-- **C06 is violated** whenever the first of four scores is zero: the rule is disabled in every configuration, although with Bayes and network
enabled, for example, the fourth score should be used. -/
theorem C06_first_score_zero_violated (name : Str) (b d e : S) (flags : List Str) (c : ScoreConf) :
    codeScore name (some [0, b, d, e]) flags c = some 0 ∧
    (c.useBayes = true → c.useNetwork = true → ¬ c!"__" <+: name → documentedScore name (some [0, b, d, e]) [] c = some e) := by
  constructor
  · unfold codeScore BaseRule.init initScores
    cases hd : dunder name
    · simp only [Bool.false_eq_true, if_false, List.length_cons, List.length_nil, Nat.zero_add, or_true, if_true]
      unfold BaseRule.preprocess
      simp only [if_true]
      repeat' split
      all_goals rfl
    · simp only [if_true, List.length_nil, true_or, Option.some.injEq]
      unfold BaseRule.preprocess
      simp only
      split
      · rfl
      split
      · rfl
      split
      · rfl
      split <;> rfl
  · intro h1 h2 h3
    unfold documentedScore
    simp [h1, h2, h3]

/-- With Bayes and network enabled the fourth score should be used. -/
example :
    codeScore (S := Int) c!"RULE" (some [0, 1, 2, 3]) [] ⟨true, false, true, true⟩ = some 0 ∧
    documentedScore (S := Int) c!"RULE" (some [0, 1, 2, 3]) [] ⟨true, false, true, true⟩ = some 3 := by
  decide

/-- hypotheses of the partial theorem are met by a genuine four-score rule -/
example : (∀ a b d e, (some [5, 1, 2, 3] : Option (List Int)) = some [a, b, d, e] → a ≠ 0) ∧
    codeScore (S := Int) c!"R" (some [5, 1, 2, 3]) [c!"net"] ⟨true, false, true, true⟩ = some 3 := by
  refine ⟨?_, by decide⟩
  intro a b d e h; simp at h; omega

/-! ## C05 -/

/-- Loading a list of rules, in order, into an empty ruleset. -/
def loadRules (c : ScoreConf) (rules : List (Rule S X)) : RuleSt S X :=
  rules.foldl (addRule c) { checked := [], notChecked := [] }

theorem preprocess_name (c : ScoreConf) (b : BaseRule S) : (b.preprocess c).name = b.name := by
  unfold BaseRule.preprocess; repeat' split
  all_goals rfl

theorem mem_set {K V : Type} [DecidableEq K] {d : Dict K V} {k : K} {v : V} {p : K × V}
    (h : p ∈ Dict.set d k v) : p = (k, v) ∨ p ∈ d := by
  induction d with
  | nil => simpa [Dict.set] using h
  | cons q d ih =>
    obtain ⟨a, b⟩ := q
    simp only [Dict.set] at h
    split at h
    · rename_i he; subst he
      rcases List.mem_cons.1 h with h | h
      · exact Or.inl h
      · exact Or.inr (List.mem_cons_of_mem _ h)
    · rcases List.mem_cons.1 h with h | h
      · exact Or.inr (h ▸ List.mem_cons_self)
      · rcases ih h with h | h
        · exact Or.inl h
        · exact Or.inr (List.mem_cons_of_mem _ h)

/-- **C05** (safety): whatever is loaded, in whatever order, no rule that is going
to be evaluated has a name starting with two underscores or score zero. -/
theorem C05_silent_rules_not_evaluated (c : ScoreConf) (rules : List (Rule S X)) :
    ∀ p ∈ (loadRules c rules).checked,
      p.1 = p.2.base.name ∧ ¬ ("__".toList <+: p.1) ∧ p.2.base.score ≠ 0 := by
  unfold loadRules
  have gen : ∀ st : RuleSt S X, (∀ p ∈ st.checked,
      p.1 = p.2.base.name ∧ ¬ ("__".toList <+: p.1) ∧ p.2.base.score ≠ 0) →
      ∀ p ∈ (rules.foldl (addRule c) st).checked,
        p.1 = p.2.base.name ∧ ¬ ("__".toList <+: p.1) ∧ p.2.base.score ≠ 0 := by
    induction rules with
    | nil => intro st h; exact h
    | cons r rs ih =>
      intro st h
      apply ih
      intro p hp
      simp only [addRule] at hp
      split at hp
      · rename_i hsc
        rcases mem_set hp with h1 | h1
        · subst h1
          simp only [BaseRule.shouldCheck] at hsc
          split at hsc
          · cases hsc
          · split at hsc
            · cases hsc
            · rename_i h2 h3
              exact ⟨rfl, fun hh => h2 ((dunder_iff _).2 hh), h3⟩
        · exact h p h1
      · exact h p hp
  exact gen _ (by simp)

/-- Should the rule be evaluated, per the documentation. -/
def Evaluated (c : ScoreConf) (r : Rule S X) : Prop :=
  ¬ ("__".toList <+: r.base.name) ∧ (r.base.preprocess c).score ≠ 0

theorem shouldCheck_iff (c : ScoreConf) (r : Rule S X) :
    (r.base.preprocess c).shouldCheck = true ↔ Evaluated c r := by
  unfold BaseRule.shouldCheck Evaluated
  rw [preprocess_name, ← dunder_iff]
  by_cases h1 : dunder r.base.name = true <;> by_cases h2 : (r.base.preprocess c).score = 0 <;>
    simp [h1, h2]

/-- **C05** (completeness): for rules with distinct names, the evaluated rules are
exactly those with a visible name and a non-zero score, in definition order, with
their effective scores; all others are kept for use by meta rules. -/
theorem C05_evaluated_exactly (c : ScoreConf) (rules : List (Rule S X))
    [DecidablePred (Evaluated (X := X) (S := S) c)]
    (hn : (rules.map (fun r => r.base.name)).Nodup) :
    (loadRules c rules).checked = (rules.filter (fun r => Evaluated c r)).map
      (fun r => (r.base.name, { r with base := r.base.preprocess c })) ∧
    (loadRules c rules).notChecked = (rules.filter (fun r => ¬ Evaluated c r)).map
      (fun r => (r.base.name, { r with base := r.base.preprocess c })) := by
  unfold loadRules
  have gen : ∀ st : RuleSt S X,
      (∀ r ∈ rules, r.base.name ∉ Dict.keys st.checked ∧ r.base.name ∉ Dict.keys st.notChecked) →
      (rules.foldl (addRule c) st).checked = st.checked ++ (rules.filter (fun r => Evaluated c r)).map
        (fun r => (r.base.name, { r with base := r.base.preprocess c })) ∧
      (rules.foldl (addRule c) st).notChecked =
        st.notChecked ++ (rules.filter (fun r => ¬ Evaluated c r)).map
        (fun r => (r.base.name, { r with base := r.base.preprocess c })) := by
    induction rules with
    | nil => intro st _; simp
    | cons r rs ih =>
      intro st hst
      simp only [List.map_cons, List.nodup_cons] at hn
      obtain ⟨hr1, hr2⟩ := hst r (by simp)
      simp only [List.foldl_cons]
      have hfresh : ∀ q ∈ rs, q.base.name ≠ r.base.name := by
        intro q hq he
        exact hn.1 (he ▸ List.mem_map_of_mem (f := fun r : Rule S X => r.base.name) hq)
      by_cases hE : Evaluated c r
      · have hadd : addRule c st r = { st with checked := st.checked ++
            [(r.base.name, { r with base := r.base.preprocess c })] } := by
          simp only [addRule, (shouldCheck_iff c r).2 hE, if_true, preprocess_name]
          rw [Dict.set_of_not_mem _ _ hr1]
        rw [hadd]
        have := ih hn.2 { st with checked := st.checked ++
            [(r.base.name, { r with base := r.base.preprocess c })] } (by
          intro q hq
          obtain ⟨h1, h2⟩ := hst q (List.mem_cons_of_mem _ hq)
          refine ⟨?_, h2⟩
          simp only [Dict.keys, List.map_append, List.map_cons, List.map_nil, List.mem_append,
            List.mem_singleton, not_or]
          exact ⟨h1, hfresh q hq⟩)
        rw [this.1, this.2]
        simp [List.filter_cons, hE]
      · have hsc : (r.base.preprocess c).shouldCheck = false := by
          rw [← Bool.not_eq_true, shouldCheck_iff]; exact hE
        have hadd : addRule c st r = { st with notChecked := st.notChecked ++
            [(r.base.name, { r with base := r.base.preprocess c })] } := by
          simp only [addRule, hsc, Bool.false_eq_true, if_false, preprocess_name]
          rw [Dict.set_of_not_mem _ _ hr2]
        rw [hadd]
        have := ih hn.2 { st with notChecked := st.notChecked ++
            [(r.base.name, { r with base := r.base.preprocess c })] } (by
          intro q hq
          obtain ⟨h1, h2⟩ := hst q (List.mem_cons_of_mem _ hq)
          refine ⟨h1, ?_⟩
          simp only [Dict.keys, List.map_append, List.map_cons, List.map_nil, List.mem_append,
            List.mem_singleton, not_or]
          exact ⟨h2, hfresh q hq⟩)
        rw [this.1, this.2]
        simp [List.filter_cons, hE]
  have := gen { checked := [], notChecked := [] } (by simp [Dict.keys])
  simpa using this

/-- **C05** (lookup): among rules with distinct names, each can be looked up by name after loading,
with its effective score, whether it is evaluated or not; restricted to evaluated rules the lookup
finds exactly those. -/
theorem C05_lookup (c : ScoreConf) (rules : List (Rule S X))
    [DecidablePred (Evaluated (X := X) (S := S) c)]
    (hn : (rules.map (fun r => r.base.name)).Nodup) (r : Rule S X) (hr : r ∈ rules) :
    getRule (loadRules c rules) r.base.name = some { r with base := r.base.preprocess c } ∧
    getRule (loadRules c rules) r.base.name true =
      if Evaluated c r then some { r with base := r.base.preprocess c } else none := by
  obtain ⟨h1, h2⟩ := C05_evaluated_exactly c rules hn
  have look : ∀ q : Rule S X → Bool,
      Dict.get? ((rules.filter q).map (fun r => (r.base.name, { r with base := r.base.preprocess c })))
        r.base.name = if q r then some { r with base := r.base.preprocess c } else none := by
    intro q
    clear h1 h2
    induction rules with
    | nil => cases hr
    | cons a as ih =>
      simp only [List.map_cons, List.nodup_cons] at hn
      by_cases har : a = r
      · subst har
        by_cases hq : q a = true
        · simp [List.filter_cons, hq, Dict.get?]
        · simp only [List.filter_cons, hq, if_false, Bool.false_eq_true]
          rw [Dict.get?_eq_none_iff]
          intro hm
          apply hn.1
          simp only [Dict.keys, List.map_map, List.mem_map, List.mem_filter, Function.comp_apply] at hm ⊢
          obtain ⟨b, ⟨hb, -⟩, he⟩ := hm
          exact ⟨b, hb, he⟩
      · have hr' : r ∈ as := by
          rcases List.mem_cons.1 hr with h | h
          · exact absurd h.symm har
          · exact h
        have hne : a.base.name ≠ r.base.name := by
          intro he
          exact hn.1 (List.mem_map.2 ⟨r, hr', he.symm⟩)
        by_cases hq : q a = true
        · simp only [List.filter_cons, hq, if_true, List.map_cons, Dict.get?, hne, if_false]
          exact ih hn.2 hr'
        · simp only [List.filter_cons, hq, Bool.false_eq_true, if_false]
          exact ih hn.2 hr'
  have l1 := look (fun r => decide (Evaluated c r))
  have l2 := look (fun r => decide (¬ Evaluated c r))
  unfold getRule
  rw [h1, h2, l1, l2]
  by_cases he : Evaluated c r
  · simp [he]
  · simp [he]

/-- **C05** at the level of a checked message: no hidden rule appears among the results. -/
theorem C05_silent_rules_not_reported (c : ScoreConf) (rules : List (Rule S X)) (s : MsgSt S X)
    (hq : ∀ p ∈ sortRules (loadRules c rules).checked, Quiet p.2)
    (hn : ((sortRules (loadRules c rules).checked).map Prod.fst).Nodup) (hs : s.checked = []) :
    ∀ n ∈ Dict.keys (runRules (sortRules (loadRules c rules).checked) s).checked,
      ¬ ("__".toList <+: n) := by
  obtain ⟨k, vals, hl, -, hc, -, -⟩ := C01_score_accounting _ s hq hn hs
  intro n hmem
  rw [hc, Dict.keys] at hmem
  obtain ⟨⟨a, v⟩, hp, rfl⟩ := List.mem_map.1 hmem
  have h1 := (List.of_mem_zip hp).1
  obtain ⟨q, hq1, hq2⟩ := List.mem_map.1 h1
  have h2 : q ∈ (loadRules c rules).checked :=
    (sortedBy_perm _ _).subset (List.mem_of_mem_take hq1)
  have := (C05_silent_rules_not_evaluated c rules q h2).2.1
  simpa [hq2] using this

example : (loadRules (S := Int) (X := Unit) ⟨true, false, true, true⟩
    [constRule c!"A" 1 .raised, constRule c!"__B" 1 .raised, constRule c!"C" 0 .raised]).checked.map
      Prod.fst = [c!"A"] := by decide

/-! ## C08 -/

/-- **C08**: the SYMBOLS payload and the TESTS tag list exactly the matched rules, once each,
in evaluation order; TESTS is `none` exactly when nothing matched. -/
theorem C08_symbols_and_tests (out : Str → Outcome) (rules : Dict Str (Rule S X)) (s : MsgSt S X)
    (hq : ∀ p ∈ rules, Quiet p.2) (ho : ∀ p ∈ rules, ∀ s, (p.2.run s).1 = out p.1)
    (hn : (rules.map Prod.fst).Nodup) (hs : s.checked = []) :
    let matched := ((executed out rules).filter (fun p => Matched (out p.1))).map Prod.fst
    symbolsBody (runRules rules s) = join c!"," matched ∧
    (matched = [] → testsTag (runRules rules s) = "none".toList) ∧
    (matched ≠ [] → testsTag (runRules rules s) = join c!"," matched) := by
  have h := (C01_score_exact out rules s hq ho hn hs).1
  have hm : matchedNames (runRules rules s) =
      ((executed out rules).filter (fun p => Matched (out p.1))).map Prod.fst := by
    unfold matchedNames
    rw [h, List.filter_map, List.map_map]
    congr 1
  simp only [symbolsBody, testsTag, hm]
  refine ⟨trivial, ?_, ?_⟩
  · intro he; rw [he]; rfl
  · intro hne
    rw [if_neg]
    simpa using hne

theorem reportLines_eq (shw : S → Str) (st : RuleSt S X) (s : MsgSt S X) (out : Str → Outcome)
    (l : List (Str × Rule S X))
    (hg : ∀ p ∈ l, Matched (out p.1) → getRule st p.1 = some p.2 ∧
      Dict.get? s.descs p.1 = some (shownDesc (out p.1) p.2)) :
    reportLines shw st s (l.map (fun p => (p.1, asResult (out p.1)))) =
      some ((l.filter (fun p => Matched (out p.1))).map
        (fun p => reportLine shw p.2 (shownDesc (out p.1) p.2))) := by
  induction l with
  | nil => rfl
  | cons p l ih =>
    simp only [List.map_cons, reportLines]
    have ih' := ih (fun q hq => hg q (List.mem_cons_of_mem _ hq))
    by_cases hm : Matched (out p.1) = true
    · have hne : asResult (out p.1) ≠ 0 := by simpa [Matched] using hm
      obtain ⟨h1, h2⟩ := hg p (by simp) hm
      simp [hne, h1, h2, ih', List.filter_cons, hm]
    · have he : asResult (out p.1) = 0 := by simpa [Matched] using hm
      simp [he, ih', List.filter_cons, hm]

theorem summaryLines_eq (shw : S → Str) (st : RuleSt S X) (out : Str → Outcome)
    (l : List (Str × Rule S X))
    (hg : ∀ p ∈ l, Matched (out p.1) → getRule st p.1 = some p.2) :
    summaryLines shw st (l.map (fun p => (p.1, asResult (out p.1)))) =
      some ((l.filter (fun p => Matched (out p.1))).map (fun p => summaryLine shw p.2)) := by
  induction l with
  | nil => rfl
  | cons p l ih =>
    simp only [List.map_cons, summaryLines]
    have ih' := ih (fun q hq => hg q (List.mem_cons_of_mem _ hq))
    by_cases hm : Matched (out p.1) = true
    · have hne : asResult (out p.1) ≠ 0 := by simpa [Matched] using hm
      have h1 := hg p (by simp) hm
      simp [hne, h1, ih', List.filter_cons, hm]
    · have he : asResult (out p.1) = 0 := by simpa [Matched] using hm
      simp [he, ih', List.filter_cons, hm]

/-- **C08**: the detailed report and the summary never fail and consist of exactly one line
per matched rule, in evaluation order, with the rule's own score, name and shown description. -/
theorem C08_reports (shw shw4 : S → Str) (out : Str → Outcome) (st : RuleSt S X) (s : MsgSt S X)
    (hq : ∀ p ∈ st.checked, Quiet p.2) (ho : ∀ p ∈ st.checked, ∀ s, (p.2.run s).1 = out p.1)
    (hn : (st.checked.map Prod.fst).Nodup) (hs : s.checked = []) :
    let matched := (executed out st.checked).filter (fun p => Matched (out p.1))
    matchedReport shw st (runRules st.checked s) =
      some ("\r\n".toList ++ join "\r\n".toList
        (matched.map (fun p => c!"* " ++ shw p.2.base.score ++ c!" " ++ p.2.base.name ++ c!" " ++ p.2.rtype ++
          shownDesc (out p.1) p.2))) ∧
    summaryLines shw4 st (runRules st.checked s).checked =
      some (matched.map (fun p => shw4 p.2.base.score ++ c!" " ++ p.2.base.name ++
        List.replicate (22 - p.2.base.name.length) ' ' ++ c!" " ++ p.2.base.description)) := by
  have h := runRules_fixed out st.checked hq ho hn s (by simp [hs, Dict.keys])
  have hchk := h.1
  rw [hs, List.nil_append] at hchk
  have hsubl : (executed out st.checked).Sublist st.checked := List.takeWhile_sublist _
  have hget : ∀ p ∈ executed out st.checked, getRule st p.1 = some p.2 := by
    intro p hp
    unfold getRule
    rw [Dict.get?_of_mem st.checked hn (hsubl.subset hp)]
  have hdesc : ∀ p ∈ executed out st.checked, Matched (out p.1) →
      Dict.get? (runRules st.checked s).descs p.1 = some (shownDesc (out p.1) p.2) := by
    intro p hp hm
    rw [h.2.2]
    have hnd : ((executed out st.checked).map Prod.fst).Nodup := hn.sublist (hsubl.map _)
    have : (executed out st.checked).find? (fun q => q.1 = p.1 && Matched (out q.1)) = some p := by
      revert hp hnd
      generalize executed out st.checked = l
      intro hp hnd
      induction l with
      | nil => simp at hp
      | cons q l ih =>
        simp only [List.map_cons, List.nodup_cons] at hnd
        rcases List.mem_cons.1 hp with hp | hp
        · subst hp; simp [hm]
        · have hne : q.1 ≠ p.1 := by
            intro he; exact hnd.1 (he ▸ List.mem_map_of_mem (f := Prod.fst) hp)
          rw [List.find?_cons]; simp [hne, ih hp hnd.2]
    rw [this]
  refine ⟨?_, ?_⟩
  · unfold matchedReport
    rw [hchk, reportLines_eq shw st _ out _ (fun p hp hm => ⟨hget p hp, hdesc p hp hm⟩)]
    rfl
  · rw [hchk]
    rw [summaryLines_eq shw4 st out _ (fun p hp _ => hget p hp)]
    congr 1
    refine List.map_congr_left fun p _ => ?_
    simp [summaryLine, ljust]

example : matchedReport (fun _ => c!"9") { checked := demoRules, notChecked := [] }
    (runRules demoRules startMsg) = some c!"\r\n* 9 A d\r\n* 9 C t" := by decide

end Verif.Props
