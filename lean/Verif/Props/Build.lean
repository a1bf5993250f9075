import Verif.Lemmas.Build
import Verif.Props.Header

/-!
# C18: building the ruleset, C58: eval rules
-/

namespace Verif.Props
open Verif Py Spec Build

variable {S R V : Type} [PyNum S]

/-! ### Invariant of the loop -/

theorem set_fresh {W : Type} (d : Dict Str W) (k : Str) (v : W) (h : ∀ p ∈ d, p.1 ≠ k) :
    Dict.set d k v = d ++ [(k, v)] := by
  apply Dict.set_of_not_mem
  intro hm
  obtain ⟨p, hp, e⟩ := List.mem_map.1 hm
  exact h p hp e

theorem alone_eq (E : BuildEnv S R V) (name : Str) (d : Data) :
    alone E (name, d) = match one E name d with
      | .ok r => (put noRules r, none)
      | .error .other => (noRules, some .other)
      | .error e => if E.paranoid then (noRules, some e) else (noRules, none) := by
  unfold alone
  rw [build_cons]
  cases one E name d with
  | ok r => rfl
  | error e => cases e <;> rfl

theorem put_append {rs : Rules S R V} {r : RuleDef S R V}
    (h1 : ∀ p ∈ rs.checked, p.1 ≠ r.base.name) (h2 : ∀ p ∈ rs.notChecked, p.1 ≠ r.base.name) :
    put rs r = { checked := rs.checked ++ (put noRules r).checked,
                 notChecked := rs.notChecked ++ (put noRules r).notChecked } := by
  unfold put noRules
  split <;> simp [set_fresh _ _ _ h1, set_fresh _ _ _ h2, Dict.set]

theorem put_keys (r : RuleDef S R V) :
    (∀ p ∈ (put noRules r).checked, p.1 = r.base.name) ∧
    (∀ p ∈ (put noRules r).notChecked, p.1 = r.base.name) := by
  unfold put noRules
  split <;> simp [Dict.set]

theorem build_acc (E : BuildEnv S R V) (hp : E.paranoid = false) (hc : PluginNames E)
    (l : List (Str × Data)) (hn : (l.map Prod.fst).Nodup) (hsafe : ∀ e ∈ l, (alone E e).2 = none)
    (rs : Rules S R V) (h1 : ∀ p ∈ rs.checked, p.1 ∉ l.map Prod.fst)
    (h2 : ∀ p ∈ rs.notChecked, p.1 ∉ l.map Prod.fst) :
    build E l rs = ({ checked := rs.checked ++ l.flatMap (fun e => (alone E e).1.checked),
                      notChecked := rs.notChecked ++ l.flatMap (fun e => (alone E e).1.notChecked) }, none) := by
  induction l generalizing rs with
  | nil => simp [build]
  | cons e l ih =>
    obtain ⟨name, d⟩ := e
    have hs := hsafe (name, d) (by simp)
    simp only [List.map_cons, List.nodup_cons] at hn
    have hl := fun e he => hsafe e (List.mem_cons_of_mem _ he)
    rw [build_cons]
    rw [alone_eq] at hs
    simp only [List.flatMap_cons, alone_eq E name d]
    cases ho : one E name d with
    | ok r =>
      have hname := one_name hc ho
      have k1 : ∀ p ∈ rs.checked, p.1 ≠ r.base.name := fun p hp e =>
        h1 p hp (by rw [e, hname]; simp)
      have k2 : ∀ p ∈ rs.notChecked, p.1 ≠ r.base.name := fun p hp e =>
        h2 p hp (by rw [e, hname]; simp)
      simp only
      rw [put_append k1 k2, ih hn.2 hl]
      · simp
      · intro p hm
        rcases List.mem_append.1 hm with hm | hm
        · exact fun hx => h1 p hm (List.mem_cons_of_mem _ hx)
        · rw [(put_keys r).1 p hm, hname]; exact hn.1
      · intro p hm
        rcases List.mem_append.1 hm with hm | hm
        · exact fun hx => h2 p hm (List.mem_cons_of_mem _ hx)
        · rw [(put_keys r).2 p hm, hname]; exact hn.1
    | error e =>
      have hh := ih hn.2 hl rs (fun p hm hx => h1 p hm (List.mem_cons_of_mem _ hx))
        (fun p hm hx => h2 p hm (List.mem_cons_of_mem _ hx))
      rw [ho] at hs
      cases e with
      | other => simp at hs
      | invalidRule => simp [hp, hh, noRules]
      | invalidRegex => simp [hp, hh, noRules]

/-! ### C18 -/

/-- **C18** (partial).  In tolerant mode, for every parse result (names are the keys of a
dictionary, hence distinct), building succeeds, and the rules come out in the order of the
configuration, each exactly as it does when its definition is the only one: no entry influences
another, and entries that yield nothing alone leave no trace.

Missing: definitions that raise an exception other than an invalid-rule or invalid-regex error;
these abort the whole build (`C18_header_violated`, `C18_score_violated`, `C18_blank_violated`). -/
theorem C18_tolerant_partial (E : BuildEnv S R V) (hp : E.paranoid = false) (hc : PluginNames E)
    (results : List (Str × Data)) (hn : (results.map Prod.fst).Nodup)
    (hsafe : ∀ e ∈ results, (alone E e).2 = none) :
    (build E results noRules).2 = none ∧
    (build E results noRules).1.checked = results.flatMap (fun e => (alone E e).1.checked) ∧
    (build E results noRules).1.notChecked = results.flatMap (fun e => (alone E e).1.notChecked) := by
  rw [build_acc E hp hc results hn hsafe noRules (by simp [noRules]) (by simp [noRules])]
  simp [noRules]

/-- **C18**.  One definition yields at most one rule, in one of the two dictionaries, under its
own name. -/
theorem C18_once (E : BuildEnv S R V) (hc : PluginNames E) (name : Str) (d : Data) :
    (alone E (name, d)).1 = noRules ∨
    ∃ r : RuleDef S R V, r.base.name = name ∧
      ((alone E (name, d)).1 = { checked := [(name, r)], notChecked := [] } ∨
       (alone E (name, d)).1 = { checked := [], notChecked := [(name, r)] }) := by
  rw [alone_eq]
  cases ho : one E name d with
  | ok r =>
    have hname := one_name hc ho
    refine .inr ⟨r, hname, ?_⟩
    unfold put noRules
    simp only [hname, Dict.set]
    cases r.base.shouldCheck <;> simp
  | error e =>
    left
    cases e <;> simp <;> split <;> rfl

/-- **C18**.  In paranoid mode the build stops at the first definition that is invalid on its
own, with exactly the error that definition gives on its own. -/
theorem C18_paranoid (E : BuildEnv S R V) (hp : E.paranoid = true) (good bad : List (Str × Data))
    (e : Str × Data) (err : RuleErr) (hg : ∀ x ∈ good, (alone E x).2 = none)
    (he : (alone E e).2 = some err) :
    (build E (good ++ e :: bad) noRules).2 = some err := by
  suffices ∀ rs : Rules S R V, (build E (good ++ e :: bad) rs).2 = some err from this _
  induction good with
  | nil =>
    intro rs
    obtain ⟨name, d⟩ := e
    rw [alone_eq] at he
    rw [List.nil_append, build_cons]
    cases ho : one E name d with
    | ok r => simp [ho] at he
    | error e => cases e <;> simp_all
  | cons x good ih =>
    intro rs
    obtain ⟨name, d⟩ := x
    have hx := hg (name, d) (by simp)
    rw [alone_eq] at hx
    rw [List.cons_append, build_cons]
    cases ho : one E name d with
    | ok r => exact ih (fun x hx => hg x (List.mem_cons_of_mem _ hx)) _
    | error e => cases e <;> simp_all

/-- **C18**.  In paranoid mode an error is reported only if some definition is invalid. -/
theorem C18_paranoid_silent (E : BuildEnv S R V) (results : List (Str × Data))
    (hg : ∀ x ∈ results, (alone E x).2 = none) : (build E results noRules).2 = none := by
  suffices ∀ rs : Rules S R V, (build E results rs).2 = none from this _
  induction results with
  | nil => intro rs; rfl
  | cons x l ih =>
    intro rs
    obtain ⟨name, d⟩ := x
    have hx := hg (name, d) (by simp)
    have hl := ih (fun x hx => hg x (List.mem_cons_of_mem _ hx))
    rw [alone_eq] at hx
    rw [build_cons]
    cases ho : one E name d with
    | ok r => exact hl _
    | error e => cases e <;> cases hq : E.paranoid <;> simp_all

/-- The keyword arguments of a well-formed definition, and that the constructor accepts them. -/
theorem mkBase_good {E : BuildEnv S R V} {d : Data} {scores : Option (List S)} {tflags : Option (List Str)}
    (name : Str) (hs : Scores E d scores) (hd : Textual d c!"describe") (hpr : Textual d c!"priority")
    (ht : Flags d tflags) :
    kwargs E d = .ok ⟨scores, attr d c!"describe", attr d c!"priority", tflags⟩ ∧
    ∃ b, BaseRule.init name scores (attr d c!"describe") (attr d c!"priority") tflags = .ok b := by
  have htext : ∀ {key}, Textual d key → ∃ o, textAttr d key = .ok o ∧ o.map strip = attr d key := by
    intro key h
    unfold textAttr attr
    rcases h with h | ⟨s, h⟩ <;> simp [h]
  obtain ⟨o1, h1, e1⟩ := htext hd
  obtain ⟨o2, h2, e2⟩ := htext hpr
  have fl : ∀ (ws : List Str) (fs : List S), ws.map E.float = fs.map some → floats E.float ws = some fs := by
    intro ws
    induction ws with
    | nil => intro fs h; cases fs <;> simp_all [floats]
    | cons w ws ih =>
      intro fs h
      cases fs with
      | nil => simp at h
      | cons f fs =>
        simp only [List.map_cons, List.cons.injEq] at h
        simp [floats, h.1, ih fs h.2]
  have hl : ∀ l, scores = some l → l.length = 1 ∨ l.length = 4 := by
    rcases hs with ⟨_, rfl⟩ | ⟨s, fs, _, _, hl, rfl⟩
    · simp
    · simpa using hl
  constructor
  · unfold kwargs
    rcases hs with ⟨hs, rfl⟩ | ⟨s, fs, hs, hf, _, rfl⟩
    · have : textAttr d c!"score" = .ok none := by unfold textAttr; simp [hs]
      simp only [this, h1, h2, e1, e2]
      rcases ht with ⟨ht, rfl⟩ | ⟨l, hne, ht, rfl⟩
      · simp [ht]
      · cases l with
        | nil => exact absurd rfl hne
        | cons a l => simp [ht]
    · have : textAttr d c!"score" = .ok (some s) := by unfold textAttr; simp [hs]
      simp only [this, h1, h2, e1, e2, fl _ _ hf]
      rcases ht with ⟨ht, rfl⟩ | ⟨l, hne, ht, rfl⟩
      · simp [ht]
      · cases l with
        | nil => exact absurd rfl hne
        | cons a l => simp [ht]
  · have : (initScores name scores tflags).length = 1 ∨ (initScores name scores tflags).length = 4 := by
      unfold initScores
      split
      · simp
      · split
        · exact hl _ rfl
        · split <;> simp
    unfold BaseRule.init
    simp only
    cases hi : initScores name scores tflags with
    | nil => simp [hi] at this
    | cons a l =>
      simp only [hi, List.length_cons] at this
      have hl : l.length = 0 ∨ l.length = 3 := by omega
      simp only
      rw [if_pos hl]
      exact ⟨_, rfl⟩

/-- **C18**.  A `full`, `body`, `rawbody` or `uri` definition whose pattern compiles and whose
score, if any, is one or four numbers is valid: it yields one rule with its name, its pattern, and
the written scores, description, priority and flags, its score selected for the configuration
(as C06 says).  The rule is checked by default exactly if its name has no leading `__` and its
score is not 0. -/
theorem C18_valid (E : BuildEnv S R V) {t : Str} {mk : Pat R → Kind R V} (hk : OnePattern t mk)
    (name value : Str) (d : Data) (p : Pat R) (scores : Option (List S)) (tflags : Option (List Str))
    (htype : Dict.get? d c!"type" = some (.str t))
    (hvalue : Dict.get? d c!"value" = some (.str value)) (hpat : perl2re E.re value false = .ok p)
    (hs : Scores E d scores) (hd : Textual d c!"describe") (hpr : Textual d c!"priority")
    (ht : Flags d tflags) :
    ∃ (b : BaseRule S) (r : RuleDef S R V),
      BaseRule.init name scores (attr d c!"describe") (attr d c!"priority") tflags = .ok b ∧
      r.base = b.preprocess E.conf ∧ r.base.name = name ∧ r.kind = mk p ∧
      alone E (name, d) =
        (if c!"__" <+: name ∨ r.base.score = 0 then { checked := [], notChecked := [(name, r)] }
         else { checked := [(name, r)], notChecked := [] }, none) := by
  obtain ⟨hkw, b, hi⟩ := mkBase_good name hs hd hpr ht
  have hb : mkBase name ⟨scores, attr d c!"describe", attr d c!"priority", tflags⟩ = .ok b := hi
  have hg : getRule E name t d = .ok (some { base := b, kind := mk p }) := by
    cases hk <;> simp [getRule, Parser.ruleTypes, hkw, hvalue, patternRule, hpat, mkRule, hb]
  have hpre : preprocess E { base := b, kind := mk p } =
      .ok ({ base := b.preprocess E.conf, kind := mk p } : RuleDef S R V) := by
    cases hk <;> rfl
  have ho : one E name d = .ok { base := b.preprocess E.conf, kind := mk p } := by
    unfold one
    simp [htype, hg, hpre]
  have hname : (b.preprocess E.conf).name = name := by
    rw [base_preprocess_name]; exact mkBase_name hb
  refine ⟨b, { base := b.preprocess E.conf, kind := mk p }, hi, rfl, hname, rfl, ?_⟩
  rw [alone_eq, ho]
  simp only [put, noRules, BaseRule.shouldCheck, hname, dunder, startsWith, List.isPrefixOf_iff_prefix,
    Dict.set]
  by_cases h1 : c!"__" <+: name
  · simp [h1]
  · by_cases h2 : (b.preprocess E.conf).score = 0
    · simp [h1, h2]
    · simp [h1, h2]

/-- **C18**.  In tolerant mode a definition of these types with a pattern that is rejected as
invalid leaves no rule and no error, and so does an entry without a type. -/
theorem C18_dropped (E : BuildEnv S R V) (hp : E.paranoid = false) {t : Str} {mk : Pat R → Kind R V}
    (hk : OnePattern t mk) (name : Str) (d : Data) :
    (Dict.get? d c!"type" = none → alone E (name, d) = (noRules, none)) ∧
    (∀ value scores tflags, Dict.get? d c!"type" = some (.str t) →
      Dict.get? d c!"value" = some (.str value) → perl2re E.re value false = .error .invalidRegex →
      Scores E d scores → Textual d c!"describe" → Textual d c!"priority" → Flags d tflags →
      alone E (name, d) = (noRules, none)) := by
  constructor
  · intro h
    have : one E name d = .error .invalidRule := by unfold one; simp [h]
    rw [alone_eq, this]; simp [hp]
  · intro value scores tflags htype hvalue hpat hs hd hpr ht
    obtain ⟨hkw, _⟩ := mkBase_good name hs hd hpr ht
    have : one E name d = .error .invalidRegex := by
      unfold one
      cases hk <;> simp [htype, getRule, Parser.ruleTypes, hkw, hvalue, patternRule, hpat]
    rw [alone_eq, this]; simp [hp]

/-! ### Concrete configurations -/

/-- Scores are integers, arguments are kept as texts, the name `oops` is unbound. -/
def buildEnv (paranoid : Bool) : BuildEnv Int (Str × ReFlags) Str where
  float := int?
  re := textLib
  evalArg := fun a => if a = c!"oops" then .error .other
    else if a.count '"' % 2 = 1 then .error .invalidRule else .ok a
  hasEval := fun f => f = c!"check_it" ∨ f = c!"all_ok"
  cmd := fun _ => none
  conf := { useNetwork := true, useBayes := true, autolearn := false, userConfig := true }
  paranoid := paranoid

def entry (t v : Str) : Data := [(c!"type", .str t), (c!"value", .str v)]

def demoResults : List (Str × Data) :=
  [(c!"A", entry c!"body" c!"/a/"), (c!"B", entry c!"body" c!"/*/"), (c!"C", [(c!"score", .str c!"2")]),
   (c!"__D", entry c!"uri" c!"/d/i")]

example : PluginNames (buildEnv false) := by intro t f n d r h; simp [buildEnv] at h
example : (demoResults.map Prod.fst).Nodup := by decide
example : ∀ e ∈ demoResults, (alone (buildEnv false) e).2 = none := by decide
example : (build (buildEnv false) demoResults noRules).1.checked.map Prod.fst = [c!"A"] ∧
    (build (buildEnv false) demoResults noRules).1.notChecked.map Prod.fst = [c!"__D"] := by decide
example : (alone (buildEnv true) demoResults[0]).2 = none ∧
    (alone (buildEnv true) demoResults[1]).2 = some .invalidRegex := by decide
example : Scores (buildEnv false) [(c!"score", .str c!" 1 2  3 4")] (some [1, 2, 3, 4]) :=
  .inr ⟨_, [1, 2, 3, 4], rfl, by decide, by decide, rfl⟩
example : Flags [(c!"tflags", .list [c!"net", c!"nice"])] (some [c!"net", c!"nice"]) :=
  .inr ⟨_, by simp, rfl, by decide⟩

theorem mkRule_priority {name : Str} {k : Kwargs S} {kind : Kind R V} {r : RuleDef S R V} (h : mkRule name k kind = .ok (some r))
    (hk : k.priority = none) : r.base.priority = 0 := by
  unfold mkRule mkBase BaseRule.init at h
  rw [hk] at h
  simp only at h
  split at h
  · cases h
  · rename_i b hb
    split at hb
    · split at hb
      · cases hb
        cases h
        rfl
      · cases hb
    · cases hb

theorem preprocess_priority (c : ScoreConf) (b : BaseRule S) : (b.preprocess c).priority = b.priority := by
  unfold BaseRule.preprocess
  repeat' split
  all_goals rfl

theorem mime_only (L : ReLib R) (v : Str) (h : HRule R) (hv : mimeHeaderRule L v = .ok (some h)) : ∃ raw hd p, h = .mime raw hd p := by
  unfold mimeHeaderRule at hv
  simp only at hv
  split at hv
  · cases hv
  · split at hv
    · cases hv
    · split at hv
      · cases hv
      · split at hv
        · split at hv
          · cases hv
            exact ⟨_, _, _, rfl⟩
          · cases hv
        · cases hv
          exact ⟨_, _, _, rfl⟩

/-- **C04** is violated: whatever priority is configured for a `mimeheader` rule, the rule has none. -/
theorem C04_mimeheader_violated (E : BuildEnv S R V) (n : Str) (d : Data) (h1 : Dict.get? d c!"type" = some (.str c!"mimeheader"))
    (p : Str × RuleDef S R V) (hp : p ∈ (alone E (n, d)).1.checked ∨ p ∈ (alone E (n, d)).1.notChecked) : p.2.base.priority = 0 := by
  rw [alone_eq] at hp
  cases ho : one E n d with
  | error e =>
    rw [ho] at hp
    cases e with
    | other => simp [noRules] at hp
    | invalidRule => simp only at hp; split at hp <;> simp [noRules] at hp
    | invalidRegex => simp only at hp; split at hp <;> simp [noRules] at hp
  | ok r =>
    have hr : r.base.priority = 0 := by
      unfold one at ho
      rw [h1] at ho
      simp only at ho
      cases hg : Build.getRule E n c!"mimeheader" d with
      | error e => rw [hg] at ho; cases ho
      | ok g =>
        rw [hg] at ho
        cases g with
        | none => cases ho
        | some g =>
          simp only at ho
          have hgp : g.base.priority = 0 := by
            unfold Build.getRule at hg
            rw [if_pos (by decide)] at hg
            cases hk : kwargs E d with
            | error e => rw [hk] at hg; cases hg
            | ok k =>
              rw [hk] at hg
              simp only at hg
              cases hv : Dict.get? d c!"value" with
              | none => rw [hv] at hg; cases hg
              | some w =>
                rw [hv] at hg
                cases w with
                | list _ => cases hg
                | str v =>
                  simp only at hg
                  rw [if_neg (by decide), if_neg (by decide), if_neg (by decide), if_neg (by decide), if_neg (by decide), if_neg (by decide),
                    if_pos trivial] at hg
                  cases hm : mimeHeaderRule E.re v with
                  | error e => rw [hm] at hg; cases hg
                  | ok h =>
                    rw [hm] at hg
                    cases h with
                    | none => cases hg
                    | some h =>
                      obtain ⟨raw, hd, q, rfl⟩ := mime_only E.re v h hm
                      exact mkRule_priority hg rfl
          unfold preprocess at ho
          simp only at ho
          split at ho
          · split at ho
            · cases ho
              rw [preprocess_priority]
              exact hgp
            · cases ho
          · cases ho
            rw [preprocess_priority]
            exact hgp
    rw [ho] at hp
    unfold put at hp
    simp only [noRules, Dict.set] at hp
    split at hp <;> simp at hp <;> rw [hp] <;> exact hr

example :
    ((alone (buildEnv false) (c!"M", (c!"priority", .str c!"5") :: entry c!"mimeheader" c!"X =~ /a/")).1.checked.map
      (fun p => p.2.base.priority)) = [0] ∧
    ((alone (buildEnv false) (c!"M", (c!"priority", .str c!"5") :: entry c!"header" c!"X =~ /a/")).1.checked.map
      (fun p => p.2.base.priority)) = [5] := by decide

/-- A definition that raises another exception than those for invalid rules ends the building: what follows is lost. -/
theorem build_fatal (E : BuildEnv S R V) (n : Str) (d : Data) (h : ∀ rs, buildOne E n d rs = .error .other) (after : List (Str × Data)) :
    ∀ (before : List (Str × Data)) (rs : Rules S R V), (build E (before ++ (n, d) :: after) rs).2 ≠ none ∧
      ∀ after', build E (before ++ (n, d) :: after') rs = build E (before ++ (n, d) :: after) rs
  | [], rs => by
    simp only [List.nil_append]
    unfold build
    rw [h rs]
    simp
  | (n', d') :: before, rs => by
    have ih := build_fatal E n d h after before
    simp only [List.cons_append]
    unfold build
    cases buildOne E n' d' rs with
    | ok rs' => exact ih rs'
    | error e =>
      cases e with
      | other => simp
      | invalidRule =>
        simp only
        by_cases hp : E.paranoid = true
        · simp [hp]
        · simp only [hp, Bool.false_eq_true, if_false]
          exact ih rs
      | invalidRegex =>
        simp only
        by_cases hp : E.paranoid = true
        · simp [hp]
        · simp only [hp, Bool.false_eq_true, if_false]
          exact ih rs

theorem floats_none (float : Str → Option S) : ∀ {ws : List Str} {w : Str}, w ∈ ws → float w = none → floats float ws = none
  | [], _, h, _ => by cases h
  | x :: xs, w, h, hw => by
    unfold floats
    rcases List.mem_cons.1 h with rfl | h
    · rw [hw]
    · rw [floats_none float h hw]
      cases float x <;> rfl

theorem textAttr_other {d : Data} {key : Str} {e : RuleErr} (h : textAttr d key = .error e) : e = .other := by
  unfold textAttr at h
  split at h <;> cases h
  rfl

theorem kwargs_other (E : BuildEnv S R V) (d : Data) {e : RuleErr} (h : kwargs E d = .error e) : e = .other := by
  unfold kwargs at h
  split at h
  · simp only at h
    split at h
    · cases h
    · split at h <;> cases h
      rfl
  all_goals first | (cases h; rfl) | (cases h; exact textAttr_other ‹_›)

theorem kwargs_score (E : BuildEnv S R V) (d : Data) (s w : Str) (h1 : Dict.get? d c!"score" = some (.str s)) (h2 : w ∈ splitWs s)
    (h3 : E.float w = none) : kwargs E d = .error .other := by
  cases hk : kwargs E d with
  | error e => rw [kwargs_other E d hk]
  | ok k =>
    have hs : textAttr d c!"score" = .ok (some s) := by unfold textAttr; rw [h1]
    unfold kwargs at hk
    rw [hs] at hk
    split at hk
    · rename_i h _ _
      cases h
      simp only at hk
      rw [show floats E.float (splitWs s) = none from floats_none _ h2 h3] at hk
      cases hk
    all_goals cases hk

/-- **C18** is violated: a score that is no number, in any definition, in tolerant mode as well, ends the building with an exception, and
all definitions after it are lost. -/
theorem C18_score_violated (E : BuildEnv S R V) (n : Str) (d : Data) (t s w : Str) (h1 : Dict.get? d c!"type" = some (.str t))
    (h2 : t ∈ Parser.ruleTypes) (h3 : Dict.get? d c!"score" = some (.str s)) (h4 : w ∈ splitWs s) (h5 : E.float w = none)
    (before after : List (Str × Data)) (rs : Rules S R V) :
    (build E (before ++ (n, d) :: after) rs).2 ≠ none ∧
      ∀ after', build E (before ++ (n, d) :: after') rs = build E (before ++ (n, d) :: after) rs := by
  refine build_fatal E n d (fun rs => ?_) after before rs
  unfold buildOne
  rw [h1]
  simp only
  unfold Build.getRule
  rw [if_pos h2, kwargs_score E d s w h3 h4 h5]

/-- **C18** is violated: so does a header rule without an operator … -/
theorem C18_header_violated (E : BuildEnv S R V) (n : Str) (d : Data) (v : Str) (h1 : Dict.get? d c!"type" = some (.str c!"header"))
    (h2 : Dict.get? d c!"value" = some (.str v)) (h3 : ¬ c!"=~" <:+: v) (h4 : ¬ c!"!~" <:+: v) (h5 : ¬ c!"exists:" <+: v)
    (before after : List (Str × Data)) (rs : Rules S R V) :
    (build E (before ++ (n, d) :: after) rs).2 ≠ none ∧
      ∀ after', build E (before ++ (n, d) :: after') rs = build E (before ++ (n, d) :: after) rs := by
  refine build_fatal E n d (fun rs => ?_) after before rs
  unfold buildOne
  rw [h1]
  simp only
  unfold Build.getRule
  rw [if_pos (by decide)]
  cases hk : kwargs E d with
  | error e => rw [kwargs_other E d hk]
  | ok k =>
    have e : headerRule E.re v = .ok none := by
      unfold headerRule
      rw [if_neg (by rw [hasSub_iff]; exact h3), if_neg (by rw [hasSub_iff]; exact h4)]
      simp only
      rw [if_neg (by rw [show startsWith c!"exists:" v = true ↔ c!"exists:" <+: v from List.isPrefixOf_iff_prefix]; exact h5)]
    simp only [h2]
    rw [if_neg (by decide), if_neg (by decide), if_neg (by decide), if_neg (by decide), if_neg (by decide), if_pos trivial, e]
    rfl

/-- **C18** is violated: … and an expression that consists of the letters m, g and s only. -/
theorem C18_blank_violated (E : BuildEnv S R V) (n : Str) (d : Data) (t v : Str) (h0 : t ∈ [c!"body", c!"rawbody", c!"full", c!"uri"])
    (h1 : Dict.get? d c!"type" = some (.str t)) (h2 : Dict.get? d c!"value" = some (.str v)) (h3 : ∀ c ∈ strip v, c ∈ c!"mgs")
    (before after : List (Str × Data)) (rs : Rules S R V) :
    (build E (before ++ (n, d) :: after) rs).2 ≠ none ∧
      ∀ after', build E (before ++ (n, d) :: after') rs = build E (before ++ (n, d) :: after) rs := by
  refine build_fatal E n d (fun rs => ?_) after before rs
  unfold buildOne
  rw [h1]
  simp only
  unfold Build.getRule
  have e : ∀ mk k, patternRule E mk n v k = .error .other := by
    intro mk k
    unfold patternRule perl2re
    have : lstripChars c!"mgs" (strip v) = [] := by
      unfold lstripChars lstripBy
      generalize strip v = s at h3
      induction s with
      | nil => rfl
      | cons c s ih =>
        rw [List.dropWhile_cons_of_pos (by simpa using h3 c (by simp)), ih (fun x hx => h3 x (by simp [hx]))]
    rw [this]
  simp only [List.mem_cons, List.not_mem_nil, or_false] at h0
  rw [if_pos (by rcases h0 with rfl | rfl | rfl | rfl <;> decide)]
  cases hk : kwargs E d with
  | error e => rw [kwargs_other E d hk]
  | ok k =>
    simp only [h2]
    rcases h0 with rfl | rfl | rfl | rfl
    · rw [if_neg (by decide), if_pos rfl, e]
    · rw [if_neg (by decide), if_neg (by decide), if_pos rfl, e]
    · rw [if_pos rfl, e]
    · rw [if_neg (by decide), if_neg (by decide), if_neg (by decide), if_pos rfl, e]

example :
    (build (buildEnv false) [(c!"H", entry c!"header" c!"Subject /a/"), (c!"A", entry c!"body" c!"/a/")] noRules) =
      (noRules, some .other) ∧
    (alone (buildEnv false) (c!"A", entry c!"body" c!"/a/")).1.checked.map Prod.fst = [c!"A"] := by decide

example :
    (build (buildEnv false) [(c!"H", (c!"score", .str c!"high") :: entry c!"body" c!"/h/"),
      (c!"A", entry c!"body" c!"/a/")] noRules) = (noRules, some .other) := by decide

example :
    (build (buildEnv false) [(c!"H", entry c!"body" c!"m"), (c!"A", entry c!"body" c!"/a/")] noRules) =
      (noRules, some .other) := by decide

/-! ### C58: eval rules -/

theorem splitChar_nocomma {c : Char} : ∀ {s : Str}, c ∉ s → splitChar c s = [s]
  | [], _ => rfl
  | x :: xs, h => by
    have hx : (x == c) = false := by
      simp only [List.mem_cons, not_or] at h
      simpa using fun e => h.1 e.symm
    simp only [splitChar, hx]
    rw [splitChar_nocomma (fun hm => h (List.mem_cons_of_mem _ hm))]
    simp

theorem splitChar_append {c : Char} (b : Str) : ∀ {a : Str}, c ∉ a → splitChar c (a ++ c :: b) = a :: splitChar c b
  | [], _ => by simp [splitChar]
  | x :: xs, h => by
    have hx : (x == c) = false := by
      simp only [List.mem_cons, not_or] at h
      simpa using fun e => h.1 e.symm
    simp only [List.cons_append, splitChar, hx]
    rw [splitChar_append b (fun hm => h (List.mem_cons_of_mem _ hm))]
    simp

theorem splitChar_join : ∀ (args : List Str), args ≠ [] → (∀ a ∈ args, ',' ∉ a) →
    splitChar ',' (join c!"," args) = args
  | [], h, _ => absurd rfl h
  | [a], _, h => splitChar_nocomma (h a (by simp))
  | a :: b :: r, _, h => by
    have e : join c!"," (a :: b :: r) = a ++ ',' :: join c!"," (b :: r) := by simp [join]
    rw [e, splitChar_append _ (h a (by simp)),
      splitChar_join (b :: r) (by simp) (fun x hx => h x (List.mem_cons_of_mem _ hx))]

theorem idStart_not_space {c : Char} (h : MetaExpr.isIdStart c = true) : isSpace c = false := by
  unfold MetaExpr.isIdStart at h
  simp only [Bool.or_eq_true, beq_iff_eq] at h
  rcases h with rfl | h
  · decide
  · have h' : (65 ≤ c.toNat ∧ c.toNat ≤ 90) ∨ (97 ≤ c.toNat ∧ c.toNat ≤ 122) := by
      simp only [Char.isAlpha, Char.isUpper, Char.isLower, Bool.or_eq_true, Bool.and_eq_true, decide_eq_true_eq,
        ge_iff_le, UInt32.le_iff_toNat_le] at h
      exact h
    unfold isSpace
    simp only [Bool.or_eq_false_iff, Bool.and_eq_false_iff, decide_eq_false_iff_not, beq_eq_false_iff_ne]
    omega

theorem evalGroups_written (fn args : Str) (hf : FnName fn) :
    evalGroups (fn ++ '(' :: (args ++ [')'])) = some (fn, args) := by
  obtain ⟨c, cs, rfl, hc, hcs⟩ := hf
  have hw : (cs ++ '(' :: (args ++ [')'])).takeWhile MetaExpr.isWord = cs := by
    rw [List.takeWhile_append_of_pos hcs]
    have : MetaExpr.isWord '(' = false := by decide
    simp [List.takeWhile_cons, this]
  simp only [List.cons_append, evalGroups, hc, if_true, hw]
  rw [List.drop_append_of_le_length (Nat.le_refl _)]
  simp only [List.drop_length, List.nil_append]
  rw [rsplit1_append args (b := []) (by simp)]

/-- **C58** (partial).  `eval:fn(a1,…,an)`, with any trailing white space, becomes a rule that calls
the function `fn` with exactly the values of the written arguments in their order, and with the
rule type as its target.

Missing: names that begin with one of the characters of `eval:` (`C58_name_violated`) and
arguments that contain a comma (`C58_comma_violated`). -/
theorem C58_call_partial (E : BuildEnv S R V) (name fn trail : Str) (args : List Str) (vals : List V)
    (target : Option Str) (k : Kwargs S) (b : BaseRule S) (hb : mkBase name k = .ok b)
    (hf : FnName fn) (hfirst : ∀ c, fn.head? = some c → c ∉ c!"eval:")
    (htrail : ∀ c ∈ trail, isSpace c = true)
    (hargs : ∀ a ∈ args, ',' ∉ a ∧ a ≠ []) (hvals : args.map E.evalArg = vals.map .ok) :
    evalRule E name (evalText fn args trail) target k =
      .ok (some { base := b, kind := .eval fn vals target }) := by
  have hev : ∀ (as : List Str) (vs : List V), as.map E.evalArg = vs.map .ok → evalArgs E as = .ok vs := by
    intro as
    induction as with
    | nil => intro vs h; cases vs <;> simp_all [evalArgs]
    | cons a as ih =>
      intro vs h
      cases vs with
      | nil => simp at h
      | cons v vs =>
        simp only [List.map_cons, List.cons.injEq] at h
        simp [evalArgs, h.1, ih vs h.2]
  have htext : strip (lstripChars c!"eval:" (evalText fn args trail)) = fn ++ '(' :: (join c!"," args ++ [')']) := by
    obtain ⟨c, cs, rfl, hc, hcs⟩ := id hf
    have hc' := hfirst c rfl
    have e : lstripChars c!"eval:" (evalText (c :: cs) args trail) =
        (c :: cs ++ '(' :: (join c!"," args ++ [')'])) ++ trail := by
      unfold evalText lstripChars lstripBy
      rw [List.append_assoc, dropWhile_all _ (by decide)]
      simp only [List.cons_append]
      rw [dropWhile_head _ (by simpa using hc')]
    rw [e]
    have := strip_around (lead := []) (core := c :: cs ++ '(' :: (join c!"," args ++ [')'])) (trail := trail)
      (by simp) htrail ⟨c, _, rfl, idStart_not_space hc⟩
      ⟨c :: cs ++ '(' :: join c!"," args, ')', by simp, by decide⟩
    simpa using this
  unfold evalRule
  simp only [htext, hb, evalGroups_written _ _ hf]
  cases args with
  | nil =>
    cases vals with
    | nil => simp [join]
    | cons v vs => simp at hvals
  | cons a as =>
    have hne : join c!"," (a :: as) ≠ [] := by
      have ha := (hargs a (by simp)).2
      cases as <;> simp [join, ha]
    rw [if_neg hne, splitChar_join _ (by simp) (fun x hx => (hargs x hx).1), hev _ _ hvals]

example : FnName c!"check_it" ∧ (∀ c, (c!"check_it").head? = some c → c ∉ c!"eval:") :=
  ⟨⟨'c', _, rfl, by decide, by decide⟩, by simp⟩
example : (alone (buildEnv false) (c!"E", entry c!"eval" c!"eval:check_it(1, 2) ")).1.checked.map (fun p => p.2.kind) =
    [.eval c!"check_it" [c!"1", c!" 2"] none] := by decide

/-- **C58** is violated: letters of `eval:` at the beginning of the name of a function are dropped, so that another function is called. -/
theorem C58_name_violated (E : BuildEnv S R V) (name pre fn trail : Str) (args : List Str) (target : Option Str) (k : Kwargs S)
    (hpre : ∀ c ∈ pre, c ∈ c!"eval:") :
    evalRule E name (evalText (pre ++ fn) args trail) target k = evalRule E name (evalText fn args trail) target k := by
  have e : ∀ x, lstripChars c!"eval:" (c!"eval:" ++ x) = lstripChars c!"eval:" x := by
    intro x
    unfold lstripChars lstripBy
    exact dropWhile_all _ (by decide)
  have e2 : ∀ x, lstripChars c!"eval:" (pre ++ x) = lstripChars c!"eval:" x := by
    intro x
    unfold lstripChars lstripBy
    exact dropWhile_all _ (fun c hc => by simpa using hpre c hc)
  unfold evalRule evalText
  simp only [List.append_assoc, e, e2]

/-- **C58** is violated: an argument with a comma in it is cut in two.  If one of the pieces is no expression, there is no rule, although
the argument is one. -/
theorem C58_comma_violated (E : BuildEnv S R V) (name fn trail a b : Str) (target : Option Str) (k : Kwargs S)
    (hf : FnName fn) (hfirst : ∀ c, fn.head? = some c → c ∉ c!"eval:") (htrail : ∀ c ∈ trail, isSpace c = true) (ha : ',' ∉ a)
    (hbad : ∃ e, E.evalArg a = .error e) : ∃ e, evalRule E name (evalText fn [a ++ ',' :: b] trail) target k = .error e := by
  have htext : strip (lstripChars c!"eval:" (evalText fn [a ++ ',' :: b] trail)) = fn ++ '(' :: ((a ++ ',' :: b) ++ [')']) := by
    obtain ⟨c, cs, rfl, hc, hcs⟩ := id hf
    have hc' := hfirst c rfl
    have e : lstripChars c!"eval:" (evalText (c :: cs) [a ++ ',' :: b] trail) = (c :: cs ++ '(' :: ((a ++ ',' :: b) ++ [')'])) ++ trail := by
      unfold evalText lstripChars lstripBy
      rw [List.append_assoc, dropWhile_all _ (by decide)]
      simp only [List.cons_append, join]
      rw [dropWhile_head _ (by simpa using hc')]
    rw [e]
    have := strip_around (lead := []) (core := c :: cs ++ '(' :: ((a ++ ',' :: b) ++ [')'])) (trail := trail)
      (by simp) htrail ⟨c, _, rfl, idStart_not_space hc⟩ ⟨c :: cs ++ '(' :: (a ++ ',' :: b), ')', by simp, by decide⟩
    simpa using this
  obtain ⟨e, he⟩ := hbad
  unfold evalRule
  simp only [htext, evalGroups_written _ _ hf]
  cases mkBase name k with
  | error e => exact ⟨e, rfl⟩
  | ok base =>
    simp only
    rw [if_neg (by simp), splitChar_append _ ha]
    unfold evalArgs
    rw [he]
    exact ⟨e, rfl⟩

example :
    (buildEnv false).hasEval c!"all_ok" = true ∧
    evalRule (buildEnv false) c!"E" c!"eval:all_ok()" none ⟨none, none, none, none⟩ =
      evalRule (buildEnv false) c!"E" c!"eval:_ok()" none ⟨none, none, none, none⟩ ∧
    alone (buildEnv false) (c!"E", entry c!"eval" c!"eval:all_ok()") = (noRules, none) := by decide

example :
    (buildEnv false).evalArg c!"\"a,b\"" = .ok c!"\"a,b\"" ∧
    alone (buildEnv false) (c!"E", entry c!"eval" c!"eval:check_it(\"a,b\")") = (noRules, none) := by decide

/-- **C58**.  An eval rule whose function is not registered is invalid. -/
theorem C58_unregistered (E : BuildEnv S R V) (r : RuleDef S R V) (fn : Str) (args : List V) (t : Option Str)
    (hk : r.kind = .eval fn args t) (h : E.hasEval fn = false) (rs : Rules S R V) :
    addRule E rs (some r) = .error .invalidRule := by
  unfold addRule preprocess
  simp [hk, h]

end Verif.Props
