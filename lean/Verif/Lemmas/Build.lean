import Verif.Spec.Build
import Verif.Lemmas.Strip

/-! Lemmas about building rulesets. -/

namespace Verif.Build
open Verif Py Spec

variable {S R V : Type} [PyNum S]

/-- The rule an entry stands for, before it is put in the ruleset. -/
def one (E : BuildEnv S R V) (name : Str) (d : Data) : Except RuleErr (RuleDef S R V) :=
  match Dict.get? d c!"type" with
  | none => .error .invalidRule
  | some (.list _) => .error .other
  | some (.str t) =>
    match getRule E name t d with
    | .error e => .error e
    | .ok none => .error .other
    | .ok (some r) => preprocess E r

def put (rs : Rules S R V) (r : RuleDef S R V) : Rules S R V :=
  if r.base.shouldCheck then { rs with checked := Dict.set rs.checked r.base.name r }
  else { rs with notChecked := Dict.set rs.notChecked r.base.name r }

theorem buildOne_eq (E : BuildEnv S R V) (name : Str) (d : Data) (rs : Rules S R V) :
    buildOne E name d rs = match one E name d with
      | .error e => .error e
      | .ok r => .ok (put rs r) := by
  unfold buildOne one
  cases Dict.get? d c!"type" with
  | none => rfl
  | some v =>
    cases v with
    | list l => rfl
    | str t =>
      simp only
      cases getRule E name t d with
      | error e => rfl
      | ok r =>
        cases r with
        | none => rfl
        | some r =>
          simp only [addRule]
          cases preprocess E r with
          | error e => rfl
          | ok r' => simp only [put]; split <;> rfl

theorem preprocess_name {E : BuildEnv S R V} {r r' : RuleDef S R V} (h : preprocess E r = .ok r') :
    r' = { r with base := r.base.preprocess E.conf } := by
  unfold preprocess at h
  cases hk : r.kind <;> simp only [hk] at h
  case eval fn a t => split at h <;> simp at h; exact h.symm
  all_goals simp at h; exact h.symm

theorem base_preprocess_name (c : ScoreConf) (b : BaseRule S) : (b.preprocess c).name = b.name := by
  unfold BaseRule.preprocess
  repeat' split
  all_goals rfl

theorem mkBase_name {name : Str} {k : Kwargs S} {b : BaseRule S} (h : mkBase name k = .ok b) : b.name = name := by
  unfold mkBase BaseRule.init at h
  simp only at h
  split at h
  · split at h
    · simp at h; rw [← h]
    · simp at h
  · simp at h

theorem mkRule_name {name : Str} {k : Kwargs S} {kd : Kind R V} {r : RuleDef S R V}
    (h : mkRule name k kd = .ok (some r)) : r.base.name = name := by
  unfold mkRule at h
  cases hb : mkBase name k with
  | error e => simp [hb] at h
  | ok b => simp [hb] at h; rw [← h]; exact mkBase_name hb

theorem headerKind_name {name : Str} {k : Kwargs S} {x : Except RuleErr (Option (HRule R))} {r : RuleDef S R V}
    (h : headerKind name k x = .ok (some r)) : r.base.name = name := by
  unfold headerKind at h
  split at h
  · simp at h
  · simp at h
  · exact mkRule_name h
  · exact mkRule_name h

theorem patternRule_name {E : BuildEnv S R V} {mk : Pat R → Kind R V} {name v : Str} {k : Kwargs S}
    {r : RuleDef S R V} (h : patternRule E mk name v k = .ok (some r)) : r.base.name = name := by
  unfold patternRule at h
  split at h
  · simp at h
  · exact mkRule_name h

theorem evalRule_name {E : BuildEnv S R V} {name v : Str} {t : Option Str} {k : Kwargs S}
    {r : RuleDef S R V} (h : evalRule E name v t k = .ok (some r)) : r.base.name = name := by
  unfold evalRule at h
  simp only at h
  cases hb : mkBase name k with
  | error e => simp [hb] at h
  | ok b =>
    simp only [hb] at h
    split at h
    · simp at h
    · split at h
      · simp at h
      · simp at h; rw [← h]; exact mkBase_name hb

theorem getRule_name {E : BuildEnv S R V} (hc : PluginNames E) {name t : Str} {d : Data} {r : RuleDef S R V}
    (h : getRule E name t d = .ok (some r)) : r.base.name = name := by
  unfold getRule at h
  split at h
  · split at h
    · simp at h
    · split at h
      · repeat' split at h
        all_goals first
          | exact patternRule_name h
          | exact mkRule_name h
          | exact headerKind_name h
          | exact evalRule_name h
          | simp at h
      · simp at h
  · split at h
    · simp at h
    · rename_i f hf
      exact hc _ _ _ _ _ hf h

theorem one_name {E : BuildEnv S R V} (hc : PluginNames E) {name : Str} {d : Data} {r : RuleDef S R V}
    (h : one E name d = .ok r) : r.base.name = name := by
  unfold one at h
  split at h
  · simp at h
  · simp at h
  · split at h
    · simp at h
    · simp at h
    · rename_i hg
      rw [preprocess_name h]
      simp only [base_preprocess_name]
      exact getRule_name hc hg

theorem build_cons (E : BuildEnv S R V) (name : Str) (d : Data) (l : List (Str × Data)) (rs : Rules S R V) :
    build E ((name, d) :: l) rs = match one E name d with
      | .ok r => build E l (put rs r)
      | .error .other => (rs, some .other)
      | .error e => if E.paranoid then (rs, some e) else build E l rs := by
  rw [build, buildOne_eq]
  cases one E name d with
  | ok r => rfl
  | error e => cases e <;> rfl

end Verif.Build
