import Verif.Lemmas.ParserLines

namespace Verif.Parser
open Verif Py

variable {C : Type}

theorem splitNone_two_cases (l : Str) :
    (∃ a b c, splitNone 2 l = [a, b, c]) ∨ (splitNone 2 l).length < 3 := by
  simp only [splitNone]
  repeat' split
  all_goals simp

theorem handleTwo_short (E : Env C) (line : Str) (s : State C) (h : (splitNone 2 line).length < 3) :
    handleTwo E line s = (s, some .syntax) := by
  unfold handleTwo
  split
  · rename_i heq; rw [heq] at h; simp at h
  · rfl

theorem assigns_short (isCmd : Str → Bool) (raw : Str) (h : (splitNone 2 (logical raw)).length < 3) :
    assigns isCmd raw = [] := by
  unfold assigns
  split
  · rfl
  · split
    · rename_i heq; rw [heq] at h; simp at h
    · rfl

theorem ruleTypes_known2 {t : Str} (h : t ∈ ruleTypes) : t ∈ known2 := by
  simp only [ruleTypes, List.mem_cons, List.not_mem_nil, or_false] at h
  rcases h with h | h | h | h | h | h | h | h <;> subst h <;> decide

theorem assigns_config (isCmd : Str → Bool) (raw : Str) (h1 : keyword raw ∉ known2)
    (h2 : isCmd (keyword raw) ≠ true) : assigns isCmd raw = [] := by
  rcases splitNone_two_cases (logical raw) with ⟨t, n, v, h3⟩ | h3
  · unfold assigns
    split
    · rfl
    · rw [h3]
      have hkt := keyword_of_three h3
      rw [hkt] at h1 h2
      have hr : ¬ (t ∈ ruleTypes ∨ isCmd t = true) := by
        rintro (h | h)
        · exact h1 (ruleTypes_known2 h)
        · exact h2 h
      simp only [if_neg hr]
      rw [if_neg, if_neg]
      · rintro (rfl | rfl | rfl) <;> exact h1 (by decide)
      · rintro rfl; exact h1 (by decide)
  · exact assigns_short _ _ h3

/-- What one defining line does. -/
theorem hl_assigns (E : Env C) (inc : Inc C) (f raw : Str) (s : State C) (hd : Defining raw)
    (hi : s.ignore = false)
    (hcmd : keyword raw ∉ known2 → E.isCmd s.ctx (keyword raw) = false →
      ∀ t, E.isCmd (E.parseConfig s.ctx (keyword raw) (argument raw)).1 t = E.isCmd s.ctx t)
    (hok : (handleLine E inc f raw s).2 ≠ some .other) :
    (handleLine E inc f raw s).1.results =
      (assigns (E.isCmd s.ctx) raw).foldl assign s.results ∧
    (∀ t, E.isCmd (handleLine E inc f raw s).1.ctx t = E.isCmd s.ctx t) := by
  obtain ⟨⟨hc, hp⟩, hl⟩ := hd
  by_cases hs : Skipped raw
  · have : assigns (E.isCmd s.ctx) raw = [] := by unfold assigns; rw [if_pos hs]
    rw [this, hl_skipped _ _ _ _ _ hc (Or.inl hs)]
    exact ⟨rfl, fun _ => rfl⟩
  · rw [hl_main _ _ _ _ _ hc hs hi] at hok ⊢
    obtain ⟨hk1, hk2⟩ := hp hs
    obtain ⟨hk3, hk4⟩ := hl hs
    unfold dispatch at hok ⊢
    rw [if_neg hk1, if_neg hk2, if_neg hk4] at hok ⊢
    by_cases h2 : keyword raw ∈ known2 ∨ E.isCmd s.ctx (keyword raw) = true
    · rw [if_pos h2] at hok ⊢
      rcases splitNone_two_cases (logical raw) with ⟨t, n, v, h3⟩ | h3
      · unfold handleTwo at hok ⊢
        unfold assigns
        rw [if_neg hs]
        rw [h3] at hok ⊢
        have hkt := keyword_of_three h3
        rw [hkt] at hk3 h2
        simp only [if_neg hk3] at hok ⊢
        by_cases htf : t = c!"tflags"
        · rw [if_pos htf] at hok ⊢
          by_cases hr : t ∈ ruleTypes ∨ E.isCmd s.ctx t = true
          · exfalso
            apply hok
            unfold store
            simp only
            rw [if_pos hr]
          · obtain ⟨a, b, c⟩ := store_list_results E t n (splitWs v) s hr
            rw [if_neg hr, if_pos htf, b, c]
            exact ⟨rfl, fun _ => rfl⟩
        · rw [if_neg htf] at hok ⊢
          obtain ⟨a, b, c⟩ := store_results E t n v s
          rw [b, c]
          refine ⟨?_, fun _ => rfl⟩
          by_cases hr : t ∈ ruleTypes ∨ E.isCmd s.ctx t = true
          · rw [if_pos hr, if_pos hr]
          · rw [if_neg hr, if_neg hr, if_neg htf, if_pos]
            simp only [not_or] at hr
            rcases h2 with h2 | h2
            · simp only [known2, List.mem_cons, List.not_mem_nil, or_false] at h2
              simp only [ruleTypes, List.mem_cons, List.not_mem_nil, or_false, not_or] at hr
              rcases h2 with h | h | h | h | h | h | h | h | h | h | h | h | h <;> simp_all
            · exact absurd h2 hr.2
      · rw [handleTwo_short _ _ _ h3, assigns_short _ _ h3]
        exact ⟨rfl, fun _ => rfl⟩
    · rw [if_neg h2] at hok ⊢
      simp only [not_or] at h2
      rw [assigns_config _ _ h2.1 h2.2]
      unfold handleConfig
      have := hcmd h2.1 (by simpa using h2.2)
      cases hcf : E.parseConfig s.ctx (keyword raw) (argument raw) with
      | mk c r =>
        rw [hcf] at this
        cases r with
        | done b => exact ⟨rfl, this⟩
        | raised e => exact ⟨rfl, this⟩

theorem assigns_congr {g h : Str → Bool} (hgh : ∀ t, g t = h t) (raw : Str) :
    assigns g raw = assigns h raw := by
  have : g = h := funext hgh
  rw [this]

theorem lines_assigns (E : Env C) (inc : Inc C) (f : Str)
    (hcmd : ∀ c k v t, E.isCmd (E.parseConfig c k v).1 t = E.isCmd c t)
    (ls : List Str) (hd : ∀ l ∈ ls, Defining l) :
    ∀ s : State C, s.ignore = false → (parseLines E inc f ls s).2 = none →
    (parseLines E inc f ls s).1.results =
      (ls.flatMap (assigns (E.isCmd s.ctx))).foldl assign s.results := by
  induction ls with
  | nil => intro s _ _; rfl
  | cons l ls ih =>
    intro s hi hok
    rw [parseLines_cons] at hok ⊢
    have hgo : andThen E.paranoid (handleLine E inc f l s) (parseLines E inc f ls) =
        parseLines E inc f ls (handleLine E inc f l s).1 ∧ (handleLine E inc f l s).2 ≠ some .other := by
      cases hr : handleLine E inc f l s with
      | mk s' e =>
        rw [hr] at hok
        cases e with
        | none => exact ⟨rfl, by simp⟩
        | some e =>
          cases e with
          | «syntax» =>
            unfold andThen at hok ⊢
            simp only at hok ⊢
            split at hok
            · cases hok
            · rename_i h; rw [if_neg h]; exact ⟨rfl, by simp⟩
          | pluginLoad => exact ⟨rfl, by simp⟩
          | plugin => cases hok
          | maxRec => cases hok
          | other => cases hok
    rw [hgo.1] at hok ⊢
    have hl := hl_assigns E inc f l s (hd l (by simp)) hi (fun _ _ => hcmd _ _ _) hgo.2
    have hi' := plain_ignore E inc f l s (hd l (by simp)).1 hi
    rw [ih (fun x hx => hd x (List.mem_cons_of_mem _ hx)) _ hi' hok, hl.1, List.flatMap_cons,
      List.foldl_append]
    have : assigns (E.isCmd (handleLine E inc f l s).1.ctx) = assigns (E.isCmd s.ctx) :=
      funext (assigns_congr hl.2)
    rw [this]

theorem attr_assign (res : Dict Str (Dict Str PVal)) (x : Str × Str × PVal) (n a : Str) :
    (Dict.get? (assign res x) n).bind (fun d => Dict.get? d a) =
      if x.1 = n ∧ x.2.1 = a then some x.2.2 else (Dict.get? res n).bind (fun d => Dict.get? d a) := by
  have := attr_set Unit res false () x.1 x.2.1 _ x.2.2 n a rfl
  unfold State.attr at this
  exact this

theorem attr_foldl (as : List (Str × Str × PVal)) (res : Dict Str (Dict Str PVal)) (n a : Str) :
    (Dict.get? (as.foldl assign res) n).bind (fun d => Dict.get? d a) =
      match lastValue as n a with
      | some v => some v
      | none => (Dict.get? res n).bind (fun d => Dict.get? d a) := by
  induction as generalizing res with
  | nil => rfl
  | cons x xs ih =>
    rw [List.foldl_cons, ih, attr_assign]
    unfold lastValue
    rw [List.reverse_cons, List.find?_append]
    cases hf : xs.reverse.find? (fun x => decide (x.1 = n) && decide (x.2.1 = a)) with
    | some y => simp
    | none =>
      by_cases h : x.1 = n ∧ x.2.1 = a
      · simp [h.1, h.2]
      · rw [if_neg h]
        have : (decide (x.1 = n) && decide (x.2.1 = a)) = false := by
          cases hx : (decide (x.1 = n) && decide (x.2.1 = a)) with
          | false => rfl
          | true => simp at hx; exact absurd hx h
        simp [this]

theorem keys_foldl (as : List (Str × Str × PVal)) (res : Dict Str (Dict Str PVal)) :
    Dict.keys (as.foldl assign res) =
      Dict.keys res ++ (firstMentions (as.map (fun x => x.1))).filter (fun n => !(decide (n ∈ Dict.keys res))) := by
  induction as generalizing res with
  | nil => simp [firstMentions]
  | cons x xs ih =>
    rw [List.foldl_cons, ih, dict_keys_assign, List.map_cons, firstMentions]
    by_cases h : x.1 ∈ Dict.keys res
    · rw [if_pos h, List.filter_cons, if_neg (by simp [h])]
      congr 1
      rw [List.filter_filter]
      apply List.filter_congr
      intro n hn
      by_cases hnx : n = x.1
      · subst hnx; simp [h]
      · simp [hnx]
    · rw [if_neg h, List.filter_cons, if_pos (by simp [h]), List.append_assoc]
      congr 1
      rw [List.singleton_append]
      congr 1
      rw [List.filter_filter]
      apply List.filter_congr
      intro n hn
      by_cases hnx : n = x.1
      · subst hnx; simp
      · simp [hnx]

/-! ### Never stopping -/

/-- The only error that can leave the parser in a harmless environment. -/
def Fine (e : Option Err) : Prop := e = none ∨ e = some .maxRec

theorem hl_fine (E : Env C) {I : C → Prop} {opt : Str → Str → Prop} {plug : Str → Option Str → Prop} (h : Harmless E I opt plug)
    (inc : Inc C) (f raw : Str)
    (hinc : ∀ g s, includeTarget f raw = some g → I s.ctx → Fine (inc g s).2 ∧ I (inc g s).1.ctx)
    (s : State C) (hI : I s.ctx) (hcl : Clean E opt plug raw) :
    (Fine (handleLine E inc f raw s).2 ∨ (handleLine E inc f raw s).2 = some .syntax ∨
      (handleLine E inc f raw s).2 = some .pluginLoad) ∧ I (handleLine E inc f raw s).1.ctx := by
  by_cases hc : Closer raw
  · rcases hc with hc | hc
    · rw [hl_endif _ _ _ _ _ hc]; exact ⟨Or.inl (Or.inl rfl), hI⟩
    · rw [hl_else _ _ _ _ _ hc]; exact ⟨Or.inl (Or.inl rfl), hI⟩
  · by_cases hs : Skipped raw ∨ s.ignore = true
    · rw [hl_skipped _ _ _ _ _ hc hs]; exact ⟨Or.inl (Or.inl rfl), hI⟩
    · simp only [not_or] at hs
      have hsi : s.ignore = false := by simpa using hs.2
      cases ht : includeTarget f raw with
      | some g =>
        rw [hl_include _ _ _ _ _ _ ht, if_neg (by simp [hsi])]
        exact ⟨.inl (hinc g s ht hI).1, (hinc g s ht hI).2⟩
      | none =>
        rw [hl_main _ _ _ _ _ hc hs.1 hsi]
        have hk : keyword raw ≠ c!"include" := by
          rcases (includeTarget_none_iff ..).1 ht with h | h | h
          · exact absurd h hs.1
          · exact absurd h hc
          · exact h
        unfold dispatch
        rw [if_neg hk]
        split
        · refine ⟨Or.inl (Or.inl rfl), ?_⟩
          have : (handleIfplugin E (argument raw) s).ctx = s.ctx := by
            unfold handleIfplugin; simp only []; generalize E.hasPlugin _ _ = b; cases b <;> rfl
          rw [this]; exact hI
        · rename_i hif
          split
          · rename_i hlp
            have := load_harmless E h (argument raw) s hI (hcl.plugin hlp)
            refine ⟨?_, this.2.2⟩
            rcases this.1 with h | h
            · exact Or.inl (Or.inl h)
            · exact Or.inr (Or.inr h)
          · split
            · have := two_harmless E h (logical raw) s hI hcl.lang
              refine ⟨?_, this.2.2⟩
              rcases this.1 with h | h
              · exact Or.inl (Or.inl h)
              · exact Or.inr (Or.inl h)
            · rename_i hlp htwo
              have := config_harmless E h _ _ s hI
                (hcl.option hs.1 (fun hk2 => htwo (.inl hk2)) (by simp [hk, hif, hlp]))
              exact ⟨Or.inl (Or.inl this.1), this.2.2⟩

theorem parseLines_fine (E : Env C) {I : C → Prop} {opt : Str → Str → Prop} {plug : Str → Option Str → Prop} (h : Harmless E I opt plug)
    (inc : Inc C) (f : Str) (ls : List Str)
    (hinc : ∀ l ∈ ls, ∀ g s, includeTarget f l = some g → I s.ctx → Fine (inc g s).2 ∧ I (inc g s).1.ctx)
    (hcl : ∀ l ∈ ls, Clean E opt plug l) :
    ∀ s : State C, I s.ctx → Fine (parseLines E inc f ls s).2 ∧ I (parseLines E inc f ls s).1.ctx := by
  induction ls with
  | nil => intro s hI; exact ⟨Or.inl rfl, hI⟩
  | cons l ls ih =>
    intro s hI
    have ih := ih (fun l hl => hinc l (List.mem_cons_of_mem _ hl)) (fun l hl => hcl l (List.mem_cons_of_mem _ hl))
    rw [parseLines_cons]
    have hl := hl_fine E h inc f l (hinc l (by simp)) s hI (hcl l (by simp))
    cases hr : handleLine E inc f l s with
    | mk s' e =>
      rw [hr] at hl
      simp only at hl
      obtain ⟨hl, hI'⟩ := hl
      rcases hl with (rfl | rfl) | rfl | rfl
      · exact ih s' hI'
      · exact ⟨Or.inr rfl, hI'⟩
      · simp only [andThen, h.tolerant]; exact ih s' hI'
      · exact ih s' hI'

theorem parseFile_fine (E : Env C) {I : C → Prop} {opt : Str → Str → Prop} {plug : Str → Option Str → Prop} (h : Harmless E I opt plug) :
    ∀ (n : Nat) (f : Str) (s : State C), I s.ctx →
    (∀ g lines, (g = f ∨ Reaches E f g) → E.files g = some lines → ∀ l ∈ lines, Clean E opt plug l) →
    Fine (parseFile E n f s).2 ∧ I (parseFile E n f s).1.ctx := by
  intro n
  induction n with
  | zero => intro f s hI _; exact ⟨Or.inr rfl, hI⟩
  | succ n ih =>
    intro f s hI hcl
    simp only [parseFile]
    split
    · exact ⟨Or.inl rfl, hI⟩
    · rename_i lines hf
      refine parseLines_fine E h _ f lines ?_ (hcl f lines (.inl rfl) hf) s hI
      intro l hl g s hg hI
      have hinc : Includes E f g := ⟨lines, l, hf, hl, hg⟩
      exact ih g s hI (fun g' lines' hr => hcl g' lines' (Or.inr (by
        rcases hr with rfl | hr
        · exact .one hinc
        · exact .step hinc hr)))

theorem hl_malformed (E : Env C) (inc : Inc C) (f raw : Str) (s : State C) (h : Malformed raw)
    (hi : s.ignore = false) : handleLine E inc f raw s = (s, some .syntax) := by
  obtain ⟨h1, h2, h3, h4⟩ := h
  rw [hl_main _ _ _ _ _ h2 h1 hi]
  unfold dispatch
  have hne : ∀ w, w ∉ known2 → keyword raw ≠ w := by
    intro w hw he; rw [he] at h3; exact hw h3
  rw [if_neg (hne _ (by decide)), if_neg (hne _ (by decide)), if_neg (hne _ (by decide)),
    if_pos (Or.inl h3)]
  exact handleTwo_short _ _ _ h4

end Verif.Parser
