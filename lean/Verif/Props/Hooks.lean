import Verif.Spec.Hooks

/-!
# C164: the hooks of plugins
-/

namespace Verif.Props
open Verif Py Hooks

variable {S : Type}

/-! ### Chains -/

theorem chain_sub (ps : List (Plugin S)) (h : Hook) (s : S) : (chain ps h s).1.Sublist (forAll (ps.map Plugin.name) h) := by
  induction ps generalizing s with
  | nil => exact List.Sublist.refl _
  | cons p ps ih =>
    unfold chain
    rcases hc : p.call h s with ⟨o, s'⟩
    cases o with
    | returned => exact (ih s').cons_cons _
    | inhibit => exact (List.nil_sublist _).cons_cons _
    | raised => exact (List.nil_sublist _).cons_cons _

theorem chain_quiet (ps : List (Plugin S)) (hq : ∀ p ∈ ps, Quiet p) (h : Hook) (s : S) :
    (chain ps h s).1 = forAll (ps.map Plugin.name) h ∧ (chain ps h s).2.2 = true := by
  induction ps generalizing s with
  | nil => exact ⟨rfl, rfl⟩
  | cons p ps ih =>
    have hp := hq p List.mem_cons_self h s
    unfold chain
    rcases hc : p.call h s with ⟨o, s'⟩
    rw [hc] at hp
    simp only at hp
    subst hp
    have := ih (fun q hq' => hq q (List.mem_cons_of_mem _ hq')) s'
    exact ⟨by simp [forAll, this.1], this.2⟩

/-- Plugins before the first that does not return. -/
theorem chain_first (a : List (Plugin S)) (p : Plugin S) (b : List (Plugin S)) (h : Hook) (s : S) (ha : ∀ q ∈ a, ∀ s, (q.call h s).1 = .returned)
    (o : Out) (ho : o ≠ .returned) (hp : ∀ s, (p.call h s).1 = o) :
    (chain (a ++ p :: b) h s).1 = forAll ((a ++ [p]).map Plugin.name) h ∧ (chain (a ++ p :: b) h s).2.2 = decide (o = .inhibit) := by
  induction a generalizing s with
  | nil =>
    have := hp s
    simp only [List.nil_append]
    unfold chain
    rcases hc : p.call h s with ⟨o', s'⟩
    rw [hc] at this
    simp only at this
    subst this
    cases o' with
    | returned => exact absurd rfl ho
    | inhibit => exact ⟨rfl, rfl⟩
    | raised => exact ⟨rfl, rfl⟩
  | cons q a ih =>
    have hq := ha q List.mem_cons_self s
    simp only [List.cons_append]
    unfold chain
    rcases hc : q.call h s with ⟨o', s'⟩
    rw [hc] at hq
    simp only at hq
    subst hq
    have := ih s' (fun q' h' => ha q' (List.mem_cons_of_mem _ h'))
    exact ⟨by simp only [this.1]; simp [forAll], this.2⟩

/-! ### Stages -/

/-- The events of a stage if nothing goes wrong. -/
def full (names : List Str) : Stage S → List Event
  | .hook h => forAll names h
  | .work e _ => [e]
  | .rules _ => [.rules]

theorem run_sub (ps : List (Plugin S)) (st : List (Stage S)) (s : S) : (runStages ps st s).1.Sublist (st.flatMap (full (ps.map Plugin.name))) := by
  induction st generalizing s with
  | nil => exact List.Sublist.refl _
  | cons x st ih =>
    rw [List.flatMap_cons]
    cases x with
    | hook h =>
      unfold runStages
      rcases hc : chain ps h s with ⟨t, s', b⟩
      have ht : t.Sublist (forAll (ps.map Plugin.name) h) := by have := chain_sub ps h s; rwa [hc] at this
      cases b with
      | false => exact ht.trans (List.sublist_append_left _ _)
      | true => exact ht.append (ih s')
    | work e f =>
      unfold runStages
      cases f s with
      | none => exact List.nil_sublist _
      | some s' => exact (ih s').cons_cons _
    | rules f =>
      unfold runStages
      exact (ih (f s)).cons_cons _

/-- The hooks of a stage, run over plugins that do not raise, lead to the next stage. -/
theorem run_append (ps : List (Plugin S)) (a b : List (Stage S)) (s : S) :
    runStages ps (a ++ b) s =
      if (runStages ps a s).2.2 = true then
        ((runStages ps a s).1 ++ (runStages ps b (runStages ps a s).2.1).1, (runStages ps b (runStages ps a s).2.1).2)
      else runStages ps a s := by
  induction a generalizing s with
  | nil => simp [runStages]
  | cons x a ih =>
    rw [List.cons_append]
    cases x with
    | hook h =>
      rw [runStages, runStages]
      rcases chain ps h s with ⟨t, s', c⟩
      cases c with
      | false => simp
      | true =>
        simp only [ih s']
        split <;> simp
    | work e f =>
      rw [runStages, runStages]
      cases f s with
      | none => simp
      | some s' => simp only [ih s']; split <;> simp
    | rules f =>
      rw [runStages, runStages]
      simp only [ih (f s)]
      split <;> simp

theorem flat_full (names : List Str) (w : Work S) (parts : Nat) : (message w parts ++ matching w).flatMap (full names) = complete names parts := by
  unfold message matching complete
  have : ∀ l : List Nat, (l.flatMap fun i => [Stage.work (.part i) (w.part i), Stage.hook (.extractMetadata i)]).flatMap (full names) =
      l.flatMap (fun i => .part i :: forAll names (.extractMetadata i)) := by
    intro l
    induction l with
    | nil => rfl
    | cons i l ih => rw [List.flatMap_cons, List.flatMap_append, ih]; simp [full]
  simp [List.flatMap_append, this, full]

/-! ## C164 -/

/-- Whatever the plugins do and whatever goes wrong: every hook is called at most once for each plugin and part, in the order of the
specification, plugins in the order in which they were loaded, and the rules are run in between. -/
theorem C164_order (ps : List (Plugin S)) (w : Work S) (parts : Nat) (s : S) :
    (check ps w parts s).1.Sublist (complete (ps.map Plugin.name) parts) := by
  rw [← flat_full _ w]
  exact run_sub ps _ s

/-- If nothing raises, everything happens. -/
theorem C164_complete_partial (ps : List (Plugin S)) (w : Work S) (parts : Nat) (s : S) (hp : ∀ p ∈ ps, Quiet p) (hw : Sound w) :
    (check ps w parts s).1 = complete (ps.map Plugin.name) parts ∧ (check ps w parts s).2.2 = true := by
  have key : ∀ (st : List (Stage S)), (∀ e f, Stage.work e f ∈ st → ∀ s, (f s).isSome) → ∀ s,
      (runStages ps st s).1 = st.flatMap (full (ps.map Plugin.name)) ∧ (runStages ps st s).2.2 = true := by
    intro st
    induction st with
    | nil => intro _ s; exact ⟨rfl, rfl⟩
    | cons x st ih =>
      intro hf s
      have ih := ih (fun e f h => hf e f (List.mem_cons_of_mem _ h))
      rw [List.flatMap_cons]
      cases x with
      | hook h =>
        unfold runStages
        have hc := chain_quiet ps hp h s
        rcases e : chain ps h s with ⟨t, s', b⟩
        rw [e] at hc
        obtain ⟨h1, h2⟩ := hc
        simp only at h1 h2
        subst h1
        subst h2
        exact ⟨by simp only [(ih s').1]; rfl, (ih s').2⟩
      | work e f =>
        unfold runStages
        obtain ⟨s', e'⟩ := Option.isSome_iff_exists.mp (hf e f List.mem_cons_self s)
        simp only [e']
        exact ⟨by simp only [(ih s').1]; rfl, (ih s').2⟩
      | rules f =>
        unfold runStages
        exact ⟨by simp only [(ih (f s)).1]; rfl, (ih (f s)).2⟩
  rw [← flat_full _ w]
  refine key _ ?_ s
  intro e f hf s
  simp only [message, matching, List.mem_append, List.mem_cons, List.not_mem_nil, or_false, List.mem_flatMap, List.mem_range, reduceCtorEq,
    false_or, Stage.work.injEq] at hf
  rcases hf with (⟨_, rfl⟩ | ⟨i, _, _, rfl⟩) | ⟨_, rfl⟩
  · exact (hw s).1
  · exact (hw s).2.1 i
  · exact (hw s).2.2

theorem check_first (ps : List (Plugin S)) (w : Work S) (parts : Nat) (s : S) :
    check ps w parts s = match chain ps .checkStart s with
      | (t, s, false) => (t, s, false)
      | (t, s, true) => let r := runStages ps ((message w parts).drop 1 ++ matching w) s; (t ++ r.1, r.2) := by
  unfold check message
  rfl

/-- A plugin that raises when the check starts keeps every message from being checked: no rule is evaluated and no result is given. -/
theorem C164_start_violated (a : List (Plugin S)) (p : Plugin S) (b : List (Plugin S)) (w : Work S) (parts : Nat) (s : S)
    (ha : ∀ q ∈ a, Quiet q) (hp : ∀ s, (p.call .checkStart s).1 = .raised) :
    (check (a ++ p :: b) w parts s).1 = forAll ((a ++ [p]).map Plugin.name) .checkStart ∧ (check (a ++ p :: b) w parts s).2.2 = false ∧
    Event.rules ∉ (check (a ++ p :: b) w parts s).1 := by
  have hc := chain_first a p b .checkStart s (fun q hq s => ha q hq _ s) .raised (by decide) hp
  rw [check_first]
  rcases e : chain (a ++ p :: b) .checkStart s with ⟨t, s', c⟩
  rw [e] at hc
  obtain ⟨h1, h2⟩ := hc
  simp only at h1 h2
  subst h1
  subst h2
  refine ⟨rfl, rfl, ?_⟩
  simp [forAll]

/-- The same for every hook that is called before the rules: whoever raises in it, no rule is evaluated and no result is given. -/
theorem C164_before_violated (a : List (Plugin S)) (p : Plugin S) (b : List (Plugin S)) (w : Work S) (parts : Nat) (s : S) (h : Hook)
    (hh : h = .checkStart ∨ (∃ i < parts, h = .extractMetadata i) ∨ h = .parsedMetadata)
    (ha : ∀ q ∈ a, Quiet q) (hp : ∀ s, (p.call h s).1 = .raised) :
    (check (a ++ p :: b) w parts s).2.2 = false ∧ Event.rules ∉ (check (a ++ p :: b) w parts s).1 := by
  have hmem : Stage.hook h ∈ message w parts := by
    rcases hh with rfl | ⟨i, hi, rfl⟩ | rfl
    · simp [message]
    · simp [message, hi]
    · simp [message]
  have hnone : ∀ st : List (Stage S), (∀ x ∈ st, x ∈ message w parts) → ∀ s, Event.rules ∉ (runStages (a ++ p :: b) st s).1 := by
    intro st hst s hm
    obtain ⟨x, hx, hin⟩ := List.mem_flatMap.mp ((run_sub (a ++ p :: b) st s).subset hm)
    have := hst x hx
    cases x with
    | hook h' => simp [full, forAll] at hin
    | work e f =>
      simp only [full, List.mem_singleton] at hin
      subst hin
      simp [message] at this
    | rules f => simp [message] at this
  obtain ⟨l1, l2, e⟩ := List.append_of_mem hmem
  have hsub1 : ∀ x ∈ l1, x ∈ message w parts := fun x hx => by rw [e]; exact List.mem_append_left _ hx
  have hcheck : check (a ++ p :: b) w parts s = runStages (a ++ p :: b) (l1 ++ (.hook h :: (l2 ++ matching w))) s := by
    unfold check
    rw [e, List.append_assoc, List.cons_append]
  rw [hcheck, run_append]
  by_cases hok : (runStages (a ++ p :: b) l1 s).2.2 = true
  · rw [if_pos hok]
    have hc := chain_first a p b h (runStages (a ++ p :: b) l1 s).2.1 (fun q hq s => ha q hq _ s) .raised (by decide) hp
    rw [runStages]
    rcases e' : chain (a ++ p :: b) h (runStages (a ++ p :: b) l1 s).2.1 with ⟨t, s', c⟩
    rw [e'] at hc
    obtain ⟨h1, h2⟩ := hc
    simp only at h1 h2
    subst h1
    subst h2
    refine ⟨rfl, fun hm => ?_⟩
    rcases List.mem_append.mp hm with hm | hm
    · exact hnone l1 hsub1 s hm
    · simp [forAll] at hm
  · rw [if_neg hok]
    exact ⟨by simpa using hok, hnone l1 hsub1 s⟩

/-- A plugin that raises when the check ends throws away the result of all rules, and keeps the plugins after it from seeing the end and
all plugins from learning. -/
theorem C164_end_violated (a : List (Plugin S)) (p : Plugin S) (b : List (Plugin S)) (w : Work S) (parts : Nat) (s : S)
    (ha : ∀ q ∈ a, Quiet q) (hb : ∀ q ∈ b, Quiet q) (hw : Sound w) (hp : ∀ s, (p.call .checkEnd s).1 = .raised)
    (hp' : ∀ h s, h ≠ .checkEnd → (p.call h s).1 = .returned) :
    (check (a ++ p :: b) w parts s).2.2 = false ∧
    (∀ q ∈ b, ∀ n, q.name = n → n ∉ (a ++ [p]).map Plugin.name → Event.hook n .checkEnd ∉ (check (a ++ p :: b) w parts s).1) ∧
    ∀ n, Event.hook n .autoLearn ∉ (check (a ++ p :: b) w parts s).1 := by
  -- everything before the last two hooks
  have quiet' : ∀ h, h ≠ .checkEnd → ∀ s, (chain (a ++ p :: b) h s).2.2 = true := by
    intro h hh
    have hall : ∀ q ∈ a ++ p :: b, ∀ s, (q.call h s).1 = .returned := by
      intro q hq s
      rcases List.mem_append.mp hq with hq | hq
      · exact ha q hq h s
      · rcases List.mem_cons.mp hq with rfl | hq
        · exact hp' h s hh
        · exact hb q hq h s
    generalize a ++ p :: b = l at hall
    induction l with
    | nil => intro s; rfl
    | cons q l ih =>
      intro s
      unfold chain
      have := hall q List.mem_cons_self s
      rcases e : q.call h s with ⟨o, s'⟩
      rw [e] at this
      simp only at this
      subst this
      exact ih (fun q' h' => hall q' (List.mem_cons_of_mem _ h')) s'
  have hpre : ∀ (st : List (Stage S)), (∀ e f, Stage.work e f ∈ st → ∀ s, (f s).isSome) → (∀ h, Stage.hook h ∈ st → h ≠ .checkEnd) →
      ∀ s, (runStages (a ++ p :: b) st s).2.2 = true := by
    intro st
    induction st with
    | nil => intro _ _ s; rfl
    | cons x st ih =>
      intro h1 h2 s
      have ih := ih (fun e f h => h1 e f (List.mem_cons_of_mem _ h)) (fun h hh => h2 h (List.mem_cons_of_mem _ hh))
      cases x with
      | hook h =>
        unfold runStages
        have := quiet' h (h2 h List.mem_cons_self) s
        rcases e : chain (a ++ p :: b) h s with ⟨t, s', c⟩
        rw [e] at this
        simp only at this
        subst this
        exact ih s'
      | work e f =>
        unfold runStages
        obtain ⟨s', e'⟩ := Option.isSome_iff_exists.mp (h1 e f List.mem_cons_self s)
        simp only [e']
        exact ih s'
      | rules f => unfold runStages; exact ih (f s)
  let pre : List (Stage S) := message w parts ++ [.rules w.rules]
  have hsplit : message w parts ++ matching w = pre ++ [.hook .checkEnd, .hook .autoLearn] := by simp [pre, matching]
  have hok : (runStages (a ++ p :: b) pre s).2.2 = true := by
    apply hpre
    · intro e f hf s
      simp only [pre, message, List.mem_append, List.mem_cons, List.not_mem_nil, or_false, List.mem_flatMap, List.mem_range, reduceCtorEq,
        false_or, Stage.work.injEq] at hf
      rcases hf with (⟨_, rfl⟩ | ⟨i, _, _, rfl⟩) | ⟨_, rfl⟩
      · exact (hw s).1
      · exact (hw s).2.1 i
      · exact (hw s).2.2
    · intro h hf
      simp only [pre, message, List.mem_append, List.mem_cons, List.not_mem_nil, or_false, List.mem_flatMap, List.mem_range, reduceCtorEq,
        false_or, Stage.hook.injEq] at hf
      rcases hf with (rfl | ⟨i, _, rfl⟩) | rfl <;> simp
  have hsub := run_sub (a ++ p :: b) pre s
  have hfin : check (a ++ p :: b) w parts s =
      ((runStages (a ++ p :: b) pre s).1 ++ forAll ((a ++ [p]).map Plugin.name) .checkEnd,
        (chain (a ++ p :: b) .checkEnd (runStages (a ++ p :: b) pre s).2.1).2) ∧
      (chain (a ++ p :: b) .checkEnd (runStages (a ++ p :: b) pre s).2.1).2.2 = false := by
    have hc := chain_first a p b .checkEnd (runStages (a ++ p :: b) pre s).2.1 (fun q hq s => ha q hq _ s) .raised (by decide) hp
    unfold check
    rw [hsplit, run_append, if_pos hok]
    rcases e : chain (a ++ p :: b) .checkEnd (runStages (a ++ p :: b) pre s).2.1 with ⟨t, s', c⟩
    rw [e] at hc
    obtain ⟨h1, h2⟩ := hc
    simp only at h1 h2
    subst h1
    subst h2
    simp [runStages, e]
  have hno : ∀ n h, h = .checkEnd ∨ h = .autoLearn → Event.hook n h ∉ (runStages (a ++ p :: b) pre s).1 := by
    intro n h hh hm
    have := hsub.subset hm
    simp only [pre, message, List.mem_flatMap, List.mem_append, List.mem_cons, List.not_mem_nil, or_false, List.mem_range] at this
    obtain ⟨x, hx, hin⟩ := this
    rcases hx with (((rfl | rfl) | ⟨i, _, rfl | rfl⟩) | (rfl | rfl)) | rfl <;> simp [full, forAll] at hin <;> rcases hh with rfl | rfl <;> simp at hin
  rw [hfin.1]
  refine ⟨hfin.2, fun q _ n hn hnot hm => ?_, fun n hm => ?_⟩
  · rcases List.mem_append.mp hm with hm | hm
    · exact hno n _ (Or.inl rfl) hm
    · unfold forAll at hm
      obtain ⟨m, hin, e⟩ := List.mem_map.mp hm
      injection e with e1 e2
      subst e1
      exact hnot hin
  · rcases List.mem_append.mp hm with hm | hm
    · exact hno n _ (Or.inr rfl) hm
    · simp [forAll] at hm

/-- A plugin that asks for no further calls of a hook keeps exactly the plugins after it from that call, and the check goes on. -/
theorem C164_inhibit (a : List (Plugin S)) (p : Plugin S) (b : List (Plugin S)) (h : Hook) (s : S) (ha : ∀ q ∈ a, Quiet q)
    (hp : ∀ s, (p.call h s).1 = .inhibit) :
    (chain (a ++ p :: b) h s).1 = forAll ((a ++ [p]).map Plugin.name) h ∧ (chain (a ++ p :: b) h s).2.2 = true := by
  simpa using chain_first a p b h s (fun q hq s => ha q hq _ s) .inhibit (by decide) hp

/-! ### The hypotheses can be met -/

def quietPlugin (n : Str) : Plugin Nat := ⟨n, fun _ s => (.returned, s + 1)⟩

def failingPlugin (n : Str) (at_ : Hook) : Plugin Nat := ⟨n, fun h s => (if h = at_ then .raised else .returned, s)⟩

def plainWork : Work Nat := ⟨some, fun _ => some, some, id⟩

example : check [quietPlugin c!"A", quietPlugin c!"B"] plainWork 1 0 =
    ([.hook c!"A" .checkStart, .hook c!"B" .checkStart, .headers, .part 0, .hook c!"A" (.extractMetadata 0), .hook c!"B" (.extractMetadata 0), .relays,
      .hook c!"A" .parsedMetadata, .hook c!"B" .parsedMetadata, .rules, .hook c!"A" .checkEnd, .hook c!"B" .checkEnd,
      .hook c!"A" .autoLearn, .hook c!"B" .autoLearn], 10, true) := by decide
example : (check [failingPlugin c!"A" .checkEnd, quietPlugin c!"B"] plainWork 0 0).1 =
    [.hook c!"A" .checkStart, .hook c!"B" .checkStart, .headers, .relays, .hook c!"A" .parsedMetadata, .hook c!"B" .parsedMetadata, .rules,
      .hook c!"A" .checkEnd] := by decide
example : Quiet (quietPlugin c!"A") := fun _ _ => rfl
example : Sound plainWork := fun _ => ⟨rfl, fun _ => rfl, rfl⟩

end Verif.Props
