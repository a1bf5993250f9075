import Verif.Model.ServerSteps
import Verif.Props.Server

/-!
# C157: reloads at any moment
-/

namespace Verif.Props
open Verif Py Server

variable {Rs Res Files Pref G : Type}

/-- No event is a reload. -/
def NoReload (es : List (Event Files Pref)) : Prop := ∀ e ∈ es, isReload e.op = false

/-- The rulesets that are kept, except perhaps that of one user, are made from the definitions in force. -/
def Current (w : World Rs Res Files Pref G) (s : St Rs Res Files Pref G) (but : Str → Prop) : Prop :=
  ∀ u rs, Dict.get? s.cache u = some rs → ¬ but u → ∃ g p, (w.compileUser g s.results u p).1 = some rs

/-- With nothing in between, these are the request and the reload of C43. -/
theorem C157_nothing_between (w : World Rs Res Files Pref G) (user : Option Str) (s : St Rs Res Files Pref G) :
    userRulesetWith w {} user s = userRuleset w user s ∧ loadConfigWith w [] [] [] s = loadConfig w s := by
  constructor
  · unfold userRulesetWith userRuleset
    cases user with
    | none => rfl
    | some u =>
      simp only [disturb, List.foldl_nil]
      split
      · cases hc : Dict.get? s.cache u with
        | some rs => simp [Dict.has, hc]
        | none =>
          simp only [Dict.has, hc, Option.isSome_none, Bool.false_eq_true, if_false]
          cases hp : s.prefs u with
          | none => rfl
          | some p =>
            simp only []
            generalize w.compileUser s.g s.results u p = r
            obtain ⟨r1, g⟩ := r
            cases r1 <;> rfl
      · rfl
  · unfold loadConfigWith loadConfig
    simp only [disturb, List.foldl_nil]
    generalize w.compileSite s.g s.files = r
    obtain ⟨r1, g⟩ := r
    cases r1 <;> rfl

theorem disturb_cons (w : World Rs Res Files Pref G) (e : Event Files Pref) (es : List (Event Files Pref))
    (s : St Rs Res Files Pref G) : disturb w (e :: es) s = disturb w es (step w s e.op).2 := rfl

theorem disturb_append (w : World Rs Res Files Pref G) (a b : List (Event Files Pref))
    (s : St Rs Res Files Pref G) : disturb w (a ++ b) s = disturb w b (disturb w a s) := by
  unfold disturb; rw [List.foldl_append]

theorem current_event (w : World Rs Res Files Pref G) (s : St Rs Res Files Pref G) (but : Str → Prop) (h : Current w s but)
    (e : Event Files Pref) : Current w (step w s e.op).2 but := by
  cases e with
  | editSite f => exact h
  | editPrefs u p => exact h
  | reload =>
    intro u rs hu
    simp only [Event.op, step, loadConfig] at hu
    split at hu <;> cases hu

theorem current_disturb (w : World Rs Res Files Pref G) (but : Str → Prop) (es : List (Event Files Pref))
    (s : St Rs Res Files Pref G) (h : Current w s but) : Current w (disturb w es s) but := by
  induction es generalizing s with
  | nil => exact h
  | cons e es ih => rw [disturb_cons]; exact ih _ (current_event w s but h e)

theorem quiet_disturb (w : World Rs Res Files Pref G) (es : List (Event Files Pref)) (h : NoReload es)
    (s : St Rs Res Files Pref G) : (disturb w es s).site = s.site ∧ (disturb w es s).results = s.results ∧
      (disturb w es s).cache = s.cache := by
  induction es generalizing s with
  | nil => exact ⟨rfl, rfl, rfl⟩
  | cons e es ih =>
    rw [disturb_cons]
    have := ih (fun x hx => h x (List.mem_cons_of_mem _ hx)) (step w s e.op).2
    have he := h e List.mem_cons_self
    cases e with
    | reload => simp [Event.op, isReload] at he
    | editSite f => exact this
    | editPrefs u p => exact this

/-- The state after a request that keeps a ruleset: everything but that ruleset is what events leave. -/
theorem current_set (w : World Rs Res Files Pref G) (s : St Rs Res Files Pref G) (u : Str) (rs : Rs) (but : Str → Prop)
    (h : Current w s but) (hu : but u ∨ ∃ g p, (w.compileUser g s.results u p).1 = some rs) :
    Current w { s with cache := Dict.set s.cache u rs } but := by
  intro v r hv hb
  simp only [Dict.get?_set] at hv
  split at hv
  · rename_i e
    subst e
    simp only [Option.some.injEq] at hv
    subst hv
    rcases hu with hu | hu
    · exact absurd hu hb
    · exact hu
  · exact h v r hv hb

/-! ## C157 -/

/-- Whatever happens during a request, the rulesets kept for the other users are made from the definitions in force afterwards.  So is
that of the user, unless a reload comes between copying the definitions and keeping the ruleset.  Missing: such a reload
(`C157_stale_violated`). -/
theorem C157_kept_partial (w : World Rs Res Files Pref G) (b : Between Files Pref) (user : Option Str) (s : St Rs Res Files Pref G)
    (h : Current w s fun _ => False) :
    Current w (userRulesetWith w b user s).2 (fun u => user = some u) ∧
    (NoReload b.copied → NoReload b.parsed → Current w (userRulesetWith w b user s).2 fun _ => False) := by
  have key : ∀ but : Str → Prop, ((∀ u, user = some u → but u) ∨ (NoReload b.copied ∧ NoReload b.parsed)) → Current w s but →
      Current w (userRulesetWith w b user s).2 but := by
    intro but hor hc
    unfold userRulesetWith
    cases user with
    | none => exact hc
    | some u =>
      simp only []
      split
      · have c1 := current_disturb w but b.allowed s hc
        generalize disturb w b.allowed s = s1 at c1
        split
        · exact current_disturb w but b.found s1 c1
        · have c2 := current_disturb w but b.notFound s1 c1
          generalize disturb w b.notFound s1 = s2 at c2
          split
          · exact current_disturb w but b.noPrefs s2 c2
          · have c3 := current_disturb w but b.prefs s2 c2
            generalize disturb w b.prefs s2 = s3 at c3
            have c4 := current_disturb w but b.copied s3 c3
            have q4 := fun h => quiet_disturb w b.copied h s3
            generalize disturb w b.copied s3 = s4 at c4 q4
            split
            · exact c4
            · rename_i p _
              have c5 := current_disturb w but b.parsed
                { s4 with g := (w.compileUser s4.g s3.results u p).2, reads := s4.reads ++ [u] } c4
              have q5 := fun h => quiet_disturb w b.parsed h
                { s4 with g := (w.compileUser s4.g s3.results u p).2, reads := s4.reads ++ [u] }
              generalize disturb w b.parsed { s4 with g := (w.compileUser s4.g s3.results u p).2, reads := s4.reads ++ [u] } = s5 at c5 q5
              split
              · rename_i rs hrs
                apply current_set w s5 u rs but c5
                rcases hor with hb | ⟨h1, h2⟩
                · exact Or.inl (hb u rfl)
                · refine Or.inr ⟨s4.g, p, ?_⟩
                  rw [(q5 h2).2.1]
                  show (w.compileUser s4.g s4.results u p).1 = some rs
                  rw [(q4 h1).2.1]
                  exact hrs
              · exact c5
      · exact current_disturb w but b.allowed s hc
  refine ⟨key _ (Or.inl fun _ h => h) (fun u rs hu hn => h u rs hu (fun x => x.elim)), ?_⟩
  intro h1 h2
  exact key _ (Or.inr ⟨h1, h2⟩) h

/-- Everything that happens between two steps of a request, in order. -/
def Events (b : Between Files Pref) : List (Event Files Pref) :=
  b.allowed ++ b.found ++ b.notFound ++ b.noPrefs ++ b.prefs ++ b.copied ++ b.parsed

/-- Whatever happens during a request, the ruleset it uses is one that was in force while it ran: after some of the events (`es`), it is
the site's or the one kept for the user, or it is made from the definitions at that moment and the user's preferences at the same or a
later moment (after `es'`, too). -/
theorem C157_in_force (w : World Rs Res Files Pref G) (b : Between Files Pref) (user : Option Str) (s : St Rs Res Files Pref G)
    (rs : Rs) (h : (userRulesetWith w b user s).1 = some rs) :
    ∃ es es', (es ++ es').Sublist (Events b) ∧
      (rs = (disturb w es s).site ∨ ∃ u, user = some u ∧ (Dict.get? (disturb w es s).cache u = some rs ∨
        ∃ p, (disturb w (es ++ es') s).prefs u = some p ∧
          (w.compileUser (disturb w (es ++ es') s).g (disturb w es s).results u p).1 = some rs)) := by
  unfold Events
  unfold userRulesetWith at h
  cases user with
  | none =>
    simp only [Option.some.injEq] at h
    exact ⟨[], [], List.nil_sublist _, Or.inl h.symm⟩
  | some u =>
    simp only [] at h
    split at h
    · split at h
      · refine ⟨b.allowed ++ b.found, [], ?_, Or.inr ⟨u, rfl, Or.inl ?_⟩⟩
        · simp [List.append_assoc]
        · rw [disturb_append]
          exact h
      · split at h
        · refine ⟨b.allowed ++ (b.notFound ++ b.noPrefs), [], ?_, Or.inl ?_⟩
          · simp [List.append_assoc, List.append_sublist_append_left]
          · rw [disturb_append, disturb_append]
            exact (Option.some.inj h).symm
        · split at h
          · cases h
          · split at h
            · rename_i p hp _ rs' hrs
              refine ⟨b.allowed ++ (b.notFound ++ b.prefs), b.copied, ?_, Or.inr ⟨u, rfl, Or.inr ⟨p, ?_, ?_⟩⟩⟩
              · simp only [List.append_assoc, List.append_sublist_append_left]
                refine List.Sublist.trans ?_ (List.sublist_append_right _ _)
                simp only [List.append_sublist_append_left]
                refine List.Sublist.trans ?_ (List.sublist_append_right _ _)
                simp
              · rw [disturb_append, disturb_append, disturb_append]
                exact hp
              · rw [disturb_append, disturb_append, disturb_append, hrs]
                exact h
            · cases h
    · refine ⟨b.allowed, [], ?_, Or.inl ?_⟩
      · simp [List.append_assoc]
      · exact (Option.some.inj h).symm

/-- A reload that is not interrupted by another one gives the ruleset and the definitions of the files as they were when it read them,
whatever is changed meanwhile, and keeps no user's ruleset.  Missing: reloads in reloads (`C157_nested_violated`). -/
theorem C157_reload_partial (w : World Rs Res Files Pref G) (cleared parsed kept : List (Event Files Pref)) (s : St Rs Res Files Pref G)
    (h1 : NoReload cleared) (h2 : NoReload parsed) (h3 : NoReload kept) (t : St Rs Res Files Pref G)
    (ht : t = disturb w cleared { s with cache := [] }) :
    (loadConfigWith w cleared parsed kept s).cache = [] ∧
    ∀ rs res, (w.compileSite t.g t.files).1 = some (rs, res) →
      (loadConfigWith w cleared parsed kept s).site = rs ∧ (loadConfigWith w cleared parsed kept s).results = res := by
  have q1 := quiet_disturb w cleared h1 { s with cache := [] }
  unfold loadConfigWith
  rw [← ht] at q1 ⊢
  simp only []
  generalize w.compileSite t.g t.files = r
  obtain ⟨r1, g⟩ := r
  cases r1 with
  | none =>
    refine ⟨q1.2.2, ?_⟩
    intro rs res h
    cases h
  | some x =>
    obtain ⟨rs, res⟩ := x
    simp only [Option.some.injEq, Prod.mk.injEq]
    have q2 := quiet_disturb w parsed h2 { t with g := g }
    generalize disturb w parsed { t with g := g } = s2 at q2
    have q3 := quiet_disturb w kept h3 { s2 with site := rs }
    refine ⟨by rw [q3.2.2]; simp only []; rw [q2.2.2]; exact q1.2.2, ?_⟩
    rintro rs' res' ⟨rfl, rfl⟩
    exact ⟨q3.1, rfl⟩

/-- A reload while the preferences of a user are parsed does not take effect for that user: the ruleset made from the old definitions is
kept and used by all their requests up to the next reload, whatever the new definitions are. -/
theorem C157_stale_violated (w : World Rs Res Files Pref G) (s : St Rs Res Files Pref G) (u : Str) (p : Pref) (old : Rs)
    (ha : w.allowed s.site = true) (hc : Dict.get? s.cache u = none) (hp : s.prefs u = some p)
    (ho : (w.compileUser s.g s.results u p).1 = some old) (new : Rs) (res : Res)
    (hn : (w.compileSite (w.compileUser s.g s.results u p).2 s.files).1 = some (new, res)) (hna : w.allowed new = true)
    (ops : List (Op Files Pref)) (hops : ∀ op ∈ ops, isReload op = false) :
    (userRulesetWith w { parsed := [.reload] } (some u) s).2.results = res ∧
    ∀ r, (some u, r) ∈ (run w (userRulesetWith w { parsed := [.reload] } (some u) s).2 ops).1 → r = some old := by
  generalize hr : w.compileUser s.g s.results u p = r at ho hn
  obtain ⟨r1, g⟩ := r
  simp only at ho hn
  subst ho
  generalize hl : w.compileSite g s.files = l at hn
  obtain ⟨l1, g'⟩ := l
  simp only at hn
  subst hn
  have h1 : userRulesetWith w { parsed := [.reload] } (some u) s =
      (some old, { s with cache := [(u, old)], site := new, results := res, g := g', reads := s.reads ++ [u] }) := by
    unfold userRulesetWith
    simp only [disturb, List.foldl_nil, ha, if_true, Dict.has, hc, Option.isSome_none, Bool.false_eq_true, if_false, hp, hr,
      List.foldl_cons, Event.op, step, loadConfig, hl, Dict.set]
  rw [h1]
  refine ⟨rfl, cached_run w u old ops _ hna ?_ hops⟩
  simp [Dict.get?]

/-- A reload between finding that a user's ruleset is kept and taking it: the request fails. -/
theorem C157_lost_violated (w : World Rs Res Files Pref G) (s : St Rs Res Files Pref G) (u : Str)
    (ha : w.allowed s.site = true) (rs : Rs) (hc : Dict.get? s.cache u = some rs) :
    (userRulesetWith w { found := [.reload] } (some u) s).1 = none := by
  unfold userRulesetWith
  simp only [disturb, List.foldl_nil, ha, if_true, Dict.has, hc, Option.isSome_some, List.foldl_cons, Event.op, step, loadConfig]
  split <;> rfl

/-- A reload that withdraws the permission for user rules, just after it was looked up: the request uses the user's rules none the
less. -/
theorem C157_gate_violated (w : World Rs Res Files Pref G) (s : St Rs Res Files Pref G) (u : Str) (p : Pref)
    (ha : w.allowed s.site = true) (hp : s.prefs u = some p) (new rs : Rs) (res : Res)
    (hn : (w.compileSite s.g s.files).1 = some (new, res)) (_hna : w.allowed new = false)
    (hr : (w.compileUser (w.compileSite s.g s.files).2 res u p).1 = some rs) :
    (userRulesetWith w { allowed := [.reload] } (some u) s).1 = some rs ∧
    (userRulesetWith w { allowed := [.reload] } (some u) s).2.site = new := by
  generalize hl : w.compileSite s.g s.files = l at hn hr
  obtain ⟨l1, g'⟩ := l
  simp only at hn hr
  subst hn
  generalize hx : w.compileUser g' res u p = x at hr
  obtain ⟨x1, g2⟩ := x
  simp only at hr
  subst hr
  unfold userRulesetWith
  simp only [disturb, List.foldl_nil, ha, if_true, Dict.has, List.foldl_cons, Event.op, step, loadConfig, hl, Dict.get?,
    List.find?_nil, Option.map_none, Option.isSome_none, Bool.false_eq_true, if_false, hp, hx, and_self]

/-- A reload in a reload: when the files are changed and a second signal comes after the first reload has parsed them, the old
configuration is put in place of the new one; and when it comes a moment later, requests without a user get the new ruleset while the
rules of users are made from the old definitions. -/
theorem C157_nested_violated (w : World Rs Res Files Pref G) (s : St Rs Res Files Pref G) (f : Files) (old new : Rs) (oldRes newRes : Res)
    (ho : (w.compileSite s.g s.files).1 = some (old, oldRes))
    (hn : (w.compileSite (w.compileSite s.g s.files).2 f).1 = some (new, newRes)) :
    let late := loadConfigWith w [] [.editSite f, .reload] [] s
    let mixed := loadConfigWith w [] [] [.editSite f, .reload] s
    (late.files = f ∧ late.site = old ∧ late.results = oldRes) ∧ (mixed.files = f ∧ mixed.site = new ∧ mixed.results = oldRes) := by
  generalize hl : w.compileSite s.g s.files = l at ho hn
  obtain ⟨l1, g⟩ := l
  simp only at ho hn
  subst ho
  generalize hx : w.compileSite g f = x at hn
  obtain ⟨x1, g'⟩ := x
  simp only at hn
  subst hn
  simp [loadConfigWith, disturb, hl, Event.op, step, loadConfig, hx]

/-! ### The hypotheses can be met -/

/-- A world in which a configuration is a number and whether user rules are allowed. -/
private def numbers : World (Nat × Bool) (Nat × Bool) (Nat × Bool) Nat Unit where
  compileSite := fun g f => (some (f, f), g)
  compileUser := fun g r _ p => (some (10 * r.1 + p, true), g)
  allowed := fun r => r.2

private def begun : St (Nat × Bool) (Nat × Bool) (Nat × Bool) Nat Unit :=
  ⟨(1, true), (1, true), [], (), (2, true), fun _ => some 5, []⟩

example : Current numbers begun (fun _ => False) := fun u rs h => by cases h

example : numbers.allowed begun.site = true ∧ Dict.get? begun.cache c!"ann" = none ∧ begun.prefs c!"ann" = some 5 ∧
    (numbers.compileUser begun.g begun.results c!"ann" 5).1 = some (15, true) ∧
    (numbers.compileSite (numbers.compileUser begun.g begun.results c!"ann" 5).2 begun.files).1 = some ((2, true), (2, true)) := by
  decide +kernel

-- the user goes on with rules made from configuration 1
example : (run numbers (userRulesetWith numbers { parsed := [.reload] } (some c!"ann") begun).2
    [.request none, .request (some c!"ann"), .request (some c!"bob")]).1 =
      [(none, some (2, true)), (some c!"ann", some (15, true)), (some c!"bob", some (25, true))] := by decide +kernel

end Verif.Props
