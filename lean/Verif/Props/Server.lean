import Verif.Lemmas.Server
import Verif.Lemmas.ParserAssign
import Verif.Props.Build
import Verif.Props.Parser

/-!
# C42, C43, C44, C55, C62: rulesets of the server, and configuration files
-/

namespace Verif.Props
open Verif Py Server

section server
variable {Rs Res Files Pref G F : Type}

/-! ## C42 -/

/-- **C42**: unless the site allows user rules, a request in any name uses the site ruleset, and
changes nothing. -/
theorem C42_not_allowed (w : World Rs Res Files Pref G) (s : St Rs Res Files Pref G)
    (h : w.allowed s.site = false) (user : Option Str) :
    userRuleset w user s = (some s.site, s) := by
  unfold userRuleset
  cases user with
  | none => rfl
  | some u => simp [h]

/-- **C42**: so does a request that names no user, and one of a user who has no preferences and had
none since the configuration was loaded. -/
theorem C42_no_preferences (w : World Rs Res Files Pref G) (s : St Rs Res Files Pref G) :
    userRuleset w none s = (some s.site, s) ∧
    (∀ u, s.prefs u = none → ∀ ops : List (Op Files Pref),
      (∀ op ∈ ops, isReload op = false ∧ ∀ p, op ≠ .editPrefs u p) →
      let t := (run w (loadConfig w s) ops).2
      (userRuleset w (some u) t).1 = some t.site) := by
  refine ⟨rfl, ?_⟩
  intro u hp ops hops
  have key : ∀ (ops : List (Op Files Pref)) (t : St Rs Res Files Pref G),
      t.prefs u = none → Dict.get? t.cache u = none →
      (∀ op ∈ ops, isReload op = false ∧ ∀ p, op ≠ .editPrefs u p) →
      (run w t ops).2.prefs u = none ∧ Dict.get? (run w t ops).2.cache u = none := by
    intro ops
    induction ops with
    | nil => intro t h1 h2 _; exact ⟨h1, h2⟩
    | cons op ops ih =>
      intro t h1 h2 hops
      have hop := hops op (by simp)
      have hstep : (step w t op).2.prefs u = none ∧ Dict.get? (step w t op).2.cache u = none := by
        cases op with
        | reload => simp [isReload] at hop
        | editSite f => exact ⟨h1, h2⟩
        | editPrefs v p =>
          refine ⟨?_, h2⟩
          simp only [step]
          split
          · rename_i hv; subst hv; exact absurd rfl (hop.2 p)
          · exact h1
        | request v =>
          simp only [step]
          unfold userRuleset
          cases v with
          | none => exact ⟨h1, h2⟩
          | some v =>
            simp only
            split
            · split
              · exact ⟨h1, h2⟩
              · split
                · exact ⟨h1, h2⟩
                · rename_i p hpv
                  have hne : v ≠ u := by intro e; subst e; rw [h1] at hpv; cases hpv
                  split
                  · refine ⟨h1, ?_⟩
                    simp only
                    rw [Dict.get?_set_ne _ _ hne]; exact h2
                  · exact ⟨h1, h2⟩
            · exact ⟨h1, h2⟩
      exact ih _ hstep.1 hstep.2 (fun o ho => hops o (List.mem_cons_of_mem _ ho))
  have hl : (loadConfig w s).prefs u = none ∧ Dict.get? (loadConfig w s).cache u = none := by
    unfold loadConfig
    split <;> exact ⟨hp, rfl⟩
  obtain ⟨h1, h2⟩ := key ops _ hl.1 hl.2 hops
  intro t
  show (userRuleset w (some u) t).1 = some t.site
  unfold userRuleset
  simp only
  rw [show Dict.get? t.cache u = none from h2, show t.prefs u = none from h1]
  split <;> rfl

open Verif.Parser in
/-- **C42** (the part that holds): whatever one user does, asking for checks or changing their
preferences, everyone else gets the same rules, the same plugins and the same value of every option
that lines set rather than add to.  Missing are the options that lines add to
(`C42_isolation_violated`). -/
theorem C42_isolation_partial (fe : Conf.FloatEnv F) (imp : Str → Option Str → Context.Import Unit)
    (lang : Option Str) (five ten two : F) (key : Str) (hkey : Scalar (Conf.padOptions five ten two) key)
    (s : St (State (GCtx F)) (Dict Str (Dict Str PVal)) (List Str × Disk) Disk (Conf.Cls F))
    (hs : s.g = Conf.padOptions five ten two) (v : Str) (ops : List (Op (List Str × Disk) Disk)) :
    (others v (run (realWorld fe imp lang) s ops).1).map (fun r => (r.1, r.2.map (view key))) =
      (run (realWorld fe imp lang) s (without v ops)).1.map (fun r => (r.1, r.2.map (view key))) := by
  have hst := steady_real fe imp lang _ key hkey ⟨.bool, .bool false, rfl, by simp, by simp⟩
  have hI : Conf.ClsRel (Conf.padOptions five ten two) s.g := by rw [hs]; exact Conf.ClsRel.refl _
  have := run_alike (v := v) hst ops s s ⟨rfl, rfl, fun _ _ => rfl, rfl, fun _ _ => rfl, hI, hI⟩
  have h2 := congrArg (List.map (fun r => (r.1, r.2.map Prod.fst))) this
  simp only [List.map_map] at h2
  have hf : ((fun r : Option Str × Option _ => (r.1, r.2.map Prod.fst)) ∘
      fun r : Option Str × Option (State (GCtx F)) => (r.1, r.2.map (view2 key))) =
      (fun r => (r.1, r.2.map (view key))) := by
    funext r
    simp only [Function.comp, Option.map_map]
    rfl
  rw [hf] at h2
  exact h2

end server

open Verif.Parser in
/-- A disk with one file. -/
def oneFile (path : Str) (lines : List Str) : Disk := fun p => if p = path then some lines else none

open Verif.Parser in
/-- The world without plugins. -/
def demoWorld := realWorld demoFloats (fun _ _ => .missing) (some c!"C")

open Verif.Parser in
/-- A server before it has loaded anything. -/
def demoServer (lines : List Str) :
    St (State (GCtx Int)) (Dict Str (Dict Str PVal)) (List Str × Disk) Disk (Conf.Cls Int) where
  site := newState demoCls
  results := []
  cache := []
  g := demoCls
  files := ([c!"/etc/l.cf"], oneFile c!"/etc/l.cf" lines)
  prefs := fun u =>
    if u = c!"ann" then some (oneFile c!"/home/ann/.spamassassin/user_prefs" [c!"report hello", c!"score R 3"])
    else if u = c!"bob" then some (oneFile c!"/home/bob/.spamassassin/user_prefs" [c!"report_safe 0"])
    else none
  reads := []

open Verif.Parser in
/-- The value of an option in the last of the rulesets. -/
def lastOption (key : Str) (log : List (Option Str × Option (State (GCtx Int)))) : Option (Conf.OptVal Int) :=
  (log.getLast?.bind Prod.snd).bind (fun rs => rs.ctx.conf.read key)

open Verif.Parser in
/-- The score of a rule in the last of the rulesets. -/
def lastScore (log : List (Option Str × Option (State (GCtx Int)))) : Option PVal :=
  (log.getLast?.bind Prod.snd).bind (fun rs => State.attr rs c!"R" c!"score")

def siteLines : List Str := [c!"allow_user_rules 1", c!"required_score 7", c!"body R /x/", c!"score R 2"]

set_option maxRecDepth 8000 in
/-- The report template in one user's preferences is used for another user, and
for the whole site after the next reload (`C42_isolation_violated`). -/
example :
    lastOption c!"report" (run demoWorld (demoServer siteLines)
      [.reload, .request (some c!"bob")]).1 = some (.list []) ∧
    lastOption c!"report" (run demoWorld (demoServer siteLines)
      [.reload, .request (some c!"ann"), .request (some c!"bob")]).1 = some (.list [c!"hello"]) ∧
    lastOption c!"report" (run demoWorld (demoServer siteLines)
      [.reload, .request (some c!"ann"), .reload, .request none]).1 = some (.list [c!"hello"]) := by
  decide +kernel

/-! The hypotheses of the isolation theorem are met, and its conclusion is about something: two users
with different rules. -/

example : Scalar demoCls c!"required_score" := ⟨.float, .float 5, rfl, by simp, by simp⟩

set_option maxRecDepth 8000 in
example : lastScore (run demoWorld (demoServer siteLines)
      [.reload, .request (some c!"ann")]).1 = some (.str c!"3") ∧
    lastScore (run demoWorld (demoServer siteLines)
      [.reload, .request (some c!"ann"), .request (some c!"bob")]).1 = some (.str c!"2") ∧
    (others c!"ann" (run demoWorld (demoServer siteLines)
      [.reload, .request (some c!"ann"), .request (some c!"bob")]).1).length = 1 := by decide +kernel

/-! ## C43 -/

section reload
variable {Rs Res Files Pref G F : Type}

/-- What the cache holds: rulesets made from the present results and preferences the user had. -/
def Made (w : World Rs Res Files Pref G) (res : Res) (had : Str → Pref → Prop) (c : Dict Str Rs) : Prop :=
  ∀ u rs, Dict.get? c u = some rs → ∃ g p, had u p ∧ (w.compileUser g res u p).1 = some rs

theorem made_step (w : World Rs Res Files Pref G) (had : Str → Pref → Prop) (t : St Rs Res Files Pref G)
    (hp : ∀ u p, t.prefs u = some p → had u p) (hc : Made w t.results had t.cache)
    (op : Op Files Pref) (hr : isReload op = false) (hop : ∀ u p, op = .editPrefs u (some p) → had u p) :
    (step w t op).2.site = t.site ∧ (step w t op).2.results = t.results ∧
    (∀ u p, (step w t op).2.prefs u = some p → had u p) ∧ Made w t.results had (step w t op).2.cache ∧
    ∀ u r, (step w t op).1 = some (u, r) → r = some t.site ∨
      ∃ v g p, u = some v ∧ had v p ∧ r = (w.compileUser g t.results v p).1 := by
  cases op with
  | reload => simp [isReload] at hr
  | editSite f => exact ⟨rfl, rfl, hp, hc, fun u r h => by cases h⟩
  | editPrefs v p =>
    refine ⟨rfl, rfl, ?_, hc, fun u r h => by cases h⟩
    intro u q hq
    simp only [step] at hq
    split at hq
    · rename_i e; subst e; subst hq; exact hop u q rfl
    · exact hp u q hq
  | request v =>
    simp only [step]
    unfold userRuleset
    cases v with
    | none =>
      refine ⟨rfl, rfl, hp, hc, fun u r h => ?_⟩
      simp only [Option.some.injEq, Prod.mk.injEq] at h
      exact Or.inl h.2.symm
    | some v =>
      simp only
      split
      · split
        · rename_i rs hg
          refine ⟨rfl, rfl, hp, hc, fun u r h => ?_⟩
          simp only [Option.some.injEq, Prod.mk.injEq] at h
          obtain ⟨g, p, h1, h2⟩ := hc v rs hg
          exact Or.inr ⟨v, g, p, h.1.symm, h1, by rw [h2, h.2]⟩
        · split
          · refine ⟨rfl, rfl, hp, hc, fun u r h => ?_⟩
            simp only [Option.some.injEq, Prod.mk.injEq] at h
            exact Or.inl h.2.symm
          · rename_i p hpv
            split
            · rename_i rs g hx
              refine ⟨rfl, rfl, hp, ?_, fun u r h => ?_⟩
              · intro u rs' h
                simp only at h
                rw [Dict.get?_set] at h
                split at h
                · rename_i e; subst e
                  simp only [Option.some.injEq] at h
                  exact ⟨t.g, p, hp _ _ hpv, by rw [hx, h]⟩
                · exact hc u rs' h
              · simp only [Option.some.injEq, Prod.mk.injEq] at h
                exact Or.inr ⟨v, t.g, p, h.1.symm, hp _ _ hpv, by rw [hx, h.2]⟩
            · rename_i g hx
              refine ⟨rfl, rfl, hp, hc, fun u r h => ?_⟩
              simp only [Option.some.injEq, Prod.mk.injEq] at h
              exact Or.inr ⟨v, t.g, p, h.1.symm, hp _ _ hpv, by rw [hx, h.2]⟩
      · refine ⟨rfl, rfl, hp, hc, fun u r h => ?_⟩
        simp only [Option.some.injEq, Prod.mk.injEq] at h
        exact Or.inl h.2.symm

theorem made_run (w : World Rs Res Files Pref G) (had : Str → Pref → Prop) (ops : List (Op Files Pref)) :
    ∀ t : St Rs Res Files Pref G, (∀ u p, t.prefs u = some p → had u p) → Made w t.results had t.cache →
    (∀ op ∈ ops, isReload op = false ∧ ∀ u p, op = .editPrefs u (some p) → had u p) →
    ∀ u r, (u, r) ∈ (run w t ops).1 → r = some t.site ∨
      ∃ v g p, u = some v ∧ had v p ∧ r = (w.compileUser g t.results v p).1 := by
  induction ops with
  | nil => intro t _ _ _ u r h; simp [run] at h
  | cons op ops ih =>
    intro t hp hc hops u r h
    obtain ⟨h1, h2⟩ := hops op (by simp)
    obtain ⟨a, b, c, d, e⟩ := made_step w had t hp hc op h1 h2
    simp only [run, List.mem_append] at h
    rcases h with h | h
    · exact e u r (by simpa using h)
    · have := ih _ c (by rw [b]; exact d) (fun o ho => hops o (List.mem_cons_of_mem _ ho)) u r h
      rw [a, b] at this
      exact this

/-- **C43**: after a reload that has read the files on disk, every request up to the next reload
uses the ruleset made from them, or one made from their definitions and preferences the user had
since the reload. -/
theorem C43_reload (w : World Rs Res Files Pref G) (s : St Rs Res Files Pref G) (rs : Rs) (res : Res)
    (hload : (w.compileSite s.g s.files).1 = some (rs, res)) (ops : List (Op Files Pref))
    (hops : ∀ op ∈ ops, isReload op = false) (u : Option Str) (r : Option Rs)
    (h : (u, r) ∈ (run w s (.reload :: ops)).1) :
    r = some rs ∨ ∃ v g p, u = some v ∧ hadPrefs s ops v p ∧ r = (w.compileUser g res v p).1 := by
  simp only [run, step, Option.toList_none, List.nil_append] at h
  have hl : loadConfig w s = { s with cache := [], site := rs, results := res, g := (w.compileSite s.g s.files).2 } := by
    unfold loadConfig
    split
    · rename_i rs' res' g hx; rw [hx] at hload; cases hload; rw [hx]
    · rename_i g hx; rw [hx] at hload; cases hload
  rw [hl] at h
  have := made_run w (hadPrefs s ops) ops
    { s with cache := [], site := rs, results := res, g := (w.compileSite s.g s.files).2 } (fun u p hp => Or.inl hp) (fun u rs h => by cases h)
    (fun op ho => ⟨hops op ho, fun u p e => Or.inr (by rw [← e]; exact ho)⟩) u r h
  exact this

open Verif.Parser in
/-- **C43** (the part that holds): the definitions, the plugins and every option that lines set rather
than add to are after a reload what a newly started server would read from the same files, whatever
happened before.  Missing are the options that lines add to; see below. -/
theorem C43_as_new_partial (fe : Conf.FloatEnv F) (imp : Str → Option Str → Context.Import Unit)
    (lang : Option Str) (five ten two : F) (key : Str) (hkey : Scalar (Conf.padOptions five ten two) key)
    (s : St (State (GCtx F)) (Dict Str (Dict Str PVal)) (List Str × Disk) Disk (Conf.Cls F))
    (hs : s.g = Conf.padOptions five ten two) (ops : List (Op (List Str × Disk) Disk)) :
    let w := realWorld fe imp lang
    let now := (run w s ops).2
    (w.compileSite now.g now.files).1.map (fun p => view key p.1) =
      (w.compileSite (Conf.padOptions five ten two) now.files).1.map (fun p => view key p.1) := by
  intro w now
  have hst := steady_real fe imp lang _ key hkey ⟨.bool, .bool false, rfl, by simp, by simp⟩
  have hI : ∀ (ops : List (Op (List Str × Disk) Disk))
      (t : St (State (GCtx F)) (Dict Str (Dict Str PVal)) (List Str × Disk) Disk (Conf.Cls F)),
      Conf.ClsRel (Conf.padOptions five ten two) t.g →
      Conf.ClsRel (Conf.padOptions five ten two) (run w t ops).2.g := by
    intro ops
    induction ops with
    | nil => intro t h; exact h
    | cons op ops ih =>
      intro t h
      apply ih
      cases op with
      | editSite f => exact h
      | editPrefs u p => exact h
      | reload =>
        have h2 := hst.siteI t.g t.files h
        show Conf.ClsRel _ (loadConfig w t).g
        unfold loadConfig
        split <;> rename_i hx <;> (rw [hx] at h2; exact h2)
      | request u =>
        show Conf.ClsRel _ (userRuleset w u t).2.g
        unfold userRuleset
        cases u with
        | none => exact h
        | some u =>
          simp only
          split
          · split
            · exact h
            · split
              · exact h
              · rename_i p _
                have h2 := hst.userI t.g t.results u p h
                split <;> rename_i hx <;> (rw [hx] at h2; exact h2)
          · exact h
  have := hst.site now.g (Conf.padOptions five ten two) now.files
    (hI ops s (by rw [hs]; exact Conf.ClsRel.refl _)) (Conf.ClsRel.refl _)
  have h2 := congrArg (Option.map (fun x => x.1.1)) this
  simp only [Option.map_map] at h2
  exact h2

/-- A ruleset that is kept for a user is used until the next reload. -/
theorem cached_run (w : World Rs Res Files Pref G) (u : Str) (rs : Rs) :
    ∀ (ops : List (Op Files Pref)) (t : St Rs Res Files Pref G), w.allowed t.site = true →
    Dict.get? t.cache u = some rs → (∀ op ∈ ops, isReload op = false) →
    ∀ r, (some u, r) ∈ (run w t ops).1 → r = some rs := by
  intro ops
  induction ops with
  | nil => intro t _ _ _ r h; simp [run] at h
  | cons op ops ih =>
    intro t hal hc hops r hm
    have hr := hops op (by simp)
    have hst : w.allowed (step w t op).2.site = true ∧ Dict.get? (step w t op).2.cache u = some rs ∧
        ∀ r, (step w t op).1 = some (some u, r) → r = some rs := by
      cases op with
      | reload => simp [isReload] at hr
      | editSite f => exact ⟨hal, hc, fun r h => by cases h⟩
      | editPrefs v p => exact ⟨hal, hc, fun r h => by cases h⟩
      | request v =>
        simp only [step]
        unfold userRuleset
        cases v with
        | none =>
          refine ⟨hal, hc, fun r h => ?_⟩
          simp at h
        | some v =>
          simp only [hal, if_true]
          split
          · rename_i rs' hg
            refine ⟨hal, hc, fun r h => ?_⟩
            simp only [Option.some.injEq, Prod.mk.injEq] at h
            rw [h.1, hc] at hg
            rw [← h.2, hg]
          · rename_i hg
            have hne : v ≠ u := by intro e; subst e; rw [hc] at hg; cases hg
            split
            · refine ⟨hal, hc, fun r h => ?_⟩
              simp only [Option.some.injEq, Prod.mk.injEq] at h
              exact absurd h.1 hne
            · split
              · refine ⟨hal, ?_, fun r h => ?_⟩
                · simp only; rw [Dict.get?_set_ne _ _ hne]; exact hc
                · simp only [Option.some.injEq, Prod.mk.injEq] at h
                  exact absurd h.1 hne
              · refine ⟨hal, hc, fun r h => ?_⟩
                simp only [Option.some.injEq, Prod.mk.injEq] at h
                exact absurd h.1 hne
    simp only [run, List.mem_append] at hm
    rcases hm with hm | hm
    · exact hst.2.2 r (by simpa using hm)
    · exact ih _ hst.1 hst.2.1 (fun o ho => hops o (List.mem_cons_of_mem _ ho)) r hm

/-- **C43** (the part that holds): once a user's preferences have been read, every request of that
user up to the next reload uses the same ruleset, whatever happens in between. -/
theorem C43_same_rules_partial (w : World Rs Res Files Pref G) (s : St Rs Res Files Pref G) (u : Str)
    (rs : Rs) (hread : u ∈ (userRuleset w (some u) s).2.reads.drop s.reads.length)
    (h : (userRuleset w (some u) s).1 = some rs)
    (ops : List (Op Files Pref)) (hops : ∀ op ∈ ops, isReload op = false) :
    ∀ r, (some u, r) ∈ (run w (userRuleset w (some u) s).2 ops).1 → r = some rs := by
  refine cached_run w u rs ops _ ?_ ?_ hops
  · revert hread
    unfold userRuleset
    simp only
    split
    · rename_i hal
      intro _
      split
      · exact hal
      · split
        · exact hal
        · split <;> exact hal
    · intro hread; simp at hread
  · revert hread h
    unfold userRuleset
    simp only
    split
    · split
      · intro hread; simp at hread
      · split
        · intro hread; simp at hread
        · split
          · intro _ h
            simp only [Option.some.injEq] at h
            subst h
            simp
          · intro _ h; cases h
    · intro hread; simp at hread

theorem userRuleset_cases (w : World Rs Res Files Pref G) (v : Str) (t : St Rs Res Files Pref G) :
    (userRuleset w (some v) t).2 = t ∨
    (∃ p rs g, Dict.get? t.cache v = none ∧ w.compileUser t.g t.results v p = (some rs, g) ∧
      (userRuleset w (some v) t).2 =
        { t with cache := Dict.set t.cache v rs, g := g, reads := t.reads ++ [v] }) ∨
    (∃ p g, Dict.get? t.cache v = none ∧ w.compileUser t.g t.results v p = (none, g) ∧
      (userRuleset w (some v) t).2 = { t with g := g, reads := t.reads ++ [v] }) := by
  unfold userRuleset
  simp only
  split
  · split
    · exact Or.inl rfl
    · rename_i hg
      split
      · exact Or.inl rfl
      · rename_i p _
        split
        · rename_i rs g hx; exact Or.inr (Or.inl ⟨p, rs, g, hg, hx, rfl⟩)
        · rename_i g hx; exact Or.inr (Or.inr ⟨p, g, hg, hx, rfl⟩)
  · exact Or.inl rfl

/-- **C43**: between reloads the preferences of a user are read at most once, provided they can be
parsed. -/
theorem C43_read_once_partial (w : World Rs Res Files Pref G) (u : Str)
    (hok : ∀ g r p, (w.compileUser g r u p).1 ≠ none)
    (s : St Rs Res Files Pref G) (ops : List (Op Files Pref)) (hops : ∀ op ∈ ops, isReload op = false) :
    (run w s ops).2.reads.count u ≤ s.reads.count u + 1 := by
  have hinv : ∀ (ops : List (Op Files Pref)) (t : St Rs Res Files Pref G), (∀ op ∈ ops, isReload op = false) →
      (run w t ops).2.reads.count u ≤ t.reads.count u + (if (Dict.get? t.cache u).isSome then 0 else 1) := by
    intro ops
    induction ops with
    | nil => intro t _; simp [run]
    | cons op ops ih =>
      intro t hops
      have hr := hops op (by simp)
      refine Nat.le_trans (ih (step w t op).2 (fun o ho => hops o (List.mem_cons_of_mem _ ho))) ?_
      cases op with
      | reload => simp [isReload] at hr
      | editSite f => exact Nat.le_refl _
      | editPrefs v p => exact Nat.le_refl _
      | request v =>
        cases v with
        | none => exact Nat.le_refl _
        | some v =>
          show (userRuleset w (some v) t).2.reads.count u +
            (if (Dict.get? (userRuleset w (some v) t).2.cache u).isSome then 0 else 1) ≤ _
          rcases userRuleset_cases w v t with h | ⟨p, rs, g, hg, hx, h⟩ | ⟨p, g, hg, hx, h⟩
          · rw [h]; exact Nat.le_refl _
          · rw [h]
            simp only
            rw [Dict.get?_set, List.count_append]
            by_cases hv : v = u
            · subst hv; simp [hg]
            · simp [hv, List.count_cons]
          · rw [h]
            by_cases hv : v = u
            · subst hv
              exact absurd (by rw [hx]) (hok t.g t.results p)
            · simp [hv, List.count_append, List.count_cons]
  refine Nat.le_trans (hinv ops s hops) ?_
  split <;> omega

end reload

open Verif.Parser in
/-- A line that gives a value for an option; `key` is not a word that the parser itself knows. -/
structure OptionLine (key l : Str) : Prop where
  counts : ¬ Skipped l
  open_ : ¬ Closer l
  key : keyword l = key

open Verif.Parser in
/-- The words that the parser itself knows. -/
def parserWords : List Str := known2 ++ [c!"include", c!"ifplugin", c!"loadplugin"]

open Verif.Parser in
theorem option_lines {F : Type} (fe : Conf.FloatEnv F) (imp : Str → Option Str → Context.Import Unit) (files : Disk) (lang : Option Str)
    (inc : Str → State (GCtx F) → State (GCtx F) × Option Err) (f key : Str) (hkey : key ∉ parserWords) :
    ∀ (ls : List Str) (s : State (GCtx F)) (d : List Str), (∀ l ∈ ls, OptionLine key l) → s.ignore = false → s.ctx.reg.cmds = [] →
      Dict.get? s.ctx.conf.opts key = some .alias → Dict.get? s.ctx.conf.cls key = some (.append, .list d) →
      ∃ cls, parseLines (realEnv fe imp files false lang) inc f ls s = ({ s with ctx := { s.ctx with conf := ⟨cls, s.ctx.conf.opts⟩ } }, none) ∧
        Dict.get? cls key = some (.append, .list (d ++ ls.map argument)) ∧ ∀ k, k ≠ key → Dict.get? cls k = Dict.get? s.ctx.conf.cls k
  | [], s, d, _, _, _, _, hd => ⟨s.ctx.conf.cls, rfl, by simpa using hd, fun _ _ => rfl⟩
  | l :: ls, s, d, hl, hi, hc, ho, hd => by
    have h := hl l (List.mem_cons_self ..)
    simp only [parserWords, List.mem_append, List.mem_cons, List.not_mem_nil, or_false, not_or] at hkey
    have hline : handleLine (realEnv fe imp files false lang) inc f l s =
        ({ s with ctx := { s.ctx with conf := ⟨Dict.set s.ctx.conf.cls key (.append, .list (d ++ [argument l])), s.ctx.conf.opts⟩ } }, none) := by
      rw [hl_main _ _ _ _ _ h.open_ h.counts hi]
      unfold dispatch
      rw [h.key, if_neg hkey.2.1, if_neg hkey.2.2.1, if_neg hkey.2.2.2,
        if_neg (by rintro (x | x)
                   · exact hkey.1 x
                   · have : Dict.has s.ctx.reg.cmds key = true := x
                     rw [hc] at this
                     simp [Dict.has, Dict.get?] at this)]
      have hp : Conf.parseConfig fe s.ctx.conf key (argument l) =
          (⟨Dict.set s.ctx.conf.cls key (.append, .list (d ++ [argument l])), s.ctx.conf.opts⟩, .inhibit) := by
        unfold Conf.parseConfig
        rw [hd]
        simp only [Conf.setOption, Conf.St.extend, ho, hd]
      unfold handleConfig realEnv
      simp only [hp]
    obtain ⟨cls, h1, h2, h3⟩ := option_lines fe imp files lang inc f key
      (by simpa [parserWords, not_or] using hkey) ls
      { s with ctx := { s.ctx with conf := ⟨Dict.set s.ctx.conf.cls key (.append, .list (d ++ [argument l])), s.ctx.conf.opts⟩ } }
      (d ++ [argument l]) (fun x hx => hl x (List.mem_cons_of_mem _ hx)) hi hc ho (Dict.get?_set_self _ _ _)
    refine ⟨cls, ?_, by simpa using h2, fun k hk => ?_⟩
    · rw [parseLines_cons, hline]
      exact h1
    · rw [h3 k hk]
      exact Dict.get?_set_ne _ _ (fun e => hk e.symm)

open Verif.Parser in
theorem site_lines {F : Type} (fe : Conf.FloatEnv F) (imp : Str → Option Str → Context.Import Unit) (lang : Option Str) (g : Conf.Cls F)
    (f key : Str) (disk : Disk) (lines d : List Str) (hkey : key ∉ parserWords) (hf : disk f = some lines) (hl : ∀ l ∈ lines, OptionLine key l)
    (hd : Dict.get? g key = some (.append, .list d)) :
    ∃ rs res g', (realWorld fe imp lang).compileSite g ([f], disk) = (some (rs, res), g') ∧
      rs.ctx.conf.read key = some (.list (d ++ lines.map argument)) ∧ Dict.get? g' key = some (.append, .list (d ++ lines.map argument)) := by
  have ho : Dict.get? (Conf.init g) key = some .alias := by simp [Conf.get?_init, hd]
  obtain ⟨cls, h1, h2, _⟩ := option_lines fe imp disk lang (parseFile (realEnv fe imp disk false lang) 10) f key hkey lines (newState g) d hl
    rfl rfl ho hd
  have hp : parse (realEnv fe imp disk false lang) f (newState g) =
      ({ newState g with ctx := { (newState g).ctx with conf := ⟨cls, Conf.init g⟩ } }, none) := by
    unfold parse parseFile
    rw [show (realEnv fe imp disk false lang).files f = some lines from hf]
    exact h1
  have hps : parseFiles (realEnv fe imp disk false lang) [f] (newState g) =
      ({ newState g with ctx := { (newState g).ctx with conf := ⟨cls, Conf.init g⟩ } }, none) := by
    unfold parseFiles
    rw [hp]
    rfl
  refine ⟨{ newState g with ctx := { (newState g).ctx with conf := ⟨cls, Conf.init g⟩ } }, [], cls, ?_, ?_, h2⟩
  · show ((finish (parseFiles (realEnv fe imp disk false lang) [f] (newState g))).map (fun s => (s, s.results)),
      (parseFiles (realEnv fe imp disk false lang) [f] (newState g)).1.ctx.conf.cls) = _
    rw [hps]
    rfl
  · show (match Dict.get? (Conf.init g) key with
      | some .alias => (Dict.get? cls key).map Prod.snd
      | v => v) = _
    rw [ho, h2]
    rfl

open Verif.Parser in
/-- **C43** (violated): a reload of unchanged files does not give the rules they describe.  If the configuration consists of lines that add to an
option, such as `report`, then after any number of reloads every line counts that many times. -/
theorem C43_reload_violated {F : Type} (fe : Conf.FloatEnv F) (imp : Str → Option Str → Context.Import Unit) (lang : Option Str)
    (key f : Str) (disk : Disk) (lines : List Str) (hkey : key ∉ parserWords) (hf : disk f = some lines) (hl : ∀ l ∈ lines, OptionLine key l)
    (n : Nat) : ∀ (s : St (State (GCtx F)) (Dict Str (Dict Str PVal)) (List Str × Disk) Disk (Conf.Cls F)) (d : List Str),
      s.files = ([f], disk) → Dict.get? s.g key = some (.append, .list d) →
      (run (realWorld fe imp lang) s (List.replicate (n + 1) .reload)).2.site.ctx.conf.read key =
        some (.list (d ++ (List.replicate (n + 1) (lines.map argument)).flatten)) := by
  induction n with
  | zero =>
    intro s d hs hd
    obtain ⟨rs, res, g', h1, h2, _⟩ := site_lines fe imp lang s.g f key disk lines d hkey hf hl hd
    show (loadConfig (realWorld fe imp lang) s).site.ctx.conf.read key = _
    unfold loadConfig
    rw [hs, h1]
    simpa using h2
  | succ n ih =>
    intro s d hs hd
    obtain ⟨rs, res, g', h1, _, h3⟩ := site_lines fe imp lang s.g f key disk lines d hkey hf hl hd
    have hload : loadConfig (realWorld fe imp lang) s = { s with cache := [], site := rs, results := res, g := g' } := by
      unfold loadConfig
      rw [hs, h1]
    show (run (realWorld fe imp lang) (loadConfig (realWorld fe imp lang) s) (List.replicate (n + 1) .reload)).2.site.ctx.conf.read key = _
    rw [hload, ih { s with cache := [], site := rs, results := res, g := g' } (d ++ lines.map argument) hs h3]
    rw [List.replicate_succ (n := n + 1), List.flatten_cons, List.append_assoc]

set_option maxRecDepth 8000 in
/-- A report template that is read twice. -/
example :
    lastOption c!"report" (run demoWorld (demoServer [c!"report dear user"])
      [.reload, .request none]).1 = some (.list [c!"dear user"]) ∧
    lastOption c!"report" (run demoWorld (demoServer [c!"report dear user"])
      [.reload, .reload, .request none]).1 = some (.list [c!"dear user", c!"dear user"]) := by
  decide +kernel

open Verif.Parser in
example : c!"report" ∉ parserWords ∧ OptionLine c!"report" c!"report dear user" ∧
    Dict.get? (demoServer []).g c!"report" = some (.append, .list []) :=
  ⟨by decide, ⟨by decide, by decide, by decide⟩, by decide⟩

/-- **C43** (violated): any user whose preferences appear after the first request gets the rules of these preferences for later requests, without a
reload, and not those of the first request. -/
theorem C43_new_prefs_violated {Rs Res Files Pref G : Type} (w : World Rs Res Files Pref G) (s : St Rs Res Files Pref G) (u : Str) (p : Pref)
    (ha : w.allowed s.site = true) (hc : Dict.get? s.cache u = none) (hp : s.prefs u = none) :
    (run w s [.request (some u), .editPrefs u (some p), .request (some u)]).1 =
      [(some u, some s.site), (some u, (w.compileUser s.g s.results u p).1)] := by
  have e1 : userRuleset w (some u) s = (some s.site, s) := by
    unfold userRuleset
    simp only [ha, if_true, hc, hp]
  have e2 : (userRuleset w (some u) { s with prefs := fun v => if v = u then some p else s.prefs v }).1 = (w.compileUser s.g s.results u p).1 := by
    unfold userRuleset
    simp only [ha, if_true, hc]
    cases h : w.compileUser s.g s.results u p with
    | mk r g => cases r <;> rfl
  simp only [run, step, Option.toList, List.nil_append, List.append_nil, e1, e2, List.cons_append]

set_option maxRecDepth 8000 in
example :
    lastScore (run demoWorld (demoServer siteLines) [.reload, .request (some c!"cid")]).1 =
      some (.str c!"2") ∧
    lastScore (run demoWorld (demoServer siteLines) [.reload, .request (some c!"cid"),
      .editPrefs c!"cid" (some (oneFile c!"/home/cid/.spamassassin/user_prefs" [c!"score R 9"])),
      .request (some c!"cid")]).1 = some (.str c!"9") := by
  decide +kernel

/-! The hypotheses are met: the preferences are read at the first request, and changing them
afterwards has no effect until the reload. -/

set_option maxRecDepth 8000 in
example : lastScore (run demoWorld (demoServer siteLines) [.reload, .request (some c!"ann"),
      .editPrefs c!"ann" none, .request (some c!"ann")]).1 = some (.str c!"3") ∧
    lastScore (run demoWorld (demoServer siteLines) [.reload, .request (some c!"ann"),
      .editPrefs c!"ann" none, .reload, .request (some c!"ann")]).1 = some (.str c!"2") ∧
    c!"ann" ∈ (userRuleset demoWorld (some c!"ann") (loadConfig demoWorld (demoServer siteLines))).2.reads := by
  decide +kernel

/-! ## C44 -/

theorem mem_splitChar {c : Char} : ∀ {s w : Str}, w ∈ splitChar c s → c ∉ w
  | [], w, h => by simp [splitChar] at h; simp [h]
  | x :: xs, w, h => by
    simp only [splitChar] at h
    split at h
    · rcases List.mem_cons.1 h with h | h
      · simp [h]
      · exact mem_splitChar h
    · rename_i hx
      have hx' : x ≠ c := by simpa using hx
      split at h
      · simp at h; subst h; simp [Ne.symm hx']
      · rename_i a b hab
        rcases List.mem_cons.1 h with h | h
        · subst h
          have := mem_splitChar (s := xs) (w := a) (c := c) (by rw [hab]; simp)
          simp [this, Ne.symm hx']
        · exact mem_splitChar (s := xs) (by rw [hab]; simp [h])

theorem mem_walk : ∀ {cs done : List Str} {x : Str}, x ∈ walk done cs → x ∈ done ∨ x ∈ cs
  | [], done, x, h => Or.inl h
  | c :: cs, done, x, h => by
    simp only [walk] at h
    split at h
    · rcases mem_walk h with h | h
      · exact Or.inl h
      · exact Or.inr (by simp [h])
    · split at h
      · rcases mem_walk h with h | h
        · exact Or.inl (List.dropLast_subset _ h)
        · exact Or.inr (by simp [h])
      · rcases mem_walk h with h | h
        · rcases List.mem_append.1 h with h | h
          · exact Or.inl h
          · exact Or.inr (by simp at h; simp [h])
        · exact Or.inr (by simp [h])

/-- **C44** (the part that holds): the preference file lies below the home directory of the user
exactly if the name is a plain one: not empty, no slash in it, and not `.` or `..`. -/
theorem C44_confined_partial (user : Str) :
    InUserArea (userPrefsPath user) user ↔
      '/' ∉ user ∧ user ≠ [] ∧ user ≠ c!"." ∧ user ≠ c!".." := by
  constructor
  · rintro ⟨rest, h⟩
    have hs : '/' ∉ user := by
      have hm : user ∈ place (userPrefsPath user) := by rw [h]; simp
      rcases mem_walk hm with hm | hm
      · simp at hm
      · exact mem_splitChar hm
    refine ⟨hs, ?_, ?_, ?_⟩
    · rintro rfl
      have : place (userPrefsPath []) = [c!"home", c!".spamassassin", c!"user_prefs"] := by decide
      rw [this] at h; simp at h
    · rintro rfl
      have : place (userPrefsPath c!".") = [c!"home", c!".spamassassin", c!"user_prefs"] := by decide
      rw [this] at h; simp at h
    · rintro rfl
      have : place (userPrefsPath c!"..") = [c!".spamassassin", c!"user_prefs"] := by decide
      rw [this] at h; simp at h
  · rintro ⟨hs, h1, h2, h3⟩
    have hp : userPrefsPath user = [] ++ '/' :: (c!"home" ++ '/' :: (user ++ '/' :: c!".spamassassin/user_prefs")) := by
      obtain ⟨x, xs, rfl⟩ : ∃ x xs, user = x :: xs := by
        cases user with
        | nil => exact absurd rfl h1
        | cons x xs => exact ⟨x, xs, rfl⟩
      have hx : x ≠ '/' := fun e => hs (by simp [e])
      have e1 : joinStep c!"/home" (x :: xs) = c!"/home/" ++ (x :: xs) := by
        have h0 : startsWith c!"/" (x :: xs) = false := by
          simp [startsWith, List.isPrefixOf, Ne.symm hx]
        unfold joinStep
        rw [h0]
        rfl
      have e2 : joinStep (c!"/home/" ++ (x :: xs)) c!".spamassassin" =
          c!"/home/" ++ (x :: xs) ++ c!"/.spamassassin" := by
        have h0 : endsWith c!"/" (c!"/home/" ++ (x :: xs)) = false := by
          rw [Bool.eq_false_iff]
          intro h
          have h' : c!"/" <:+ (c!"/home/" ++ (x :: xs)) := by
            simpa [endsWith, List.isSuffixOf_iff_suffix] using h
          obtain ⟨pre, hpre⟩ := h'
          have : (c!"/home/" ++ (x :: xs)).getLast? = some '/' := by rw [← hpre]; simp
          rw [List.getLast?_append] at this
          cases hl : (x :: xs).getLast? with
          | none => simp at hl
          | some y =>
            rw [hl] at this
            simp at this
            subst this
            exact hs (List.mem_of_getLast? hl)
        unfold joinStep
        rw [h0]
        simp [startsWith, List.isPrefixOf]
      have e3 : ∀ p : Str, joinStep (p ++ c!"/.spamassassin") c!"user_prefs" = p ++ c!"/.spamassassin/user_prefs" := by
        intro p
        have h0 : endsWith c!"/" (p ++ c!"/.spamassassin") = false := by
          rw [Bool.eq_false_iff]
          intro h
          have h' : c!"/" <:+ (p ++ c!"/.spamassassin") := by
            simpa [endsWith, List.isSuffixOf_iff_suffix] using h
          obtain ⟨pre, hpre⟩ := h'
          have : (p ++ c!"/.spamassassin").getLast? = some '/' := by rw [← hpre]; simp
          simp at this
        unfold joinStep
        rw [h0]
        simp [startsWith, List.isPrefixOf]
      show joinStep (joinStep (joinStep c!"/home" (x :: xs)) c!".spamassassin") c!"user_prefs" = _
      rw [e1, e2, e3]
      simp
    refine ⟨[c!".spamassassin", c!"user_prefs"], ?_⟩
    unfold place
    rw [hp, splitChar_append _ (by simp), splitChar_append _ (by decide), splitChar_append _ hs]
    have : splitChar '/' c!".spamassassin/user_prefs" = [c!".spamassassin", c!"user_prefs"] := by decide
    rw [this]
    simp [walk, h1, h2, h3]

/-- **C44** (violated): a client can name any directory of the machine as the user, and the server reads the preferences below it, outside
the user area. -/
theorem C44_confined_violated (dir : Str) (h0 : dir ≠ []) (hl : dir.getLast? ≠ some '/') :
    userPrefsPath ('/' :: dir) = '/' :: dir ++ c!"/.spamassassin/user_prefs" ∧
    ¬ InUserArea (userPrefsPath ('/' :: dir)) ('/' :: dir) := by
  refine ⟨?_, fun h => ((C44_confined_partial _).1 h).1 (List.mem_cons_self ..)⟩
  have e : ∀ p b : Str, p ≠ [] → p.getLast? ≠ some '/' → startsWith c!"/" b = false → joinStep p b = p ++ c!"/" ++ b := by
    intro p b h1 h2 h3
    have h4 : endsWith c!"/" p = false := by
      rw [Bool.eq_false_iff]
      intro h
      have h' : c!"/" <:+ p := by simpa [endsWith, List.isSuffixOf_iff_suffix] using h
      obtain ⟨pre, hpre⟩ := h'
      exact h2 (by rw [← hpre]; simp)
    unfold joinStep
    rw [h3, h4]
    simp [h1]
  have e1 : joinStep c!"/home" ('/' :: dir) = '/' :: dir := by
    unfold joinStep
    rw [if_pos (by simp [startsWith, List.isPrefixOf])]
  have hd : ('/' :: dir).getLast? ≠ some '/' := by
    cases dir with
    | nil => exact absurd rfl h0
    | cons c dir => rw [List.getLast?_cons_cons]; exact hl
  show joinStep (joinStep (joinStep c!"/home" ('/' :: dir)) c!".spamassassin") c!"user_prefs" = _
  rw [e1, e _ _ (by simp) hd (by decide), e _ _ (by simp) (by rw [List.getLast?_append]; simp) (by decide)]
  simp

/-- A client that names the user `../etc/mail` or `/etc/mail` makes the server read preferences outside the user area. -/
example :
    place (userPrefsPath c!"../etc/mail") = [c!"etc", c!"mail", c!".spamassassin", c!"user_prefs"] ∧
    userPrefsPath c!"/etc/mail" = c!"/etc/mail/.spamassassin/user_prefs" ∧
    ¬ InUserArea (userPrefsPath c!"../etc/mail") c!"../etc/mail" ∧
    ¬ InUserArea (userPrefsPath c!"/etc/mail") c!"/etc/mail" := by decide

example : userPrefsPath c!"ann" = c!"/home/ann/.spamassassin/user_prefs" ∧
    InUserArea (userPrefsPath c!"ann") c!"ann" := by decide

/-! ## C55 -/

theorem filesWith_sorted (os : Os) (dir ext : Str) :
    SortedFiles os dir ext (sortedStr (filesWith os dir ext)) := by
  refine ⟨sortedStr_sorted _, (sortedStr_perm _).trans ?_⟩
  unfold filesWith
  simp only
  have : (fun p => endsWith ext p) = (fun n => decide (ext <:+ n)) := by
    funext n
    rw [Bool.eq_iff_iff]
    simp [endsWith, List.isSuffixOf_iff_suffix]
  rw [this]
  exact List.Perm.refl _

/-- **C55**: the `.pre` files of the site directory come first; then, if it is another one, the
`.pre` and the `.cf` files of the default directory; then the `.cf` files of the site directory, and
last the preferences of the user if they exist.  Each group is sorted by name and consists of
exactly the files of the directory with that extension. -/
theorem C55_order (os : Os) (config site : Str) (prefs : Option Str) :
    ∃ sitePre defPre defCf siteCf last,
      configFiles os config site prefs = sitePre ++ defPre ++ defCf ++ siteCf ++ last ∧
      SortedFiles os site c!".pre" sitePre ∧ SortedFiles os site c!".cf" siteCf ∧
      (site = config → defPre = [] ∧ defCf = []) ∧
      (site ≠ config → SortedFiles os config c!".pre" defPre ∧ SortedFiles os config c!".cf" defCf) ∧
      (prefs = none → last = []) ∧
      (∀ p, prefs = some p → last = if os.pathExists (os.expanduser p) then [os.expanduser p] else []) := by
  by_cases h : site = config
  · refine ⟨sortedStr (filesWith os site c!".pre"), [], [], sortedStr (filesWith os site c!".cf"),
      match prefs with
      | none => []
      | some p => if os.pathExists (os.expanduser p) then [os.expanduser p] else [], ?_,
      filesWith_sorted _ _ _, filesWith_sorted _ _ _, fun _ => ⟨rfl, rfl⟩, fun h' => absurd h h',
      fun hp => by rw [hp], fun p hp => by rw [hp]⟩
    unfold configFiles
    cases prefs with
    | none => simp [h]
    | some p => simp only; split <;> simp [h]
  · refine ⟨sortedStr (filesWith os site c!".pre"), sortedStr (filesWith os config c!".pre"),
      sortedStr (filesWith os config c!".cf"), sortedStr (filesWith os site c!".cf"),
      match prefs with
      | none => []
      | some p => if os.pathExists (os.expanduser p) then [os.expanduser p] else [], ?_,
      filesWith_sorted _ _ _, filesWith_sorted _ _ _, fun h' => absurd h' h,
      fun _ => ⟨filesWith_sorted _ _ _, filesWith_sorted _ _ _⟩,
      fun hp => by rw [hp], fun p hp => by rw [hp]⟩
    unfold configFiles
    cases prefs with
    | none => simp [h]
    | some p => simp only; split <;> simp [h]

/-- **C55**: a file is read if and only if it is one of those, or the preferences. -/
theorem C55_members (os : Os) (config site : Str) (prefs : Option Str) (f : Str) :
    f ∈ configFiles os config site prefs ↔
      (∃ dir ext, (dir = site ∨ dir = config) ∧ (ext = c!".pre" ∨ ext = c!".cf") ∧ FileOf os dir ext f) ∨
      (∃ p, prefs = some p ∧ f = os.expanduser p ∧ os.pathExists f = true) := by
  have hm : ∀ dir ext l, SortedFiles os dir ext l → (f ∈ l ↔ FileOf os dir ext f) := by
    intro dir ext l hl
    rw [hl.2.mem_iff, List.mem_map]
    unfold FileOf
    constructor
    · rintro ⟨n, hn, rfl⟩
      rw [List.mem_filter] at hn
      exact ⟨n, hn.1, by simpa using hn.2, rfl⟩
    · rintro ⟨n, h1, h2, rfl⟩
      exact ⟨n, List.mem_filter.2 ⟨h1, by simpa using h2⟩, rfl⟩
  obtain ⟨a, b, c, d, e, heq, ha, hd, h1, h2, h3, h4⟩ := C55_order os config site prefs
  rw [heq]
  simp only [List.mem_append, hm _ _ _ ha, hm _ _ _ hd]
  have he : f ∈ e ↔ ∃ p, prefs = some p ∧ f = os.expanduser p ∧ os.pathExists f = true := by
    cases prefs with
    | none => rw [h3 rfl]; simp
    | some p =>
      rw [h4 p rfl]
      split
      · rename_i hx
        constructor
        · intro hf; simp at hf; exact ⟨p, rfl, hf, by rw [hf]; exact hx⟩
        · rintro ⟨q, hq, hf, _⟩; cases hq; simp [hf]
      · rename_i hx
        constructor
        · intro hf; simp at hf
        · rintro ⟨q, hq, hf, hex⟩; cases hq; rw [hf] at hex; exact absurd hex hx
  rw [he]
  have hbc : (f ∈ b ∨ f ∈ c) ↔ site ≠ config ∧ (FileOf os config c!".pre" f ∨ FileOf os config c!".cf" f) := by
    by_cases hsc : site = config
    · rw [(h1 hsc).1, (h1 hsc).2]; simp [hsc]
    · rw [hm _ _ _ (h2 hsc).1, hm _ _ _ (h2 hsc).2]; simp [hsc]
  constructor
  · rintro ((((h | h) | h) | h) | h)
    · exact Or.inl ⟨site, _, Or.inl rfl, Or.inl rfl, h⟩
    · rcases (hbc.1 (Or.inl h)).2 with h | h
      · exact Or.inl ⟨config, _, Or.inr rfl, Or.inl rfl, h⟩
      · exact Or.inl ⟨config, _, Or.inr rfl, Or.inr rfl, h⟩
    · rcases (hbc.1 (Or.inr h)).2 with h | h
      · exact Or.inl ⟨config, _, Or.inr rfl, Or.inl rfl, h⟩
      · exact Or.inl ⟨config, _, Or.inr rfl, Or.inr rfl, h⟩
    · exact Or.inl ⟨site, _, Or.inl rfl, Or.inr rfl, h⟩
    · exact Or.inr h
  · rintro (⟨dir, ext, hdir, hext, h⟩ | h)
    · by_cases hsc : site = config
      · have : dir = site := by rcases hdir with h | h; exact h; rw [h, hsc]
        subst this
        rcases hext with rfl | rfl
        · exact Or.inl (Or.inl (Or.inl (Or.inl h)))
        · exact Or.inl (Or.inr h)
      · rcases hdir with rfl | rfl
        · rcases hext with rfl | rfl
          · exact Or.inl (Or.inl (Or.inl (Or.inl h)))
          · exact Or.inl (Or.inr h)
        · have := hbc.2 ⟨hsc, by rcases hext with rfl | rfl; exact Or.inl h; exact Or.inr h⟩
          rcases this with h | h
          · exact Or.inl (Or.inl (Or.inl (Or.inr h)))
          · exact Or.inl (Or.inl (Or.inr h))
    · exact Or.inr h

example : configFiles ⟨id, fun d => if d = c!"/etc/s" then [c!"local.cf", c!"init.pre", c!"README", c!"a.cf"]
    else [c!"50_b.cf", c!"10_a.cf", c!"v.pre"], fun p => decide (p = c!"/h/p")⟩ c!"/usr/d" c!"/etc/s" (some c!"/h/p") =
    [c!"/etc/s/init.pre", c!"/usr/d/v.pre", c!"/usr/d/10_a.cf", c!"/usr/d/50_b.cf", c!"/etc/s/a.cf",
     c!"/etc/s/local.cf", c!"/h/p"] := by decide

/-! ## C62 -/

open Verif.Parser in
/-- **C62** (the part that holds): preferences that only define rules and set options change the
definitions they mention: every other attribute of every rule is that of the site. -/
theorem C62_rules_partial {F : Type} (fe : Conf.FloatEnv F) (imp : Str → Option Str → Context.Import Unit)
    (lang : Option Str) (g : Conf.Cls F) (res : Dict Str (Dict Str PVal)) (u : Str) (disk : Disk)
    (lines : List Str) (hf : disk (userPrefsPath u) = some lines) (hd : ∀ l ∈ lines, Defining l)
    (rs : State (GCtx F)) (h : ((realWorld fe imp lang).compileUser g res u disk).1 = some rs)
    (name attr : Str) :
    rs.attr name attr = match lastValue (lines.flatMap (assigns (fun _ => false))) name attr with
      | some v => some v
      | none => (Dict.get? res name).bind (fun d => Dict.get? d attr) := by
  have hfin : finish (parse (realEnv fe imp disk false lang) (userPrefsPath u)
      { newState g with results := res }) = some rs := h
  unfold finish at hfin
  split at hfin
  · cases hfin
  · rename_i hnone
    split at hfin
    · cases hfin
    · cases hfin
      unfold parse parseFile at hnone ⊢
      rw [show (realEnv fe imp disk false lang).files (userPrefsPath u) = some lines from hf] at hnone ⊢
      have hcmd : ∀ c k v t, (realEnv fe imp disk false lang).isCmd
          ((realEnv fe imp disk false lang).parseConfig c k v).1 t = (realEnv fe imp disk false lang).isCmd c t := by
        intro c k v t
        simp only [realEnv]
        generalize Conf.parseConfig fe c.conf k v = x
        obtain ⟨x1, x2⟩ := x
        cases x2 <;> rfl
      have := lines_assigns (realEnv fe imp disk false lang) (parseFile (realEnv fe imp disk false lang) 10)
        (userPrefsPath u) hcmd lines hd { newState g with results := res } rfl hnone
      unfold State.attr
      rw [this]
      exact attr_foldl _ res name attr

open Verif.Parser in
/-- **C62**: a user's ruleset is made exactly if the preferences can be parsed and every rule that has a type has a built-in one
or one of a plugin loaded by then. -/
theorem C62_made {F : Type} (fe : Conf.FloatEnv F) (imp : Str → Option Str → Context.Import Unit)
    (lang : Option Str) (g : Conf.Cls F) (res : Dict Str (Dict Str PVal)) (u : Str) (disk : Disk) :
    let r := parse (realEnv fe imp disk false lang) (userPrefsPath u) { newState g with results := res }
    ((realWorld fe imp lang).compileUser g res u disk).1.isSome = true ↔
      r.2 = none ∧ ∀ x ∈ r.1.results, Dict.get? x.2 c!"type" = none ∨
        ∃ t, Dict.get? x.2 c!"type" = some (.str t) ∧ (t ∈ ruleTypes ∨ Dict.has r.1.ctx.reg.cmds t = true) := by
  intro r
  show (finish r).isSome = true ↔ _
  have hb : ∀ data, badType r.1 data = false ↔ Dict.get? data c!"type" = none ∨
      ∃ t, Dict.get? data c!"type" = some (.str t) ∧ (t ∈ ruleTypes ∨ Dict.has r.1.ctx.reg.cmds t = true) := by
    intro data
    unfold badType
    cases Dict.get? data c!"type" with
    | none => simp
    | some v =>
      cases v with
      | str t =>
        by_cases h1 : t ∈ ruleTypes <;> cases h2 : Dict.has r.1.ctx.reg.cmds t <;> simp [h1, h2]
      | list l => simp
  unfold finish
  cases r.2 with
  | some e => simp
  | none =>
    simp only [true_and]
    cases ha : r.1.results.any (fun x => badType r.1 x.2) with
    | true =>
      rw [List.any_eq_true] at ha
      obtain ⟨x, hx, ht⟩ := ha
      simp only [if_true, Option.isSome_none, Bool.false_eq_true, false_iff]
      intro hall
      have := (hb x.2).2 (hall x hx)
      rw [this] at ht
      cases ht
    | false =>
      rw [List.any_eq_false] at ha
      simp only [Bool.false_eq_true, if_false, Option.isSome_some, true_iff]
      intro x hx
      exact (hb x.2).1 (by simpa using ha x hx)

open Verif.Parser in
/-- Preferences that consist of lines for one option that lines add to. -/
def PrefsFor (key u : Str) (disk : Disk) (lines : List Str) : Prop :=
  disk (userPrefsPath u) = some lines ∧ ∀ l ∈ lines, OptionLine key l

open Verif.Parser in
/-- The ruleset made for a user with such preferences, if it is made. -/
def userState {F : Type} (g cls : Conf.Cls F) (res : Dict Str (Dict Str PVal)) : State (GCtx F) :=
  { newState g with results := res, ctx := { (newState g).ctx with conf := ⟨cls, Conf.init g⟩ } }

open Verif.Parser in
theorem user_lines {F : Type} (fe : Conf.FloatEnv F) (imp : Str → Option Str → Context.Import Unit) (lang : Option Str) (g : Conf.Cls F)
    (res : Dict Str (Dict Str PVal)) (u key : Str) (disk : Disk) (lines d : List Str) (hkey : key ∉ parserWords) (hp : PrefsFor key u disk lines)
    (hd : Dict.get? g key = some (.append, .list d)) :
    ∃ cls, (realWorld fe imp lang).compileUser g res u disk = (finish (userState g cls res, none), cls) ∧
      Dict.get? cls key = some (.append, .list (d ++ lines.map argument)) ∧ ∀ k, k ≠ key → Dict.get? cls k = Dict.get? g k := by
  have ho : Dict.get? (Conf.init g) key = some .alias := by simp [Conf.get?_init, hd]
  obtain ⟨cls, h1, h2, h3⟩ := option_lines fe imp disk lang (parseFile (realEnv fe imp disk false lang) 10) (userPrefsPath u) key hkey lines
    { newState g with results := res } d hp.2 rfl rfl ho hd
  have hpp : parse (realEnv fe imp disk false lang) (userPrefsPath u) { newState g with results := res } = (userState g cls res, none) := by
    unfold parse parseFile
    rw [show (realEnv fe imp disk false lang).files (userPrefsPath u) = some lines from hp.1]
    exact h1
  refine ⟨cls, ?_, h2, h3⟩
  show (finish (parse (realEnv fe imp disk false lang) (userPrefsPath u) { newState g with results := res }),
    (parse (realEnv fe imp disk false lang) (userPrefsPath u) { newState g with results := res }).1.ctx.conf.cls) = _
  rw [hpp]
  rfl

open Verif.Parser in
theorem userState_read {F : Type} (g cls : Conf.Cls F) (res : Dict Str (Dict Str PVal)) (key : Str) (d : List Str) (t : Conf.OptType) (d' : List Str)
    (hd : Dict.get? g key = some (t, .list d)) (h : Dict.get? cls key = some (t, .list d')) :
    (userState g cls res).ctx.conf.read key = some (.list d') := by
  have ho : Dict.get? (Conf.init g) key = some .alias := by simp [Conf.get?_init, hd]
  show (match Dict.get? (Conf.init g) key with
      | some .alias => (Dict.get? cls key).map Prod.snd
      | v => v) = _
  rw [ho, h]
  rfl

open Verif.Parser in
/-- All rules are of a type that needs no plugin. -/
def Builtin (res : Dict Str (Dict Str PVal)) : Prop :=
  ∀ x ∈ res, ∀ t, Dict.get? x.2 c!"type" = some t → ∃ b ∈ ruleTypes, t = .str b

open Verif.Parser in
theorem finish_builtin {F : Type} (g cls : Conf.Cls F) (res : Dict Str (Dict Str PVal)) (h : Builtin res) :
    finish (userState g cls res, none) = some (userState g cls res) := by
  unfold finish
  simp only
  rw [if_neg]
  rw [Bool.not_eq_true, List.any_eq_false]
  intro x hx
  unfold badType
  cases ht : Dict.get? x.2 c!"type" with
  | none => simp
  | some t =>
    obtain ⟨b, hb, rfl⟩ := h x hx t ht
    simp [hb]

open Verif.Parser in
/-- **C42** (violated): what one user's preferences add to an option, such as the report template, is added for every other user as well whose
ruleset is made afterwards. -/
theorem C42_isolation_violated {F : Type} (fe : Conf.FloatEnv F) (imp : Str → Option Str → Context.Import Unit) (lang : Option Str)
    (s : St (State (GCtx F)) (Dict Str (Dict Str PVal)) (List Str × Disk) Disk (Conf.Cls F)) (key : Str) (hkey : key ∉ parserWords) (d : List Str)
    (hd : Dict.get? s.g key = some (.append, .list d)) (ha : (realWorld fe imp lang).allowed s.site = true) (hb : Builtin s.results)
    (u v : Str) (huv : u ≠ v) (du dv : Disk) (lu lv : List Str) (hu : s.prefs u = some du) (hv : s.prefs v = some dv)
    (pu : PrefsFor key u du lu) (pv : PrefsFor key v dv lv) (cu : Dict.get? s.cache u = none) (cv : Dict.get? s.cache v = none) :
    (∃ r, (run (realWorld fe imp lang) s [.request (some v)]).1 = [(some v, some r)] ∧
      r.ctx.conf.read key = some (.list (d ++ lv.map argument))) ∧
    ∃ ru rv, (run (realWorld fe imp lang) s [.request (some u), .request (some v)]).1 = [(some u, some ru), (some v, some rv)] ∧
      rv.ctx.conf.read key = some (.list (d ++ lu.map argument ++ lv.map argument)) := by
  constructor
  · obtain ⟨cls, h1, h2, _⟩ := user_lines fe imp lang s.g s.results v key dv lv d hkey pv hd
    refine ⟨userState s.g cls s.results, ?_, userState_read _ _ _ _ d _ _ hd h2⟩
    have : (userRuleset (realWorld fe imp lang) (some v) s).1 = some (userState s.g cls s.results) := by
      unfold userRuleset
      simp only [ha, if_true, cv, hv, h1, finish_builtin _ _ _ hb]
    simp only [run, step, Option.toList, List.nil_append, List.append_nil, this]
  · obtain ⟨cls, h1, h2, _⟩ := user_lines fe imp lang s.g s.results u key du lu d hkey pu hd
    obtain ⟨cls', h1', h2', _⟩ := user_lines fe imp lang cls s.results v key dv lv _ hkey pv h2
    refine ⟨userState s.g cls s.results, userState cls cls' s.results, ?_, userState_read _ _ _ _ _ _ _ h2 h2'⟩
    have e1 : userRuleset (realWorld fe imp lang) (some u) s = (some (userState s.g cls s.results),
        { s with cache := Dict.set s.cache u (userState s.g cls s.results), g := cls, reads := s.reads ++ [u] }) := by
      unfold userRuleset
      simp only [ha, if_true, cu, hu, h1, finish_builtin _ _ _ hb]
    have e2 : (userRuleset (realWorld fe imp lang) (some v)
        { s with cache := Dict.set s.cache u (userState s.g cls s.results), g := cls, reads := s.reads ++ [u] }).1 =
        some (userState cls cls' s.results) := by
      have hc : Dict.get? (Dict.set s.cache u (userState s.g cls s.results)) v = none := by
        rw [Dict.get?_set_ne _ _ huv]; exact cv
      unfold userRuleset
      simp only [ha, if_true, hc, hv, h1', finish_builtin _ _ _ hb]
    simp only [run, step, Option.toList, List.nil_append, List.append_nil, e1, e2, List.cons_append]

open Verif.Parser in
/-- **C62** (violated): a user with preferences that say nothing about an option has their mail judged by the value it has before any file is read, whatever
value the site gives to it. -/
theorem C62_options_violated {F : Type} (fe : Conf.FloatEnv F) (imp : Str → Option Str → Context.Import Unit) (lang : Option Str)
    (s : St (State (GCtx F)) (Dict Str (Dict Str PVal)) (List Str × Disk) Disk (Conf.Cls F)) (key : Str) (hkey : key ∉ parserWords) (d : List Str)
    (hd : Dict.get? s.g key = some (.append, .list d)) (ha : (realWorld fe imp lang).allowed s.site = true) (hb : Builtin s.results)
    (u : Str) (disk : Disk) (lines : List Str) (hu : s.prefs u = some disk) (pu : PrefsFor key u disk lines) (cu : Dict.get? s.cache u = none)
    (option : Str) (t : Conf.OptType) (default : Conf.OptVal F) (hopt : Dict.get? s.g option = some (t, default))
    (hscalar : ∀ l, default ≠ .list l) (halias : default ≠ .alias) :
    ∃ r, (userRuleset (realWorld fe imp lang) (some u) s).1 = some r ∧ r.ctx.conf.read option = some default := by
  obtain ⟨cls, h1, _, _⟩ := user_lines fe imp lang s.g s.results u key disk lines d hkey pu hd
  refine ⟨userState s.g cls s.results, ?_, ?_⟩
  · unfold userRuleset
    simp only [ha, if_true, cu, hu, h1, finish_builtin _ _ _ hb]
  · have ho : Dict.get? (Conf.init s.g) option = some default := by
      rw [Conf.get?_init, hopt]
      cases default with
      | list l => exact absurd rfl (hscalar l)
      | alias => exact absurd rfl halias
      | _ => rfl
    show (match Dict.get? (Conf.init s.g) option with
        | some .alias => (Dict.get? cls option).map Prod.snd
        | v => v) = _
    rw [ho]
    cases default with
    | alias => exact absurd rfl halias
    | _ => rfl

open Verif.Parser in
/-- **C62** (violated): if the site has a rule of a type that a plugin provides, no ruleset can be made for any user with preferences that do not load the
plugin again: every request of such a user fails. -/
theorem C62_plugin_rule_violated {F : Type} (fe : Conf.FloatEnv F) (imp : Str → Option Str → Context.Import Unit) (lang : Option Str)
    (s : St (State (GCtx F)) (Dict Str (Dict Str PVal)) (List Str × Disk) Disk (Conf.Cls F)) (key : Str) (hkey : key ∉ parserWords) (d : List Str)
    (hd : Dict.get? s.g key = some (.append, .list d)) (ha : (realWorld fe imp lang).allowed s.site = true)
    (u : Str) (disk : Disk) (lines : List Str) (hu : s.prefs u = some disk) (pu : PrefsFor key u disk lines) (cu : Dict.get? s.cache u = none)
    (name : Str) (data : Dict Str PVal) (hr : (name, data) ∈ s.results) (t : Str) (ht : Dict.get? data c!"type" = some (.str t)) (hn : t ∉ ruleTypes) :
    (userRuleset (realWorld fe imp lang) (some u) s).1 = none := by
  obtain ⟨cls, h1, _, _⟩ := user_lines fe imp lang s.g s.results u key disk lines d hkey pu hd
  have hf : finish (userState s.g cls s.results, none) = none := by
    unfold finish
    simp only
    rw [if_pos]
    rw [List.any_eq_true]
    refine ⟨(name, data), hr, ?_⟩
    unfold badType
    rw [ht]
    have hreg : (userState s.g cls s.results).ctx.reg.cmds = [] := rfl
    simp [hn, hreg, Dict.has, Dict.get?]
  unfold userRuleset
  simp only [ha, if_true, cu, hu, h1, hf]

/-! The hypotheses are met. -/

/-- Two users who write report templates. -/
def templatePrefs (u : Str) : Option Disk :=
  if u = c!"ann" then some (oneFile c!"/home/ann/.spamassassin/user_prefs" [c!"report hello", c!"report there"])
  else if u = c!"bob" then some (oneFile c!"/home/bob/.spamassassin/user_prefs" [c!"report dear bob"])
  else none

/-- A server that has read its files, with these users. -/
def templateServer (lines : List Str) := { loadConfig demoWorld (demoServer lines) with prefs := templatePrefs }

set_option maxRecDepth 8000 in
example : demoWorld.allowed (templateServer siteLines).site = true ∧ Dict.get? (templateServer siteLines).g c!"report" = some (.append, .list []) ∧
    Dict.get? (templateServer siteLines).cache c!"ann" = none ∧ Dict.get? (templateServer siteLines).cache c!"bob" = none := by
  refine ⟨?_, ?_, ?_, ?_⟩ <;> decide +kernel

set_option maxRecDepth 8000 in
example : Builtin (templateServer siteLines).results := by
  intro x hx t ht
  have h : ∀ x ∈ (templateServer siteLines).results, Dict.get? x.2 c!"type" = some (.str c!"body") := by decide +kernel
  rw [h x hx] at ht
  exact ⟨c!"body", by decide, (Option.some.inj ht).symm⟩

example : PrefsFor c!"report" c!"ann" (oneFile c!"/home/ann/.spamassassin/user_prefs" [c!"report hello", c!"report there"])
    [c!"report hello", c!"report there"] := by
  refine ⟨by decide, fun l hl => ?_⟩
  simp only [List.mem_cons, List.not_mem_nil, or_false] at hl
  rcases hl with rfl | rfl <;> exact ⟨by decide, by decide, by decide⟩

example : Dict.get? demoCls c!"required_score" = some (.float, .float 5) := by decide

set_option maxRecDepth 8000 in
/-- The site asks for a score of 7; a user whose preferences do not mention the
score has their mail judged by the built-in 5. -/
example :
    lastOption c!"required_score" (run demoWorld (demoServer siteLines) [.reload, .request none]).1 =
      some (.float 7) ∧
    lastOption c!"required_score" (run demoWorld (demoServer siteLines)
      [.reload, .request (some c!"bob")]).1 = some (.float 5) := by
  decide +kernel

open Verif.Parser in
/-- Importing gives a plugin that adds the rule type `uri_detail`. -/
def detailWorld := realWorld demoFloats (fun _ _ => .ok ⟨0, [], [(c!"uri_detail", true)]⟩ []) (some c!"C")

set_option maxRecDepth 8000 in
/-- The site has a rule of the type `uri_detail`; the requests of a user with preferences fail. -/
example :
    ((run detailWorld (demoServer [c!"allow_user_rules 1", c!"loadplugin oa.plugins.uri_detail.URIDetailPlugin",
        c!"uri_detail U text =~ /x/"]) [.reload, .request none, .request (some c!"bob")]).1).map
      (fun r => (r.1, r.2.isSome)) = [(none, true), (some c!"bob", false)] := by
  decide +kernel

end Verif.Props
