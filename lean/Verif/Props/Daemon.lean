import Verif.Model.Daemon
import Verif.Lemmas.Py

/-!
# C161: the options of the daemon
-/

namespace Verif.Props
open Verif Py Daemon

/-- The default directory is the first one of the list that exists, and the option is required exactly if none exists. -/
theorem C161_defaults (exist : Str → Bool) (site : Bool) :
    (∀ p, (defaults exist site).1 = some p ↔
      ∃ before after, (if site then sitePaths else configPaths) = before ++ p :: after ∧ exist p = true ∧ ∀ q ∈ before, exist q = false) ∧
    ((defaults exist site).2 = true ↔ ∀ p ∈ (if site then sitePaths else configPaths), exist p = false) := by
  unfold defaults
  generalize (if site then sitePaths else configPaths) = l
  induction l with
  | nil => simp
  | cons x l ih =>
    cases hx : exist x with
    | true =>
      simp only [List.filter_cons, hx, if_true, Option.some.injEq]
      refine ⟨fun p => ⟨?_, ?_⟩, by simp [hx]⟩
      · rintro rfl
        exact ⟨[], l, rfl, hx, by simp⟩
      · rintro ⟨before, after, e, hp, hb⟩
        cases before with
        | nil => exact (List.cons.inj e).1
        | cons b before =>
          have := hb b (by simp)
          rw [← (List.cons.inj e).1, hx] at this
          cases this
    | false =>
      simp only [List.filter_cons, hx, Bool.false_eq_true, if_false]
      refine ⟨fun p => (ih.1 p).trans ⟨?_, ?_⟩, ih.2.trans (by simp [hx])⟩
      · rintro ⟨before, after, e, hp, hb⟩
        exact ⟨x :: before, after, by simp [e], hp, by simpa [hx] using hb⟩
      · rintro ⟨before, after, e, hp, hb⟩
        cases before with
        | nil =>
          rw [← (List.cons.inj e).1, hx] at hp
          cases hp
        | cons b before => exact ⟨before, after, (List.cons.inj e).2, hp, fun q hq => hb q (by simp [hq])⟩

/-- The directories in which the rules of the distribution are looked for, in this order. -/
def rulePlaces : List Str := [c!"/var/lib/spamassassin/3.004001", c!"/usr/local/share/spamassassin", c!"/usr/share/spamassassin"]

/-- The directories in which the rules of the site are looked for, in this order. -/
def sitePlaces : List Str :=
  [c!"/etc/mail/spamassassin", c!"/usr/local/etc/mail/spamassassin", c!"/usr/local/etc/spamassassin", c!"/usr/pkg/etc/spamassassin",
   c!"/usr/etc/spamassassin", c!"/etc/spamassassin"]

/-- The default is the first of these directories that exists. -/
theorem C161_places (exist : Str → Bool) :
    (defaults exist false).1 = rulePlaces.find? exist ∧ (defaults exist true).1 = sitePlaces.find? exist := by
  have h : ∀ site, (defaults exist site).1 = (if site then sitePaths else configPaths).find? exist := by
    intro site
    unfold defaults
    rw [← List.head?_filter]
    split
    · rename_i p l hl
      rw [hl]
      rfl
    · rename_i hl
      rw [hl]
      rfl
  rw [h, h]
  simp only [Bool.false_eq_true, if_false, if_true, configPaths, sitePaths, rulePlaces, sitePlaces, List.find?_cons]
  constructor
  · cases exist c!"/usr/local/share/spamassassin" <;> rfl
  · cases exist c!"/usr/local/etc/spamassassin" <;> cases exist c!"/etc/mail/spamassassin" <;> rfl

/-- A run that starts a server ends as the server ends. -/
theorem C161_ends (w : World) (a : Args) (pids : Pids) (s : Serving) (h : .serve s ∈ (main w a pids).2.1) :
    (main w a pids).2.2 = if w.fails s then .raised else .normal := by
  unfold main at h ⊢
  cases hc : option a.config (defaults w.exist false) with
  | none => simp [hc] at h
  | some c =>
    cases hs : option a.site (defaults w.exist true) with
    | none => simp [hc, hs] at h
    | some st =>
      simp only [hc, hs] at h ⊢
      cases ha : a.action with
      | some x => simp [ha] at h
      | none =>
        simp only [ha] at h ⊢
        unfold runDaemon at h ⊢
        simp only [] at h ⊢
        split at h
        · rename_i hb
          rw [if_pos hb]
          simp at h
          subst h
          rfl
        · simp at h

/-- What a run serves: a server is started only without an action, at most once, with the address, rules and strictness of the options. -/
theorem C161_serves (w : World) (a : Args) (pids : Pids) (s : Serving) (h : .serve s ∈ (main w a pids).2.1) :
    a.action = none ∧ s.listen = a.listen ∧ s.port = a.port ∧ s.paranoid = a.paranoid ∧ s.ignoreUnknown = !a.showUnknown ∧ s.prefork = a.prefork ∧
    (s.config = a.config ∨ (a.config = none ∧ s.config = (defaults w.exist false).1 ∧ s.config ≠ none)) ∧
    (s.site = a.site ∨ (a.site = none ∧ s.site = (defaults w.exist true).1 ∧ s.site ≠ none)) ∧
    (main w a pids).2.1 = [.lazy (!a.eager), .serve s] := by
  have opt : ∀ (g : Option Str) site v, option g (defaults w.exist site) = some v →
      v = g ∨ (g = none ∧ v = (defaults w.exist site).1 ∧ v ≠ none) := by
    intro g site v e
    unfold option at e
    cases g with
    | some p => exact Or.inl (Option.some.inj e).symm
    | none =>
      refine Or.inr ⟨rfl, ?_⟩
      simp only [] at e
      unfold defaults at e ⊢
      split at e
      · rename_i p l hl
        simp only [hl, Bool.false_eq_true, if_false, Option.some.injEq] at e ⊢
        subst e
        simp
      · simp at e
  unfold main at h ⊢
  cases hc : option a.config (defaults w.exist false) with
  | none => simp [hc] at h
  | some c =>
    cases hs : option a.site (defaults w.exist true) with
    | none => simp [hc, hs] at h
    | some st =>
      simp only [hc, hs] at h ⊢
      cases ha : a.action with
      | some x => simp [ha] at h
      | none =>
        simp only [ha] at h ⊢
        unfold runDaemon at h ⊢
        simp only [] at h ⊢
        split at h
        · rename_i hb
          rw [if_pos hb]
          simp at h
          subst h
          exact ⟨by first | rfl | trivial, rfl, rfl, rfl, rfl, rfl, opt _ _ _ hc, opt _ _ _ hs, rfl⟩
        · simp at h

/-- With an action a signal is sent to the process of the pid file and nothing else happens, provided that the directories with rules are
given or exist. -/
theorem C161_action_partial (w : World) (a : Args) (pids : Pids) (x : Action) (ha : a.action = some x)
    (hc : a.config ≠ none ∨ ∃ p ∈ configPaths, w.exist p = true) (hs : a.site ≠ none ∨ ∃ p ∈ sitePaths, w.exist p = true) :
    main w a pids = (pids, [.lazy (!a.eager), .signal x a.pidfile], .normal) := by
  have opt : ∀ (g : Option Str) site, g ≠ none ∨ (∃ p ∈ (if site then sitePaths else configPaths), w.exist p = true) →
      ∃ v, option g (defaults w.exist site) = some v := by
    intro g site h
    unfold option
    cases g with
    | some p => exact ⟨_, rfl⟩
    | none =>
      rcases h with h | ⟨p, hp, he⟩
      · exact absurd rfl h
      · have : ¬ (defaults w.exist site).2 = true := by
          intro hd
          have := (C161_defaults w.exist site).2.1 hd p hp
          rw [he] at this
          cases this
        simp only [this, if_false]
        exact ⟨_, rfl⟩
  obtain ⟨c, hc⟩ := opt a.config false (by simpa using hc)
  obtain ⟨s, hs⟩ := opt a.site true (by simpa using hs)
  unfold main
  simp only [hc, hs, ha]

/-- Without such directories a running daemon can not be stopped or reloaded by the script: a usage message is shown and no signal is sent. -/
theorem C161_action_violated (w : World) (a : Args) (pids : Pids) (hc : a.config = none) (he : ∀ p ∈ configPaths, w.exist p = false) :
    main w a pids = (pids, [], .usage) := by
  have : option a.config (defaults w.exist false) = none := by
    unfold option
    rw [hc]
    have : (defaults w.exist false).2 = true := (C161_defaults w.exist false).2.2 he
    simp [this]
  unfold main
  simp only [this]

/-- Whether learning and reporting was allowed makes no difference at all. -/
theorem C161_tell_violated (w : World) (a : Args) (pids : Pids) (b : Bool) : main w { a with allowTell := b } pids = main w a pids := rfl

/-- Once the server was set up, the pid file of a daemon is gone when the daemon ends, however it ends; other pid files stay as they are. -/
theorem C161_pidfile_partial (w : World) (a : Args) (pids : Pids) (s : Serving) (h : .serve s ∈ (main w a pids).2.1) :
    Dict.get? (main w a pids).1 a.pidfile = none ∧ ∀ f, f ≠ a.pidfile → Dict.get? (main w a pids).1 f = Dict.get? pids f := by
  unfold main at h ⊢
  cases hc : option a.config (defaults w.exist false) with
  | none => simp [hc] at h
  | some c =>
    cases hs : option a.site (defaults w.exist true) with
    | none => simp [hc, hs] at h
    | some st =>
      simp only [hc, hs] at h ⊢
      cases ha : a.action with
      | some x => simp [ha] at h
      | none =>
        simp only [ha] at h ⊢
        unfold runDaemon at h ⊢
        simp only [] at h ⊢
        split at h
        · rename_i hb
          rw [if_pos hb]
          refine ⟨by rw [Dict.get?_del, if_pos rfl], fun f hf => ?_⟩
          rw [Dict.get?_del, if_neg (Ne.symm hf)]
          split
          · exact Dict.get?_set_ne _ _ (Ne.symm hf)
          · rfl
        · simp at h

/-- If the server can not be set up, for instance because its port is in use, a daemon leaves its pid file behind. -/
theorem C161_left_violated (w : World) (a : Args) (pids : Pids) (hd : a.daemonize = true) (ha : a.action = none) (c s : Str) (hc : a.config = some c)
    (hs : a.site = some s) (hb : ∀ s, w.bindable s = false) :
    (main w a pids).2.2 = .raised ∧ Dict.get? (main w a pids).1 a.pidfile = some w.pid := by
  unfold main option runDaemon
  simp [hc, hs, ha, hd, hb]

/-- A second server that is not a daemon removes, when it ends, the pid file of a daemon that is still running. -/
theorem C161_removed_violated (w : World) (a : Args) (pids : Pids) (running : Nat) (_hr : Dict.get? pids a.pidfile = some running) (_hp : running ≠ w.pid)
    (hd : a.daemonize = false) (ha : a.action = none) (c s : Str) (hc : a.config = some c) (hs : a.site = some s) (hb : ∀ s, w.bindable s = true) :
    Dict.get? (main w a pids).1 a.pidfile = none := by
  unfold main option runDaemon
  simp [hc, hs, ha, hd, hb, Dict.get?_del]

/-- Messages about wrong rules: they are written to the log file of the daemon exactly with one of the options for it or when debugging, … -/
theorem C161_log_file (debug paranoid showUnknown : Bool) (path : Str) (hp : path ≠ []) :
    .file path ∈ (setupLogging debug (some path)).written (errLevel paranoid (!showUnknown)) ↔ debug = true ∨ paranoid = true ∨ showUnknown = true := by
  cases debug <;> cases paranoid <;> cases showUnknown <;> simp [setupLogging, Logger.written, errLevel, Level.num, hp]

/-- … but they are shown on the terminal only when debugging: the script that matches single messages, which has no log file, does not
show them, not even with the options for it. -/
theorem C161_show_unknown_violated (paranoid showUnknown : Bool) (path : Option Str) :
    Sink.terminal ∉ (setupLogging false path).written (errLevel paranoid (!showUnknown)) ∧
    (setupLogging false none).written (errLevel paranoid (!showUnknown)) = [] := by
  constructor
  · cases path with
    | none => cases paranoid <;> cases showUnknown <;> simp [setupLogging, Logger.written, errLevel, Level.num]
    | some p =>
      by_cases hp : p = [] <;> cases paranoid <;> cases showUnknown <;> simp [setupLogging, Logger.written, errLevel, Level.num, hp]
  · cases paranoid <;> cases showUnknown <;> simp [setupLogging, Logger.written, errLevel, Level.num]

/-! ### The hypotheses can be met -/

/-- A system with one directory of each kind. -/
def demoSystem : World := ⟨42, fun p => p == c!"/usr/share/spamassassin" || p == c!"/etc/spamassassin", fun _ => true, fun _ => false⟩

example : main demoSystem { daemonize := true, paranoid := true } [] =
    ([], [.lazy true, .serve ⟨c!"0.0.0.0", 783, some c!"/etc/spamassassin", some c!"/usr/share/spamassassin", true, true, none⟩], .normal) := by decide

example : main demoSystem { action := some .stop } [(c!"/var/run/oad.pid", 7)] =
    ([(c!"/var/run/oad.pid", 7)], [.lazy true, .signal .stop c!"/var/run/oad.pid"], .normal) :=
  C161_action_partial demoSystem _ _ .stop rfl (Or.inr ⟨c!"/usr/share/spamassassin", by decide, by decide⟩) (Or.inr ⟨c!"/etc/spamassassin", by decide, by decide⟩)

example : main { demoSystem with exist := fun _ => false } { action := some .stop } [(c!"/var/run/oad.pid", 7)] =
    ([(c!"/var/run/oad.pid", 7)], [], .usage) :=
  C161_action_violated _ _ _ rfl (fun _ _ => rfl)

example : Dict.get? (main demoSystem { config := some c!"/a", site := some c!"/b" } [(c!"/var/run/oad.pid", 7)]).1 c!"/var/run/oad.pid" = none :=
  C161_removed_violated demoSystem { config := some c!"/a", site := some c!"/b" } _ 7 rfl (by decide) rfl rfl _ _ rfl rfl (fun _ => rfl)

example : Dict.get? (main { demoSystem with bindable := fun _ => false } { config := some c!"/a", site := some c!"/b", daemonize := true } []).1 c!"/var/run/oad.pid" = some 42 :=
  (C161_left_violated { demoSystem with bindable := fun _ => false } { config := some c!"/a", site := some c!"/b", daemonize := true } [] rfl rfl _ _ rfl rfl (fun _ => rfl)).2

end Verif.Props
