import Verif.Model.BayesScan
import Verif.Spec.BayesScan
import Verif.Props.Wlbl
import Verif.Props.Dkim

/-!
# C143 to C145: the connection of the Bayes plugin, the messages it ignores, its tags
-/

namespace Verif.Props
open Verif Py BayesScore BayesScan Spec

/-! ## C143: the connection -/

/-- Something that happens to the plugin of a process. -/
inductive BayesOp where
  | scan (b : Base) (m : BayesScan.Msg)
  | learn (b : Base) (g : Learning)

/-- What happens: is it done without an exception, and the state after it. -/
def bayesStep (E : Dkim.Engine) (comb : Nat → Nat → List Rat → Option Rat) (o : Opts) : BayesOp → Plug → Bool × Plug
  | .scan b m, p => let r := (scan E comb o b m p Loc.start).1; (r.1.isSome, r.2)
  | .learn b g, p => let r := learn o b g p; (r.1.isSome, r.2)

/-- The state after a history. -/
def bayesAfter (E : Dkim.Engine) (comb : Nat → Nat → List Rat → Option Rat) (o : Opts) (p : Plug) (ops : List BayesOp) : Plug :=
  ops.foldl (fun p op => (bayesStep E comb o op p).2) p

/-- No connection is open, and the plugin will close those it opens. -/
def Idle (p : Plug) : Prop := p.willUntie = false ∧ p.conn ≠ .opened

theorem untie_conn {b : Base} {p p' : Plug} (h : untie b p = some p') : p'.conn ≠ .opened ∧ p'.willUntie = p.willUntie := by
  unfold untie at h
  split at h
  · rename_i hc; cases h; exact ⟨by rw [hc]; decide, rfl⟩
  · cases h; exact ⟨by simp, rfl⟩
  · rename_i hc
    split at h
    · cases h; exact ⟨by rw [hc]; decide, rfl⟩
    · cases h

theorem tie_conn {b : Base} {p p' : Plug} (h : tie b p = some p') : p'.conn = .opened ∧ p'.willUntie = p.willUntie := by
  unfold tie at h
  split at h
  · cases h; exact ⟨rfl, rfl⟩
  · cases h

theorem skip_idle {b : Base} {s : Option Rat} {p : Plug} (h : (skip b s false p).1.isSome) : Idle (skip b s false p).2 := by
  unfold skip at *
  simp only [Bool.false_eq_true, if_false] at *
  cases hu : untie b { p with willUntie := false } with
  | none => rw [hu] at h; cases h
  | some p' =>
    have := untie_conn hu
    exact ⟨this.2, this.1⟩

/-- A scan ends in an exception before the flag is put back, or with `_skip_scan`. -/
theorem scan_ends (E : Dkim.Engine) (comb : Nat → Nat → List Rat → Option Rat) (o : Opts) (b : Base) (m : BayesScan.Msg) (p : Plug) (l : Loc)
    (hl : o.useLearner = true) :
    (∃ p', (scan E comb o b m p l).1 = (none, p') ∧ p'.willUntie = true ∧ (p'.conn = p.conn ∨ p'.conn = .opened)) ∨
    (∃ p' s, (scan E comb o b m p l).1 = skip b s p.willUntie p' ∧ (p'.conn = p.conn ∨ p'.conn = .opened)) := by
  have av : ∀ r q, available o b { p with willUntie := true } = (r, q) → q.willUntie = true ∧ (q.conn = p.conn ∨ q.conn = .opened) := by
    intro r q h
    unfold available at h
    split at h
    · cases h; exact ⟨rfl, .inl rfl⟩
    · split at h
      · cases h; exact ⟨rfl, .inl rfl⟩
      · rename_i p1 hp1
        have t := tie_conn hp1
        split at h
        · cases h; exact ⟨t.2, .inr t.1⟩
        · split at h
          · rw [t.2] at h
            simp only [if_true] at h
            cases h; exact ⟨t.2, .inr t.1⟩
          · cases h; exact ⟨t.2, .inr t.1⟩
  unfold scan
  simp only [hl, Bool.not_true, Bool.false_eq_true, if_false]
  split
  · exact .inl ⟨_, rfl, rfl, .inl rfl⟩
  · exact .inr ⟨_, _, rfl, .inl rfl⟩
  · split
    · rename_i q hq; exact .inl ⟨_, rfl, av _ _ hq⟩
    · rename_i q hq; exact .inr ⟨_, _, rfl, (av _ _ hq).2⟩
    · rename_i q hq
      have a := av _ _ hq
      split
      · exact .inl ⟨_, rfl, a⟩
      · split
        · exact .inl ⟨_, rfl, a⟩
        · split
          · exact .inl ⟨_, rfl, a⟩
          · split
            · exact .inl ⟨_, rfl, a⟩
            · split
              · exact .inr ⟨_, _, rfl, a.2⟩
              · split
                · exact .inr ⟨_, _, rfl, a.2⟩
                · split
                  · exact .inl ⟨_, rfl, a⟩
                  · split
                    · exact .inl ⟨_, rfl, a⟩
                    · exact .inr ⟨_, _, rfl, a.2⟩

/-- **C143**, one step: a scan or learning without an exception leaves no connection open. -/
theorem idle_step (E : Dkim.Engine) (comb : Nat → Nat → List Rat → Option Rat) (o : Opts) (op : BayesOp) (p : Plug) (h : Idle p)
    (hok : (bayesStep E comb o op p).1 = true) : Idle (bayesStep E comb o op p).2 := by
  cases op with
  | scan b m =>
    simp only [bayesStep] at *
    cases hl : o.useLearner with
    | false =>
      have : (scan E comb o b m p Loc.start).1 = (some none, p) := by unfold scan; simp [hl]
      rw [this]; exact h
    | true =>
      rcases scan_ends E comb o b m p Loc.start hl with ⟨p', e, -⟩ | ⟨p', s, e, -⟩
      · rw [e] at hok; cases hok
      · rw [e, h.1] at hok ⊢
        exact skip_idle hok
  | learn b g =>
    simp only [bayesStep] at *
    unfold learn at *
    split at hok
    · rename_i hb; rw [if_pos hb]; exact h
    · rename_i hb
      rw [if_neg hb]
      split at hok
      · cases hok
      · rename_i p1 hp1
        have t := tie_conn hp1
        rw [h.1] at t
        split at hok
        · cases hok
        · rename_i hr
          simp only [t.2, Bool.false_eq_true, if_false] at hok ⊢
          split at hok
          · cases hok
          · rename_i p2 hp2
            have u := untie_conn hp2
            rw [if_neg hr]
            exact ⟨u.2.trans t.2, u.1⟩

/-- **C143**.  After any history of scans and learning in which nothing raised, no connection to the database is open. -/
theorem C143_closed_partial (E : Dkim.Engine) (comb : Nat → Nat → List Rat → Option Rat) (o : Opts) (ops : List BayesOp)
    (hok : ∀ pre op post, ops = pre ++ op :: post → (bayesStep E comb o op (bayesAfter E comb o Plug.init pre)).1 = true) :
    Idle (bayesAfter E comb o Plug.init ops) := by
  have key : ∀ (ops : List BayesOp) (p : Plug), Idle p →
      (∀ pre op post, ops = pre ++ op :: post → (bayesStep E comb o op (bayesAfter E comb o p pre)).1 = true) →
      Idle (bayesAfter E comb o p ops) := by
    intro ops
    induction ops with
    | nil => intro p hp _; exact hp
    | cons op ops ih =>
      intro p hp h
      have h1 := h [] op ops rfl
      refine ih _ (idle_step E comb o op p hp h1) ?_
      intro pre op' post e
      exact h (op :: pre) op' post (by rw [e]; rfl)
  exact key ops Plug.init ⟨rfl, by decide⟩ hok

/-- **C143**.  An exception while learning does no lasting harm: the next scan or learning without one closes the connection. -/
theorem C143_learn_error (E : Dkim.Engine) (comb : Nat → Nat → List Rat → Option Rat) (o : Opts) (b : Base) (g : Learning) (p : Plug)
    (h : p.willUntie = false) : (bayesStep E comb o (.learn b g) p).2.willUntie = false := by
  simp only [bayesStep]
  unfold learn
  split
  · exact h
  · split
    · exact h
    · rename_i p1 hp1
      have t := tie_conn hp1
      split
      · exact t.2.trans h
      · rw [h] at t
        simp only [t.2, Bool.false_eq_true, if_false]
        split
        · exact t.2
        · rename_i p2 hp2; exact (untie_conn hp2).2.trans t.2

/-- **C143 is violated**: an exception in one scan (a database error, an entry in an ignore list that is no expression, a
message that cannot be tokenised) leaves the flag set. -/
theorem C143_scan_error_violated (E : Dkim.Engine) (comb : Nat → Nat → List Rat → Option Rat) (o : Opts) (b : Base) (m : BayesScan.Msg) (p : Plug)
    (hb : b.reclose = true) (herr : (bayesStep E comb o (.scan b m) p).1 = false) :
    (bayesStep E comb o (.scan b m) p).2.willUntie = true := by
  simp only [bayesStep] at *
  cases hl : o.useLearner with
  | false =>
    have : (scan E comb o b m p Loc.start).1 = (some none, p) := by unfold scan; simp [hl]
    rw [this] at herr; cases herr
  | true =>
    rcases scan_ends E comb o b m p Loc.start hl with ⟨p', e, h1, -⟩ | ⟨p', s, e, -⟩
    · rw [e]; exact h1
    · exfalso
      rw [e] at herr
      unfold skip at herr
      dsimp only at herr
      split at herr
      · cases herr
      · split at herr
        · rename_i hu
          unfold untie at hu
          dsimp only at hu
          split at hu
          · cases hu
          · cases hu
          · rw [hb] at hu; cases hu
        · cases herr

/-- **C143 is violated**: once the flag is set it stays set, whatever happens, until the process ends; ... -/
theorem C143_stuck_violated (E : Dkim.Engine) (comb : Nat → Nat → List Rat → Option Rat) (o : Opts) (ops : List BayesOp) (p : Plug)
    (h : p.willUntie = true) : (bayesAfter E comb o p ops).willUntie = true := by
  induction ops generalizing p with
  | nil => exact h
  | cons op ops ih =>
    refine ih _ ?_
    cases op with
    | scan b m =>
      simp only [bayesStep]
      cases hl : o.useLearner with
      | false =>
        have : (scan E comb o b m p Loc.start).1 = (some none, p) := by unfold scan; simp [hl]
        rw [this]; exact h
      | true =>
        rcases scan_ends E comb o b m p Loc.start hl with ⟨p', e, h1, -⟩ | ⟨p', s, e, -⟩
        · rw [e]; exact h1
        · rw [e, h]; unfold skip; simp
    | learn b g =>
      simp only [bayesStep]
      unfold learn
      split
      · exact h
      · split
        · exact h
        · rename_i p1 hp1
          have t := tie_conn hp1
          rw [h] at t
          split
          · exact t.2
          · simp only [t.2, if_true]

/-- ... and every message that is scanned and every one that is learned leaves a connection open. -/
theorem C143_open_violated (E : Dkim.Engine) (comb : Nat → Nat → List Rat → Option Rat) (o : Opts) (b : Base) (p : Plug)
    (h : p.willUntie = true) (hb : b.tie = true) (huse : o.useBayes = true) :
    (∀ m, o.useLearner = true → ignoreMessage E o.ignores m.addrs = some false →
      (bayesStep E comb o (.scan b m) p).2.conn = .opened) ∧
    ∀ g, (bayesStep E comb o (.learn b g) p).2.conn = .opened := by
  have hav : ∀ r q, available o b { p with willUntie := true } = (r, q) → q.conn = .opened := by
    intro r q hq
    unfold available at hq
    simp only [huse, Bool.not_true, Bool.false_eq_true, if_false, tie, hb, if_true] at hq
    split at hq
    · cases hq; rfl
    · split at hq
      · cases hq; rfl
      · cases hq; rfl
  have hs : ∀ s (q : Plug), q.conn = .opened → (skip b s p.willUntie q).2.conn = .opened := by
    intro s q hq; rw [h]; unfold skip; simpa using hq
  constructor
  · intro m hl hi
    simp only [bayesStep]
    unfold scan
    simp only [hl, Bool.not_true, Bool.false_eq_true, if_false, hi]
    split
    · rename_i q hq; exact hav _ _ hq
    · rename_i q hq; exact hs _ _ (hav _ _ hq)
    · rename_i q hq
      have a := hav _ _ hq
      split
      · exact a
      · split
        · exact a
        · split
          · exact a
          · split
            · exact a
            · split
              · exact hs _ _ a
              · split
                · exact hs _ _ a
                · split
                  · exact a
                  · split
                    · exact a
                    · exact hs _ _ a
  · intro g
    simp only [bayesStep]
    unfold learn tie
    simp only [huse, Bool.not_true, Bool.false_eq_true, if_false, hb, if_true, h]
    split <;> rfl

/-- **C143 is violated** with `pymysql`, which does not close a connection twice: after a scan that worked, the check of a message
from an ignored address ends in an exception. -/
theorem C143_ignored_error_violated (E : Dkim.Engine) (comb : Nat → Nat → List Rat → Option Rat) (o : Opts) (b : Base) (m : BayesScan.Msg) (p : Plug)
    (hl : o.useLearner = true) (hb : b.reclose = false) (hp : p = ⟨false, .closed⟩) (hi : ignoreMessage E o.ignores m.addrs = some true) :
    (bayesStep E comb o (.scan b m) p).1 = false := by
  subst hp
  simp [bayesStep, scan, hl, hi, skip, untie, hb]

/-! ## C144: ignored messages -/

theorem parts_plain {entry : Str} (h : PlainEntry entry) :
    Dkim.parts entry = some (entry.map (fun c => if c = '.' then Wlbl.Tok.one else Wlbl.Tok.lit c)) := by
  induction entry with
  | nil => rfl
  | cons c cs ih =>
    have hc := h c (by simp)
    have ih := ih (fun x hx => h x (by simp [hx]))
    have hns : ∀ t, ¬ (c = '.' ∧ cs = '*' :: t) := by
      rintro t ⟨-, e⟩
      have := h '*' (by simp [e])
      exact this (by decide)
    unfold Dkim.parts
    split
    · rename_i heq; cases heq
    · rename_i heq
      simp only [List.cons.injEq] at heq
      exact absurd heq (hns _)
    · rename_i c' cs' _ heq
      simp only [List.cons.injEq] at heq
      obtain ⟨rfl, rfl⟩ := heq
      split
      · rename_i hd; simp [ih, hd]
      · rename_i hd
        rw [if_neg, ih]
        · simp [hd]
        · rintro (rfl | hs)
          · exact hc (by decide)
          · apply hc
            simp only [Dkim.special] at hs
            revert hs
            simp only [List.mem_cons, List.not_mem_nil, or_false]
            intro hs
            rcases hs with h | h | h | h | h | h | h | h | h | h | h | h <;> simp [h]

theorem pm_dots (entry : Str) : ∀ s, Wlbl.pm (entry.map (fun c => if c = '.' then Wlbl.Tok.one else Wlbl.Tok.lit c)) s = true ↔
    ∃ t u, s = t ++ u ∧ DotSame entry t := by
  induction entry with
  | nil => intro s; simp only [List.map_nil, Wlbl.pm, true_iff]; exact ⟨[], s, rfl, .nil⟩
  | cons c cs ih =>
    intro s
    rw [List.map_cons]
    by_cases hc : c = '.'
    · subst hc
      simp only [if_true]
      cases s with
      | nil =>
        simp only [Wlbl.pm, Bool.false_eq_true, false_iff]
        rintro ⟨t, u, e, h⟩
        have := List.append_eq_nil_iff.mp e.symm
        rw [this.1] at h
        cases h
      | cons x xs =>
        simp only [Wlbl.pm, Bool.and_eq_true, bne_iff_ne, ne_eq, ih]
        constructor
        · rintro ⟨hx, t, u, e, h⟩
          exact ⟨x :: t, u, by rw [e]; rfl, .dot hx h⟩
        · rintro ⟨t, u, e, h⟩
          cases h with
          | same hn => exact absurd rfl hn
          | dot hx h =>
            simp only [List.cons_append, List.cons.injEq] at e
            exact ⟨e.1 ▸ hx, _, u, e.2, h⟩
    · simp only [if_neg hc]
      cases s with
      | nil =>
        simp only [Wlbl.pm, Bool.false_eq_true, false_iff]
        rintro ⟨t, u, e, h⟩
        have := List.append_eq_nil_iff.mp e.symm
        rw [this.1] at h
        cases h
      | cons x xs =>
        simp only [Wlbl.pm, Bool.and_eq_true, beq_iff_eq, ih]
        constructor
        · rintro ⟨hx, t, u, e, h⟩
          exact ⟨c :: t, u, by rw [e, hx]; rfl, .same hc h⟩
        · rintro ⟨t, u, e, h⟩
          cases h with
          | same hn h =>
            simp only [List.cons_append, List.cons.injEq] at e
            exact ⟨e.1.symm, _, u, e.2, h⟩
          | dot hx h => exact absurd rfl hc

/-- An entry without wildcards is found in an address. -/
theorem search_plain (E : Dkim.Engine) {entry : Str} (h : PlainEntry entry) (a : Str) :
    searchRe E entry a = some true ↔ ∃ x y z, a = x ++ y ++ z ∧ DotSame entry y := by
  unfold searchRe Dkim.compile
  rw [parts_plain h]
  simp only [Option.map_some, Option.some.injEq, search_iff, pm_dots]
  constructor
  · rintro ⟨x, b, e, y, z, e', hd⟩; exact ⟨x, y, z, by rw [e, e', List.append_assoc], hd⟩
  · rintro ⟨x, y, z, e, hd⟩; exact ⟨x, y ++ z, by rw [e, List.append_assoc], y, z, rfl, hd⟩

theorem search_plain_some (E : Dkim.Engine) {entry : Str} (h : PlainEntry entry) (a : Str) : (searchRe E entry a).isSome := by
  unfold searchRe Dkim.compile
  rw [parts_plain h]; rfl

theorem anyRegex_plain (E : Dkim.Engine) (a : Str) (list : List Str) (h : ∀ e ∈ list, PlainEntry e) :
    anyRegex E a list = some (list.any (fun e => searchRe E e a == some true)) := by
  induction list with
  | nil => rfl
  | cons e es ih =>
    unfold anyRegex
    have hs := search_plain_some E (h e (by simp)) a
    cases hr : searchRe E e a with
    | none => rw [hr] at hs; cases hs
    | some r =>
      cases r with
      | true => simp [hr]
      | false => simp only [List.any_cons, hr]; rw [ih (fun e he => h e (by simp [he]))]; simp

theorem inList_plain (E : Dkim.Engine) (list as : List Str) (h : ∀ e ∈ list, PlainEntry e) :
    inList E list as = some (as.any (fun a => list.any (fun e => searchRe E e a == some true))) := by
  induction as with
  | nil => rfl
  | cons a as ih =>
    unfold inList
    rw [anyRegex_plain E a list h]
    cases hr : list.any (fun e => searchRe E e a == some true) with
    | true => simp [hr]
    | false => simp only [List.any_cons, hr]; rw [ih]; simp

/-- **C144**.  With entries without wildcards, a message is left out exactly if an entry for senders is found in one of its senders'
addresses, or one for recipients in one of its recipients'. -/
theorem C144_ignored_partial (E : Dkim.Engine) (l : Ignores) (a : Addrs) (hf : ∀ e ∈ l.from_, PlainEntry e) (ht : ∀ e ∈ l.to_, PlainEntry e) :
    ∃ r, ignoreMessage E l a = some r ∧
      (r = true ↔ (∃ addr ∈ a.from_, ∃ e ∈ l.from_, ∃ x y z, addr = x ++ y ++ z ∧ DotSame e y) ∨
        (∃ addr ∈ a.to_, ∃ e ∈ l.to_, ∃ x y z, addr = x ++ y ++ z ∧ DotSame e y)) := by
  refine ⟨_, by unfold ignoreMessage; rw [inList_plain E _ _ hf, inList_plain E _ _ ht], ?_⟩
  rw [Bool.or_eq_true]
  simp only [List.any_eq_true, beq_iff_eq]
  refine or_congr ?_ ?_
  · constructor
    · rintro ⟨addr, ha, e, he, h⟩; exact ⟨addr, ha, e, he, (search_plain E (hf e he) addr).1 h⟩
    · rintro ⟨addr, ha, e, he, h⟩; exact ⟨addr, ha, e, he, (search_plain E (hf e he) addr).2 h⟩
  · constructor
    · rintro ⟨addr, ha, e, he, h⟩; exact ⟨addr, ha, e, he, (search_plain E (ht e he) addr).1 h⟩
    · rintro ⟨addr, ha, e, he, h⟩; exact ⟨addr, ha, e, he, (search_plain E (ht e he) addr).2 h⟩

/-- **C144**.  A message that is left out is not scored, no rule of the classifier applies to it, the database is not asked,
and there is nothing about it in the tags. -/
theorem C144_not_scored (E : Dkim.Engine) (comb : Nat → Nat → List Rat → Option Rat) (o : Opts) (b : Base) (m : BayesScan.Msg) (lo : Rat) (hi : Option Rat)
    (p : Plug) (l : Loc) (h : ignoreMessage E o.ignores m.addrs = some true) (hp : p.conn ≠ .opened) :
    (checkRule E comb o b m lo hi p l).1 = false ∧ (checkRule E comb o b m lo hi p l).2.1.conn ≠ .opened ∧
    { (checkRule E comb o b m lo hi p l).2.2 with score := l.score } = l := by
  unfold checkRule
  split
  · exact ⟨rfl, hp, rfl⟩
  · rename_i hu
    have hl : o.useLearner = true := by
      cases hx : o.useLearner with
      | true => rfl
      | false => rw [hx] at hu; simp at hu
    have hsc : scan E comb o b m p l = (skip b none p.willUntie { p with willUntie := true }, l) := by
      unfold scan; simp [hl, h]
    rw [hsc]
    have hk : ∀ r q, skip b none p.willUntie { p with willUntie := true } = (r, q) → (r = none ∨ r = some none) ∧ q.conn ≠ .opened := by
      intro r q hs
      unfold skip at hs
      dsimp only at hs
      split at hs
      · cases hs; exact ⟨.inr rfl, hp⟩
      · split at hs
        · cases hs; exact ⟨.inl rfl, hp⟩
        · rename_i p2 hp2
          cases hs; exact ⟨.inr rfl, (untie_conn hp2).1⟩
    cases hs : skip b none p.willUntie { p with willUntie := true } with
    | mk r q =>
      obtain ⟨h1, h2⟩ := hk r q hs
      rcases h1 with rfl | rfl
      · exact ⟨rfl, h2, rfl⟩
      · refine ⟨?_, h2, rfl⟩
        simp only [checkBayes]
        cases o.useLearner <;> cases o.useBayes <;> cases o.useRules <;> rfl

theorem dotSame_refl {e : Str} (h : '\n' ∉ e) : DotSame e e := by
  induction e with
  | nil => exact .nil
  | cons c cs ih =>
    simp only [List.mem_cons, not_or] at h
    by_cases hc : c = '.'
    · subst hc; exact .dot (by decide) (ih h.2)
    · exact .same hc (ih h.2)

/-- **C144 is violated**: an entry is found anywhere in an address, so that other users and domains are ignored as well. -/
theorem C144_unanchored_violated (E : Dkim.Engine) (entry x z : Str) (h : PlainEntry entry) (hn : '\n' ∉ entry) :
    ignoreMessage E ⟨[entry], []⟩ ⟨[x ++ entry ++ z], []⟩ = some true := by
  obtain ⟨r, h1, h2⟩ := C144_ignored_partial E ⟨[entry], []⟩ ⟨[x ++ entry ++ z], []⟩ (by simpa using h) (by simp)
  rw [h1, h2.2]
  exact .inl ⟨_, by simp, entry, by simp, x, entry, z, rfl, dotSame_refl hn⟩

example : PlainEntry c!"ann@example.com" ∧ '\n' ∉ c!"ann@example.com" ∧
    ignoreMessage Props.noEngine ⟨[c!"ann@example.com"], []⟩ ⟨[c!"joann@example.community.org"], []⟩ = some true ∧
    ¬ Glob c!"ann@example.com" c!"joann@example.community.org" := by
  refine ⟨by unfold PlainEntry; decide, by decide, by decide +kernel, ?_⟩
  intro h; cases h

/-- **C144 is violated**: the wildcard of the documentation is no expression.  If there is an entry that begins with `*` for senders, no message
with a sender is scored any more. -/
theorem C144_star_violated (E : Dkim.Engine) (hE : ∀ t, E ('*' :: t) = none) (comb : Nat → Nat → List Rat → Option Rat) (o : Opts) (b : Base)
    (m : BayesScan.Msg) (lo : Rat) (hi : Option Rat) (p : Plug) (l : Loc) (t : Str) (he : '*' :: t ∈ o.ignores.from_) (ha : m.addrs.from_ ≠ []) :
    (checkRule E comb o b m lo hi p l).1 = false := by
  have none_of : ∀ a, searchRe E ('*' :: t) a = none := by
    intro a
    unfold searchRe Dkim.compile
    have : Dkim.parts ('*' :: t) = none := by unfold Dkim.parts; simp
    rw [this]; simp [hE]
  have any_of : ∀ a (list : List Str), '*' :: t ∈ list → anyRegex E a list ≠ some false := by
    intro a list
    induction list with
    | nil => intro h; cases h
    | cons e es ih =>
      intro h
      unfold anyRegex
      rcases List.mem_cons.mp h with h | h
      · rw [← h, none_of]; simp
      · cases searchRe E e a with
        | none => simp
        | some r => cases r with
          | true => simp
          | false => exact ih h
  have hin : inList E o.ignores.from_ m.addrs.from_ ≠ some false := by
    cases hm : m.addrs.from_ with
    | nil => exact absurd hm ha
    | cons a as =>
      unfold inList
      have := any_of a _ he
      cases hr : anyRegex E a o.ignores.from_ with
      | none => simp
      | some r => cases r with
        | true => simp
        | false => exact absurd hr this
  have hig : ignoreMessage E o.ignores m.addrs ≠ some false := by
    unfold ignoreMessage
    cases hr : inList E o.ignores.from_ m.addrs.from_ with
    | none => simp
    | some r => cases r with
      | false => exact absurd hr hin
      | true => cases inList E o.ignores.to_ m.addrs.to_ <;> simp
  unfold checkRule
  split
  · rfl
  · rename_i hu
    have hl : o.useLearner = true := by
      cases hx : o.useLearner with
      | true => rfl
      | false => rw [hx] at hu; simp at hu
    cases hr : ignoreMessage E o.ignores m.addrs with
    | none =>
      have : scan E comb o b m p l = ((none, { p with willUntie := true }), l) := by unfold scan; simp [hl, hr]
      rw [this]
    | some r =>
      cases r with
      | false => exact absurd hr hig
      | true =>
        have : scan E comb o b m p l = (skip b none p.willUntie { p with willUntie := true }, l) := by unfold scan; simp [hl, hr]
        rw [this]
        have hk : ∀ r q, skip b none p.willUntie { p with willUntie := true } = (r, q) → r = none ∨ r = some none := by
          intro r q hs
          unfold skip at hs
          dsimp only at hs
          split at hs
          · cases hs; exact .inr rfl
          · split at hs
            · cases hs; exact .inl rfl
            · cases hs; exact .inr rfl
        cases hs : skip b none p.willUntie { p with willUntie := true } with
        | mk r q =>
          rcases hk r q hs with rfl | rfl
          · rfl
          · simp only [checkBayes]
            cases o.useLearner <;> cases o.useBayes <;> cases o.useRules <;> rfl

example : ∃ s, Glob c!"*@example.com" s ∧ s = c!"a@example.com" :=
  ⟨_, .more (.none (.char (by decide) (by decide) (.char (by decide) (by decide) (.char (by decide) (by decide) (.char (by decide) (by decide)
    (.char (by decide) (by decide) (.char (by decide) (by decide) (.char (by decide) (by decide) (.char (by decide) (by decide) (.char (by decide) (by decide)
    (.char (by decide) (by decide) (.char (by decide) (by decide) (.char (by decide) (by decide) .nil))))))))))))), rfl⟩

/-- **C144 is violated**: an entry with a space before it, as after a comma and a space in the configuration, is not found in any address
without spaces. -/
theorem C144_space_violated (E : Dkim.Engine) (first entry addr : Str) (h : PlainEntry entry) (hf : ',' ∉ first) (he : ',' ∉ entry)
    (ha : ' ' ∉ addr) :
    Dkim.listOption [first ++ c!", " ++ entry] = [first, ' ' :: entry] ∧ searchRe E (' ' :: entry) addr = some false := by
  constructor
  · simp only [Dkim.listOption, List.getLast?_singleton]
    rw [show first ++ c!", " ++ entry = first ++ ',' :: (' ' :: entry) by simp, splitChar_append_any, dot_single _ hf,
      dot_single _ (by simp [he])]
    rfl
  have hp : PlainEntry (' ' :: entry) := by
    intro c hc
    rcases List.mem_cons.mp hc with rfl | hc
    · decide
    · exact h c hc
  cases hr : searchRe E (' ' :: entry) addr with
  | none => have := search_plain_some E hp addr; rw [hr] at this; cases this
  | some r =>
    cases r with
    | false => rfl
    | true =>
      obtain ⟨x, y, z, e, hd⟩ := (search_plain E hp addr).1 hr
      exfalso
      cases hd with
      | same _ _ => exact ha (by rw [e]; simp)

/-! ## C145: the tags -/

/-- The numbers are consistent: of the `count` tokens of the message `learned` are in the database, of these some are hammy, some
spammy. -/
def Consistent (l : Loc) : Prop := l.hammy.length + l.spammy.length ≤ l.learned ∧ l.learned ≤ l.count

theorem dictSet_length {K V : Type} [DecidableEq K] (d : Dict K V) (k : K) (v : V) : (Dict.set d k v).length ≤ d.length + 1 := by
  induction d with
  | nil => simp [Dict.set]
  | cons p d ih =>
    unfold Dict.set
    split <;> simp_all

theorem foldl_set_length {K V A : Type} [DecidableEq K] (f : A → K) (g : A → V) (xs : List A) : ∀ d : Dict K V,
    (xs.foldl (fun d x => Dict.set d (f x) (g x)) d).length ≤ d.length + xs.length := by
  induction xs with
  | nil => intro d; simp
  | cons x xs ih =>
    intro d
    rw [List.foldl_cons]
    have := ih (Dict.set d (f x) (g x))
    have := dictSet_length d (f x) (g x)
    simp only [List.length_cons]
    omega

theorem table_length {hap : Bool} {ns nn : Nat} {rows : List Row} {pw : Dict Str Rat} (h : table hap ns nn rows = some pw) :
    pw.length ≤ rows.length := by
  unfold table at h
  split at h
  · cases h
  · cases h
    refine Nat.le_trans (foldl_set_length (fun x : Row × Rat => x.1.token) (fun x => x.2) _ []) ?_
    simp only [List.length_nil, List.length_zip]
    omega

theorem insertBy_length {α : Type} (lt : α → α → Bool) (x : α) (l : List α) : (insertBy lt x l).length = l.length + 1 := by
  induction l with
  | nil => rfl
  | cons y l ih => unfold insertBy; split <;> simp [ih]

theorem sortedBy_length {α : Type} (lt : α → α → Bool) (l : List α) : (sortedBy lt l).length = l.length := by
  induction l with
  | nil => rfl
  | cons y l ih => unfold sortedBy; rw [insertBy_length, ih]; rfl

theorem chosen_length (pw : Dict Str Rat) : (chosen pw).length ≤ pw.length ∧ (chosen pw).length ≤ 150 := by
  unfold chosen
  constructor
  · refine Nat.le_trans (List.length_filter_le ..) ?_
    rw [List.length_take, sortedBy_length]
    omega
  · refine Nat.le_trans (List.length_filter_le ..) ?_
    rw [List.length_take]
    exact Nat.min_le_left _ _

/-- What a scan may leave with the message. -/
theorem scan_loc (E : Dkim.Engine) (comb : Nat → Nat → List Rat → Option Rat) (o : Opts) (b : Base) (m : BayesScan.Msg) (p : Plug) (l : Loc)
    (hrows : ∀ ts rows, b.rows ts = some rows → rows.length ≤ ts.length) :
    (scan E comb o b m p l).2 = l ∨
    (Consistent (scan E comb o b m p l).2 ∧
      ((scan E comb o b m p l).2.hammy.length + (scan E comb o b m p l).2.spammy.length ≤ 150) ∧
      ((scan E comb o b m p l).1.1 = none ∨ ((scan E comb o b m p l).2.hammy = [] ∧ (scan E comb o b m p l).2.spammy = []) ∨
        (scan E comb o b m p l).2.corpus.isSome) ∧
      (l.corpus.isSome → (scan E comb o b m p l).2.corpus.isSome)) := by
  unfold scan
  split
  · exact .inl rfl
  · dsimp only
    split
    · exact .inl rfl
    · exact .inl rfl
    · split
      · exact .inl rfl
      · exact .inl rfl
      · split
        · exact .inl rfl
        · split
          · exact .inl rfl
          · split
            · exact .inl rfl
            · rename_i rows hr
              split
              · exact .inl rfl
              · rename_i pw hpw
                split
                · exact .inl rfl
                · right
                  have h1 := table_length hpw
                  have h2 := hrows _ _ hr
                  rw [List.length_map] at h2
                  have h3 := chosen_length pw
                  have h4 : ∀ (f : Str × Rat → Str × Rat) (q : Str × Rat → Bool) (xs : List (Str × Rat)),
                      ((xs.map f).filter q).length + ((xs.map f).filter (fun x => !q x)).length = xs.length := by
                    intro f q xs
                    rw [← List.length_map (f := f) (as := xs)]
                    generalize xs.map f = ys
                    induction ys with
                    | nil => rfl
                    | cons y ys ih =>
                      simp only [List.filter_cons]
                      cases q y <;> simp <;> omega
                  split
                  · rename_i he
                    rw [List.isEmpty_iff] at he
                    rw [he]
                    exact ⟨⟨by simp, Nat.le_trans h1 h2⟩, by simp, .inr (.inl ⟨rfl, rfl⟩), id⟩
                  · split
                    · refine ⟨⟨?_, Nat.le_trans h1 h2⟩, ?_, .inl rfl, id⟩
                      · dsimp only; rw [h4]; exact h3.1
                      · dsimp only; rw [h4]; exact h3.2
                    · split
                      · refine ⟨⟨?_, Nat.le_trans h1 h2⟩, ?_, .inl rfl, id⟩
                        · dsimp only; rw [h4]; exact h3.1
                        · dsimp only; rw [h4]; exact h3.2
                      · refine ⟨⟨?_, Nat.le_trans h1 h2⟩, ?_, .inr (.inr rfl), fun _ => rfl⟩
                        · dsimp only; rw [h4]; exact h3.1
                        · dsimp only; rw [h4]; exact h3.2

/-- A rule of the classifier: its bounds, and how the database is when it runs. -/
structure BayesRule where
  base : Base
  lo : Rat
  hi : Option Rat

/-- The data of a message after some rules. -/
def locAfter (E : Dkim.Engine) (comb : Nat → Nat → List Rat → Option Rat) (o : Opts) (m : BayesScan.Msg) : Plug → Loc → List BayesRule → Plug × Loc
  | p, l, [] => (p, l)
  | p, l, r :: rs =>
    let x := checkRule E comb o r.base m r.lo r.hi p l
    locAfter E comb o m x.2.1 x.2.2 rs

theorem checkRule_loc (E : Dkim.Engine) (comb : Nat → Nat → List Rat → Option Rat) (o : Opts) (m : BayesScan.Msg) (r : BayesRule) (p : Plug) (l : Loc) :
    (checkRule E comb o r.base m r.lo r.hi p l).2.2 = l ∨
    ∃ sc, (checkRule E comb o r.base m r.lo r.hi p l).2.2 = { (scan E comb o r.base m p l).2 with score := sc } ∧
      ((scan E comb o r.base m p l).1.1 = none ∨ (scan E comb o r.base m p l).1.1 = sc) := by
  unfold checkRule
  split
  · exact .inl rfl
  · right
    split
    · rename_i hs; rw [hs]; exact ⟨_, rfl, .inl rfl⟩
    · rename_i hs; rw [hs]; exact ⟨_, rfl, .inr rfl⟩

theorem consistent_after (E : Dkim.Engine) (comb : Nat → Nat → List Rat → Option Rat) (o : Opts) (m : BayesScan.Msg) (rs : List BayesRule) :
    ∀ (p : Plug) (l : Loc), (∀ r ∈ rs, ∀ ts rows, r.base.rows ts = some rows → rows.length ≤ ts.length) →
      Consistent l ∧ l.hammy.length + l.spammy.length ≤ 150 →
      Consistent (locAfter E comb o m p l rs).2 ∧ (locAfter E comb o m p l rs).2.hammy.length + (locAfter E comb o m p l rs).2.spammy.length ≤ 150 := by
  induction rs with
  | nil => intro p l _ h; exact h
  | cons r rs ih =>
    intro p l hr h
    unfold locAfter
    refine ih _ _ (fun x hx => hr x (by simp [hx])) ?_
    rcases checkRule_loc E comb o m r p l with e | ⟨sc, e, -⟩
    · rw [e]; exact h
    · rw [e]
      rcases scan_loc E comb o r.base m p l (hr r (by simp)) with e' | ⟨h1, h2, -⟩
      · rw [e']; exact h
      · exact ⟨h1, h2⟩

/-- **C145**.  Whatever rules of the classifier ran on a message, with whatever database, the numbers in the tags add up: each token is
new, hammy, spammy or neutral, and no number is negative. -/
theorem C145_summary_partial (E : Dkim.Engine) (comb : Nat → Nat → List Rat → Option Rat) (o : Opts) (m : BayesScan.Msg) (rs : List BayesRule) (p : Plug)
    (text : Nat × Nat → Str × Rat → Str) (t : Tags) (hrows : ∀ r ∈ rs, ∀ ts rows, r.base.rows ts = some rows → rows.length ≤ ts.length)
    (h : checkEnd text (locAfter E comb o m p Loc.start rs).2 = some t) :
    0 ≤ t.summaryNew ∧ 0 ≤ t.summaryNeutral ∧ t.summaryNew + t.hammy + t.summaryNeutral + t.spammy = t.count ∧
    t.learned ≤ t.count ∧ t.hammy + t.spammy ≤ 150 := by
  have c := consistent_after E comb o m rs p Loc.start hrows ⟨⟨by decide, by decide⟩, by decide⟩
  generalize (locAfter E comb o m p Loc.start rs).2 = l at c h
  obtain ⟨⟨c1, c2⟩, c3⟩ := c
  unfold checkEnd at h
  split at h
  · cases h
    dsimp only
    omega
  · cases h

/-- The lists are empty or the numbers of messages are known. -/
def Known (l : Loc) : Prop := (l.hammy = [] ∧ l.spammy = []) ∨ l.corpus.isSome

/-- **C145**.  If no scan of the message ended in an exception, the tags are made. -/
theorem C145_made_partial (E : Dkim.Engine) (comb : Nat → Nat → List Rat → Option Rat) (o : Opts) (m : BayesScan.Msg) (rs : List BayesRule) (p : Plug)
    (text : Nat × Nat → Str × Rat → Str) (hrows : ∀ r ∈ rs, ∀ ts rows, r.base.rows ts = some rows → rows.length ≤ ts.length)
    (hok : ∀ pre r post, rs = pre ++ r :: post → (scan E comb o r.base m (locAfter E comb o m p Loc.start pre).1 (locAfter E comb o m p Loc.start pre).2).1.1 ≠ none) :
    (checkEnd text (locAfter E comb o m p Loc.start rs).2).isSome := by
  have key : ∀ (rs : List BayesRule) (p : Plug) (l : Loc), (∀ r ∈ rs, ∀ ts rows, r.base.rows ts = some rows → rows.length ≤ ts.length) → Known l →
      (∀ pre r post, rs = pre ++ r :: post → (scan E comb o r.base m (locAfter E comb o m p l pre).1 (locAfter E comb o m p l pre).2).1.1 ≠ none) →
      Known (locAfter E comb o m p l rs).2 := by
    intro rs
    induction rs with
    | nil => intro p l _ h _; exact h
    | cons r rs ih =>
      intro p l hr h hok
      unfold locAfter
      refine ih _ _ (fun x hx => hr x (by simp [hx])) ?_ ?_
      · rcases checkRule_loc E comb o m r p l with e | ⟨sc, e, -⟩
        · rw [e]; exact h
        · rw [e]
          rcases scan_loc E comb o r.base m p l (hr r (by simp)) with e' | ⟨-, -, h3, -⟩
          · rw [e']; exact h
          · rcases h3 with h3 | h3
            · exact absurd h3 (hok [] r rs rfl)
            · exact h3
      · intro pre r' post e
        exact hok (r :: pre) r' post (by rw [e]; rfl)
  have k := key rs p Loc.start hrows (.inl ⟨rfl, rfl⟩) hok
  generalize (locAfter E comb o m p Loc.start rs).2 = l at k
  unfold checkEnd makeList
  rcases k with ⟨k1, k2⟩ | k
  · simp [k1, k2]
  · cases hc : l.corpus with
    | none => rw [hc] at k; cases k
    | some c =>
      cases l.hammy <;> cases l.spammy <;> rfl

/-- **C145 is violated**: if the access times of tokens cannot be updated, as with a database that can only be read, then
the end of the check raises for every message that would have been scored, and the message is not checked at all. -/
theorem C145_read_only_violated (E : Dkim.Engine) (comb : Nat → Nat → List Rat → Option Rat) (o : Opts) (b : Base) (m : BayesScan.Msg) (lo : Rat) (hi : Option Rat) (p : Plug)
    (text : Nat × Nat → Str × Rat → Str) (x : Rat)
    (hscore : (scan E comb o { b with touch := true } m p Loc.start).1.1 = some (some x))
    (huse : o.useBayes = true ∧ o.useRules = true) :
    checkEnd text (checkRule E comb o { b with touch := false } m lo hi p Loc.start).2.2 = none := by
  have hl : o.useLearner = true := by
    cases hx : o.useLearner with
    | true => rfl
    | false => unfold scan at hscore; simp [hx] at hscore
  have hsk : ∀ (caller : Bool) (q : Plug) (b : Base), (skip b none caller q).1 ≠ some (some x) := by
    intro caller q b
    unfold skip
    dsimp only
    split
    · simp
    · split <;> simp
  have key : ∃ q l', scan E comb o { b with touch := false } m p Loc.start = ((none, q), l') ∧ l'.corpus = none ∧ (l'.hammy ≠ [] ∨ l'.spammy ≠ []) := by
    revert hscore
    unfold scan
    simp only [hl, Bool.not_true, Bool.false_eq_true, if_false]
    rw [show available o { b with touch := true } { p with willUntie := true } = available o { b with touch := false } { p with willUntie := true } from rfl]
    split
    · intro h; cases h
    · intro h; exact absurd h (hsk _ _ _)
    · split
      · intro h; cases h
      · intro h; exact absurd h (hsk _ _ _)
      · split
        · intro h; cases h
        · split
          · intro h; cases h
          · split
            · intro h; cases h
            · split
              · intro h; cases h
              · rename_i pw _
                split
                · intro h; exact absurd h (hsk _ _ _)
                · split
                  · intro h; exact absurd h (hsk _ _ _)
                  · rename_i hne
                    split
                    · intro h; cases h
                    · intro _
                      simp only [Bool.not_false, if_true]
                      refine ⟨_, _, rfl, rfl, ?_⟩
                      cases hc : chosen pw with
                      | nil => rw [hc] at hne; exact absurd rfl hne
                      | cons y ys =>
                        dsimp only
                        simp only [List.map_cons, List.filter_cons]
                        cases decide (y.2 < 1 / 2) with
                        | true => left; simp
                        | false => right; simp
  obtain ⟨q, l', e, hc, hne⟩ := key
  unfold checkRule
  rw [if_neg (by simp [hl, huse.1, huse.2]), e]
  dsimp only
  unfold checkEnd makeList
  rw [hc]
  rcases hne with h | h
  · cases hh : l'.hammy with
    | nil => exact absurd hh h
    | cons y ys => rfl
  · cases hh : l'.spammy with
    | nil => exact absurd hh h
    | cons y ys => cases l'.hammy <;> rfl

/-- **C145 is violated**: the list of tokens is not cut after five; all tokens with different texts are shown. -/
theorem C145_limit_violated (text : Nat × Nat → Str × Rat → Str) (l : Loc) (c : Nat × Nat) (info : List (Str × Rat)) (hc : l.corpus = some c)
    (hd : (info.map (text c)).Nodup) (h5 : 5 < info.length) :
    ∃ ts, makeList text l info = some (.tokens ts) ∧ ts.length = info.length ∧ 5 < ts.length := by
  have hne : info.isEmpty = false := by cases info <;> simp_all
  have he : (info.map (text c)).eraseDups = info.map (text c) := by
    generalize info.map (text c) = ys at hd
    induction ys with
    | nil => rfl
    | cons y ys ih =>
      rw [List.eraseDups_cons]
      have hd' := List.nodup_cons.1 hd
      rw [List.filter_eq_self.2, ih hd'.2]
      intro a ha
      simp only [Bool.not_eq_true', beq_eq_false_iff_ne, ne_eq]
      rintro rfl
      exact hd'.1 ha
  refine ⟨info.map (text c), by unfold makeList; simp [hne, hc, he], by simp, by simpa using h5⟩

/-! ### An example -/

/-- A database with one token that is only in spam. -/
def bayesBase (touch : Bool) : Base := ⟨true, some (300, 300), fun ts => some (if c!"h1" ∈ ts then [⟨c!"h1", 200, 0⟩] else []), touch, true⟩

def bayesOpts (ig : List Str) : Opts := ⟨true, true, true, 200, 200, true, ⟨ig, []⟩⟩

def bayesMsg : BayesScan.Msg := ⟨⟨[c!"a@b.cc"], []⟩, some [(c!"h1", c!"pills"), (c!"h2", c!"new")]⟩

/-- A combination for the example. -/
def bayesComb : Nat → Nat → List Rat → Option Rat := fun _ _ ps => ps.head?

example : (scan noEngine bayesComb (bayesOpts []) (bayesBase true) bayesMsg Plug.init Loc.start).1.1.isSome ∧
    (bayesStep noEngine bayesComb (bayesOpts []) (.scan (bayesBase true) bayesMsg) Plug.init).2 = ⟨false, .closed⟩ ∧
    (bayesStep noEngine bayesComb (bayesOpts [c!"*@d.ee"]) (.scan (bayesBase true) bayesMsg) Plug.init) = (false, ⟨true, .none⟩) := by
  decide +kernel

example : (checkEnd (fun _ x => x.1) (checkRule noEngine bayesComb (bayesOpts []) (bayesBase true) bayesMsg (1 / 2) none Plug.init Loc.start).2.2) =
    some ⟨0, 1, 1, 2, 1, 0, .missing, .tokens [c!"pills"]⟩ ∧
    (checkRule noEngine bayesComb (bayesOpts []) (bayesBase true) bayesMsg (1 / 2) none Plug.init Loc.start).1 = true ∧
    (checkEnd (fun _ x => x.1) (checkRule noEngine bayesComb (bayesOpts []) (bayesBase false) bayesMsg (1 / 2) none Plug.init Loc.start).2.2) = none := by
  decide +kernel

end Verif.Props
