import Verif.Spec.AwlProcs
import Verif.Props.Awl

/-!
# C155: the auto-whitelist with several processes
-/

namespace Verif.Props
open Verif Py Awl

theorem finishedAfter_snoc (b l : List Nat) (p : Nat) :
    finishedAfter b (l ++ [p]) = finishedAfter b l ++ if (b ++ l).count p = 1 then [p] else [] := by
  induction l generalizing b with
  | nil => simp [finishedAfter]
  | cons x l ih =>
    simp only [List.cons_append, finishedAfter, ih, List.append_assoc]
    simp

theorem finished_snoc (l : List Nat) (p : Nat) : finished (l ++ [p]) = finished l ++ if l.count p = 1 then [p] else [] := by
  unfold finished
  rw [finishedAfter_snoc]
  simp

theorem mem_finished (l : List Nat) (p : Nat) : p ∈ finished l ↔ 2 ≤ l.count p := by
  rw [← List.reverse_reverse l]
  generalize l.reverse = r
  induction r with
  | nil => simp [finished, finishedAfter]
  | cons x r ih =>
    rw [List.reverse_cons, finished_snoc, List.mem_append, ih, List.count_append]
    generalize r.reverse = l
    by_cases hx : x = p
    · subst hx
      have hs : List.count x [x] = 1 := List.count_cons_self
      rw [hs]
      by_cases h1 : List.count x l = 1
      · rw [if_pos h1, h1]; simp
      · rw [if_neg h1]
        constructor
        · rintro (h | h)
          · omega
          · cases h
        · intro h; exact Or.inl (by omega)
    · have hs : List.count p [x] = 0 := List.count_eq_zero.2 (by rw [List.mem_singleton]; exact fun e => hx e.symm)
      rw [hs]
      constructor
      · rintro (h | h)
        · omega
        · split at h
          · exact absurd (List.mem_singleton.1 h).symm hx
          · cases h
      · intro h; exact Or.inl (by omega)

theorem play_snoc (factor : Rat) (jobs : Nat → Job) (db : Table) (l : List Nat) (p : Nat) :
    play factor jobs db (l ++ [p]) = stepOf factor jobs (play factor jobs db l) p := by
  unfold play
  rw [List.foldl_append]
  rfl

theorem oneByOne_snoc (factor : Rat) (db : Table) (js : List Job) (j : Job) :
    oneByOne factor db (js ++ [j]) = (check j.user factor (oneByOne factor db js) j.mail).1 := by
  unfold oneByOne
  rw [List.foldl_append]
  rfl

theorem first_mem {l : List Nat} {p : Nat} (h : p ∈ l) : ∃ a b, l = a ++ p :: b ∧ p ∉ a := by
  induction l with
  | nil => cases h
  | cons x l ih =>
    by_cases hx : x = p
    · exact ⟨[], l, by simp [hx], by simp⟩
    · obtain ⟨a, b, rfl, ha⟩ := ih (by
        rcases List.mem_cons.1 h with e | e
        · exact absurd e.symm hx
        · exact e)
      exact ⟨x :: a, b, rfl, fun h => (List.mem_cons.1 h).elim (fun e => hx e.symm) ha⟩

/-- The step of a check that took one step, and what came before and after. -/
theorem split_once {l : List Nat} {p : Nat} (h : l.count p = 1) : ∃ a b, l = a ++ p :: b ∧ p ∉ a ∧ p ∉ b := by
  have hm : p ∈ l := List.count_pos_iff.1 (by omega)
  obtain ⟨a, b, rfl, ha⟩ := first_mem hm
  exact ⟨a, b, rfl, ha, by
    intro hb
    have := List.count_pos_iff.2 hb
    rw [List.count_append, List.count_cons_self] at h
    omega⟩

theorem finishedAfter_append (x a b : List Nat) : finishedAfter x (a ++ b) = finishedAfter x a ++ finishedAfter (x ++ a) b := by
  induction a generalizing x with
  | nil => simp [finishedAfter]
  | cons p a ih => simp [finishedAfter, ih]

theorem finished_append (a b : List Nat) : finished (a ++ b) = finished a ++ finishedAfter a b := by
  unfold finished
  rw [finishedAfter_append]
  simp

theorem finishedAfter_not (x l : List Nat) (q : Nat) (h : q ∈ finishedAfter x l) : x.count q ≤ 1 := by
  induction l generalizing x with
  | nil => cases h
  | cons p l ih =>
    simp only [finishedAfter, List.mem_append] at h
    rcases h with h | h
    · split at h
      · rename_i h1
        rw [List.mem_singleton] at h
        subst h; omega
      · cases h
    · have := ih _ h
      rw [List.count_append] at this
      omega

theorem undisturbed_prefix {jobs : Nat → Job} {l : List Nat} {p : Nat} (h : Undisturbed jobs (l ++ [p])) : Undisturbed jobs l := by
  intro a q b c e
  exact h a q b (c ++ [p]) (by rw [e]; simp)

/-- Checks of other senders do not change what a check reads. -/
theorem getEntry_others (factor : Rat) (db : Table) (js : List Job) (j : Job) (h : ∀ x ∈ js, ¬ SameSender j x) :
    getEntry (oneByOne factor db js) j.user j.mail = getEntry db j.user j.mail := by
  induction js generalizing db with
  | nil => rfl
  | cons x js ih =>
    have h1 : oneByOne factor db (x :: js) = oneByOne factor (check x.user factor db x.mail).1 js := rfl
    rw [h1, ih _ (fun y hy => h y (List.mem_cons_of_mem _ hy))]
    have hx := h x List.mem_cons_self
    have hk : ∀ ip, Dict.get? (check x.user factor db x.mail).1 ⟨j.user, j.mail.email, j.mail.signedby, ip⟩ =
        Dict.get? db ⟨j.user, j.mail.email, j.mail.signedby, ip⟩ := by
      intro ip
      apply C50_others_untouched
      simp only
      by_cases h1 : j.user = x.user
      · by_cases h2 : j.mail.email = x.mail.email
        · by_cases h3 : j.mail.signedby = x.mail.signedby
          · exact absurd ⟨h1, h2, h3⟩ hx
          · exact Or.inr (Or.inr (Or.inl h3))
        · exact Or.inr (Or.inl h2)
      · exact Or.inl h1
    unfold getEntry
    rw [show j.mail.key j.user = ⟨j.user, j.mail.email, j.mail.signedby, j.mail.ip⟩ from rfl, hk, hk]

theorem oneByOne_append (factor : Rat) (db : Table) (a b : List Job) :
    oneByOne factor db (a ++ b) = oneByOne factor (oneByOne factor db a) b := by
  unfold oneByOne
  rw [List.foldl_append]

/-- What was read and is still there is not refused. -/
theorem commit_fresh (db : Table) (j : Job) (e : Entry) :
    commit db (getEntry db j.user j.mail).2 j.key e = some (merge db (getEntry db j.user j.mail).2 j.key e) := by
  unfold getEntry
  have hk : j.key = j.mail.key j.user := rfl
  rw [← hk]
  cases h : Dict.get? db j.key with
  | some x => simp [commit]
  | none =>
    simp only []
    cases Dict.get? db ⟨j.user, j.mail.email, j.mail.signedby, c!"none"⟩ with
    | none => rfl
    | some y =>
      simp only [commit]
      rw [if_neg]
      rintro ⟨-, h2⟩
      rw [Dict.has, h] at h2
      cases h2

/-- The state of every check and of the table during an undisturbed schedule. -/
structure Inv (factor : Rat) (jobs : Nat → Job) (db : Table) (l : List Nat) : Prop where
  table : (play factor jobs db l).db = oneByOne factor db ((finished l).map jobs)
  none' : ∀ p, l.count p = 0 → (play factor jobs db l).phase p = .waiting
  once : ∀ p, l.count p = 1 → ∃ a b, l = a ++ p :: b ∧ p ∉ a ∧ p ∉ b ∧
    (play factor jobs db l).phase p =
      .holding (getEntry (oneByOne factor db ((finished a).map jobs)) (jobs p).user (jobs p).mail).1
        (getEntry (oneByOne factor db ((finished a).map jobs)) (jobs p).user (jobs p).mail).2
  twice : ∀ p, 2 ≤ l.count p → ∃ a b, finished l = a ++ p :: b ∧
    (play factor jobs db l).phase p = .done (check (jobs p).user factor (oneByOne factor db (a.map jobs)) (jobs p).mail).2

theorem inv_play (factor : Rat) (jobs : Nat → Job) (db : Table) (l : List Nat) (h : Undisturbed jobs l) :
    Inv factor jobs db l := by
  rw [← List.reverse_reverse l] at h ⊢
  generalize l.reverse = r at h ⊢
  induction r with
  | nil => exact ⟨rfl, fun _ _ => rfl, by simp, by simp⟩
  | cons p r ih =>
    rw [List.reverse_cons] at h ⊢
    have hi := ih (undisturbed_prefix h)
    generalize r.reverse = l at h hi ⊢
    have hcount : ∀ q, q ≠ p → (l ++ [p]).count q = l.count q := by
      intro q hq
      have hs : List.count q [p] = 0 := List.count_eq_zero.2 (by rw [List.mem_singleton]; exact hq)
      rw [List.count_append, hs]
      rfl
    have hself : (l ++ [p]).count p = l.count p + 1 := by
      rw [List.count_append]; simp
    -- what holds of the others, whatever this step did to this check
    have hothers : ∀ w : World, w = stepOf factor jobs (play factor jobs db l) p →
        (∀ q, q ≠ p → w.phase q = (play factor jobs db l).phase q) := by
      intro w hw q hq
      subst hw
      unfold stepOf
      split
      · simp [hq]
      · split <;> simp [hq]
      · rfl
    have hq := hothers _ rfl
    rw [← play_snoc] at hq
    have o1 : ∀ q, q ≠ p → (l ++ [p]).count q = 0 → (play factor jobs db (l ++ [p])).phase q = .waiting := by
      intro q hqp h0
      rw [hq q hqp]
      exact hi.none' q (by rw [← hcount q hqp]; exact h0)
    have o2 : ∀ q, q ≠ p → (l ++ [p]).count q = 1 → ∃ a b, l ++ [p] = a ++ q :: b ∧ q ∉ a ∧ q ∉ b ∧
        (play factor jobs db (l ++ [p])).phase q =
          .holding (getEntry (oneByOne factor db ((finished a).map jobs)) (jobs q).user (jobs q).mail).1
            (getEntry (oneByOne factor db ((finished a).map jobs)) (jobs q).user (jobs q).mail).2 := by
      intro q hqp h1
      obtain ⟨a, b, e, ha, hb, hp⟩ := hi.once q (by rw [← hcount q hqp]; exact h1)
      exact ⟨a, b ++ [p], by rw [e]; simp, ha, by simp [hb, hqp], by rw [hq q hqp]; exact hp⟩
    have o3 : ∀ q, q ≠ p → 2 ≤ (l ++ [p]).count q → ∃ a b, finished (l ++ [p]) = a ++ q :: b ∧
        (play factor jobs db (l ++ [p])).phase q =
          .done (check (jobs q).user factor (oneByOne factor db (a.map jobs)) (jobs q).mail).2 := by
      intro q hqp h2
      obtain ⟨a, b, e, hp⟩ := hi.twice q (by rw [← hcount q hqp]; exact h2)
      exact ⟨a, b ++ (if l.count p = 1 then [p] else []), by rw [finished_snoc, e]; simp, by rw [hq q hqp]; exact hp⟩
    -- this check
    by_cases c0 : l.count p = 0
    · have hw := hi.none' p c0
      have hst : play factor jobs db (l ++ [p]) = ⟨(play factor jobs db l).db, fun q => if q = p then
          .holding (getEntry (play factor jobs db l).db (jobs p).user (jobs p).mail).1
            (getEntry (play factor jobs db l).db (jobs p).user (jobs p).mail).2 else (play factor jobs db l).phase q⟩ := by
        rw [play_snoc, stepOf, hw]
      have hf : finished (l ++ [p]) = finished l := by rw [finished_snoc, if_neg (by omega)]; simp
      refine ⟨by rw [hst, hf]; exact hi.table, ?_, ?_, ?_⟩
      · intro q h0
        by_cases e : q = p
        · subst e; omega
        · exact o1 q e h0
      · intro q h1
        by_cases e : q = p
        · subst e
          refine ⟨l, [], rfl, List.count_eq_zero.1 c0, by simp, ?_⟩
          rw [hst, ← hi.table]
          simp
        · exact o2 q e h1
      · intro q h2
        by_cases e : q = p
        · subst e; omega
        · exact o3 q e h2
    · by_cases c1 : l.count p = 1
      · obtain ⟨a, b, e, ha, hb, hp⟩ := hi.once p c1
        have hund := h a p b [] (by rw [e]; simp) ha hb
        have hfl : finished l = finished a ++ finishedAfter a (p :: b) := by rw [e, finished_append]
        have hread : getEntry (oneByOne factor db ((finished l).map jobs)) (jobs p).user (jobs p).mail =
            getEntry (oneByOne factor db ((finished a).map jobs)) (jobs p).user (jobs p).mail := by
          rw [hfl, List.map_append, oneByOne_append]
          apply getEntry_others
          intro x hx hs
          obtain ⟨q, hqm, rfl⟩ := List.mem_map.1 hx
          have h3 := hund q (by rw [finished_append]; exact List.mem_append_right _ hqm) hs
          have h4 := finishedAfter_not _ _ _ hqm
          rw [mem_finished] at h3
          omega
        rw [← hread, ← hi.table] at hp
        have hst : play factor jobs db (l ++ [p]) = ⟨(check (jobs p).user factor (play factor jobs db l).db (jobs p).mail).1,
            fun q => if q = p then .done (check (jobs p).user factor (play factor jobs db l).db (jobs p).mail).2
              else (play factor jobs db l).phase q⟩ := by
          rw [play_snoc, stepOf, hp]
          simp only []
          rw [commit_fresh]
          rfl
        have hf : finished (l ++ [p]) = finished l ++ [p] := by rw [finished_snoc, if_pos c1]
        refine ⟨?_, ?_, ?_, ?_⟩
        · rw [hst, hf, List.map_append, List.map_singleton, oneByOne_snoc, ← hi.table]
        · intro q h0
          by_cases e : q = p
          · subst e; omega
          · exact o1 q e h0
        · intro q h1
          by_cases e : q = p
          · subst e; omega
          · exact o2 q e h1
        · intro q h2
          by_cases e : q = p
          · subst e
            refine ⟨finished l, [], hf, ?_⟩
            rw [hst, ← hi.table]
            simp
          · exact o3 q e h2
      · obtain ⟨a, b, e, hp⟩ := hi.twice p (by omega)
        have hst : play factor jobs db (l ++ [p]) = play factor jobs db l := by
          rw [play_snoc, stepOf, hp]
        have hf : finished (l ++ [p]) = finished l := by rw [finished_snoc, if_neg c1]; simp
        refine ⟨by rw [hst, hf]; exact hi.table, ?_, ?_, ?_⟩
        · intro q h0
          by_cases e : q = p
          · subst e; omega
          · exact o1 q e h0
        · intro q h1
          by_cases e : q = p
          · subst e; omega
          · exact o2 q e h1
        · intro q h2
          by_cases e' : q = p
          · subst e'
            exact ⟨a, b, by rw [hf]; exact e, by rw [hst]; exact hp⟩
          · exact o3 q e' h2

/-! ## C155 -/

/-- However the steps of the checks are interleaved and whichever checks stop half way: if no other check of the same sender
finishes between the two steps of a check, the table is the one the finished checks give one after the other, in the order in
which they finished, and every finished check gives the score it gives there.  Missing: checks of one sender at the same time
(`C155_lost_violated`). -/
theorem C155_serial_partial (factor : Rat) (jobs : Nat → Job) (db : Table) (schedule : List Nat)
    (h : Undisturbed jobs schedule) :
    (play factor jobs db schedule).db = oneByOne factor db ((finished schedule).map jobs) ∧
    ∀ p ∈ finished schedule, ∃ before after, finished schedule = before ++ p :: after ∧
      (play factor jobs db schedule).phase p =
        .done (check (jobs p).user factor (oneByOne factor db (before.map jobs)) (jobs p).mail).2 := by
  have hi := inv_play factor jobs db schedule h
  exact ⟨hi.table, fun p hp => hi.twice p ((mem_finished _ _).1 hp)⟩

/-- Checks of different senders never disturb each other. -/
theorem C155_senders_partial (factor : Rat) (jobs : Nat → Job) (db : Table) (schedule : List Nat)
    (h : ∀ p ∈ schedule, ∀ q ∈ schedule, p ≠ q → ¬ SameSender (jobs p) (jobs q)) :
    (play factor jobs db schedule).db = oneByOne factor db ((finished schedule).map jobs) := by
  refine (C155_serial_partial factor jobs db schedule ?_).1
  intro a p b c e ha hb q hq hs
  exfalso
  have hc := (mem_finished _ _).1 hq
  by_cases hpq : p = q
  · subst hpq
    rw [List.count_append, List.count_cons_self, List.count_eq_zero.2 ha, List.count_eq_zero.2 hb] at hc
    omega
  · have hqm : q ∈ a ++ p :: b := List.count_pos_iff.1 (by omega)
    refine h p (by rw [e]; simp) q ?_ hpq hs
    rw [e]
    rw [show a ++ p :: (b ++ p :: c) = (a ++ p :: b) ++ p :: c by simp]
    exact List.mem_append_left _ hqm

/-- The entries of a sender hold exactly the sender's messages whose check has finished, under the same condition. -/
theorem C155_counts_partial (factor : Rat) (user : Str) (mails : Nat → Mail) (schedule : List Nat)
    (h : Undisturbed (fun p => ⟨user, mails p⟩) schedule) (email signedby : Str) :
    total (rowsOf user email signedby (play factor (fun p => ⟨user, mails p⟩) [] schedule).db) =
      summary (ofSender email signedby ((finished schedule).map mails)) := by
  rw [(C155_serial_partial factor _ [] schedule h).1, ← C50_sender_total user factor]
  congr 2
  unfold oneByOne Awl.run
  rw [List.foldl_map, List.foldl_map]

theorem getEntry_key {db : Table} {a b : Job} (h : a.key = b.key) :
    getEntry db a.user a.mail = getEntry db b.user b.mail := by
  obtain ⟨ua, ma⟩ := a
  obtain ⟨ub, mb⟩ := b
  simp only [Job.key, Mail.key, Key.mk.injEq] at h
  obtain ⟨rfl, h2, h3, h5⟩ := h
  unfold getEntry Mail.key
  simp only [h2, h3, h5]

theorem play_reads (factor : Rat) (jobs : Nat → Job) (db : Table) (l : List Nat) (hn : l.Nodup) :
    play factor jobs db l = ⟨db, fun q => if q ∈ l then
      .holding (getEntry db (jobs q).user (jobs q).mail).1 (getEntry db (jobs q).user (jobs q).mail).2 else .waiting⟩ := by
  rw [← List.reverse_reverse l] at hn ⊢
  generalize l.reverse = r at hn ⊢
  induction r with
  | nil => simp [play]
  | cons p r ih =>
    rw [List.reverse_cons] at hn ⊢
    rw [List.nodup_append] at hn
    have hp : p ∉ r.reverse := fun h => hn.2.2 p h p (List.mem_singleton.2 rfl) rfl
    rw [play_snoc, ih hn.1, stepOf]
    simp only [if_neg hp, World.mk.injEq, true_and]
    funext q
    by_cases e : q = p
    · subst e; simp
    · by_cases hq : q ∈ r.reverse
      · rw [if_neg e, if_pos hq, if_pos (List.mem_append_left _ hq)]
      · rw [if_neg e, if_neg hq, if_neg]
        rw [List.mem_append, List.mem_singleton]
        rintro (h | h)
        · exact hq h
        · exact e h

theorem get_merge (db : Table) (src : Option Key) (k : Key) (e : Entry) : Dict.get? (merge db src k e) k = some e := by
  cases src <;> simp [merge, Dict.get?_set]

theorem writes_lost (factor : Rat) (jobs : Nat → Job) (k : Key) (e : Entry) (src : Option Key) (l all : List Nat)
    (hsub : ∀ p ∈ l, p ∈ all) (hk : ∀ p ∈ l, (jobs p).key = k) (hn : l.Nodup) (w : World)
    (hph : ∀ p ∈ l, w.phase p = .holding e src)
    (hdb : ∃ p ∈ all, Dict.get? w.db k = some (bump e (jobs p).mail.score)) :
    ∃ p ∈ all, Dict.get? (l.foldl (stepOf factor jobs) w).db k = some (bump e (jobs p).mail.score) := by
  induction l generalizing w with
  | nil => exact hdb
  | cons p l ih =>
    rw [List.foldl_cons]
    have hp := hph p List.mem_cons_self
    have hkp := hk p List.mem_cons_self
    have hnd := List.nodup_cons.1 hn
    have hother : ∀ q ∈ l, (stepOf factor jobs w p).phase q = .holding e src := by
      intro q hq
      have hqp : q ≠ p := fun x => hnd.1 (x ▸ hq)
      rw [← hph q (List.mem_cons_of_mem _ hq)]
      unfold stepOf
      rw [hp]
      simp only []
      split <;> simp [hqp]
    refine ih (fun q hq => hsub q (List.mem_cons_of_mem _ hq)) (fun q hq => hk q (List.mem_cons_of_mem _ hq)) hnd.2 _ hother ?_
    unfold stepOf
    rw [hp]
    simp only [hkp]
    split
    · rename_i d hd
      refine ⟨p, hsub p List.mem_cons_self, ?_⟩
      have : d = merge w.db src k (bump e (jobs p).mail.score) := by
        unfold commit at hd
        split at hd
        · split at hd
          · cases hd
          · exact (Option.some.inj hd).symm
        · exact (Option.some.inj hd).symm
      rw [this]
      exact get_merge _ _ _ _
    · exact hdb

/-- When several checks of messages with the same sender and network have all read before the first of them writes, only one of the
messages is counted, whatever is in the table. -/
theorem C155_lost_violated (factor : Rat) (jobs : Nat → Job) (db : Table) (p : Nat) (others : List Nat)
    (hn : (p :: others).Nodup) (hk : ∀ q ∈ others, (jobs q).key = (jobs p).key) :
    ∃ q ∈ p :: others,
      Dict.get? (play factor jobs db ((p :: others) ++ (p :: others))).db (jobs p).key =
        some (bump (getEntry db (jobs p).user (jobs p).mail).1 (jobs q).mail.score) := by
  unfold play
  rw [List.foldl_append]
  change ∃ q ∈ p :: others, Dict.get? (List.foldl (stepOf factor jobs) (play factor jobs db (p :: others)) (p :: others)).db _ = _
  rw [play_reads factor jobs db _ hn, List.foldl_cons]
  have hnd := List.nodup_cons.1 hn
  apply writes_lost factor jobs (jobs p).key _ (getEntry db (jobs p).user (jobs p).mail).2 others (p :: others)
    (fun q hq => List.mem_cons_of_mem _ hq) hk hnd.2
  · intro q hq
    have hqp : q ≠ p := fun x => hnd.1 (x ▸ hq)
    unfold stepOf
    simp only [List.mem_cons, true_or, if_true]
    rw [commit_fresh]
    simp only [if_neg hqp, hq, or_true, if_true]
    rw [getEntry_key (hk q hq)]
  · refine ⟨p, List.mem_cons_self, ?_⟩
    unfold stepOf
    simp only [List.mem_cons, true_or, if_true]
    rw [commit_fresh]
    exact get_merge _ _ _ _

/-- A check that has taken two steps is over, whatever the others do: no check waits for another. -/
theorem C155_no_waiting (factor : Rat) (jobs : Nat → Job) (db : Table) (schedule : List Nat) (p : Nat)
    (h : 2 ≤ schedule.count p) :
    ∃ score, (play factor jobs db schedule).phase p = .done score ∨ (play factor jobs db schedule).phase p = .failed score := by
  have key : ∀ l : List Nat,
      (l.count p = 0 → (play factor jobs db l).phase p = .waiting) ∧
      (l.count p = 1 → ∃ e src, (play factor jobs db l).phase p = .holding e src) ∧
      (2 ≤ l.count p → ∃ score, (play factor jobs db l).phase p = .done score ∨ (play factor jobs db l).phase p = .failed score) := by
    intro l
    rw [← List.reverse_reverse l]
    generalize l.reverse = r
    induction r with
    | nil => exact ⟨fun _ => rfl, by simp, by simp⟩
    | cons x r ih =>
      rw [List.reverse_cons]
      generalize r.reverse = l at ih ⊢
      rw [play_snoc]
      by_cases hx : x = p
      · subst hx
        have hs : (l ++ [x]).count x = l.count x + 1 := by rw [List.count_append]; simp
        rw [hs]
        refine ⟨by omega, ?_, ?_⟩
        · intro h1
          rw [stepOf, ih.1 (by omega)]
          exact ⟨_, _, if_pos rfl⟩
        · intro h2
          by_cases h1 : l.count x = 1
          · obtain ⟨e, src, hp⟩ := ih.2.1 h1
            rw [stepOf, hp]
            simp only []
            split
            · exact ⟨_, Or.inl (if_pos rfl)⟩
            · exact ⟨_, Or.inr (if_pos rfl)⟩
          · obtain ⟨sc, hp | hp⟩ := ih.2.2 (by omega)
            · exact ⟨sc, Or.inl (by rw [stepOf, hp]; exact hp)⟩
            · exact ⟨sc, Or.inr (by rw [stepOf, hp]; exact hp)⟩
      · have hs : List.count p [x] = 0 := List.count_eq_zero.2 (by rw [List.mem_singleton]; exact fun e => hx e.symm)
        rw [List.count_append, hs, Nat.add_zero]
        have hph : (stepOf factor jobs (play factor jobs db l) x).phase p = (play factor jobs db l).phase p := by
          unfold stepOf
          split
          · exact if_neg (fun e => hx e.symm)
          · split <;> exact if_neg (fun e => hx e.symm)
          · rfl
        rw [hph]
        exact ih
  exact (key schedule).2.2 h

/-- Four messages: 0 and 2 are of one sender, 1 of another, 3 of a third whose check stops after reading. -/
private def someJobs (p : Nat) : Job :=
  match p with
  | 0 => ⟨c!"me", ⟨c!"a@x", c!"", c!"10.0", 4⟩⟩
  | 1 => ⟨c!"me", ⟨c!"b@x", c!"", c!"10.0", 6⟩⟩
  | 2 => ⟨c!"me", ⟨c!"a@x", c!"", c!"10.0", 2⟩⟩
  | _ => ⟨c!"me", ⟨c!"c@x", c!"", c!"10.0", 9⟩⟩

instance (a b : Job) : Decidable (SameSender a b) := by unfold SameSender; infer_instance

private theorem undisturbed_of_check (jobs : Nat → Job) (l : List Nat)
    (h : ∀ i ∈ List.range l.length, ∀ j ∈ List.range l.length, i < j → l[i]? = l[j]? →
      ∀ q ∈ finished (l.take j), SameSender (jobs (l.getD i 0)) (jobs q) → q ∈ finished (l.take i)) : Undisturbed jobs l := by
  intro a p b c e ha hb q hq hs
  have h1 : l.take (a.length + 1 + b.length) = a ++ p :: b := by
    rw [e, show a ++ p :: (b ++ p :: c) = (a ++ p :: b) ++ p :: c by simp]
    exact List.take_left' (by simp; omega)
  have h2 : l.take a.length = a := by rw [e]; exact List.take_left' rfl
  have h3 : l.getD a.length 0 = p := by rw [e]; simp
  have := h a.length (by rw [e]; simp) (a.length + 1 + b.length) (by rw [e]; simp; omega) (by omega)
    (by
      have e1 : l[a.length]? = some p := by rw [e]; simp
      have e2 : l[a.length + 1 + b.length]? = some p := by
        rw [e, show a ++ p :: (b ++ p :: c) = (a ++ p :: b) ++ p :: c by simp, List.getElem?_append_right (by simp; omega)]
        simp [show a.length + 1 + b.length - (a.length + (b.length + 1)) = 0 by omega]
      rw [e1, e2]) q
  rw [h1, h2, h3] at this
  exact this hq hs

set_option maxRecDepth 8000 in
example : Undisturbed someJobs [0, 1, 3, 1, 0, 2, 2] := undisturbed_of_check _ _ (by decide +kernel)

set_option maxRecDepth 8000 in
example : ∀ p ∈ [0, 1, 3, 1, 0], ∀ q ∈ [0, 1, 3, 1, 0], p ≠ q → ¬ SameSender (someJobs p) (someJobs q) := by decide +kernel

-- checks of different senders run into each other and one stops half way
set_option maxRecDepth 8000 in
example : finished [0, 1, 3, 1, 0, 2, 2] = [1, 0, 2] ∧
    (play (1/2) someJobs [] [0, 1, 3, 1, 0, 2, 2]).db =
      [(⟨c!"me", c!"b@x", c!"", c!"10.0"⟩, ⟨1, 6⟩), (⟨c!"me", c!"a@x", c!"", c!"10.0"⟩, ⟨2, 6⟩)] ∧
    (play (1/2) someJobs [] [0, 1, 3, 1, 0, 2, 2]).phase 2 = .done 3 := by decide +kernel

-- two checks of one sender at the same time: the message with 4 points is lost
set_option maxRecDepth 8000 in
example : (play (1/2) someJobs [] [0, 2, 0, 2]).db = [(⟨c!"me", c!"a@x", c!"", c!"10.0"⟩, ⟨1, 2⟩)] := by decide +kernel

-- both take over the entry without a network: the second one is refused
set_option maxRecDepth 8000 in
example : (play (1/2) someJobs [(⟨c!"me", c!"a@x", c!"", c!"none"⟩, ⟨1, 2⟩)] [0, 2, 0, 2]).phase 2 = .failed 2 ∧
    (play (1/2) someJobs [(⟨c!"me", c!"a@x", c!"", c!"none"⟩, ⟨1, 2⟩)] [0, 2, 0, 2]).db =
      [(⟨c!"me", c!"a@x", c!"", c!"10.0"⟩, ⟨2, 6⟩)] := by decide +kernel

end Verif.Props
