import Verif.Lemmas.Awl

/-!
# C50, C51: the auto-whitelist
-/

namespace Verif.Props
open Verif Py Awl

/-! ## C50 -/

/-- After any sequence of messages, the entries of a sender taken together hold exactly the number of the
sender's messages and the sum of their scores before the adjustment. -/
theorem C50_sender_total (user : Str) (factor : Rat) (ms : List Mail) (email signedby : Str) :
    total (rowsOf user email signedby (Awl.run user factor [] ms)) = summary (ofSender email signedby ms) := by
  rw [← List.reverse_reverse ms]
  generalize ms.reverse = l
  induction l with
  | nil => rfl
  | cons m l ih =>
    rw [List.reverse_cons, run_snoc, check_total _ _ _ _ (run_nodup user factor [] (by simp [Dict.keys]) _), ih]
    unfold ofSender
    rw [List.filter_append]
    by_cases h : m.email = email ∧ m.signedby = signedby
    · rw [if_pos h, show List.filter (fun m : Mail => decide (m.email = email ∧ m.signedby = signedby)) [m] = [m] by
        simp [h], summary_snoc]
      simp only [plus, bump, Entry.mk.injEq]
      exact ⟨by omega, by ring⟩
    · rw [if_neg h, show List.filter (fun m : Mail => decide (m.email = email ∧ m.signedby = signedby)) [m] = [] by
        simpa using h]
      simp [plus]

/-- Checking a message leaves the entries of other users, addresses and signers alone, and those of the same
sender for other networks, except the one without a network. -/
theorem C50_others_untouched (user : Str) (factor : Rat) (db : Table) (m : Mail) (k : Key)
    (h : k.username ≠ user ∨ k.email ≠ m.email ∨ k.signedby ≠ m.signedby ∨ (k.ip ≠ m.ip ∧ k.ip ≠ c!"none")) :
    Dict.get? (Awl.check user factor db m).1 k = Dict.get? db k := by
  rw [check_get]
  have h1 : k ≠ m.key user := by
    intro e
    subst e
    rcases h with h | h | h | h
    · exact h rfl
    · exact h rfl
    · exact h rfl
    · exact h.1 rfl
  have h2 : (getEntry db user m).2 ≠ some k := by
    intro e
    unfold getEntry at e
    split at e
    · simp only [Option.some.injEq] at e; exact h1 e.symm
    · split at e
      · simp only [Option.some.injEq] at e
        subst e
        rcases h with h | h | h | h
        · exact h rfl
        · exact h rfl
        · exact h rfl
        · exact h.2 rfl
      · cases e
  rw [if_neg h1, if_neg h2]

/-- If the sender's messages either all have a network or all have none, the entry for every network holds
exactly the number of messages from there and the sum of their scores.  Missing: senders with both kinds of
messages (`C50_adopted_violated`), and MySQL without SQLAlchemy (`C50_mysql_violated`). -/
theorem C50_entry_partial (user : Str) (factor : Rat) (ms : List Mail) (email signedby : Str)
    (h : (∀ m ∈ ofSender email signedby ms, m.ip ≠ c!"none") ∨ (∀ m ∈ ofSender email signedby ms, m.ip = c!"none"))
    (ip : Str) :
    Dict.get? (Awl.run user factor [] ms) ⟨user, email, signedby, ip⟩ =
      if fromNet email signedby ip ms = [] then none else some (summary (fromNet email signedby ip ms)) := by
  rw [← List.reverse_reverse ms] at h ⊢
  generalize ms.reverse = l at h ⊢
  induction l generalizing ip with
  | nil => rfl
  | cons m l ih =>
    rw [List.reverse_cons] at h ⊢
    have ih := fun ip => ih ip (by
      unfold ofSender at h ⊢
      simp only [List.filter_append, List.mem_append] at h
      rcases h with h | h
      · exact Or.inl fun x hx => h x (Or.inl hx)
      · exact Or.inr fun x hx => h x (Or.inl hx))
    rw [run_snoc]
    generalize Awl.run user factor [] l.reverse = db at ih ⊢
    by_cases hs : m.email = email ∧ m.signedby = signedby
    · obtain ⟨rfl, rfl⟩ := hs
      have hm : m ∈ ofSender m.email m.signedby (l.reverse ++ [m]) := by simp [ofSender]
      have hnone : m.ip ≠ c!"none" → Dict.get? db ⟨user, m.email, m.signedby, c!"none"⟩ = none := by
        intro hne
        rcases h with h | h
        · rw [ih, if_pos]
          unfold fromNet
          rw [List.filter_eq_nil_iff]
          intro x hx hx'
          exact h x (by unfold ofSender at hx ⊢; rw [List.filter_append]; exact List.mem_append_left _ hx)
            (by simpa using hx')
        · exact absurd (h m hm) hne
      have hfn : ∀ ip, fromNet m.email m.signedby ip (l.reverse ++ [m]) =
          fromNet m.email m.signedby ip l.reverse ++ if m.ip = ip then [m] else [] := by
        intro ip
        unfold fromNet ofSender
        rw [List.filter_append, List.filter_append]
        by_cases e : m.ip = ip <;> simp [e]
      have hge : (getEntry db user m).1 = summary (fromNet m.email m.signedby m.ip l.reverse) ∧
          ((getEntry db user m).2 = none ∨ (getEntry db user m).2 = some (m.key user)) := by
        unfold getEntry
        have hk : Dict.get? db (m.key user) = _ := ih m.ip
        rw [hk]
        by_cases hf : fromNet m.email m.signedby m.ip l.reverse = []
        · rw [if_pos hf]
          simp only
          have : Dict.get? db ⟨user, m.email, m.signedby, c!"none"⟩ = none := by
            by_cases hi : m.ip = c!"none"
            · rw [← hi, ih, if_pos hf]
            · exact hnone hi
          rw [this, hf]
          exact ⟨rfl, Or.inl rfl⟩
        · rw [if_neg hf]
          exact ⟨rfl, Or.inr rfl⟩
      rw [check_get]
      by_cases hi : ip = m.ip
      · subst hi
        rw [if_pos (show (⟨user, m.email, m.signedby, m.ip⟩ : Key) = m.key user from rfl), hfn, if_pos rfl,
          if_neg (by simp), summary_snoc, hge.1]
      · have hk : (⟨user, m.email, m.signedby, ip⟩ : Key) ≠ m.key user := by
          intro e
          exact hi (congrArg Key.ip e)
        have hfi : fromNet m.email m.signedby ip (l.reverse ++ [m]) = fromNet m.email m.signedby ip l.reverse := by
          rw [hfn, if_neg (fun e => hi e.symm), List.append_nil]
        rw [if_neg hk, if_neg, ih, hfi]
        rcases hge.2 with e | e <;> rw [e]
        · simp
        · simp only [Option.some.injEq]; exact fun e => hk e.symm
    · rw [C50_others_untouched]
      · rw [ih]
        have : fromNet email signedby ip (l.reverse ++ [m]) = fromNet email signedby ip l.reverse := by
          unfold fromNet ofSender
          rw [List.filter_append]
          rw [show List.filter (fun m : Mail => decide (m.email = email ∧ m.signedby = signedby)) [m] = [] by
            simpa using hs, List.append_nil]
        rw [this]
      · by_cases he : m.email = email
        · exact Or.inr (Or.inr (Or.inl fun e => hs ⟨he, e.symm⟩))
        · exact Or.inr (Or.inl fun e => he e.symm)

/-- **C50** is violated: after messages of a sender without a network, the first one from a network takes over their entry: the entry of the
network counts them all, and there is no entry without a network any more. -/
theorem C50_adopted_violated (user : Str) (factor : Rat) (ms : List Mail) (m : Mail) (hne : ofSender m.email m.signedby ms ≠ [])
    (h : ∀ x ∈ ofSender m.email m.signedby ms, x.ip = c!"none") (hm : m.ip ≠ c!"none") :
    Dict.get? (Awl.run user factor [] (ms ++ [m])) (m.key user) = some (summary (ofSender m.email m.signedby (ms ++ [m]))) ∧
    Dict.get? (Awl.run user factor [] (ms ++ [m])) ⟨user, m.email, m.signedby, c!"none"⟩ = none := by
  have hg := C50_entry_partial user factor ms m.email m.signedby (.inr h)
  have hall : fromNet m.email m.signedby c!"none" ms = ofSender m.email m.signedby ms := by
    unfold fromNet
    exact List.filter_eq_self.2 (fun x hx => by simp [h x hx])
  have hno : fromNet m.email m.signedby m.ip ms = [] := by
    unfold fromNet
    exact List.filter_eq_nil_iff.2 (fun x hx => by simp [h x hx, Ne.symm hm])
  have h1 := hg m.ip
  have h2 := hg c!"none"
  rw [if_pos hno] at h1
  rw [hall, if_neg hne] at h2
  have he : getEntry (Awl.run user factor [] ms) user m = (summary (ofSender m.email m.signedby ms), some ⟨user, m.email, m.signedby, c!"none"⟩) := by
    unfold getEntry
    rw [show Dict.get? (Awl.run user factor [] ms) (m.key user) = none from h1, h2]
  have ho : ofSender m.email m.signedby (ms ++ [m]) = ofSender m.email m.signedby ms ++ [m] := by
    unfold ofSender
    rw [List.filter_append]
    simp
  rw [run_snoc, check_get, check_get, he, ho]
  refine ⟨?_, ?_⟩
  · rw [if_pos rfl]
    simp [Awl.bump, summary]
  · rw [if_neg (fun e => hm (by rw [Mail.key] at e; injection e with _ _ _ e; exact e.symm)), if_pos rfl]

/-- A message without a network, then one from a network. -/
example :
    Awl.run c!"me" (1 / 2) [] [⟨c!"a@b", [], c!"none", 7⟩, ⟨c!"a@b", [], c!"10.2", 1⟩] =
      [(⟨c!"me", c!"a@b", [], c!"10.2"⟩, ⟨2, 8⟩)] := by
  decide +kernel

/-- With MySQL and no SQLAlchemy every entry of the table, of whatever sender and user, becomes the first
entry with the message counted in. -/
theorem C50_mysql_violated (user : Str) (factor : Rat) (k : Key) (e : Entry) (db : Table) (m : Mail)
    (k' : Key) (h : k' ∈ Dict.keys ((k, e) :: db)) :
    Dict.get? (mysqlCheck user factor ((k, e) :: db) m).1 k' = some ⟨e.count + 1, e.totscore + m.score⟩ := by
  have key : ∀ (l : Table) (v : Entry), k' ∈ Dict.keys l → Dict.get? (l.map fun x => (x.1, v)) k' = some v := by
    intro l v
    induction l with
    | nil => intro h; simp [Dict.keys] at h
    | cons x l ih =>
      intro h
      simp only [List.map_cons, Dict.get?]
      by_cases hx : x.1 = k'
      · rw [if_pos hx]
      · rw [if_neg hx]
        apply ih
        simp only [Dict.keys, List.map_cons, List.mem_cons] at h
        rcases h with h | h
        · exact absurd h.symm hx
        · exact h
  have hs : ∃ l, mysqlGet user ((k, e) :: db) m = (k, e) :: db ++ l := by
    unfold mysqlGet
    split
    · exact ⟨[], by simp⟩
    · exact ⟨_, rfl⟩
  obtain ⟨l, hl⟩ := hs
  unfold mysqlCheck
  rw [hl]
  apply key
  simp only [Dict.keys, List.cons_append, List.map_cons, List.map_append, List.mem_cons, List.mem_append] at h ⊢
  rcases h with h | h
  · exact Or.inl h
  · exact Or.inr (Or.inl h)

/-- With MySQL, and one sender only, the entry is kept: after a first message it counts that message, which is not adjusted. -/
theorem C50_mysql_first (user : Str) (factor : Rat) (m : Mail) :
    mysqlCheck user factor [] m = ([(m.key user, ⟨1, m.score⟩)], m.score) := by
  simp [mysqlCheck, mysqlGet, Dict.get?, Awl.bump, adjust, mean]

/-! ## C51 -/

/-- The score of a message from a sender without entries, for the network of the message or without a
network, is left alone. -/
theorem C51_unknown (user : Str) (factor : Rat) (db : Table) (m : Mail)
    (h : Dict.get? db (m.key user) = none) (h' : Dict.get? db ⟨user, m.email, m.signedby, c!"none"⟩ = none) :
    (Awl.check user factor db m).2 = m.score := by
  simp [Awl.check, getEntry, h, h', adjust, mean]

/-- After any history (as in `C50_entry_partial`) the score of a message moves towards the mean score of the
earlier messages of the sender from the network by the factor, unless that mean is 0.  Missing: a mean of 0
(`C51_zero_mean_violated`). -/
theorem C51_towards_mean_partial (user : Str) (factor : Rat) (ms : List Mail) (m : Mail)
    (h : (∀ x ∈ ofSender m.email m.signedby ms, x.ip ≠ c!"none") ∨ (∀ x ∈ ofSender m.email m.signedby ms, x.ip = c!"none"))
    (mu : Rat) (hne : fromNet m.email m.signedby m.ip ms ≠ [])
    (hmu : mu = ((fromNet m.email m.signedby m.ip ms).map Mail.score).sum / (fromNet m.email m.signedby m.ip ms).length)
    (h0 : mu ≠ 0) :
    (Awl.check user factor (Awl.run user factor [] ms) m).2 = m.score + factor * (mu - m.score) := by
  have hg := C50_entry_partial user factor ms m.email m.signedby h m.ip
  rw [if_neg hne] at hg
  have hk : Dict.get? (Awl.run user factor [] ms) (m.key user) = some (summary (fromNet m.email m.signedby m.ip ms)) := hg
  unfold Awl.check getEntry
  rw [hk]
  have hl : ((fromNet m.email m.signedby m.ip ms).length : Int) ≠ 0 := by simpa using hne
  simp only [adjust, mean, summary, if_neg hl, Int.cast_natCast]
  rw [← hmu, if_neg h0]
  ring

/-- Whatever the entry, with a factor between 0 and 1 the adjusted score is between the score and the mean
of the entry. -/
theorem C51_between (user : Str) (factor : Rat) (h0 : 0 ≤ factor) (h1 : factor ≤ 1) (db : Table) (m : Mail) (e : Entry)
    (he : Dict.get? db (m.key user) = some e) (hc : e.count ≠ 0) :
    let r := (Awl.check user factor db m).2
    let mu := e.totscore / e.count
    (m.score ≤ mu → m.score ≤ r ∧ r ≤ mu) ∧ (mu ≤ m.score → mu ≤ r ∧ r ≤ m.score) := by
  simp only
  have hr : (Awl.check user factor db m).2 = m.score ∨
      (Awl.check user factor db m).2 = m.score + (e.totscore / e.count - m.score) * factor := by
    unfold Awl.check getEntry
    rw [he]
    simp only [adjust, mean, if_neg hc]
    split
    · exact Or.inl rfl
    · exact Or.inr rfl
  generalize (Awl.check user factor db m).2 = r at hr
  generalize e.totscore / (e.count : Rat) = mu at hr
  rcases hr with hr | hr <;> subst hr
  · exact ⟨fun h => ⟨le_rfl, h⟩, fun h => ⟨h, le_rfl⟩⟩
  · constructor
    · intro h
      have a := mul_nonneg (sub_nonneg.2 h) h0
      have b := mul_le_mul_of_nonneg_left h1 (sub_nonneg.2 h)
      exact ⟨by linarith, by linarith⟩
    · intro h
      have a := mul_nonneg (sub_nonneg.2 h) h0
      have b := mul_le_mul_of_nonneg_left h1 (sub_nonneg.2 h)
      exact ⟨by linarith, by linarith⟩

/-- **C51** is violated: a sender whose mean is 0 gets no adjustment, whatever the score of the message. -/
theorem C51_zero_mean_violated (user : Str) (factor : Rat) (ms : List Mail) (m : Mail)
    (h : (∀ x ∈ ofSender m.email m.signedby ms, x.ip ≠ c!"none") ∨ (∀ x ∈ ofSender m.email m.signedby ms, x.ip = c!"none"))
    (hne : fromNet m.email m.signedby m.ip ms ≠ []) (hmu : ((fromNet m.email m.signedby m.ip ms).map Mail.score).sum = 0) :
    (Awl.check user factor (Awl.run user factor [] ms) m).2 = m.score := by
  have hg := C50_entry_partial user factor ms m.email m.signedby h m.ip
  rw [if_neg hne] at hg
  have hk : Dict.get? (Awl.run user factor [] ms) (m.key user) = some (summary (fromNet m.email m.signedby m.ip ms)) := hg
  unfold Awl.check getEntry
  rw [hk]
  have hl : ((fromNet m.email m.signedby m.ip ms).length : Int) ≠ 0 := by simpa using hne
  simp only [adjust, mean, summary, if_neg hl, hmu]
  simp

/-- Here the score 8 stays 8 and does not become 4. -/
example :
    (Awl.check c!"me" (1 / 2) (Awl.run c!"me" (1 / 2) [] [⟨c!"a@b", [], c!"10.2", 0⟩]) ⟨c!"a@b", [], c!"10.2", 8⟩).2 = 8 := by
  decide +kernel

/-! ## The hypotheses can be met -/

example : Awl.run c!"me" (1 / 2) [] [⟨c!"a@b", [], c!"10.2", 2⟩, ⟨c!"c@d", [], c!"10.2", 5⟩, ⟨c!"a@b", [], c!"10.2", 4⟩] =
    [(⟨c!"me", c!"a@b", [], c!"10.2"⟩, ⟨2, 6⟩), (⟨c!"me", c!"c@d", [], c!"10.2"⟩, ⟨1, 5⟩)] := by decide +kernel

/-- Mean 3, score 9: half the way. -/
example : (Awl.check c!"me" (1 / 2) [(⟨c!"me", c!"a@b", [], c!"10.2"⟩, ⟨2, 6⟩)] ⟨c!"a@b", [], c!"10.2", 9⟩).2 = 6 := by
  decide +kernel

example : let ms : List Mail := [⟨c!"a@b", [], c!"10.2", 2⟩, ⟨c!"a@b", [], c!"10.2", 4⟩]
    (∀ x ∈ ofSender c!"a@b" [] ms, x.ip ≠ c!"none") ∧ fromNet c!"a@b" [] c!"10.2" ms ≠ [] ∧
    ((fromNet c!"a@b" [] c!"10.2" ms).map Mail.score).sum / (fromNet c!"a@b" [] c!"10.2" ms).length = 3 := by
  refine ⟨by decide +kernel, by decide +kernel, ?_⟩
  norm_num [fromNet, ofSender]

end Verif.Props
