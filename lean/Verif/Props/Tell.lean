import Verif.Spec.Tell
import Verif.Props.Bayes
import Verif.Props.Context
import Verif.Props.Services
import Verif.Props.Protocol

/-!
# C171: what telling about a message does
-/

namespace Verif.Props
open Verif Py Context Tell Spec

variable {D : Type}

/-- A service that works is told what it is to be told, and returns. -/
theorem callback_works (now : Int) (m : Letter) (revoke : Bool) (p : Plug D) (hp : ServiceWorks m p) (w : World D) :
    ∃ out b, Informed now m revoke p out ∧ callback now m revoke p w = ({ w with deeds := w.deeds ++ out }, .ret b) := by
  cases p with
  | bayes st use => exact hp.elim
  | pyzor use ok stored servers =>
    obtain ⟨h1, h2⟩ := hp
    have h := C113_told_partial ok stored m.digest (!revoke) servers h2 h1
    cases use with
    | true =>
      refine ⟨servers.map (fun s => .pyzor ⟨s, m.digest, !revoke⟩), false, rfl, ?_⟩
      simp only [callback]
      rw [h.1]
      simp [ended, List.map_map, Function.comp_def]
    | false =>
      refine ⟨[], false, rfl, ?_⟩
      simp only [callback]
      rw [h.2]
      simp [ended]
  | razor starts => exact ⟨_, false, rfl, rfl⟩
  | spamcop s mktime send =>
    cases revoke with
    | true => exact ⟨[], false, rfl, by simp [callback]⟩
    | false =>
      have hp : Services.Usable s.toAddr → ∃ t, Services.Stamped mktime m.received t := hp
      cases hc : Services.copReport s mktime now send m.received m.raw with
      | none =>
        exfalso
        unfold Services.copReport at hc
        by_cases hu : Services.usableTo s.toAddr = true
        · obtain ⟨t, ht⟩ := hp ((usableTo_iff _).1 hu)
          rw [(mailDate_iff ..).2 ht, hu] at hc
          simp only [Bool.not_true, Bool.false_eq_true, if_false] at hc
          split at hc <;> cases hc
        · simp only [Bool.not_eq_true] at hu
          rw [hu] at hc
          cases hc
      | some x =>
        obtain ⟨b, _ | r⟩ := x
        · refine ⟨[], b, ?_, by simp [callback, hc]⟩
          show MailedTo s mktime now m []
          refine .inr ⟨?_, rfl⟩
          rintro ⟨hu, ht⟩
          have := (C116_sent_partial s mktime now send m.received m.raw
            (send ⟨s.fromAddr, s.toAddr, Services.cut s.maxSize m.raw⟩) ⟨s.fromAddr, s.toAddr, Services.cut s.maxSize m.raw⟩).2
            ⟨hu, ht, rfl, rfl, (cut_iff ..).1 rfl, rfl⟩
          rw [hc] at this
          cases this
        · refine ⟨[.mailed r], b, ?_, by simp [callback, hc]⟩
          obtain ⟨hu, ht, h1, h2, h3, _⟩ := (C116_sent_partial s mktime now send m.received m.raw b r).1 hc
          exact .inl ⟨hu, ht, r, h1, h2, h3, rfl⟩
  | other => exact ⟨[], false, rfl, by simp [callback]⟩

theorem chain_append {P S : Type} (cb : P → S → S × Cb) (a b : List P) (s s' : S) (h : chain cb a s = (s', .result false)) :
    chain cb (a ++ b) s = chain cb b s' := by
  induction a generalizing s with
  | nil =>
    simp only [chain, Prod.mk.injEq] at h
    rw [List.nil_append, h.1]
  | cons p a ih =>
    simp only [List.cons_append, chain] at h ⊢
    cases hc : cb p s with
    | mk s1 e =>
      rw [hc] at h
      cases e with
      | ret x => exact ih _ h
      | inhibit => simp at h
      | raised => simp at h

/-- Services that work, one after the other. -/
theorem chain_works (now : Int) (m : Letter) (revoke : Bool) (ps : List (Plug D)) (hp : ∀ p ∈ ps, ServiceWorks m p) (w : World D) :
    ∃ out, AllInformed now m revoke ps out ∧
      chain (callback now m revoke) ps w = ({ w with deeds := w.deeds ++ out }, .result false) := by
  induction ps generalizing w with
  | nil => exact ⟨[], rfl, by simp [chain]⟩
  | cons p ps ih =>
    obtain ⟨o1, b, h1, h2⟩ := callback_works now m revoke p (hp p (by simp)) w
    obtain ⟨o2, h3, h4⟩ := ih (fun q hq => hp q (by simp [hq])) { w with deeds := w.deeds ++ o1 }
    refine ⟨o1 ++ o2, ⟨o1, o2, h1, h3, rfl⟩, ?_⟩
    simp only [chain]
    rw [h2]
    simp only
    rw [h4]
    simp

theorem allInformed_append (now : Int) (m : Letter) (revoke : Bool) (a b : List (Plug D)) (x y : List Deed)
    (h1 : AllInformed now m revoke a x) (h2 : AllInformed now m revoke b y) : AllInformed now m revoke (a ++ b) (x ++ y) := by
  induction a generalizing x with
  | nil => cases h1; exact h2
  | cons p a ih =>
    obtain ⟨u, v, h3, h4, rfl⟩ := h1
    exact ⟨u, v ++ y, h3, ih _ h4, by simp⟩

/-- What a hook does: all services are told, the classifier learns. -/
theorem hook_works (now : Int) (m : Letter) (ps : List (Plug D)) (st : Bayes.Store D) (abs : D → Bayes.Learned)
    (h : Installed m ps st abs) (x : Protocol.Action) (w : World D) :
    ∃ out d, AllInformed now m x.revoke ps out ∧ LearnedAs abs m (!x.revoke) w.db d ∧
      hook ps now m x w = (⟨d, w.deeds ++ out⟩, .result false) := by
  obtain ⟨a, b, rfl, ha, hb, C⟩ := h
  obtain ⟨o1, h1, h2⟩ := chain_works now m x.revoke a ha w
  have hl := Bayes.learn_ok C now (!x.revoke) m.mail w.db
  generalize hr : Bayes.learnMessage st true now (!x.revoke) m.mail w.db = r at hl
  obtain ⟨r1, d⟩ := r
  obtain ⟨hl1, hl2⟩ := hl
  simp only at hl1 hl2
  subst hl1
  obtain ⟨o2, h3, h4⟩ := chain_works now m x.revoke b hb ⟨d, w.deeds ++ o1⟩
  refine ⟨o1 ++ o2, d, ?_, ?_, ?_⟩
  · exact allInformed_append _ _ _ _ _ _ _ h1 ⟨[], o2, rfl, h3, rfl⟩
  · intro id
    rw [hl2]
    rfl
  · unfold hook
    rw [chain_append _ _ _ _ _ h2]
    simp only [chain]
    have : callback now m x.revoke (.bayes st true) { w with deeds := w.deeds ++ o1 } = (⟨d, w.deeds ++ o1⟩, .ret false) := by
      simp only [callback]
      rw [hr]
    rw [this]
    simp only
    rw [h4]
    simp

/-- What a client gets done by asking for a report only. -/
theorem tell_set (now : Int) (m : Letter) (ps : List (Plug D)) (st : Bayes.Store D) (abs : D → Bayes.Learned)
    (h : Installed m ps st abs) (options : Dict Str Str) (v : Str) (hs : Dict.get? options c!"set" = some v)
    (hr : Dict.get? options c!"remove" = none) (w : World D) :
    ∃ out d, AllInformed now m false ps out ∧ LearnedAs abs m true w.db d ∧
      tell ps now m options w = (⟨d, w.deeds ++ out⟩, [c!"DidSet: " ++ v ++ c!"\r\n"], false) := by
  obtain ⟨out, d, h1, h2, h3⟩ := hook_works now m ps st abs h
    ⟨false, decide (lower ((Dict.get? options c!"message-class").getD c!"spam") = c!"spam"),
      decide (c!"local" ∈ splitChar ',' v), decide (c!"remote" ∈ splitChar ',' v)⟩ w
  refine ⟨out, d, h1, h2, ?_⟩
  simp only [tell, half, hs, hr, Bool.false_eq_true, if_false, h3, ite_self]
  simp

/-- What a client gets done by asking for a revocation only. -/
theorem tell_remove (now : Int) (m : Letter) (ps : List (Plug D)) (st : Bayes.Store D) (abs : D → Bayes.Learned)
    (h : Installed m ps st abs) (options : Dict Str Str) (v : Str) (hs : Dict.get? options c!"set" = none)
    (hr : Dict.get? options c!"remove" = some v) (w : World D) :
    ∃ out d, AllInformed now m true ps out ∧ LearnedAs abs m false w.db d ∧
      tell ps now m options w = (⟨d, w.deeds ++ out⟩, [c!"DidRemove: " ++ v ++ c!"\r\n"], false) := by
  obtain ⟨out, d, h1, h2, h3⟩ := hook_works now m ps st abs h
    ⟨true, decide (lower ((Dict.get? options c!"message-class").getD c!"spam") = c!"spam"),
      decide (c!"local" ∈ splitChar ',' v), decide (c!"remote" ∈ splitChar ',' v)⟩ w
  refine ⟨out, d, h1, h2, ?_⟩
  simp only [tell, half, hs, hr, Bool.false_eq_true, if_false, h3]
  simp

/-! ## C171 -/

/-- **C171**, in part.  A client that says a message is spam and asks to have that recorded both here and elsewhere gets it: the message
is learned as spam, every service is told, and the answer says so.  Missing: what the client gets if it says anything else
(`C171_ham_violated` and the others). -/
theorem C171_spam_partial (now : Int) (m : Letter) (ps : List (Plug D)) (st : Bayes.Store D) (abs : D → Bayes.Learned)
    (h : Installed m ps st abs) (options : Dict Str Str) (v : Str) (hs : Dict.get? options c!"set" = some v)
    (hr : Dict.get? options c!"remove" = none) (_hc : SaysSpam options) (_hl : NamesPlace options c!"set" c!"local")
    (_hm : NamesPlace options c!"set" c!"remote") (w : World D) :
    ∃ out d, AllInformed now m false ps out ∧ LearnedAs abs m true w.db d ∧
      tell ps now m options w = (⟨d, w.deeds ++ out⟩, [c!"DidSet: " ++ v ++ c!"\r\n"], false) :=
  tell_set now m ps st abs h options v hs hr w

/-- **C171** is violated: a client that says a message is not spam, and asks to have that recorded, has it learned as spam and reported
as spam to every service. -/
theorem C171_ham_violated (now : Int) (m : Letter) (ps : List (Plug D)) (st : Bayes.Store D) (abs : D → Bayes.Learned)
    (h : Installed m ps st abs) (options : Dict Str Str) (v : Str) (hs : Dict.get? options c!"set" = some v)
    (hr : Dict.get? options c!"remove" = none) (_hc : ¬ SaysSpam options) (w : World D) :
    ∃ out d, AllInformed now m false ps out ∧ LearnedAs abs m true w.db d ∧
      tell ps now m options w = (⟨d, w.deeds ++ out⟩, [c!"DidSet: " ++ v ++ c!"\r\n"], false) :=
  tell_set now m ps st abs h options v hs hr w

/-- **C171** is violated: a client that asks to have a message recorded here only has every service elsewhere told as well. -/
theorem C171_local_violated (now : Int) (m : Letter) (ps : List (Plug D)) (st : Bayes.Store D) (abs : D → Bayes.Learned)
    (h : Installed m ps st abs) (options : Dict Str Str) (v : Str) (hs : Dict.get? options c!"set" = some v)
    (hr : Dict.get? options c!"remove" = none) (_hm : ¬ NamesPlace options c!"set" c!"remote") (w : World D) :
    ∃ out, AllInformed now m false ps out ∧ (tell ps now m options w).1.deeds = w.deeds ++ out := by
  obtain ⟨out, d, h1, _, h3⟩ := tell_set now m ps st abs h options v hs hr w
  exact ⟨out, h1, by rw [h3]⟩

/-- **C171** is violated: a client that asks to have a message reported elsewhere only has it learned here as well. -/
theorem C171_remote_violated (now : Int) (m : Letter) (ps : List (Plug D)) (st : Bayes.Store D) (abs : D → Bayes.Learned)
    (h : Installed m ps st abs) (options : Dict Str Str) (v : Str) (hs : Dict.get? options c!"set" = some v)
    (hr : Dict.get? options c!"remove" = none) (_hm : ¬ NamesPlace options c!"set" c!"local") (w : World D) :
    LearnedAs abs m true w.db (tell ps now m options w).1.db := by
  obtain ⟨out, d, _, h2, h3⟩ := tell_set now m ps st abs h options v hs hr w
  rw [h3]
  exact h2

/-- **C171** is violated: what a client asks to have forgotten is not forgotten but learned as no spam, wherever it asks to have it
forgotten, and every service is told that it is no spam. -/
theorem C171_forget_violated (now : Int) (m : Letter) (ps : List (Plug D)) (st : Bayes.Store D) (abs : D → Bayes.Learned)
    (h : Installed m ps st abs) (options : Dict Str Str) (v : Str) (hs : Dict.get? options c!"set" = none)
    (hr : Dict.get? options c!"remove" = some v) (w : World D) :
    ∃ out d, AllInformed now m true ps out ∧ LearnedAs abs m false w.db d ∧ (abs d).status m.mail.msgid ≠ none ∧
      tell ps now m options w = (⟨d, w.deeds ++ out⟩, [c!"DidRemove: " ++ v ++ c!"\r\n"], false) := by
  obtain ⟨out, d, h1, h2, h3⟩ := tell_remove now m ps st abs h options v hs hr w
  exact ⟨out, d, h1, h2, by rw [h2]; simp, h3⟩

/-- **C171** is violated: a client that asks for both, as clients do to take back a report (good mail, to be recorded here, to be
forgotten elsewhere), has the message reported as spam to every service first, then taken back everywhere; in the end it is learned as
no spam.  Both are answered. -/
theorem C171_both_violated (now : Int) (m : Letter) (ps : List (Plug D)) (st : Bayes.Store D) (abs : D → Bayes.Learned)
    (h : Installed m ps st abs) (options : Dict Str Str) (v u : Str) (hs : Dict.get? options c!"set" = some v)
    (hr : Dict.get? options c!"remove" = some u) (w : World D) :
    ∃ out out' d, AllInformed now m false ps out ∧ AllInformed now m true ps out' ∧ LearnedAs abs m false w.db d ∧
      tell ps now m options w =
        (⟨d, w.deeds ++ out ++ out'⟩, [c!"DidSet: " ++ v ++ c!"\r\n", c!"DidRemove: " ++ u ++ c!"\r\n"], false) := by
  obtain ⟨out, d, h1, h2, h3⟩ := hook_works now m ps st abs h
    ⟨false, decide (lower ((Dict.get? options c!"message-class").getD c!"spam") = c!"spam"),
      decide (c!"local" ∈ splitChar ',' v), decide (c!"remote" ∈ splitChar ',' v)⟩ w
  obtain ⟨out', d', h4, h5, h6⟩ := hook_works now m ps st abs h
    ⟨true, decide (lower ((Dict.get? options c!"message-class").getD c!"spam") = c!"spam"),
      decide (c!"local" ∈ splitChar ',' u), decide (c!"remote" ∈ splitChar ',' u)⟩ ⟨d, w.deeds ++ out⟩
  refine ⟨out, out', d', h1, h4, fun id => ?_, ?_⟩
  · rw [h5 id]
    by_cases hi : id = m.mail.msgid
    · rw [if_pos hi, if_pos hi]
      rfl
    · rw [if_neg hi, if_neg hi, h2 id, if_neg hi]
  · simp only [tell, half, hs, hr, Bool.false_eq_true, if_false, h3, h6]
    simp

/-- **C171** is violated: what is done depends on nothing but on whether the client asks to record and whether it asks to forget; for
all plugins, whether they work or not. -/
theorem C171_deaf_violated (now : Int) (m : Letter) (ps : List (Plug D)) (options options' : Dict Str Str)
    (hs : (Dict.get? options c!"set").isSome = (Dict.get? options' c!"set").isSome)
    (hr : (Dict.get? options c!"remove").isSome = (Dict.get? options' c!"remove").isSome) (w : World D) :
    (tell ps now m options w).1 = (tell ps now m options' w).1 := by
  have key : ∀ (k did : Str) (rev sp sp' : Bool) (s s' : World D × List Str × Bool), s.1 = s'.1 → s.2.2 = s'.2.2 →
      (Dict.get? options k).isSome = (Dict.get? options' k).isSome →
      (half ps now m options k did rev sp s).1 = (half ps now m options' k did rev sp' s').1 ∧
      (half ps now m options k did rev sp s).2.2 = (half ps now m options' k did rev sp' s').2.2 := by
    intro k did rev sp sp' s s' h1 h2 h3
    unfold half
    rw [← h2, ← h1]
    cases hb : s.2.2 with
    | true => simp [h1, ← h2, hb]
    | false =>
      simp only [Bool.false_eq_true, if_false]
      cases ho : Dict.get? options k with
      | none =>
        rw [ho] at h3
        cases ho' : Dict.get? options' k with
        | none => simp [h1, ← h2, hb]
        | some v' => rw [ho'] at h3; cases h3
      | some v =>
        rw [ho] at h3
        cases ho' : Dict.get? options' k with
        | none => rw [ho'] at h3; cases h3
        | some v' =>
          simp only [hook]
          cases hc : chain (callback now m rev) ps s.1 with
          | mk w1 r => cases r <;> simp
  unfold tell
  have h1 := key c!"set" c!"DidSet" false (decide (lower ((Dict.get? options c!"message-class").getD c!"spam") = c!"spam"))
    (decide (lower ((Dict.get? options' c!"message-class").getD c!"spam") = c!"spam")) (w, [], false) (w, [], false) rfl rfl hs
  exact (key _ _ _ _ _ _ _ h1.1 h1.2 hr).1

/-- **C171**.  A client that asks for nothing gets nothing done. -/
theorem C171_nothing (now : Int) (m : Letter) (ps : List (Plug D)) (options : Dict Str Str) (hs : Dict.get? options c!"set" = none)
    (hr : Dict.get? options c!"remove" = none) (w : World D) : tell ps now m options w = (w, [], false) := by
  simp [tell, half, hs, hr]

theorem reportLoop_fails (ok : Str → Bool) (digest : Str) (spam : Bool) (servers : List Str) :
    (Services.reportLoop ok digest spam servers).2 = false ↔ ∃ s ∈ servers, ok s = false := by
  induction servers with
  | nil => simp [Services.reportLoop]
  | cons s rest ih =>
    unfold Services.reportLoop
    cases h : ok s with
    | true => simp [ih, h]
    | false => simp [h]

/-- Which plugins raise. -/
theorem callback_fails (now : Int) (m : Letter) (revoke : Bool) (p : Plug D) (w : World D) :
    (callback now m revoke p w).2 = .raised ↔ Fails now m revoke w.db p := by
  cases p with
  | bayes st use =>
    simp only [callback, Fails]
    rcases h : Bayes.learnMessage st use now (!revoke) m.mail w.db with ⟨r | r, d⟩
    · simp
    · simp
  | pyzor use ok stored servers =>
    simp only [callback, Fails, ended, Services.pyzorReport]
    cases use with
    | false => simp
    | true =>
      rw [← reportLoop_fails ok (stored.getD m.digest) (!revoke) servers]
      cases h : (Services.reportLoop ok (stored.getD m.digest) (!revoke) servers).2 <;> simp [h]
  | razor starts => simp [callback, Fails]
  | spamcop s mktime send =>
    cases revoke with
    | true => simp [callback, Fails]
    | false =>
      have : Services.copReport s mktime now send m.received m.raw = none ↔ Services.Usable s.toAddr ∧ ¬ ∃ t, Services.Stamped mktime m.received t := by
        unfold Services.copReport
        rw [← usableTo_iff]
        cases hu : Services.usableTo s.toAddr with
        | false => simp
        | true =>
          cases hd : Services.mailDate mktime m.received with
          | none =>
            simp only [Bool.not_true, Bool.false_eq_true, if_false, true_and, true_iff]
            rintro ⟨t, ht⟩
            rw [(mailDate_iff ..).2 ht] at hd
            cases hd
          | some t =>
            simp only [Bool.not_true, Bool.false_eq_true, if_false, true_and]
            constructor
            · intro h
              split at h <;> cases h
            · intro h
              exact absurd ⟨t, (mailDate_iff ..).1 hd⟩ h
      simp only [callback, Fails, Bool.false_eq_true, if_false, true_and, ← this]
      rcases Services.copReport s mktime now send m.received m.raw with _ | ⟨b, _ | r⟩ <;> simp
  | other => simp [callback, Fails]

theorem chain_fails (now : Int) (m : Letter) (revoke : Bool) (a b : List (Plug D)) (p : Plug D) (ha : ∀ q ∈ a, ServiceWorks m q)
    (w : World D) (hp : Fails now m revoke w.db p) :
    ∃ out, AllInformed now m revoke a out ∧
      chain (callback now m revoke) (a ++ p :: b) w = ((callback now m revoke p { w with deeds := w.deeds ++ out }).1, .raised) := by
  obtain ⟨out, h1, h2⟩ := chain_works now m revoke a ha w
  refine ⟨out, h1, ?_⟩
  rw [chain_append _ _ _ _ _ h2]
  simp only [chain]
  have := (callback_fails now m revoke p { w with deeds := w.deeds ++ out }).2 hp
  cases hx : callback now m revoke p { w with deeds := w.deeds ++ out } with
  | mk w1 r =>
    rw [hx] at this
    simp only at this
    subst this
    rfl

/-- **C171** is violated: if a plugin fails, those before it have acted and those after it never do, and nothing is answered. -/
theorem C171_failure_violated (now : Int) (m : Letter) (a b : List (Plug D)) (p : Plug D) (ha : ∀ q ∈ a, ServiceWorks m q)
    (options : Dict Str Str) (v : Str) (hs : Dict.get? options c!"set" = some v) (w : World D) (hp : Fails now m false w.db p) :
    ∃ out, AllInformed now m false a out ∧
      tell (a ++ p :: b) now m options w = ((callback now m false p { w with deeds := w.deeds ++ out }).1, [], true) := by
  obtain ⟨out, h1, hc⟩ := chain_fails now m false a b p ha w hp
  refine ⟨out, h1, ?_⟩
  simp only [tell, half, hs, hook, hc, Bool.false_eq_true, if_false, if_true]

/-- **C171** is violated: with the databases of the code no message that is not on record can be reported: the classifier fails, what
comes after it is not told, and nothing is answered. -/
theorem C171_database_violated (now : Int) (m : Letter) (a b : List (Plug Bayes.Db)) (ha : ∀ q ∈ a, ServiceWorks m q)
    (st : Bayes.Store Bayes.Db) (hst : st = Bayes.mysqlStore ∨ st = Bayes.alchemyStore) (options : Dict Str Str) (v : Str)
    (hs : Dict.get? options c!"set" = some v) (w : World Bayes.Db) (hn : Dict.get? w.db.seen m.mail.msgid = none) :
    ∃ out, AllInformed now m false a out ∧
      tell (a ++ .bayes st true :: b) now m options w = ({ w with deeds := w.deeds ++ out }, [], true) := by
  have hl : Bayes.learnMessage st true now true m.mail w.db = (.error .typeError, w.db) := by
    obtain ⟨h1, h2, _⟩ := C45_new_message_violated now true m.mail w.db hn
    rcases hst with rfl | rfl
    · exact h1
    · exact h2
  obtain ⟨out, h1, h2⟩ := C171_failure_violated now m a b (.bayes st true) ha options v hs w ⟨_, _, hl⟩
  refine ⟨out, h1, ?_⟩
  rw [h2]
  simp only [callback, Bool.not_false, hl]

/-- **C171** is violated: a client that asks for both about a message on record as spam has it reported to all services; taking it back
fails half way, and the client is told of neither. -/
theorem C171_late_violated (now : Int) (m : Letter) (a b : List (Plug Bayes.Db)) (ha : ∀ q ∈ a, ServiceWorks m q)
    (hb : ∀ q ∈ b, ServiceWorks m q) (st : Bayes.Store Bayes.Db) (hst : st = Bayes.mysqlStore ∨ st = Bayes.alchemyStore)
    (options : Dict Str Str) (v u : Str) (hs : Dict.get? options c!"set" = some v) (hr : Dict.get? options c!"remove" = some u)
    (w : World Bayes.Db) (hn : Dict.get? w.db.seen m.mail.msgid = some c!"s") (ht : m.mail.tokens ≠ []) :
    ∃ out out', AllInformed now m false (a ++ .bayes st true :: b) out ∧ AllInformed now m true a out' ∧
      (tell (a ++ .bayes st true :: b) now m options w).1.deeds = w.deeds ++ out ++ out' ∧
      (tell (a ++ .bayes st true :: b) now m options w).2 = ([], true) := by
  have hl : Bayes.learnMessage st true now true m.mail w.db = (.ok (some false), w.db) := by
    obtain ⟨h1, h2⟩ := C45_recorded now true m.mail w.db (by simpa using hn)
    rcases hst with rfl | rfl
    · exact h1
    · exact h2
  have hf : ∃ e d, Bayes.learnMessage st true now false m.mail w.db = (.error e, d) := by
    obtain ⟨h1, h2⟩ := C45_forget_violated m.mail w.db hn ht
    have key : ∀ st : Bayes.Store Bayes.Db, st.seenGet m.mail.msgid w.db = (.ok (some c!"s"), w.db) →
        ∀ {e d}, Bayes.forgetMessage st true m.mail w.db = (.error e, d) → Bayes.learnMessage st true now false m.mail w.db = (.error e, d) := by
      intro st hg e d h
      simp [Bayes.learnMessage, Bayes.learnTrapped, Bayes.M.bind, hg, Bayes.flagged, h]
    rcases hst with rfl | rfl
    · exact ⟨_, _, key _ (by simp [Bayes.mysqlStore, hn]) h1⟩
    · exact ⟨_, _, key _ (by simp [Bayes.mysqlStore, Bayes.alchemyStore, hn]) h2⟩
  obtain ⟨o1, h1, c1⟩ := chain_works now m false a ha w
  obtain ⟨o2, h2, c2⟩ := chain_works now m false b hb { w with deeds := w.deeds ++ o1 }
  have c3 : chain (callback now m false) (a ++ .bayes st true :: b) w = ({ w with deeds := w.deeds ++ (o1 ++ o2) }, .result false) := by
    rw [chain_append _ _ _ _ _ c1]
    simp only [chain]
    have : callback now m false (.bayes st true) { w with deeds := w.deeds ++ o1 } = ({ w with deeds := w.deeds ++ o1 }, .ret false) := by
      simp only [callback, Bool.not_false, hl]
    rw [this]
    simp only
    rw [c2]
    simp
  obtain ⟨o3, h3, c4⟩ := chain_fails now m true a b (.bayes st true) ha { w with deeds := w.deeds ++ (o1 ++ o2) } (by simpa [Fails] using hf)
  refine ⟨o1 ++ o2, o3, allInformed_append _ _ _ _ _ _ _ h1 ⟨[], o2, rfl, h2, rfl⟩, h3, ?_, ?_⟩
  · simp only [tell, half, hs, hr, hook, c3, c4, Bool.false_eq_true, if_false]
    obtain ⟨e, d, he⟩ := hf
    simp only [callback, Bool.not_true, he]
  · simp only [tell, half, hs, hr, hook, c3, c4, Bool.false_eq_true, if_false]

/-- The answers are those of the command as modelled for the protocol, if nothing fails. -/
theorem tell_answers {S X : Type} [PyNum S] (e : Protocol.Engine S X) (he : ∀ a, e.hook a = none) (now : Int) (m : Letter)
    (ps : List (Plug D)) (options : Dict Str Str) (w : World D) (h : (tell ps now m options w).2.2 = false) :
    (tell ps now m options w).2.1 = (Protocol.tellHandle e options).written := by
  unfold tell half hook Protocol.tellHandle Protocol.tellHalf at *
  simp only [he] at *
  cases hs : Dict.get? options c!"set" <;> cases hr : Dict.get? options c!"remove" <;> rw [hs, hr] at h <;>
    simp only [Bool.false_eq_true, if_false] at h ⊢
  · rename_i v
    cases hc : chain (callback now m true) ps w with
    | mk w1 r => cases r <;> simp [hc] at h ⊢
  · rename_i v
    cases hc : chain (callback now m false) ps w with
    | mk w1 r => cases r <;> simp [hc] at h ⊢
  · rename_i v v'
    cases hc : chain (callback now m false) ps w with
    | mk w1 r =>
      cases r with
      | raised => simp [hc] at h
      | result b =>
        simp only [hc, Bool.false_eq_true, if_false] at h ⊢
        cases hc' : chain (callback now m true) ps w1 with
        | mk w2 r => cases r <;> simp [hc'] at h ⊢

/-! ### An installation -/

def tellPlugs : List (Plug Bayes.Learned) :=
  [.other, .pyzor true (fun _ => true) none [c!"public.pyzor.org:24441"], .bayes Bayes.ledger true, .razor true,
   .spamcop ⟨false, c!"me@here", c!"submit@spamcop.net", 50⟩ (fun s => if s = c!" now" then some 100000 else none) (fun _ => true)]

def tellLetter : Letter :=
  ⟨⟨c!"id1", [(c!"h", c!"viagra")], 100000⟩, c!"d1", [some c!"from a by b; now"], c!"Buy viagra"⟩

theorem tellInstalled : Installed tellLetter tellPlugs Bayes.ledger (fun d => d) := by
  refine ⟨[.other, .pyzor true (fun _ => true) none [c!"public.pyzor.org:24441"]], [.razor true,
    .spamcop ⟨false, c!"me@here", c!"submit@spamcop.net", 50⟩ (fun s => if s = c!" now" then some 100000 else none) (fun _ => true)],
    rfl, ?_, ?_, ledger_contract⟩
  · intro p hp
    simp only [List.mem_cons, List.not_mem_nil, or_false] at hp
    rcases hp with rfl | rfl
    · trivial
    · exact ⟨fun _ _ => rfl, fun d h => by cases h⟩
  · intro p hp
    simp only [List.mem_cons, List.not_mem_nil, or_false] at hp
    rcases hp with rfl | rfl
    · trivial
    · intro _
      exact ⟨100000, c!"from a by b", c!" now", [], [], by decide, by decide, .inl rfl, rfl, by decide⟩

def tellHam : Dict Str Str := [(c!"message-class", c!"ham"), (c!"set", c!"local")]

example : ¬ SaysSpam tellHam ∧ NamesPlace tellHam c!"set" c!"local" := by
  refine ⟨?_, [c!"local"], by decide, by decide, by decide⟩
  rintro (h | ⟨t, h1, h2⟩)
  · revert h; decide
  · have : Dict.get? tellHam c!"message-class" = some c!"ham" := by decide
    rw [this] at h1
    cases h1
    revert h2
    decide

example : SaysSpam [(c!"message-class", c!"Spam"), (c!"set", c!"local,remote")] ∧
    NamesPlace [(c!"message-class", c!"Spam"), (c!"set", c!"local,remote")] c!"set" c!"remote" :=
  ⟨.inr ⟨c!"Spam", by decide, by decide⟩, [c!"local", c!"remote"], by decide, by decide, by decide⟩

/-- Good mail, to be learned here only: it is learned as spam, and the whole world is told so. -/
example : let r := tell tellPlugs 100000 tellLetter tellHam ⟨Bayes.nothing, []⟩
    r.1.db.status c!"id1" = some true ∧ r.1.db.nspam = 1 ∧ r.1.db.nham = 0 ∧
    r.1.deeds = [.pyzor ⟨c!"public.pyzor.org:24441", c!"d1", true⟩, .ran c!"razor-report",
      .mailed ⟨c!"me@here", c!"submit@spamcop.net", c!"Buy viagra"⟩] ∧
    r.2 = ([c!"DidSet: local\r\n"], false) := by decide

example : let r := tell tellPlugs 100000 tellLetter [(c!"remove", c!"local")] ⟨Bayes.nothing, []⟩
    r.1.db.status c!"id1" = some false ∧ r.1.deeds = [.pyzor ⟨c!"public.pyzor.org:24441", c!"d1", false⟩, .ran c!"razor-revoke"] := by decide

/-- A server that cannot be reached: the classifier never hears of the message. -/
example : ∀ w : World Bayes.Learned,
    (callback 100000 tellLetter false (.pyzor true (fun _ => false) none [c!"public.pyzor.org:24441"]) w).2 = .raised := fun _ => rfl

example : Fails 100000 tellLetter false Bayes.nothing (.pyzor true (fun _ => false) none [c!"public.pyzor.org:24441"]) ∧
    tellLetter.mail.tokens ≠ [] ∧ Dict.get? (⟨[(c!"id1", c!"s")], [(1, 0)], []⟩ : Bayes.Db).seen tellLetter.mail.msgid = some c!"s" ∧
    Dict.get? Bayes.Db.empty.seen tellLetter.mail.msgid = none := by
  refine ⟨⟨rfl, _, List.mem_cons_self .., rfl⟩, by decide, by decide, by decide⟩

end Verif.Props
