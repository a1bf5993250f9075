import Verif.Lemmas.Bayes

/-!
# C45, C46: learning and forgetting messages
-/

namespace Verif.Props
open Verif Py Bayes

/-- The store of the specification does what learning expects. -/
theorem ledger_contract : Contract ledger (fun d => d) where
  seenGet := fun _ _ => rfl
  seenPut := fun m b d => ⟨rfl, by
    apply Learned.ext' <;> intros <;> simp only [ledger]
    cases b <;> rfl⟩
  seenDelete := fun _ _ => ⟨rfl, rfl⟩
  nChange := fun _ _ _ => ⟨rfl, rfl⟩
  tokChange := fun _ _ _ _ _ => ⟨rfl, rfl⟩

/-! ## C45 -/

/-- With a store that does what learning expects, learning a message a second time as the same class
does nothing at all and says so.  Missing: neither of the two stores in the code is such a store
(`C45_new_message_violated`). -/
theorem C45_again_partial {D : Type} (st : Store D) (abs : D → Learned) (C : Contract st abs)
    (now later : Int) (b : Bool) (m : Mail) (d : D) :
    learnMessage st true later b m (learnMessage st true now b m d).2 =
      (.ok (some false), (learnMessage st true now b m d).2) := by
  generalize hd : (learnMessage st true now b m d).2 = d'
  have hs : (abs d').status m.msgid = some b := by
    rw [← hd, (learn_ok C now b m d).2]; simp [shift]
  have hg := C.seenGet m.msgid d'
  unfold learnMessage learnTrapped
  simp only [Bool.not_true, Bool.false_eq_true, if_false]
  rw [bind_ok (a := ((abs d').status m.msgid).map fun b => if b then c!"s" else c!"h") (by rw [hg]), hg, hs]
  cases b <;> rfl

/-- With such a store, learning a message as the other class leaves what learning it only as that class
would have left. -/
theorem C45_other_class_partial {D : Type} (st : Store D) (abs : D → Learned) (C : Contract st abs)
    (now later : Int) (b : Bool) (m : Mail) (d : D) :
    abs (learnMessage st true later b m (learnMessage st true now (!b) m d).2).2 =
      abs (learnMessage st true later b m d).2 := by
  rw [(learn_ok C _ _ _ _).2, (learn_ok C _ _ _ _).2, (learn_ok C _ _ _ _).2, shift_shift]

/-- With such a store, learning a message that was not learned and then forgetting it leaves what there
was before. -/
theorem C45_forget_partial {D : Type} (st : Store D) (abs : D → Learned) (C : Contract st abs)
    (now : Int) (b : Bool) (m : Mail) (d : D) (h : (abs d).status m.msgid = none) :
    abs (forgetMessage st true m (learnMessage st true now b m d).2).2 = abs d := by
  rw [(forget_ok C _ _).2, (learn_ok C _ _ _ _).2, shift_shift, ← h, shift_same]

/-- With such a store, learning tells whether the message was learned, forgetting whether it was
forgotten. -/
theorem C45_answers_partial {D : Type} (st : Store D) (abs : D → Learned) (C : Contract st abs)
    (now : Int) (b : Bool) (m : Mail) (d : D) :
    (learnMessage st true now b m d).1 = .ok (some (decide ((abs d).status m.msgid ≠ some b))) ∧
    (forgetMessage st true m d).1 = .ok (some ((abs d).status m.msgid).isSome) :=
  ⟨(learn_ok C now b m d).1, (forget_ok C m d).1⟩

/-- With `use_bayes 0` nothing is learned, whatever the store. -/
theorem C45_switched_off {D : Type} (st : Store D) (now : Int) (b : Bool) (m : Mail) (d : D) :
    learnMessage st false now b m d = (.ok none, d) ∧ forgetMessage st false m d = (.ok none, d) := ⟨rfl, rfl⟩

/-- With the stores of the code, a message recorded as learned in a class is not learned again. -/
theorem C45_recorded (now : Int) (b : Bool) (m : Mail) (d : Db)
    (h : Dict.get? d.seen m.msgid = some (if b then c!"s" else c!"h")) :
    learnMessage mysqlStore true now b m d = (.ok (some false), d) ∧
    learnMessage alchemyStore true now b m d = (.ok (some false), d) := by
  constructor <;> cases b <;>
    simp [learnMessage, learnTrapped, M.bind, M.pure, mysqlStore, alchemyStore, flagged, h]

/-- A recorded flag that is neither `s` nor `h` (a blank one, say) counts as not learned: forgetting leaves
all as it is, and learning a message without tokens succeeds and puts its class on record. -/
theorem C45_odd_flag (now : Int) (b : Bool) (m : Mail) (d : Db) (f : Str) (h : Dict.get? d.seen m.msgid = some f)
    (hs : f ≠ c!"s") (hh : f ≠ c!"h") (ht : m.tokens = []) :
    forgetMessage mysqlStore true m d = (.ok (some false), d) ∧
    (learnMessage mysqlStore true now b m d).1 = .ok (some true) ∧
    Dict.get? (learnMessage mysqlStore true now b m d).2.seen m.msgid = some (if b then c!"s" else c!"h") := by
  have hf : flagged (some f) = none ∨ flagged (some f) = some f := by cases f <;> simp [flagged]
  refine ⟨?_, ?_⟩
  · rcases hf with hf | hf <;>
      simp [forgetMessage, forgetTrapped, M.bind, M.pure, mysqlStore, h, hf, hs, hh]
  · rcases hf with hf | hf <;> cases b <;>
      simp [learnMessage, learnTrapped, forgetMessage, forgetTrapped, storeMail, M.bind, M.pure, mysqlStore, h, hf,
        hs, hh, ht, update, Dict.has, Dict.get?_set]

/-- The stores of the code raise whenever a message without a record is learned or forgotten: no new
message can ever be learned. -/
theorem C45_new_message_violated (now : Int) (b : Bool) (m : Mail) (d : Db)
    (h : Dict.get? d.seen m.msgid = none) :
    learnMessage mysqlStore true now b m d = (.error .typeError, d) ∧
    learnMessage alchemyStore true now b m d = (.error .typeError, d) ∧
    forgetMessage mysqlStore true m d = (.error .typeError, d) ∧
    forgetMessage alchemyStore true m d = (.error .typeError, d) := by
  refine ⟨?_, ?_, ?_, ?_⟩ <;>
    simp [learnMessage, learnTrapped, forgetMessage, forgetTrapped, M.bind, mysqlStore, alchemyStore, h]

/-- Forgetting a recorded message that has tokens raises after the numbers of messages are overwritten,
and the message stays recorded. -/
theorem C45_forget_violated (m : Mail) (d : Db) (h : Dict.get? d.seen m.msgid = some c!"s") (ht : m.tokens ≠ []) :
    forgetMessage mysqlStore true m d = (.error .db, { d with vars := d.vars.map fun _ => (-1, 0) }) ∧
    forgetMessage alchemyStore true m d = (.error .db, { d with vars := d.vars.map fun _ => (-1, 0) }) := by
  obtain ⟨t, ts, hts⟩ : ∃ t ts, m.tokens = t :: ts := by
    cases hm : m.tokens with
    | nil => exact absurd hm ht
    | cons t ts => exact ⟨t, ts, rfl⟩
  constructor <;>
    simp [forgetMessage, forgetTrapped, unstore, flagged, M.bind, mysqlStore, alchemyStore, h, hts]

/-- With SQLAlchemy, forgetting a message without tokens raises as well, and it stays recorded; with MySQL it is forgotten. -/
theorem C45_forget_empty_violated (m : Mail) (d : Db) (h : Dict.get? d.seen m.msgid = some c!"s") (ht : m.tokens = []) :
    forgetMessage alchemyStore true m d = (.error .typeError, { d with vars := d.vars.map fun _ => (-1, 0) }) ∧
    forgetMessage mysqlStore true m d = (.ok (some true), { d with vars := d.vars.map fun _ => (-1, 0), seen := Dict.del d.seen m.msgid }) := by
  constructor <;>
    simp [forgetMessage, forgetTrapped, unstore, flagged, M.bind, M.pure, mysqlStore, alchemyStore, h, ht]

example : Dict.get? (⟨[(c!"m1", c!"s")], [(1, 0)], []⟩ : Db).seen (⟨c!"m1", [], 0⟩ : Mail).msgid = some c!"s" := by decide

/-! ## C46 -/

/-- With a store that does what learning expects, after any history of learning and forgetting the
numbers of messages and the counts of the tokens are those of the messages that are learned then.
`tokens` gives the tokens of the message with an identifier.  Missing: the stores of the code. -/
theorem C46_history_partial {D : Type} (st : Store D) (abs : D → Learned) (C : Contract st abs) (now : Int)
    (d : D) (h0 : abs d = nothing) (tokens : Str → List (Str × Str)) (ops : List Op)
    (ht : ∀ op ∈ ops, op.mail.tokens = tokens op.mail.msgid) :
    abs (run st now d ops) = expected tokens ops := by
  rw [← List.reverse_reverse ops] at ht ⊢
  generalize ops.reverse = l at ht ⊢
  induction l with
  | nil => exact h0
  | cons op l ih =>
    rw [List.reverse_cons] at ht ⊢
    rw [expected_snoc tokens l.reverse op (ht op (by simp)),
      ← ih fun o ho => ht o (List.mem_append_left _ ho)]
    unfold run
    rw [List.foldl_append]
    exact step_ok C now _ op

/-- The stores of the code never store anything in a database that has no record of a message: after
any history it is as it was. -/
theorem C46_nothing_learned_violated (now : Int) (d : Db) (h : d.seen = []) (ops : List Op) :
    run mysqlStore now d ops = d ∧ run alchemyStore now d ops = d := by
  have hn : ∀ m : Mail, Dict.get? d.seen m.msgid = none := by intro m; rw [h]; rfl
  have key : ∀ st : Store Db, (∀ op, step st now d op = d) → run st now d ops = d := by
    intro st hs
    induction ops with
    | nil => rfl
    | cons op ops ih =>
      unfold run at ih ⊢
      rw [List.foldl_cons, hs op]
      exact ih
  constructor <;> apply key <;> intro op <;> cases op with
  | learn b m =>
    have := C45_new_message_violated now b m d (hn m)
    simp only [step, this]
  | forget m =>
    have := C45_new_message_violated now true m d (hn m)
    simp only [step, this]

/-- Learning a recorded message as the other class overwrites the numbers of messages with 0 and 1,
whatever they were, and loses the record (here for a message without tokens). -/
theorem C46_overwritten_violated (now : Int) (m : Mail) (d : Db) (h : Dict.get? d.seen m.msgid = some c!"h")
    (ht : m.tokens = []) :
    learnMessage mysqlStore true now true m d =
      (.ok (some true), { d with seen := Dict.del d.seen m.msgid, vars := d.vars.map fun _ => (1, 0) }) := by
  have hd : Dict.get? (Dict.del d.seen m.msgid) m.msgid = none := by rw [Dict.get?_del, if_pos rfl]
  simp [learnMessage, learnTrapped, forgetMessage, forgetTrapped, unstore, storeMail, flagged, M.bind, M.pure,
    mysqlStore, h, ht, update, Dict.has, hd]

/-- Learning it when it has tokens raises after the numbers of messages are overwritten. -/
theorem C46_half_done_violated (now : Int) (m : Mail) (d : Db) (h : Dict.get? d.seen m.msgid = some c!"h")
    (ht : m.tokens ≠ []) :
    learnMessage mysqlStore true now true m d = (.error .db, { d with vars := d.vars.map fun _ => (0, -1) }) := by
  obtain ⟨t, ts, hts⟩ : ∃ t ts, m.tokens = t :: ts := by
    cases hm : m.tokens with
    | nil => exact absurd hm ht
    | cons t ts => exact ⟨t, ts, rfl⟩
  simp [learnMessage, learnTrapped, forgetMessage, forgetTrapped, unstore, flagged, M.bind,
    mysqlStore, h, hts]

/-! ## The hypotheses can be met -/

private def m1 : Mail := ⟨c!"1@x", [(c!"h1", c!"cheap"), (c!"h2", c!"pills")], 100⟩
private def m2 : Mail := ⟨c!"2@x", [(c!"h2", c!"pills")], 200⟩

example : Contract ledger (fun d => d) := ledger_contract

/-- Two messages, one of them learned as spam first and as ham then. -/
example :
    (fun d : Learned => [d.nspam, d.nham, d.spam c!"h1", d.ham c!"h1", d.spam c!"h2", d.ham c!"h2"])
      (run ledger 0 nothing [.learn true m1, .learn true m2, .learn true m2, .learn false m1]) =
      [1, 1, 0, 1, 1, 1] := by decide

example : (∀ op ∈ [Op.learn true m1, .learn true m2, .forget m1], op.mail.tokens =
      (fun id => if id = c!"1@x" then m1.tokens else m2.tokens) op.mail.msgid) ∧
    (expected (fun id => if id = c!"1@x" then m1.tokens else m2.tokens)
      [Op.learn true m1, .learn true m2, .forget m1]).nspam = 1 := by
  constructor
  · decide
  · simp [expected, learnedAs, ids, lastSaid, Op.mail, m1, m2, List.eraseDups_cons, List.filter_cons]

example : Dict.get? (Db.mk [(c!"1@x", c!"h")] [(5, 7)] []).seen m1.msgid = some c!"h" ∧ m1.tokens ≠ [] := by decide

/-- Five spam and seven ham messages are on record; one message changes class. -/
example : (learnMessage mysqlStore true 0 true ⟨c!"1@x", [], 0⟩ ⟨[(c!"1@x", c!"h")], [(5, 7)], []⟩).2 =
    ⟨[], [(1, 0)], []⟩ := by decide

example : Dict.get? (Db.mk [(c!"1@x", c!"?")] [(5, 7)] []).seen c!"1@x" = some c!"?" := by decide

example : Dict.get? Db.empty.seen m1.msgid = none ∧ Db.empty.seen = [] := by decide

end Verif.Props
