import Verif.Model.BayesSteps
import Verif.Props.Bayes
import Verif.Props.AwlProcs

/-!
# C156: learning in several processes, any of which may die
-/

namespace Verif.Props
open Verif Py Bayes

variable {D A B : Type}

theorem runAll_call (x : M D A) : (Prog.call x).runAll = x := by
  funext d
  rfl

theorem runAll_bind (x : Prog D A) (f : A → Prog D B) : (x.bind f).runAll = x.runAll.bind fun a => (f a).runAll := by
  funext d
  induction x generalizing d with
  | ret r => cases r <;> rfl
  | step g n ih =>
    show ((n d).bind f).runAll (g d) = _
    rw [ih]
    rfl

theorem runAll_forget (st : Store D) (m : Mail) : (forgetSteps st m).runAll = forgetMessage st true m := by
  have hu : ∀ b, (unstoreSteps st b m).runAll = unstore st b m := by
    intro b
    unfold unstoreSteps unstore
    cases b <;> simp only [runAll_bind, runAll_call, if_true, Bool.false_eq_true, if_false] <;> rfl
  unfold forgetSteps forgetMessage forgetTrapped
  simp only [runAll_bind, runAll_call, Bool.not_true, Bool.false_eq_true, if_false]
  congr 1
  funext seen
  cases flagged seen with
  | none => rfl
  | some s =>
    simp only []
    by_cases h1 : s = c!"s"
    · rw [if_pos h1, if_pos h1]; exact hu true
    · rw [if_neg h1, if_neg h1]
      by_cases h2 : s = c!"h"
      · rw [if_pos h2, if_pos h2]; exact hu false
      · rw [if_neg h2, if_neg h2]; rfl

theorem runAll_learn (st : Store D) (now : Int) (b : Bool) (m : Mail) :
    (learnSteps st now b m).runAll = learnMessage st true now b m := by
  have hs : (storeSteps st now b m).runAll = storeMail st now b m := by
    unfold storeSteps storeMail
    cases b <;> simp only [runAll_bind, runAll_call, if_true, Bool.false_eq_true, if_false] <;> rfl
  unfold learnSteps learnMessage learnTrapped
  simp only [runAll_bind, runAll_call, Bool.not_true, Bool.false_eq_true, if_false]
  congr 1
  funext seen
  cases flagged seen with
  | none => exact hs
  | some s =>
    simp only []
    by_cases h1 : (s = c!"s" ∧ b = true) ∨ (s = c!"h" ∧ b = false)
    · rw [if_pos h1, if_pos h1]; rfl
    · rw [if_neg h1, if_neg h1]
      simp only [Bool.false_eq_true, and_false, if_false, runAll_bind, runAll_forget]
      congr 1
      funext fatal
      cases fatal with
      | none => rfl
      | some x => exact hs

/-- The steps of a call without interruption are the call. -/
theorem runAll_op (st : Store D) (now : Int) (op : Op) (d : D) : ((opSteps st now op).runAll d).2 = Bayes.step st now d op := by
  cases op with
  | learn b m => exact congrArg Prod.snd (congrFun (runAll_learn st now b m) d)
  | forget m => exact congrArg Prod.snd (congrFun (runAll_forget st m) d)

/-! ### Steps about different messages -/

/-- A change that concerns one message only: its record is set or left, and numbers are added to the counts. -/
structure Change where
  record : Option (Option Bool)
  nspam : Int
  nham : Int
  spam : Str → Int
  ham : Str → Int

def Change.apply (c : Change) (i : Str) (L : Learned) : Learned where
  status := fun x => if x = i then c.record.getD (L.status x) else L.status x
  nspam := L.nspam + c.nspam
  nham := L.nham + c.nham
  spam := fun k => L.spam k + c.spam k
  ham := fun k => L.ham k + c.ham k

theorem change_comm (c e : Change) {i j : Str} (h : i ≠ j) (L : Learned) :
    c.apply i (e.apply j L) = e.apply j (c.apply i L) := by
  apply Learned.ext'
  · intro x
    simp only [Change.apply]
    by_cases h1 : x = i
    · have : x ≠ j := fun e => h (h1 ▸ e)
      simp [h1, h]
    · simp [h1]
  all_goals intros; simp only [Change.apply]; omega

/-- All steps only look at the record of one message and change what concerns it. -/
inductive About (abs : D → Learned) (i : Str) : Prog D A → Prop
  | ret (r) : About abs i (.ret r)
  | step (f n) (c : Change) (hf : ∀ d, abs (f d) = c.apply i (abs d))
      (hn : ∀ d d', (abs d).status i = (abs d').status i → n d = n d') (h : ∀ d, About abs i (n d)) : About abs i (.step f n)

theorem about_bind {abs : D → Learned} {i : Str} {x : Prog D A} {g : A → Prog D B} (hx : About abs i x)
    (hg : ∀ a, About abs i (g a)) : About abs i (x.bind g) := by
  induction hx with
  | ret r => cases r with
    | ok a => exact hg a
    | error e => exact .ret _
  | step f n c hf hn h ih => exact .step f _ c hf (fun d d' e => by rw [hn d d' e]) ih

variable {st : Store D} {abs : D → Learned}

theorem about_nChange (C : Contract st abs) (i : Str) (s h : Int) : About abs i (Prog.call (st.nChange s h)) := by
  refine .step _ _ ⟨none, s, h, fun _ => 0, fun _ => 0⟩ ?_ ?_ (fun _ => .ret _)
  · intro d
    rw [(C.nChange s h d).2]
    apply Learned.ext' <;> intros <;> simp [Change.apply]
  · intro d d' _
    rw [(C.nChange s h d).1, (C.nChange s h d').1]

theorem about_tokChange (C : Contract st abs) (i : Str) (s h : Int) (tokens : List (Str × Str)) (t : Int) :
    About abs i (Prog.call (st.tokChange s h tokens t)) := by
  refine .step _ _ ⟨none, 0, 0, fun k => if k ∈ tokens.map Prod.fst then s else 0, fun k => if k ∈ tokens.map Prod.fst then h else 0⟩
    ?_ ?_ (fun _ => .ret _)
  · intro d
    rw [(C.tokChange s h tokens t d).2]
    apply Learned.ext' <;> intros <;> simp [Change.apply]
  · intro d d' _
    rw [(C.tokChange s h tokens t d).1, (C.tokChange s h tokens t d').1]

theorem about_seenGet (C : Contract st abs) (i : Str) : About abs i (Prog.call (st.seenGet i)) := by
  refine .step _ _ ⟨none, 0, 0, fun _ => 0, fun _ => 0⟩ ?_ ?_ (fun _ => .ret _)
  · intro d
    rw [C.seenGet]
    apply Learned.ext' <;> intros <;> simp [Change.apply]
  · intro d d' h
    rw [C.seenGet, C.seenGet, h]

theorem about_seenPut (C : Contract st abs) (i : Str) (b : Bool) :
    About abs i (Prog.call (st.seenPut i (if b then c!"s" else c!"h"))) := by
  refine .step _ _ ⟨some (some b), 0, 0, fun _ => 0, fun _ => 0⟩ ?_ ?_ (fun _ => .ret _)
  · intro d
    rw [(C.seenPut i b d).2]
    apply Learned.ext' <;> intros <;> simp [Change.apply]
  · intro d d' _
    rw [(C.seenPut i b d).1, (C.seenPut i b d').1]

theorem about_seenDelete (C : Contract st abs) (i : Str) : About abs i (Prog.call (st.seenDelete i)) := by
  refine .step _ _ ⟨some none, 0, 0, fun _ => 0, fun _ => 0⟩ ?_ ?_ (fun _ => .ret _)
  · intro d
    rw [(C.seenDelete i d).2]
    apply Learned.ext' <;> intros <;> simp [Change.apply]
  · intro d d' _
    rw [(C.seenDelete i d).1, (C.seenDelete i d').1]

theorem about_unstore (C : Contract st abs) (b : Bool) (m : Mail) : About abs m.msgid (unstoreSteps st b m) := by
  unfold unstoreSteps
  refine about_bind ?_ fun _ => about_bind (about_seenDelete C _) fun _ => .ret _
  split <;> exact about_bind (about_nChange C _ _ _) fun _ => about_tokChange C _ _ _ _ _

theorem about_store (C : Contract st abs) (now : Int) (b : Bool) (m : Mail) : About abs m.msgid (storeSteps st now b m) := by
  unfold storeSteps
  refine about_bind ?_ fun _ => about_bind (about_seenPut C _ b) fun _ => .ret _
  split <;> exact about_bind (about_nChange C _ _ _) fun _ => about_tokChange C _ _ _ _ _

theorem about_forget (C : Contract st abs) (m : Mail) : About abs m.msgid (forgetSteps st m) := by
  unfold forgetSteps
  refine about_bind (about_seenGet C _) fun seen => ?_
  split
  · exact .ret _
  · split
    · exact about_unstore C _ _
    · split
      · exact about_unstore C _ _
      · exact .ret _

theorem about_op (C : Contract st abs) (now : Int) (op : Op) : About abs op.mail.msgid (opSteps st now op) := by
  cases op with
  | forget m => exact about_forget C m
  | learn b m =>
    show About abs m.msgid (learnSteps st now b m)
    unfold learnSteps
    refine about_bind (about_seenGet C _) fun seen => ?_
    split
    · exact about_store C now b m
    · split
      · exact .ret _
      · refine about_bind (about_forget C m) fun fatal => ?_
        split
        · exact .ret _
        · exact about_store C now b m

/-- The answer depends on the record of the message only. -/
theorem about_answer {i : Str} {x : Prog D A} (hx : About abs i x) (d d' : D) (h : (abs d).status i = (abs d').status i) :
    (x.runAll d).1 = (x.runAll d').1 := by
  induction hx generalizing d d' with
  | ret r => rfl
  | step f n c hf hn _ ih =>
    show ((n d).runAll (f d)).1 = ((n d').runAll (f d')).1
    rw [hn d d' h]
    apply ih
    rw [hf, hf]
    simp only [Change.apply, if_true, h]

/-- The meaning of the database afterwards depends on the meaning before only. -/
theorem about_abs {i : Str} {x : Prog D A} (hx : About abs i x) (d d' : D) (h : abs d = abs d') :
    abs (x.runAll d).2 = abs (x.runAll d').2 := by
  induction hx generalizing d d' with
  | ret r => exact h
  | step f n c hf hn _ ih =>
    show abs ((n d).runAll (f d)).2 = abs ((n d').runAll (f d')).2
    rw [hn d d' (by rw [h])]
    apply ih
    rw [hf, hf, h]

/-- A change for another message may come before or after. -/
theorem about_change {i j : Str} {x : Prog D A} (hx : About abs i x) (hij : i ≠ j) (c : Change) (d d' : D)
    (h : abs d' = c.apply j (abs d)) : abs (x.runAll d').2 = c.apply j (abs (x.runAll d).2) := by
  induction hx generalizing d d' with
  | ret r => exact h
  | step f n e hf hn _ ih =>
    show abs ((n d').runAll (f d')).2 = c.apply j (abs ((n d).runAll (f d)).2)
    rw [hn d' d (by rw [h]; simp [Change.apply, hij])]
    apply ih
    rw [hf, hf, h, change_comm e c hij]

/-- The records of other messages are left alone. -/
theorem about_status {i j : Str} {x : Prog D A} (hx : About abs i x) (hij : i ≠ j) (d : D) :
    (abs (x.runAll d).2).status j = (abs d).status j := by
  induction hx generalizing d with
  | ret r => rfl
  | step f n e hf hn _ ih =>
    show (abs ((n d).runAll (f d)).2).status j = _
    rw [ih, hf]
    simp only [Change.apply]
    rw [if_neg fun e : j = i => hij e.symm]

/-- What is left of some calls, one call after the other. -/
def runRest (left : Nat → Prog D (Option Bool)) (ps : List Nat) (d : D) : D := ps.foldl (fun d p => ((left p).runAll d).2) d

theorem rest_abs (left : Nat → Prog D (Option Bool)) (id : Nat → Str) (ps : List Nat) (ha : ∀ p ∈ ps, About abs (id p) (left p))
    (d d' : D) (h : abs d = abs d') : abs (runRest left ps d) = abs (runRest left ps d') := by
  unfold runRest
  induction ps generalizing d d' with
  | nil => exact h
  | cons p ps ih =>
    exact ih (fun q hq => ha q (List.mem_cons_of_mem _ hq)) _ _ (about_abs (ha p List.mem_cons_self) d d' h)

theorem rest_change (left : Nat → Prog D (Option Bool)) (id : Nat → Str) (ps : List Nat) (j : Str)
    (ha : ∀ p ∈ ps, About abs (id p) (left p)) (hj : ∀ p ∈ ps, id p ≠ j) (c : Change)
    (d d' : D) (h : abs d' = c.apply j (abs d)) : abs (runRest left ps d') = c.apply j (abs (runRest left ps d)) := by
  unfold runRest
  induction ps generalizing d d' with
  | nil => exact h
  | cons p ps ih =>
    exact ih (fun q hq => ha q (List.mem_cons_of_mem _ hq)) (fun q hq => hj q (List.mem_cons_of_mem _ hq)) _ _
      (about_change (ha p List.mem_cons_self) (hj p List.mem_cons_self) c d d' h)

theorem rest_status (left : Nat → Prog D (Option Bool)) (id : Nat → Str) (ps : List Nat) (j : Str)
    (ha : ∀ p ∈ ps, About abs (id p) (left p)) (hj : ∀ p ∈ ps, id p ≠ j) (d : D) :
    (abs (runRest left ps d)).status j = (abs d).status j := by
  unfold runRest
  induction ps generalizing d with
  | nil => rfl
  | cons p ps ih =>
    rw [List.foldl_cons, ih (fun q hq => ha q (List.mem_cons_of_mem _ hq)) (fun q hq => hj q (List.mem_cons_of_mem _ hq))]
    exact about_status (ha p List.mem_cons_self) (hj p List.mem_cons_self) d

theorem rest_congr (l l' : Nat → Prog D (Option Bool)) (ps : List Nat) (h : ∀ p ∈ ps, l p = l' p) (d : D) :
    runRest l ps d = runRest l' ps d := by
  unfold runRest
  induction ps generalizing d with
  | nil => rfl
  | cons p ps ih =>
    rw [List.foldl_cons, List.foldl_cons, h p List.mem_cons_self]
    exact ih (fun q hq => h q (List.mem_cons_of_mem _ hq)) _

/-- A step changes neither what comes out when all calls have ended nor the answers. -/
theorem rest_step (id : Nat → Str) (ps : List Nat) (w : Calls D) (p : Nat) (hp : p ∈ ps) (hn : (ps.map id).Nodup)
    (ha : ∀ p ∈ ps, About abs (id p) (w.left p)) :
    (∀ q ∈ ps, About abs (id q) ((w.step p).left q)) ∧
    abs (runRest (w.step p).left ps (w.step p).db) = abs (runRest w.left ps w.db) ∧
    ∀ q ∈ ps, (((w.step p).left q).runAll (w.step p).db).1 = ((w.left q).runAll w.db).1 := by
  have hinj : ∀ q ∈ ps, q ≠ p → id q ≠ id p := by
    intro q hq hqp e
    obtain ⟨a, b, rfl⟩ := List.append_of_mem hp
    rw [List.map_append, List.map_cons, List.nodup_append, List.nodup_cons] at hn
    rcases List.mem_append.1 hq with h | h
    · exact hn.2.2 (id q) (List.mem_map_of_mem h) (id p) List.mem_cons_self e
    · rcases List.mem_cons.1 h with h | h
      · exact hqp h
      · exact hn.2.1.1 (by rw [← e]; exact List.mem_map_of_mem h)
  unfold Calls.step
  have hap := ha p hp
  generalize hl : w.left p = x at hap
  cases hap with
  | ret r => exact ⟨ha, rfl, fun _ _ => rfl⟩
  | step f n c hf hnx hnext =>
    simp only []
    refine ⟨?_, ?_, ?_⟩
    · intro q hq
      by_cases e : q = p
      · subst e; rw [if_pos rfl]; exact hnext _
      · rw [if_neg e]; exact ha q hq
    · obtain ⟨a, b, rfl, hpa⟩ := first_mem hp
      have hpb : p ∉ b := by
        intro hb
        rw [List.map_append, List.map_cons, List.nodup_append, List.nodup_cons] at hn
        exact hn.2.1.1 (List.mem_map_of_mem hb)
      have haa : ∀ q ∈ a, About abs (id q) (w.left q) := fun q hq => ha q (List.mem_append_left _ hq)
      have haj : ∀ q ∈ a, id q ≠ id p := fun q hq =>
        hinj q (List.mem_append_left _ hq) (fun e => hpa (e ▸ hq))
      have hab : ∀ q ∈ b, About abs (id q) (w.left q) := fun q hq =>
        ha q (List.mem_append_right _ (List.mem_cons_of_mem _ hq))
      have hsplit : ∀ (l : Nat → Prog D (Option Bool)) d, runRest l (a ++ p :: b) d =
          runRest l b (((l p).runAll (runRest l a d)).2) := by
        intro l d
        unfold runRest
        rw [List.foldl_append, List.foldl_cons]
      rw [hsplit, hsplit]
      simp only [if_true]
      rw [rest_congr _ w.left b (fun q hq => if_neg (ne_of_mem_of_not_mem hq hpb)),
        rest_congr _ w.left a (fun q hq => if_neg (ne_of_mem_of_not_mem hq hpa)), hl]
      apply rest_abs w.left id b hab
      show _ = abs ((n (runRest w.left a w.db)).runAll (f (runRest w.left a w.db))).2
      rw [hnx (runRest w.left a w.db) w.db (rest_status w.left id a (id p) haa haj w.db)]
      apply about_abs (hnext _)
      rw [hf]
      exact rest_change w.left id a (id p) haa haj c _ _ (hf _)
    · intro q hq
      by_cases e : q = p
      · subst e
        rw [if_pos rfl, hl]
        rfl
      · rw [if_neg e]
        apply about_answer (ha q hq)
        rw [hf]
        simp [Change.apply, hinj q hq e]

/-! ## C156 -/

/-- With a store that does what learning expects: while calls that learn or forget different messages run at the same time, in any
order of their steps, what is missing from the database is just what the calls have left to do.  Were each to go on from where it
is, without the others, the database would mean what the calls give one after the other, and the answers would be the same. -/
theorem C156_rest_partial (C : Contract st abs) (now : Int) (ops : Nat → Op) (calls : List Nat)
    (hd : (calls.map fun p => (ops p).mail.msgid).Nodup) (db : D) (schedule : List Nat) (hs : ∀ p ∈ schedule, p ∈ calls) :
    abs (calls.foldl (fun d p => (((Calls.play st now ops db schedule).left p).runAll d).2) (Calls.play st now ops db schedule).db) =
      abs (Bayes.run st now db (calls.map ops)) ∧
    ∀ p ∈ calls, (((Calls.play st now ops db schedule).left p).runAll (Calls.play st now ops db schedule).db).1 =
      ((opSteps st now (ops p)).runAll db).1 := by
  have key : ∀ (schedule : List Nat) (w : Calls D), (∀ p ∈ schedule, p ∈ calls) →
      (∀ p ∈ calls, About abs (ops p).mail.msgid (w.left p)) →
      abs (runRest (schedule.foldl Calls.step w).left calls (schedule.foldl Calls.step w).db) = abs (runRest w.left calls w.db) ∧
      ∀ p ∈ calls, (((schedule.foldl Calls.step w).left p).runAll (schedule.foldl Calls.step w).db).1 =
        ((w.left p).runAll w.db).1 := by
    intro schedule
    induction schedule with
    | nil => intro w _ _; exact ⟨rfl, fun _ _ => rfl⟩
    | cons p l ih =>
      intro w hs ha
      have h1 := rest_step (fun p => (ops p).mail.msgid) calls w p (hs p List.mem_cons_self) hd ha
      have h2 := ih (w.step p) (fun q hq => hs q (List.mem_cons_of_mem _ hq)) h1.1
      exact ⟨h2.1.trans h1.2.1, fun q hq => (h2.2 q hq).trans (h1.2.2 q hq)⟩
  have h := key schedule ⟨db, fun p => opSteps st now (ops p)⟩ hs (fun p _ => about_op C now (ops p))
  refine ⟨h.1.trans ?_, h.2⟩
  congr 1
  unfold runRest Bayes.run
  rw [List.foldl_map]
  congr 1
  funext d p
  exact runAll_op st now (ops p) d

/-- So when all of them have ended, the database means what the calls give one after the other, and every call has given the answer
it gives alone. -/
theorem C156_serial_partial (C : Contract st abs) (now : Int) (ops : Nat → Op) (calls : List Nat)
    (hd : (calls.map fun p => (ops p).mail.msgid).Nodup) (db : D) (schedule : List Nat) (hs : ∀ p ∈ schedule, p ∈ calls)
    (answer : Nat → Except Exn (Option Bool))
    (hend : ∀ p ∈ calls, (Calls.play st now ops db schedule).left p = .ret (answer p)) :
    abs (Calls.play st now ops db schedule).db = abs (Bayes.run st now db (calls.map ops)) ∧
    ∀ p ∈ calls, answer p = ((opSteps st now (ops p)).runAll db).1 := by
  have h := C156_rest_partial C now ops calls hd db schedule hs
  generalize Calls.play st now ops db schedule = w at hend h
  have hx : runRest w.left calls w.db = w.db := by
    have : ∀ (l : List Nat) (d : D), (∀ p ∈ l, w.left p = .ret (answer p)) → runRest w.left l d = d := by
      intro l
      induction l with
      | nil => intro d _; rfl
      | cons p l ih =>
        intro d hl
        unfold runRest at ih ⊢
        rw [List.foldl_cons, hl p List.mem_cons_self]
        exact ih d fun q hq => hl q (List.mem_cons_of_mem _ hq)
    exact this calls w.db hend
  refine ⟨?_, ?_⟩
  · rw [← h.1]
    exact congrArg abs hx.symm
  · intro p hp
    rw [← h.2 p hp, hend p hp]
    rfl

/-- How many messages of a class there are. -/
def number (b : Bool) (L : Learned) : Int := if b then L.nspam else L.nham

/-- In how many messages of a class a token occurs. -/
def uses (b : Bool) (L : Learned) (k : Str) : Int := if b then L.spam k else L.ham k

/-- What a call that learns a new message has left to do after 1, 2, 3 and more steps. -/
def stage (st : Store D) (now : Int) (b : Bool) (m : Mail) : Nat → Prog D (Option Bool)
  | 0 => learnSteps st now b m
  | 1 => storeSteps st now b m
  | 2 => (Prog.call (st.tokChange (if b then 1 else 0) (if b then 0 else 1) m.tokens
      (if m.date - now > 86400 then now else m.date))).bind fun _ =>
    (Prog.call (st.seenPut m.msgid (if b then c!"s" else c!"h"))).bind fun _ => .ret (.ok (some true))
  | 3 => (Prog.call (st.seenPut m.msgid (if b then c!"s" else c!"h"))).bind fun _ => .ret (.ok (some true))
  | _ => .ret (.ok (some true))

/-- What the next step does. -/
def stageDoes (b : Bool) (m : Mail) (k : Nat) (L : Learned) : Learned :=
  match k with
  | 1 => { L with nspam := L.nspam + (if b then 1 else 0), nham := L.nham + (if b then 0 else 1) }
  | 2 => { L with
      spam := fun k => L.spam k + if k ∈ m.tokens.map Prod.fst then (if b then 1 else 0) else 0
      ham := fun k => L.ham k + if k ∈ m.tokens.map Prod.fst then (if b then 0 else 1) else 0 }
  | 3 => { L with status := fun x => if x = m.msgid then some b else L.status x }
  | _ => L

/-- The next step of a call that is so far. -/
theorem stage_step (C : Contract st abs) (now : Int) (b : Bool) (m : Mail) (w : Calls D) (p k : Nat)
    (h : w.left p = stage st now b m k) (h0 : k = 0 → (abs w.db).status m.msgid = none) :
    (w.step p).left p = stage st now b m (k + 1) ∧ (∀ q, q ≠ p → (w.step p).left q = w.left q) ∧
    abs (w.step p).db = stageDoes b m k (abs w.db) := by
  unfold Calls.step
  rw [h]
  match k with
  | 0 =>
    have hg := C.seenGet m.msgid w.db
    rw [h0 rfl] at hg
    simp only [stage, learnSteps, Prog.call, Prog.bind, if_true, hg]
    exact ⟨rfl, fun q hq => if_neg hq, rfl⟩
  | 1 =>
    cases b
    · have hg := C.nChange 0 1 w.db
      refine ⟨?_, fun q hq => if_neg hq, hg.2⟩
      simp only [stage, storeSteps, Prog.call, Prog.bind, if_true, Bool.false_eq_true, if_false, hg.1]
    · have hg := C.nChange 1 0 w.db
      refine ⟨?_, fun q hq => if_neg hq, hg.2⟩
      simp only [stage, storeSteps, Prog.call, Prog.bind, if_true, hg.1]
  | 2 =>
    have hg := C.tokChange (if b then 1 else 0) (if b then 0 else 1) m.tokens
      (if m.date - now > 86400 then now else m.date) w.db
    refine ⟨?_, fun q hq => if_neg hq, hg.2⟩
    simp only [stage, Prog.call, Prog.bind, if_true, hg.1]
  | 3 =>
    have hg := C.seenPut m.msgid b w.db
    refine ⟨?_, fun q hq => if_neg hq, hg.2⟩
    simp only [stage, Prog.call, Prog.bind, if_true, hg.1]
  | k + 4 => exact ⟨h, fun _ _ => rfl, rfl⟩

/-- A call that learns a new message, stopped after any number of steps: before the second step nothing has happened, after the
fourth the message is learned.  Missing: between them (`C156_crash_violated`). -/
theorem C156_crash_partial (C : Contract st abs) (now : Int) (b : Bool) (m : Mail) (d : D)
    (h : (abs d).status m.msgid = none) (n : Nat) :
    (n ≤ 1 → abs (Calls.play st now (fun _ => .learn b m) d (List.replicate n 0)).db = abs d) ∧
    (4 ≤ n → abs (Calls.play st now (fun _ => .learn b m) d (List.replicate n 0)).db = abs (learnMessage st true now b m d).2) := by
  have s0 := stage_step C now b m ⟨d, fun p => opSteps st now (.learn b m)⟩ 0 0 rfl (fun _ => h)
  have s1 := stage_step C now b m _ 0 1 s0.1 (by simp)
  have s2 := stage_step C now b m _ 0 2 s1.1 (by simp)
  have s3 := stage_step C now b m _ 0 3 s2.1 (by simp)
  have hlater : ∀ k (w : Calls D), w.left 0 = stage st now b m 4 → (List.replicate k 0).foldl Calls.step w = w := by
    intro k
    induction k with
    | zero => intro w _; rfl
    | succ k ih =>
      intro w hw
      rw [List.replicate_succ, List.foldl_cons]
      have : w.step 0 = w := by
        unfold Calls.step
        rw [hw]
        rfl
      rw [this]
      exact ih w hw
  refine ⟨?_, ?_⟩
  · intro hn
    match n with
    | 0 => rfl
    | 1 => exact s0.2.2
  · intro hn
    obtain ⟨k, rfl⟩ : ∃ k, n = 4 + k := ⟨n - 4, by omega⟩
    rw [← List.replicate_append_replicate]
    unfold Calls.play
    rw [List.foldl_append, hlater k _ (by exact s3.1), (learn_ok C now b m d).2]
    refine (s3.2.2.trans ?_)
    rw [s2.2.2, s1.2.2, s0.2.2]
    simp only [stageDoes]
    apply Learned.ext' <;> intros <;> simp only [shift, h, ind] <;> cases b <;> simp

/-- A process that dies while it learns a new message, when the message is counted but not recorded: nothing shows that it was
learned, so it is counted a second time when it is learned again, and forgetting it then leaves it counted once, for good. -/
theorem C156_crash_violated (C : Contract st abs) (now later : Int) (b : Bool) (m : Mail) (d dead again gone : D)
    (h : (abs d).status m.msgid = none) (k : Str) (hk : k ∈ m.tokens.map Prod.fst)
    (hdead : dead = (Calls.play st now (fun _ => .learn b m) d [0, 0, 0]).db)
    (hagain : again = (learnMessage st true later b m dead).2) (hgone : gone = (forgetMessage st true m again).2) :
    ((abs dead).status m.msgid = none ∧ number b (abs dead) = number b (abs d) + 1 ∧ uses b (abs dead) k = uses b (abs d) k + 1) ∧
    ((abs again).status m.msgid = some b ∧ number b (abs again) = number b (abs d) + 2 ∧
      uses b (abs again) k = uses b (abs d) k + 2) ∧
    ((abs gone).status m.msgid = none ∧ number b (abs gone) = number b (abs d) + 1 ∧ uses b (abs gone) k = uses b (abs d) k + 1) := by
  have s0 := stage_step C now b m ⟨d, fun p => opSteps st now (.learn b m)⟩ 0 0 rfl (fun _ => h)
  have s1 := stage_step C now b m _ 0 1 s0.1 (by simp)
  have s2 := stage_step C now b m _ 0 2 s1.1 (by simp)
  have hd : abs dead = { abs d with
      nspam := (abs d).nspam + (if b then 1 else 0), nham := (abs d).nham + (if b then 0 else 1)
      spam := fun k => (abs d).spam k + if k ∈ m.tokens.map Prod.fst then (if b then 1 else 0) else 0
      ham := fun k => (abs d).ham k + if k ∈ m.tokens.map Prod.fst then (if b then 0 else 1) else 0 } := by
    rw [hdead]
    refine s2.2.2.trans ?_
    rw [s1.2.2, s0.2.2]
    rfl
  have ha : abs again = shift (abs dead) m (some b) := by rw [hagain]; exact (learn_ok C later b m dead).2
  have hg : abs gone = shift (abs again) m none := by rw [hgone]; exact (forget_ok C m again).2
  rw [hg, ha, hd]
  cases b <;> simp [shift, ind, number, uses, h, hk] <;> omega

theorem countP_set (ps : List Nat) (hn : ps.Nodup) (p : Nat) (hp : p ∈ ps) (f : Nat → Bool) (hf : f p = false) :
    ps.countP (fun q => if q = p then true else f q) = ps.countP f + 1 := by
  induction ps with
  | nil => cases hp
  | cons x ps ih =>
    rw [List.nodup_cons] at hn
    rw [List.countP_cons, List.countP_cons]
    by_cases hx : x = p
    · subst hx
      rw [List.countP_congr (q := f) (fun y hy => by
        have : y ≠ x := fun e => hn.1 (e ▸ hy)
        simp [this])]
      simp [hf]
    · rw [ih hn.2 ((List.mem_cons.1 hp).resolve_left (fun e => hx e.symm))]
      simp only [if_neg hx]
      omega

/-- When several processes learn the same new message and all have looked for it before the first counts it, it is counted once for
every process, in whatever order they go on. -/
theorem C156_twice_violated (C : Contract st abs) (now : Int) (b : Bool) (m : Mail) (d : D) (h : (abs d).status m.msgid = none)
    (calls : List Nat) (hn : calls.Nodup) (rest : List Nat) (hr : ∀ p ∈ rest, p ∈ calls)
    (hend : ∀ p ∈ calls, ∃ r, (Calls.play st now (fun _ => .learn b m) d (calls ++ rest)).left p = .ret r) :
    number b (abs (Calls.play st now (fun _ => .learn b m) d (calls ++ rest)).db) = number b (abs d) + calls.length := by
  -- all look
  have hlook : ∀ (l : List Nat) (w : Calls D), l.Nodup → (∀ p ∈ l, w.left p = stage st now b m 0) →
      (abs w.db).status m.msgid = none →
      abs (l.foldl Calls.step w).db = abs w.db ∧ (∀ p ∈ l, (l.foldl Calls.step w).left p = stage st now b m 1) ∧
      ∀ p, p ∉ l → (l.foldl Calls.step w).left p = w.left p := by
    intro l
    induction l with
    | nil => intro w _ _ _; exact ⟨rfl, by simp, fun _ _ => rfl⟩
    | cons p l ih =>
      intro w hnd hl hs
      rw [List.nodup_cons] at hnd
      have s0 := stage_step C now b m w p 0 (hl p List.mem_cons_self) (fun _ => hs)
      have s0d : abs (w.step p).db = abs w.db := s0.2.2
      have hi := ih (w.step p) hnd.2 (fun q hq => by
        rw [s0.2.1 q (ne_of_mem_of_not_mem hq hnd.1)]
        exact hl q (List.mem_cons_of_mem _ hq)) (by rw [s0d]; exact hs)
      rw [List.foldl_cons]
      refine ⟨hi.1.trans s0d, ?_, ?_⟩
      · intro q hq
        rcases List.mem_cons.1 hq with e | e
        · subst e; rw [hi.2.2 q hnd.1]; exact s0.1
        · exact hi.2.1 q e
      · intro q hq
        rw [hi.2.2 q (fun e => hq (List.mem_cons_of_mem _ e)), s0.2.1 q (fun e => hq (e ▸ List.mem_cons_self))]
  -- all go on
  have hgo : ∀ (l : List Nat) (w : Calls D) (k : Nat → Nat), (∀ p ∈ l, p ∈ calls) → (∀ p ∈ calls, 1 ≤ k p ∧ w.left p = stage st now b m (k p)) →
      number b (abs w.db) = number b (abs d) + calls.countP (fun p => decide (2 ≤ k p)) →
      ∃ k' : Nat → Nat, (∀ p ∈ calls, 1 ≤ k' p ∧ (l.foldl Calls.step w).left p = stage st now b m (k' p)) ∧
        number b (abs (l.foldl Calls.step w).db) = number b (abs d) + calls.countP (fun p => decide (2 ≤ k' p)) := by
    intro l
    induction l with
    | nil => intro w k _ h1 h2; exact ⟨k, h1, h2⟩
    | cons p l ih =>
      intro w k hl h1 h2
      have hp := hl p List.mem_cons_self
      have hs := stage_step C now b m w p (k p) (h1 p hp).2 (by have := (h1 p hp).1; omega)
      rw [List.foldl_cons]
      apply ih (w.step p) (fun q => if q = p then k p + 1 else k q) (fun q hq => hl q (List.mem_cons_of_mem _ hq))
      · intro q hq
        by_cases e : q = p
        · subst e; rw [if_pos rfl]; exact ⟨by omega, hs.1⟩
        · rw [if_neg e, hs.2.1 q e]; exact h1 q hq
      · have hk1 := (h1 p hp).1
        by_cases hk : k p = 1
        · have hf : (fun q => decide (2 ≤ if q = p then k p + 1 else k q)) =
              fun q => if q = p then true else decide (2 ≤ k q) := by
            funext q
            by_cases e : q = p
            · simp [e, hk]
            · simp [e]
          rw [hf, countP_set calls hn p hp _ (by simp [hk])]
          have h3 := hs.2.2
          rw [hk] at h3
          rw [h3]
          unfold number at h2 ⊢
          simp only [stageDoes]
          cases b <;> simp at h2 ⊢ <;> omega
        · have hf : calls.countP (fun q => decide (2 ≤ if q = p then k p + 1 else k q)) = calls.countP (fun q => decide (2 ≤ k q)) := by
            congr 1
            funext q
            by_cases e : q = p
            · subst e
              rw [if_pos rfl]
              have : 2 ≤ k q := by omega
              simp [this]; omega
            · rw [if_neg e]
          rw [hf, ← h2, hs.2.2]
          obtain ⟨j, hj⟩ : ∃ j, k p = j + 2 := ⟨k p - 2, by omega⟩
          rw [hj]
          match j with
          | 0 => rfl
          | 1 => rfl
          | _ + 2 => rfl
  have hl := hlook calls ⟨d, fun p => opSteps st now (.learn b m)⟩ hn (fun _ _ => rfl) h
  unfold Calls.play at hend ⊢
  rw [List.foldl_append] at hend ⊢
  obtain ⟨k, hk1, hk2⟩ := hgo rest (calls.foldl Calls.step ⟨d, fun p => opSteps st now (.learn b m)⟩) (fun _ => 1) hr
    (fun p hp => ⟨by omega, hl.2.1 p hp⟩) (by rw [hl.1]; simp)
  rw [hk2]
  congr 1
  rw [List.countP_eq_length.2]
  intro p hp
  obtain ⟨r, hret⟩ := hend p hp
  have hkp := hk1 p hp
  rw [hret] at hkp
  rw [decide_eq_true_eq]
  apply Classical.byContradiction
  intro h2
  have : k p = 1 := by omega
  rw [this] at hkp
  have := hkp.2
  simp only [stage, storeSteps] at this
  cases b <;> simp [Prog.call, Prog.bind] at this

/-! ### The hypotheses can be met -/

private def n1 : Mail := ⟨c!"1@x", [(c!"h1", c!"cheap"), (c!"h2", c!"pills")], 100⟩
private def n2 : Mail := ⟨c!"2@x", [(c!"h2", c!"pills")], 200⟩

private def twoOps (p : Nat) : Op := if p = 0 then .learn true n1 else .learn false n2

example : Contract ledger (fun d => d) ∧ nothing.status n1.msgid = none ∧ c!"h1" ∈ n1.tokens.map Prod.fst :=
  ⟨ledger_contract, rfl, by decide⟩

-- two different messages, one step each in turn
example : ([0, 1].map fun p => (twoOps p).mail.msgid).Nodup ∧
    (∀ p ∈ [0, 1], (Calls.play ledger 0 twoOps nothing [0, 1, 0, 1, 0, 1, 0, 1]).left p = .ret (.ok (some true))) ∧
    (Calls.play ledger 0 twoOps nothing [0, 1, 0, 1, 0, 1, 0, 1]).db.spam c!"h2" = 1 ∧
    (Calls.play ledger 0 twoOps nothing [0, 1, 0, 1, 0, 1, 0, 1]).db.ham c!"h2" = 1 := by
  refine ⟨by decide, ?_, rfl, rfl⟩
  intro p hp
  rcases List.mem_cons.1 hp with rfl | hp
  · rfl
  · rcases List.mem_cons.1 hp with rfl | hp
    · rfl
    · cases hp

-- one message, two processes
example : (∀ p ∈ [0, 1], ∃ r, (Calls.play ledger 0 (fun _ => .learn true n1) nothing ([0, 1] ++ [0, 1, 1, 0, 0, 1])).left p = .ret r) ∧
    (Calls.play ledger 0 (fun _ => .learn true n1) nothing ([0, 1] ++ [0, 1, 1, 0, 0, 1])).db.nspam = 2 := by
  refine ⟨?_, rfl⟩
  intro p hp
  rcases List.mem_cons.1 hp with rfl | hp
  · exact ⟨_, rfl⟩
  · rcases List.mem_cons.1 hp with rfl | hp
    · exact ⟨_, rfl⟩
    · cases hp

end Verif.Props
