import Verif.Spec.Bayes
import Verif.Lemmas.Py

namespace Verif.Bayes
open Verif Py

variable {D : Type} {st : Store D} {abs : D → Learned}

def said : Op → Option Bool
  | .learn b _ => some b
  | .forget _ => none

def ind (o : Option Bool) (b : Bool) : Int := if o = some b then 1 else 0

/-- The effect of giving a message a new status. -/
def shift (L : Learned) (m : Mail) (new : Option Bool) : Learned where
  status := fun x => if x = m.msgid then new else L.status x
  nspam := L.nspam - ind (L.status m.msgid) true + ind new true
  nham := L.nham - ind (L.status m.msgid) false + ind new false
  spam := fun k => L.spam k + if k ∈ m.tokens.map Prod.fst then ind new true - ind (L.status m.msgid) true else 0
  ham := fun k => L.ham k + if k ∈ m.tokens.map Prod.fst then ind new false - ind (L.status m.msgid) false else 0

theorem Learned.ext' {L K : Learned} (h1 : ∀ x, L.status x = K.status x) (h2 : L.nspam = K.nspam)
    (h3 : L.nham = K.nham) (h4 : ∀ k, L.spam k = K.spam k) (h5 : ∀ k, L.ham k = K.ham k) : L = K := by
  cases L; cases K
  simp only at h1 h2 h3 h4 h5
  rw [funext h1, funext h4, funext h5, h2, h3]

theorem shift_same (L : Learned) (m : Mail) : shift L m (L.status m.msgid) = L := by
  apply Learned.ext' <;> intros <;> simp only [shift] <;> (try split) <;> (try subst_vars) <;>
    first | rfl | omega

theorem shift_shift (L : Learned) (m : Mail) (a b : Option Bool) : shift (shift L m a) m b = shift L m b := by
  apply Learned.ext' <;> intros <;> simp only [shift, if_true] <;> (try split) <;>
    first | rfl | omega

theorem bind_ok {A B : Type} {x : M D A} {f : A → M D B} {d : D} {a : A} (h : (x d).1 = .ok a) :
    M.bind x f d = f a (x d).2 := by
  unfold M.bind
  generalize x d = y at h ⊢
  obtain ⟨r, d'⟩ := y
  simp only at h
  subst h
  rfl

theorem pair_ok {A B : Type} {x : M D A} {y : M D B} {d : D} {a : A} {b : B} (h : (x d).1 = .ok a)
    (h' : (y (x d).2).1 = .ok b) :
    ((M.bind x fun _ => y) d).1 = .ok b ∧ ((M.bind x fun _ => y) d).2 = (y (x d).2).2 := by
  rw [bind_ok h]
  exact ⟨h', rfl⟩

theorem counts_ok (C : Contract st abs) (s h t : Int) (tokens : List (Str × Str)) (d : D) :
    (((st.nChange s h).bind fun _ => st.tokChange s h tokens t) d).1 = .ok () ∧
    abs (((st.nChange s h).bind fun _ => st.tokChange s h tokens t) d).2 =
      { abs d with
        nspam := (abs d).nspam + s, nham := (abs d).nham + h
        spam := fun k => (abs d).spam k + if k ∈ tokens.map Prod.fst then s else 0
        ham := fun k => (abs d).ham k + if k ∈ tokens.map Prod.fst then h else 0 } := by
  have h1 := C.nChange s h d
  have h2 := C.tokChange s h tokens t (st.nChange s h d).2
  have h3 := pair_ok h1.1 h2.1
  refine ⟨h3.1, ?_⟩
  rw [h3.2, h2.2, h1.2]

theorem storeMail_ok (C : Contract st abs) (now : Int) (b : Bool) (m : Mail) (d : D)
    (h : (abs d).status m.msgid = none) :
    (storeMail st now b m d).1 = .ok (some true) ∧ abs (storeMail st now b m d).2 = shift (abs d) m (some b) := by
  unfold storeMail
  generalize hX : (if b = true then ((st.nChange 1 0).bind fun _ => st.tokChange 1 0 m.tokens _) else _) = X
  have hx : (X d).1 = .ok () ∧ abs (X d).2 =
      { abs d with
        nspam := (abs d).nspam + ind (some b) true, nham := (abs d).nham + ind (some b) false
        spam := fun k => (abs d).spam k + if k ∈ m.tokens.map Prod.fst then ind (some b) true else 0
        ham := fun k => (abs d).ham k + if k ∈ m.tokens.map Prod.fst then ind (some b) false else 0 } := by
    subst hX
    cases b
    · exact counts_ok C 0 1 _ m.tokens d
    · exact counts_ok C 1 0 _ m.tokens d
  have hp := C.seenPut m.msgid b (X d).2
  rw [bind_ok hx.1, bind_ok hp.1]
  refine ⟨rfl, ?_⟩
  show abs (st.seenPut m.msgid _ (X d).2).2 = _
  rw [hp.2, hx.2]
  apply Learned.ext' <;> intros <;> simp only [shift, h, ind] <;> simp

theorem unstore_ok (C : Contract st abs) (b : Bool) (m : Mail) (d : D)
    (h : (abs d).status m.msgid = some b) :
    (unstore st b m d).1 = .ok (some true) ∧ abs (unstore st b m d).2 = shift (abs d) m none := by
  unfold unstore
  generalize hX : (if b = true then ((st.nChange (-1) 0).bind fun _ => st.tokChange (-1) 0 m.tokens _) else _) = X
  have hx : (X d).1 = .ok () ∧ abs (X d).2 =
      { abs d with
        nspam := (abs d).nspam + -ind (some b) true, nham := (abs d).nham + -ind (some b) false
        spam := fun k => (abs d).spam k + if k ∈ m.tokens.map Prod.fst then -ind (some b) true else 0
        ham := fun k => (abs d).ham k + if k ∈ m.tokens.map Prod.fst then -ind (some b) false else 0 } := by
    subst hX
    cases b
    · exact counts_ok C 0 (-1) _ m.tokens d
    · exact counts_ok C (-1) 0 _ m.tokens d
  have hp := C.seenDelete m.msgid (X d).2
  rw [bind_ok hx.1, bind_ok hp.1]
  refine ⟨rfl, ?_⟩
  show abs (st.seenDelete m.msgid (X d).2).2 = _
  rw [hp.2, hx.2]
  apply Learned.ext' <;> intros <;> simp only [shift, h, ind] <;> simp <;> omega

theorem forget_ok (C : Contract st abs) (m : Mail) (d : D) :
    (forgetMessage st true m d).1 = .ok (some ((abs d).status m.msgid).isSome) ∧
    abs (forgetMessage st true m d).2 = shift (abs d) m none := by
  have hg := C.seenGet m.msgid d
  unfold forgetMessage forgetTrapped
  simp only [Bool.not_true, Bool.false_eq_true, if_false]
  rw [bind_ok (a := ((abs d).status m.msgid).map fun b => if b then c!"s" else c!"h") (by rw [hg]), hg]
  cases hs : (abs d).status m.msgid with
  | none =>
    refine ⟨rfl, ?_⟩
    show abs d = _
    rw [← hs, shift_same]
  | some b =>
    have hu := unstore_ok C b m d hs
    cases b
    · exact hu
    · exact hu

theorem learn_ok (C : Contract st abs) (now : Int) (b : Bool) (m : Mail) (d : D) :
    (learnMessage st true now b m d).1 = .ok (some (decide ((abs d).status m.msgid ≠ some b))) ∧
    abs (learnMessage st true now b m d).2 = shift (abs d) m (some b) := by
  have hg := C.seenGet m.msgid d
  unfold learnMessage learnTrapped
  simp only [Bool.not_true, Bool.false_eq_true, if_false]
  rw [bind_ok (a := ((abs d).status m.msgid).map fun b => if b then c!"s" else c!"h") (by rw [hg]), hg]
  cases hs : (abs d).status m.msgid with
  | none =>
    have := storeMail_ok C now b m d hs
    exact ⟨by rw [show decide ((none : Option Bool) ≠ some b) = true from by simp]; exact this.1, this.2⟩
  | some a =>
    by_cases hab : a = b
    · subst hab
      have hr : abs d = shift (abs d) m (some a) := by rw [← hs, shift_same]
      cases a <;> exact ⟨by simp [flagged, M.pure], hr⟩
    · have hf := forget_ok C m d
      rw [hs] at hf
      have hn : (abs (forgetMessage st true m d).2).status m.msgid = none := by rw [hf.2]; simp [shift]
      have hst := storeMail_ok C now b m _ hn
      have hd : decide (some a ≠ some b) = true := by simp [hab]
      rw [hf.2, shift_shift] at hst
      rw [hd]
      cases a <;> cases b
      · exact absurd rfl hab
      · simp only [Option.map_some, flagged]
        simp
        rw [bind_ok hf.1]
        exact hst
      · simp only [Option.map_some, flagged]
        simp
        rw [bind_ok hf.1]
        exact hst
      · exact absurd rfl hab

theorem step_ok (C : Contract st abs) (now : Int) (d : D) (op : Op) :
    abs (step st now d op) = shift (abs d) op.mail (said op) := by
  cases op with
  | learn b m => exact (learn_ok C now b m d).2
  | forget m => exact (forget_ok C m d).2

/-! ### Counting -/

def cnt (L : List Str) (f : Str → Option Bool) (b : Bool) (P : Str → Bool) : Int :=
  (L.filter fun id => decide (f id = some b) && P id).length

theorem cnt_congr (L : List Str) {f g : Str → Option Bool} (b : Bool) (P : Str → Bool)
    (h : ∀ x ∈ L, f x = g x) : cnt L f b P = cnt L g b P := by
  unfold cnt
  rw [List.filter_congr (fun x hx => by rw [h x hx])]

theorem cnt_cons (x : Str) (L : List Str) (f : Str → Option Bool) (b : Bool) (P : Str → Bool) :
    cnt (x :: L) f b P = (if P x then ind (f x) b else 0) + cnt L f b P := by
  unfold cnt ind
  rw [List.filter_cons]
  by_cases h1 : f x = some b <;> cases h2 : P x <;> simp [h1] <;> omega

theorem cnt_update (L : List Str) (hL : L.Nodup) (f : Str → Option Bool) (b : Bool) (P : Str → Bool)
    (id : Str) (v : Option Bool) (h : id ∈ L) :
    cnt L (fun x => if x = id then v else f x) b P =
      cnt L f b P + if P id then ind v b - ind (f id) b else 0 := by
  induction L with
  | nil => cases h
  | cons x L ih =>
    rw [cnt_cons, cnt_cons]
    rw [List.nodup_cons] at hL
    by_cases hx : x = id
    · subst hx
      rw [cnt_congr L (g := f) b P (fun y hy => by
        have : y ≠ x := fun e => hL.1 (e ▸ hy)
        simp [this])]
      simp only [if_true]
      split <;> omega
    · have hm : id ∈ L := by
        rcases List.mem_cons.1 h with e | e
        · exact absurd e.symm hx
        · exact e
      rw [ih hL.2 hm]
      simp only [if_neg hx]
      omega

theorem cnt_append (L : List Str) (x : Str) (f : Str → Option Bool) (b : Bool) (P : Str → Bool)
    (h : f x = none) : cnt (L ++ [x]) f b P = cnt L f b P := by
  unfold cnt
  rw [List.filter_append]
  simp [h]

theorem eraseDups_nodup (L : List Str) : L.eraseDups.Nodup := by
  induction h : L.length using Nat.strongRecOn generalizing L with
  | _ n ih =>
    cases L with
    | nil => simp [List.eraseDups_nil]
    | cons x L =>
      rw [List.eraseDups_cons, List.nodup_cons]
      refine ⟨?_, ih _ ?_ _ rfl⟩
      · simp [List.mem_eraseDups]
      · subst h
        have := List.length_filter_le (fun b => !b == x) L
        simp only [List.length_cons]
        omega

theorem ids_snoc (ops : List Op) (op : Op) :
    ids (ops ++ [op]) = if op.mail.msgid ∈ ids ops then ids ops else ids ops ++ [op.mail.msgid] := by
  unfold ids
  rw [List.map_append, List.eraseDups_append]
  simp only [List.map_cons, List.map_nil, List.mem_eraseDups]
  by_cases h : op.mail.msgid ∈ ops.map fun op => op.mail.msgid
  · rw [if_pos h]
    simp only [List.removeAll, List.elem_eq_mem, List.filter_cons, h, decide_true, Bool.not_true,
      Bool.false_eq_true, if_false, List.filter_nil, List.eraseDups_nil, List.append_nil]
  · rw [if_neg h]
    simp only [List.removeAll, List.elem_eq_mem, List.filter_cons, h, decide_false, Bool.not_false,
      if_true, List.filter_nil, List.eraseDups_cons, List.eraseDups_nil]

theorem lastSaid_snoc (ops : List Op) (op : Op) (x : Str) :
    lastSaid (ops ++ [op]) x = if x = op.mail.msgid then said op else lastSaid ops x := by
  unfold lastSaid
  rw [List.foldl_append]
  simp only [List.foldl_cons, List.foldl_nil]
  by_cases h : op.mail.msgid = x
  · rw [if_pos h, if_pos h.symm]; cases op <;> rfl
  · rw [if_neg h, if_neg (fun e => h e.symm)]

theorem lastSaid_none (ops : List Op) (x : Str) (h : x ∉ ids ops) : lastSaid ops x = none := by
  have h' : ∀ op ∈ ops, op.mail.msgid ≠ x := by
    intro op ho e
    apply h
    unfold ids
    rw [List.mem_eraseDups, List.mem_map]
    exact ⟨op, ho, e⟩
  clear h
  unfold lastSaid
  induction ops with
  | nil => rfl
  | cons op ops ih =>
    rw [List.foldl_cons, if_neg (h' op List.mem_cons_self)]
    exact ih fun o ho => h' o (List.mem_cons_of_mem _ ho)

theorem cnt_snoc (ops : List Op) (op : Op) (b : Bool) (P : Str → Bool) :
    cnt (ids (ops ++ [op])) (lastSaid (ops ++ [op])) b P =
      cnt (ids ops) (lastSaid ops) b P +
        if P op.mail.msgid then ind (said op) b - ind (lastSaid ops op.mail.msgid) b else 0 := by
  have hf : lastSaid (ops ++ [op]) = fun x => if x = op.mail.msgid then said op else lastSaid ops x :=
    funext fun x => lastSaid_snoc ops op x
  rw [hf]
  have hn : (ids (ops ++ [op])).Nodup := eraseDups_nodup _
  have hm : op.mail.msgid ∈ ids (ops ++ [op]) := by
    unfold ids
    rw [List.mem_eraseDups, List.mem_map]
    exact ⟨op, by simp, rfl⟩
  rw [cnt_update _ hn _ _ _ _ _ hm]
  congr 1
  rw [ids_snoc]
  split
  · rfl
  · rename_i h
    exact cnt_append _ _ _ _ _ (lastSaid_none _ _ h)

theorem expected_eq (tokens : Str → List (Str × Str)) (ops : List Op) : expected tokens ops =
    { status := lastSaid ops
      nspam := cnt (ids ops) (lastSaid ops) true fun _ => true
      nham := cnt (ids ops) (lastSaid ops) false fun _ => true
      spam := fun k => cnt (ids ops) (lastSaid ops) true fun id => decide (k ∈ (tokens id).map Prod.fst)
      ham := fun k => cnt (ids ops) (lastSaid ops) false fun id => decide (k ∈ (tokens id).map Prod.fst) } := by
  apply Learned.ext' <;> intros <;>
    simp only [expected, cnt, learnedAs, List.filter_filter, Bool.and_true, Bool.true_and, Bool.and_comm]

theorem expected_snoc (tokens : Str → List (Str × Str)) (ops : List Op) (op : Op)
    (h : op.mail.tokens = tokens op.mail.msgid) :
    expected tokens (ops ++ [op]) = shift (expected tokens ops) op.mail (said op) := by
  rw [expected_eq, expected_eq]
  apply Learned.ext' <;> intros <;> simp only [shift]
  · exact lastSaid_snoc _ _ _
  · rw [cnt_snoc]; simp; omega
  · rw [cnt_snoc]; simp; omega
  · rw [cnt_snoc, h]; simp only [decide_eq_true_eq]
  · rw [cnt_snoc, h]; simp only [decide_eq_true_eq]

end Verif.Bayes
