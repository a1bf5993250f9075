import Verif.Lemmas.MetaExpr

namespace Verif.MetaExpr
open Verif Py

/-! ### Written with the parser's own levels -/

/-- How loosely an expression binds when written down. -/
def Expr.level : Expr → Nat
  | .num _ => 6
  | .rule _ => 6
  | .not _ => 2
  | .bin o _ _ => o.level

/-- The level at which the left operand is written (chains group to the left; comparisons
do not chain). -/
def BinOp.leftLevel : BinOp → Nat
  | .cmp _ => 4
  | o => o.level

/-- An expression written in the rule syntax, with the parentheses needed by the usual
precedences, around every compound operand of `!`, and around every `!` that is an operand
of a comparison or of arithmetic. -/
def write : Nat → Expr → List Tok
  | _, .num n => [.num n]
  | _, .rule s => [.name s]
  | l, .not e => paren (decide (2 < l)) (.not :: write (if isNot e then 2 else 6) e)
  | l, .bin o a b =>
    paren (decide (o.level < l)) (write o.leftLevel a ++ .op o :: write (o.level + 1) b)

theorem prec_level (o : BinOp) : o.prec = o.level := by cases o <;> rfl

theorem leftPrec_level (o : BinOp) : o.leftPrec = o.leftLevel := by cases o <;> rfl

theorem written_eq (e : Expr) : ∀ l, written l e = write l e := by
  induction e with
  | num n => intro l; rfl
  | rule s => intro l; rfl
  | not e ih => intro l; simp only [written, write, ih]
  | bin o a b iha ihb => intro l; simp only [written, write, prec_level, leftPrec_level, iha, ihb]

/-- Evaluation computes the documented value. -/
theorem value_eval (env : Str → Int) (e : Expr) : Value env e (eval env e) := by
  induction e with
  | num n => exact .num n
  | rule s => exact .rule s
  | not e ih =>
    by_cases h : eval env e = 0
    · rw [h] at ih
      simpa [eval, truthy, ofBool, h] using Value.not_zero ih
    · simpa [eval, truthy, ofBool, h] using Value.not_nonzero ih h
  | bin o a b iha ihb =>
    cases o with
    | or =>
      by_cases h : eval env a = 0
      · rw [h] at iha
        simpa [eval, truthy, h] using Value.or_second iha ihb
      · simpa [eval, truthy, h] using Value.or_first (b := b) iha h
    | and =>
      by_cases h : eval env a = 0
      · rw [h] at iha
        simpa [eval, truthy, h] using Value.and_first (b := b) iha
      · simpa [eval, truthy, h] using Value.and_second iha h ihb
    | cmp c =>
      cases c
      · simpa [eval, ofBool, Cmp.eval] using Value.lt iha ihb
      · simpa [eval, ofBool, Cmp.eval] using Value.gt iha ihb
      · simpa [eval, ofBool, Cmp.eval] using Value.le iha ihb
      · simpa [eval, ofBool, Cmp.eval] using Value.ge iha ihb
      · simpa [eval, ofBool, Cmp.eval] using Value.eq iha ihb
    | add => exact .add iha ihb
    | sub => exact .sub iha ihb
    | mul => exact .mul iha ihb

/-! ### Reading back a written expression -/

/-- Tokens as read by Perl (unchanged) or by Python (names called). -/
def cv (p : Bool) (ts : List Tok) : List Tok := if p then ts else ts.flatMap conv

theorem cv_append (p : Bool) (a b : List Tok) : cv p (a ++ b) = cv p a ++ cv p b := by
  cases p <;> simp [cv]

theorem cv_cons (p : Bool) (t : Tok) (b : List Tok) (ht : conv t = [t]) :
    cv p (t :: b) = t :: cv p b := by
  cases p <;> simp [cv, ht]

/-- The written expression as read. -/
def pr (p : Bool) (l : Nat) (e : Expr) : List Tok := cv p (write l e)

/-- The next operator binds looser than `l`. -/
def HeadOk (l : Nat) (rest : List Tok) : Prop := ∀ o r, rest = .op o :: r → o.level < l

theorem HeadOk.mono {l l' : Nat} {rest : List Tok} (h : HeadOk l rest) (hl : l ≤ l') :
    HeadOk l' rest := fun o r hr => Nat.lt_of_lt_of_le (h o r hr) hl

theorem loop_stop (p : Bool) (f l : Nat) (a : Expr) (rest : List Tok) (hf : 1 ≤ f)
    (h : ∀ o r, rest = .op o :: r → o.level ≠ l) : parseLoop p f l a rest = some (a, rest) := by
  cases f with
  | zero => omega
  | succ f =>
    cases rest with
    | nil => rfl
    | cons t r =>
      cases t with
      | op o => simp [parseLoop, h o r rfl]
      | _ => rfl

/-- Going to a looser level when the tokens read are followed by nothing of that level. -/
theorem desc (p : Bool) (f l : Nat) (ts rest : List Tok) (e : Expr) (hl : l < 6) (hf : 1 ≤ f)
    (hn : l = 2 → p = true ∨ ∀ r, ts ≠ .not :: r) (ho : HeadOk l rest)
    (h : parse p f (l + 1) ts = some (e, rest)) : parse p (f + 1) l ts = some (e, rest) := by
  have hne : ∀ o r, rest = .op o :: r → o.level ≠ l := fun o r hr => Nat.ne_of_lt (ho o r hr)
  match l, hl with
  | 0, _ => simp only [parse, h]; exact loop_stop p f 0 e rest hf hne
  | 1, _ => simp only [parse, h]; exact loop_stop p f 1 e rest hf hne
  | 4, _ => simp only [parse, h]; exact loop_stop p f 4 e rest hf hne
  | 5, _ => simp only [parse, h]; exact loop_stop p f 5 e rest hf hne
  | 2, _ =>
    cases p with
    | true => simpa [parse] using h
    | false =>
      rcases hn rfl with hp | hp
      · cases hp
      · cases ts with
        | nil => simpa [parse] using h
        | cons t r =>
          cases t with
          | not => exact absurd rfl (hp r)
          | _ => simpa [parse] using h
  | 3, _ =>
    rw [parse]
    simp only [h]
    cases rest with
    | nil => rfl
    | cons t r =>
      cases t with
      | op o =>
        cases o with
        | cmp c => exact absurd rfl (hne (.cmp c) r rfl)
        | _ => rfl
      | _ => rfl

theorem desc_many (p : Bool) (l : Nat) (ts rest : List Tok) (e : Expr) (ho : HeadOk l rest) :
    ∀ (k f : Nat), l + k ≤ 6 → 1 ≤ f →
      (l ≤ 2 → 2 < l + k → p = true ∨ ∀ r, ts ≠ .not :: r) →
      parse p f (l + k) ts = some (e, rest) → parse p (f + k) l ts = some (e, rest) := by
  intro k
  induction k generalizing l with
  | zero => intro f _ _ _ h; exact h
  | succ k ih =>
    intro f hk hf hn h
    have h1 : parse p (f + k) (l + 1) ts = some (e, rest) := by
      apply ih (l + 1) (ho.mono (by omega)) f (by omega) hf (fun a b => hn (by omega) (by omega))
      rw [show l + 1 + k = l + (k + 1) by omega]; exact h
    have := desc p (f + k) l ts rest e (by omega) (by omega) (fun h2 => hn (by omega) (by omega)) ho h1
    exact this

theorem pr_pos (p : Bool) (l : Nat) (e : Expr) : 1 ≤ (pr p l e).length := by
  have h : 1 ≤ (write l e).length := by
    cases e with
    | num n => simp [write]
    | rule s => simp [write]
    | not e => simp only [write, paren]; split <;> simp
    | bin o a b => simp only [write, paren]; split <;> (simp; try omega)
  unfold pr cv
  split
  · exact h
  · cases hw : write l e with
    | nil => simp [hw] at h
    | cons t ts =>
      simp only [List.flatMap_cons, List.length_append]
      have : 1 ≤ (conv t).length := by cases t <;> simp [conv]
      omega

/-- At a level tighter than `not`, a written expression does not begin with `!`. -/
theorem head_not_not (p : Bool) : ∀ (e : Expr) (l : Nat), 3 ≤ l →
    ∀ rest r, pr p l e ++ rest ≠ .not :: r := by
  intro e
  induction e with
  | num n => intro l _ rest r; cases p <;> simp [pr, write, cv, conv]
  | rule s => intro l _ rest r; cases p <;> simp [pr, write, cv, conv]
  | not e _ =>
    intro l hl rest r
    have : decide (2 < l) = true := by simp; omega
    cases p <;> simp [pr, write, cv, conv, paren, this]
  | bin o a b iha _ =>
    intro l hl rest r
    by_cases h : o.level < l
    · cases p <;> simp [pr, write, cv, conv, paren, h]
    · have hl3 : 3 ≤ o.leftLevel := by
        cases o <;> simp [BinOp.level, BinOp.leftLevel] at * <;> omega
      have hd : decide (o.level < l) = false := by simp [h]
      simp only [pr, write, paren, hd, Bool.false_eq_true, if_false, cv_append, List.append_assoc]
      exact iha _ hl3 _ r

theorem pr_eq (p : Bool) (e : Expr) {l l' : Nat} (h : e.level < l ↔ e.level < l') :
    pr p l e = pr p l' e := by
  cases e with
  | num n => rfl
  | rule s => rfl
  | not e =>
    have : decide (2 < l) = decide (2 < l') := decide_eq_decide.2 h
    simp only [pr, write, this]
  | bin o a b =>
    have : decide (o.level < l) = decide (o.level < l') := decide_eq_decide.2 h
    simp only [pr, write, this]

/-- parenthesised -/
theorem pr_paren (p : Bool) (e : Expr) {l : Nat} (h : e.level < l) (hl : l ≤ 6) :
    pr p l e = .lp :: (pr p 0 e ++ [.rp]) := by
  cases e with
  | num n => simp [Expr.level] at h; omega
  | rule s => simp [Expr.level] at h; omega
  | not e =>
    simp only [Expr.level] at h
    simp only [pr, write, paren, h, decide_true, if_true]
    rw [cv_cons _ _ _ rfl, cv_append, show decide (2 < 0) = false by decide]
    simp [cv, conv]
  | bin o a b =>
    simp only [Expr.level] at h
    simp only [pr, write, paren, h, decide_true, if_true]
    rw [cv_cons _ _ _ rfl, cv_append, show decide (o.level < 0) = false by simp]
    simp [cv, conv]

theorem level_le (e : Expr) : e.level ≤ 6 := by
  cases e with
  | num n => simp [Expr.level]
  | rule s => simp [Expr.level]
  | not e => simp [Expr.level]
  | bin o a b => cases o <;> simp [Expr.level, BinOp.level]

/-- What is proved about reading back `e`. -/
structure Reads (p : Bool) (e : Expr) : Prop where
  rt : ∀ l rest f, l ≤ 6 → HeadOk l rest → 8 * (pr p l e).length + (7 - l) ≤ f →
    parse p f l (pr p l e ++ rest) = some (e, rest)
  ch : ∀ l rest f, (l = 0 ∨ l = 1 ∨ l = 4 ∨ l = 5) → HeadOk (l + 1) rest →
    8 * (pr p l e).length + (7 - l) ≤ f →
    ∃ g, parse p f l (pr p l e ++ rest) = parseLoop p g l e rest ∧ f ≤ g + 8 * (pr p l e).length
  np : p = true → isNot e = true → ∀ rest f, 8 * (pr p 2 e).length + 1 ≤ f →
    parse p f 6 (pr p 2 e ++ rest) = some (e, rest)

/-- From reading at the expression's own level to reading at every level. -/
theorem reads_of_own (p : Bool) (e : Expr)
    (own : ∀ rest f, HeadOk e.level rest → 8 * (pr p e.level e).length + (7 - e.level) ≤ f →
      parse p f e.level (pr p e.level e ++ rest) = some (e, rest)) :
    ∀ l rest f, l ≤ 6 → HeadOk l rest → 8 * (pr p l e).length + (7 - l) ≤ f →
      parse p f l (pr p l e ++ rest) = some (e, rest) := by
  have low : ∀ l rest f, l ≤ e.level → HeadOk l rest → 8 * (pr p l e).length + (7 - l) ≤ f →
      parse p f l (pr p l e ++ rest) = some (e, rest) := by
    intro l rest f hle ho hf
    have h6 := level_le e
    have heq : pr p l e = pr p e.level e := pr_eq p e (by omega)
    rw [heq] at hf ⊢
    have hk : l + (e.level - l) = e.level := by omega
    have hpos := pr_pos p e.level e
    have h1 := own rest (f - (e.level - l)) (ho.mono hle) (by omega)
    have := desc_many p l (pr p e.level e ++ rest) rest e ho (e.level - l) (f - (e.level - l))
      (by omega) (by omega) ?_ (by rw [hk]; exact h1)
    · rw [show f - (e.level - l) + (e.level - l) = f by omega] at this; exact this
    · intro h2 h3
      right
      intro r hr
      exact head_not_not p e e.level (by omega) rest r hr
  intro l rest f hl ho hf
  by_cases h : l ≤ e.level
  · exact low l rest f h ho hf
  · have hlt : e.level < l := by omega
    have hp := pr_paren p e hlt hl
    rw [hp] at hf ⊢
    simp only [List.length_cons, List.length_append, List.length_nil] at hf
    have hin : parse p (f - (6 - l) - 1) 0 (pr p 0 e ++ (.rp :: rest)) = some (e, .rp :: rest) :=
      low 0 (.rp :: rest) _ (by omega) (by intro o r h; cases h) (by omega)
    have h6 : parse p (f - (6 - l) - 1 + 1) 6 (.lp :: (pr p 0 e ++ [.rp]) ++ rest) = some (e, rest) := by
      cases p <;> simp [parse, hin]
    have := desc_many p l (.lp :: (pr p 0 e ++ [.rp]) ++ rest) rest e ho (6 - l) (f - (6 - l) - 1 + 1)
      (by omega) (by omega) (fun _ _ => Or.inr (by simp)) (by rw [show l + (6 - l) = 6 by omega]; exact h6)
    rw [show f - (6 - l) - 1 + 1 + (6 - l) = f by omega] at this
    exact this

/-- The chain statement at a level that is not the expression's own. -/
theorem ch_of_rt (p : Bool) (e : Expr) (l : Nat) (hl : l = 0 ∨ l = 1 ∨ l = 4 ∨ l = 5)
    (hne : e.level ≠ l)
    (rt : ∀ l rest f, l ≤ 6 → HeadOk l rest → 8 * (pr p l e).length + (7 - l) ≤ f →
      parse p f l (pr p l e ++ rest) = some (e, rest)) (rest : List Tok) (f : Nat)
    (ho : HeadOk (l + 1) rest) (hf : 8 * (pr p l e).length + (7 - l) ≤ f) :
    ∃ g, parse p f l (pr p l e ++ rest) = parseLoop p g l e rest ∧ f ≤ g + 8 * (pr p l e).length := by
  have heq : pr p l e = pr p (l + 1) e := pr_eq p e (by omega)
  have hpos := pr_pos p l e
  refine ⟨f - 1, ?_, by omega⟩
  obtain ⟨g, rfl⟩ : ∃ g, f = g + 1 := ⟨f - 1, by omega⟩
  have h1 := rt (l + 1) rest g (by omega) ho (by rw [← heq]; omega)
  rw [heq]
  rcases hl with h | h | h | h <;> subst h <;> simp only [parse, h1, Nat.add_sub_cancel]

theorem reads (p : Bool) : ∀ e, Reads p e := by
  intro e
  induction e with
  | num n =>
    have hpr : ∀ l, pr p l (.num n) = [.num n] := by intro l; cases p <;> rfl
    have rt := reads_of_own p (.num n) (by
      intro rest f _ hf
      rw [hpr] at *
      obtain ⟨g, rfl⟩ : ∃ g, f = g + 1 := ⟨f - 1, by simp at hf; omega⟩
      cases p <;> rfl)
    refine ⟨rt, fun l rest f hl ho hf => ch_of_rt p _ l hl (by simp [Expr.level]; omega) rt rest f ho hf, ?_⟩
    intro _ h; cases h
  | rule s =>
    have hpr : ∀ l, pr p l (.rule s) = cv p [.name s] := by intro l; rfl
    have rt := reads_of_own p (.rule s) (by
      intro rest f _ hf
      rw [hpr] at *
      obtain ⟨g, rfl⟩ : ∃ g, f = g + 1 := ⟨f - 1, by
        have := pr_pos p 6 (.rule s); rw [hpr] at this; omega⟩
      cases p with
      | true => rfl
      | false => simp [cv, conv, Expr.level, parse])
    refine ⟨rt, fun l rest f hl ho hf => ch_of_rt p _ l hl (by simp [Expr.level]; omega) rt rest f ho hf, ?_⟩
    intro _ h; cases h
  | not a ih =>
    have hpr2 : pr p 2 (.not a) = .not :: pr p (if isNot a then 2 else 6) a := by
      simp only [pr, write, paren, show decide (2 < 2) = false by decide, Bool.false_eq_true, if_false]
      rw [cv_cons _ _ _ rfl]
    have np : p = true → isNot (.not a) = true → ∀ rest f, 8 * (pr p 2 (.not a)).length + 1 ≤ f →
        parse p f 6 (pr p 2 (.not a) ++ rest) = some (.not a, rest) := by
      intro hp _ rest f hf
      subst hp
      rw [hpr2] at *
      obtain ⟨g, rfl⟩ : ∃ g, f = g + 1 := ⟨f - 1, by omega⟩
      simp only [List.length_cons] at hf
      have : parse true g 6 (pr true (if isNot a then 2 else 6) a ++ rest) = some (a, rest) := by
        by_cases hn : isNot a = true
        · rw [if_pos hn] at *
          exact ih.np rfl hn rest g (by omega)
        · rw [if_neg hn] at *
          exact ih.rt 6 rest g (by omega)
            (fun o r _ => by cases o <;> simp [BinOp.level]) (by omega)
      simp [parse, this]
    have rt := reads_of_own p (.not a) (by
      intro rest f ho hf
      simp only [Expr.level] at *
      cases p with
      | true =>
        have h6 := np rfl rfl rest (f - 4) (by omega)
        have := desc_many true 2 _ rest _ ho 4 (f - 4) (by omega) (by omega)
          (fun _ _ => Or.inl rfl) h6
        rw [show f - 4 + 4 = f by omega] at this
        exact this
      | false =>
        rw [hpr2] at hf ⊢
        simp only [List.length_cons] at hf
        obtain ⟨g, rfl⟩ : ∃ g, f = g + 1 := ⟨f - 1, by omega⟩
        have : parse false g 2 (pr false (if isNot a then 2 else 6) a ++ rest) = some (a, rest) := by
          by_cases hn : isNot a = true
          · rw [if_pos hn] at *
            exact ih.rt 2 rest g (by omega) ho (by omega)
          · rw [if_neg hn] at *
            have h6 := ih.rt 6 rest (g - 4) (by omega) (ho.mono (by omega)) (by omega)
            have := desc_many false 2 _ rest _ ho 4 (g - 4) (by omega) (by omega)
              (fun _ _ => Or.inr (fun r => head_not_not false a 6 (by omega) rest r)) h6
            rw [show g - 4 + 4 = g by omega] at this
            exact this
        simp [parse, this])
    refine ⟨rt, fun l rest f hl ho hf => ch_of_rt p _ l hl (by simp [Expr.level]; omega) rt rest f ho hf, np⟩
  | bin o a b iha ihb =>
    have hpr : pr p o.level (.bin o a b) = pr p o.leftLevel a ++ .op o :: pr p (o.level + 1) b := by
      simp only [pr, write, paren, Nat.lt_irrefl, decide_false, Bool.false_eq_true, if_false]
      rw [cv_append, cv_cons _ _ _ rfl]
    -- the chain statement at the operator's own level
    have chown : ∀ rest f, (∀ c, o ≠ .cmp c) → HeadOk (o.level + 1) rest →
        8 * (pr p o.level (.bin o a b)).length + (7 - o.level) ≤ f →
        ∃ g, parse p f o.level (pr p o.level (.bin o a b) ++ rest) =
          parseLoop p g o.level (.bin o a b) rest ∧ f ≤ g + 8 * (pr p o.level (.bin o a b)).length := by
      intro rest f hc ho hf
      have hleft : o.leftLevel = o.level := by
        cases o <;> first | rfl | (exact absurd rfl (hc _))
      have hlv : o.level = 0 ∨ o.level = 1 ∨ o.level = 4 ∨ o.level = 5 := by
        cases o <;> first | (exact absurd rfl (hc _)) | simp [BinOp.level]
      rw [hpr, hleft] at hf ⊢
      simp only [List.length_append, List.length_cons] at hf ⊢
      obtain ⟨g, hg, hge⟩ := iha.ch o.level (.op o :: (pr p (o.level + 1) b ++ rest)) f hlv
        (by intro o' r h; cases h; omega) (by omega)
      obtain ⟨g', rfl⟩ : ∃ g', g = g' + 1 := ⟨g - 1, by omega⟩
      refine ⟨g', ?_, by omega⟩
      have hb := ihb.rt (o.level + 1) rest g' (by omega) ho (by omega)
      rw [List.append_assoc, List.cons_append, hg]
      simp [parseLoop, hb]
    have own : ∀ rest f, HeadOk o.level rest →
        8 * (pr p o.level (.bin o a b)).length + (7 - o.level) ≤ f →
        parse p f o.level (pr p o.level (.bin o a b) ++ rest) = some (.bin o a b, rest) := by
      intro rest f ho hf
      by_cases hc : ∃ c, o = .cmp c
      · obtain ⟨c, hc⟩ := hc
        subst hc
        rw [hpr] at hf ⊢
        simp only [BinOp.level, BinOp.leftLevel, List.length_append, List.length_cons,
          Nat.reduceAdd] at *
        obtain ⟨g, rfl⟩ : ∃ g, f = g + 1 := ⟨f - 1, by omega⟩
        have ha := iha.rt 4 (.op (.cmp c) :: (pr p 4 b ++ rest)) g (by omega)
          (by intro o r h; cases h; simp [BinOp.level]) (by omega)
        have hb := ihb.rt 4 rest g (by omega) (ho.mono (by omega)) (by omega)
        rw [List.append_assoc, List.cons_append]
        simp [parse, ha, hb]
      · have hc' : ∀ c, o ≠ .cmp c := fun c h => hc ⟨c, h⟩
        obtain ⟨g, hg, hge⟩ := chown rest f hc' (ho.mono (by omega)) hf
        rw [hg]
        exact loop_stop p g _ _ rest (by
          have : o.level ≤ 5 := by cases o <;> simp [BinOp.level]
          omega) (fun o' r hr => Nat.ne_of_lt (ho o' r hr))
    have rt := reads_of_own p (.bin o a b) own
    refine ⟨rt, ?_, by intro _ h; cases h⟩
    intro l rest f hl ho hf
    by_cases h : o.level = l
    · subst h
      exact chown rest f (by intro c hc; subst hc; simp [BinOp.level] at hl) ho hf
    · exact ch_of_rt p (.bin o a b) l hl h rt rest f ho hf

/-- Both languages read a written expression as that expression. -/
theorem parseAll_write (p : Bool) (e : Expr) : parseAll p (cv p (write 0 e)) = some e := by
  have := (reads p e).rt 0 [] (8 * (pr p 0 e).length + 16) (by omega)
    (by intro o r h; cases h) (by omega)
  simp only [List.append_nil] at this
  unfold parseAll
  change (match parse p (8 * (pr p 0 e).length + 16) 0 (pr p 0 e) with
    | some (e, []) => some e
    | _ => none) = some e
  rw [this]

theorem names_write (e : Expr) : ∀ l n, Tok.name n ∈ write l e ↔ n ∈ e.names := by
  induction e with
  | num k => intro l n; simp [write, Expr.names]
  | rule s => intro l n; simp [write, Expr.names]
  | not e ih =>
    intro l n
    simp only [write, paren, Expr.names]
    split <;> simp [ih]
  | bin o a b iha ihb =>
    intro l n
    simp only [write, paren, Expr.names]
    split <;> simp [iha, ihb]

end Verif.MetaExpr
