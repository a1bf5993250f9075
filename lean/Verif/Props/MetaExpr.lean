import Verif.Lemmas.MetaParse

/-!
# C10: what a meta expression means
-/

namespace Verif.MetaExpr
open Verif Py

def tokNames (ts : List Tok) : List Str :=
  ts.filterMap fun t => match t with
    | .name n => some n
    | _ => none

theorem tokNames_append (a b : List Tok) : tokNames (a ++ b) = tokNames a ++ tokNames b := by
  simp [tokNames]

def partName (w : Str) : Str := w.dropWhile (fun c => !isIdStart c)

theorem partName_digits (w : Str) (h2 : ∀ c ∈ w, isDigit c = true) : partName w = [] := by
  induction w with
  | nil => rfl
  | cons c cs ih =>
    have := digit_not_start (h2 c (by simp))
    simp only [partName, List.dropWhile_cons, this, Bool.not_false, if_true]
    exact ih (fun x hx => h2 x (List.mem_cons_of_mem _ hx))

theorem partName_word {w : Str} {ts : List Tok} (h : ruleWord w = some ts) :
    (if partName w = [] then [] else [partName w]) = tokNames ts := by
  unfold ruleWord at h
  split at h
  · rename_i h1; cases h; subst h1; rfl
  · split at h
    · rename_i h2
      split at h
      · cases h
        have : partName w = [] := by
          rw [List.all_eq_true] at h2
          exact partName_digits w h2
        simp [this, tokNames]
      · cases h
    · cases w with
      | nil => simp at h
      | cons c cs =>
        simp only at h
        split at h
        · rename_i h3
          cases h
          have : partName (c :: cs) = c :: cs := by simp [partName, h3]
          simp [this, tokNames]
        · cases h

theorem partName_snoc (w : Str) (c : Char) :
    partName (w ++ [c]) = if partName w = [] then (if isIdStart c then [c] else []) else partName w ++ [c] := by
  unfold partName
  induction w with
  | nil => by_cases h : isIdStart c <;> simp [h]
  | cons a as ih =>
    by_cases h : isIdStart a
    · simp [h]
    · simp only [List.cons_append, List.dropWhile_cons, h, Bool.not_false, if_true]; exact ih

theorem findNames_lex :
    ∀ (n : Nat) (s w : Str) (ts : List Tok), s.length ≤ n → ruleLex w s = some ts →
      findNames (partName w) s = tokNames ts := by
  intro n
  induction n with
  | zero =>
    intro s w ts hl hr
    have : s = [] := List.length_eq_zero_iff.1 (by omega)
    subst this
    exact partName_word hr
  | succ n ih =>
    intro s w ts hl hr
    cases s with
    | nil => exact partName_word hr
    | cons c cs =>
      simp only [List.length_cons] at hl
      by_cases hw : isWord c = true
      · have hr' : ruleLex (w ++ [c]) cs = some ts := by
          cases cs <;> simpa [ruleLex, hw] using hr
        have := ih cs (w ++ [c]) ts (by omega) hr'
        rw [partName_snoc] at this
        simp only [findNames, hw, if_true]
        rw [← this]
        by_cases hp : partName w = []
        · by_cases hi : isIdStart c <;> simp [hp, hi]
        · simp [hp]
      · simp only [Bool.not_eq_true] at hw
        have step : ∀ (skip rest : Str) (mt : List Tok), rest.length ≤ n → tokNames mt = [] →
            findNames [] cs = findNames [] rest →
            andThen (ruleWord w) (andThen (some mt) (ruleLex [] rest)) = some ts →
            findNames (partName w) (c :: cs) = tokNames ts := by
          intro _ rest mt hlen hmt hskip hrl
          obtain ⟨x, y, hx, hy, hxy⟩ := andThen_eq_some hrl
          obtain ⟨m, z, hm, hz, hmz⟩ := andThen_eq_some hy
          cases hm
          subst hxy; subst hmz
          have h1 := ih rest [] z hlen hz
          simp only [findNames, hw, Bool.false_eq_true, if_false]
          rw [partName_word hx, hskip, tokNames_append, tokNames_append, hmt, List.nil_append]
          congr 1
        have nm2 : ∀ a b t, symTok2 a b = some t → tokNames [t] = [] := by
          intro a b t h; unfold symTok2 at h; split at h <;> first | (cases h; rfl) | cases h
        have nm : ∀ a t, symTok a = some t → tokNames [t] = [] := by
          intro a t h; unfold symTok at h; split at h <;> first | (cases h; rfl) | cases h
        by_cases hsp : c = ' '
        · subst hsp
          refine step [] cs [] (by omega) rfl rfl ?_
          cases cs with
          | nil => simpa [ruleLex, hw, ruleWord, andThen_nil_left, andThen_nil_right] using hr
          | cons d ds => simpa [ruleLex, hw, andThen_nil_left] using hr
        · by_cases hb : c = '!'
          · subst hb
            refine step [] cs [.not] (by omega) rfl rfl ?_
            cases cs with
            | nil => simpa [ruleLex, hw, ruleWord] using hr
            | cons d ds =>
              simp only [ruleLex, hw, Bool.false_eq_true, if_false, if_true,
                show ('!' : Char) ≠ ' ' by decide] at hr
              split at hr
              · cases hr
              · exact hr
          · cases cs with
            | nil =>
              simp only [ruleLex, meant_one, meant_two, hw, hsp, hb, Bool.false_eq_true, if_false] at hr
              obtain ⟨x, y, hx, hy, hxy⟩ := andThen_eq_some hr
              cases hst : symTok c with
              | none => rw [hst] at hy; cases hy
              | some t =>
                rw [hst] at hy; cases hy
                exact step [] [] [t] (by simp) (nm _ _ hst) rfl (by rw [hx, hxy]; rfl)
            | cons d ds =>
              simp only [ruleLex, meant_one, meant_two, hw, hsp, hb, Bool.false_eq_true, if_false] at hr
              simp only [List.length_cons] at hl
              have skip : isWord d = false → findNames [] (d :: ds) = findNames [] ds := by
                intro h; simp [findNames, h]
              split at hr
              · rename_i h
                exact step [] ds [.op .and] (by omega) rfl (skip (by rw [h.2]; decide)) hr
              · split at hr
                · rename_i h
                  exact step [] ds [.op .or] (by omega) rfl (skip (by rw [h.2]; decide)) hr
                · cases hst2 : symTok2 c d with
                  | some t =>
                    rw [hst2] at hr
                    exact step [] ds [t] (by omega) (nm2 _ _ _ hst2)
                      (skip (sym2_ne hst2).2.2.2.2.2.1) hr
                  | none =>
                    rw [hst2] at hr
                    simp only at hr
                    cases hst : symTok c with
                    | none => rw [hst] at hr; cases hr
                    | some t =>
                      rw [hst] at hr
                      exact step [] (d :: ds) [t] (by simp; omega) (nm _ _ hst) rfl hr

theorem pyEval_plain (env : Str → Int) : ∀ (e : Expr), (∀ n ∈ e.names, n ∉ ownNames) → pyEval env e = some (eval env e)
  | .num n, _ => rfl
  | .rule s, h => by simp [pyEval, eval, h s (by simp [Expr.names])]
  | .not e, h => by simp [pyEval, eval, pyEval_plain env e h]
  | .bin o a b, h => by
    have ha := pyEval_plain env a (fun n hn => h n (by simp [Expr.names, hn]))
    have hb := pyEval_plain env b (fun n hn => h n (by simp [Expr.names, hn]))
    cases o <;> simp only [pyEval, eval, ha, hb] <;> split <;> rfl

end Verif.MetaExpr

namespace Verif.Props
open Verif Py MetaExpr

/-- **C10** (the part that holds).  Take any expression over rule names, integers, `||`, `&&`,
`!`, comparisons, `+`, `-` and `*`, and any rule text (with any spacing) whose tokens are
that expression written with the usual parentheses — including parentheses around a `!` that is
an operand of a comparison or of arithmetic.  Perl reads the text as that expression, the rules
the engine looks up are exactly the rules named in it, and the compiled rule returns the value
of the expression on every message, i.e. for all results of the named rules. -/
theorem C10_meaning_partial (text : Str) (e : Expr) (h : ruleLex [] text = some (written 0 e))
    (hn : ∀ n ∈ e.names, PlainName n) (env : Str → Int) :
    parseAll true (written 0 e) = some e ∧
    (∀ n, n ∈ findNames [] text ↔ n ∈ e.names) ∧
    ∃ v, metaMatch text env = some v ∧ Value env e v := by
  rw [written_eq] at h ⊢
  refine ⟨parseAll_write true e, ?_, eval env e, ?_, value_eval env e⟩
  · intro n
    have := findNames_lex text.length text [] _ (Nat.le_refl _) h
    rw [show partName [] = ([] : Str) from rfl] at this
    rw [this, ← names_write e 0 n]
    simp only [tokNames, List.mem_filterMap]
    constructor
    · rintro ⟨t, ht, hs⟩
      cases t <;> simp at hs
      subst hs; exact ht
    · intro h; exact ⟨_, h, rfl⟩
  · have hp : PlainToks (write 0 e) := fun n hm => hn n ((names_write e 0 n).1 hm)
    unfold metaMatch
    rw [lex_translate' h hp]
    have := parseAll_write false e
    simp only [cv, Bool.false_eq_true, if_false] at this
    simp only [this]
    refine pyEval_plain env e (fun n hm => ?_)
    obtain ⟨-, -, -, -, h1, h2⟩ := hn n hm
    simp [ownNames, h1, h2]

/-- **C10** (violated): `!` before an operand of arithmetic or of a comparison.  Perl reads `!A + B` as `(!A) + B`, for all rules and operators, but
the translation computes `not (A + B)`. -/
theorem C10_not_precedence_violated (text a b : Str) (o : BinOp) (ho : o ≠ .or ∧ o ≠ .and)
    (h : ruleLex [] text = some [.not, .name a, .op o, .name b]) (ha : PlainName a) (hb : PlainName b) (env : Str → Int) :
    parseAll true [.not, .name a, .op o, .name b] = some (.bin o (.not (.rule a)) (.rule b)) ∧
    metaMatch text env = some (eval env (.not (.bin o (.rule a) (.rule b)))) := by
  have hp : PlainToks [.not, .name a, .op o, .name b] := by
    intro n hn
    simp only [List.mem_cons, Tok.name.injEq, List.not_mem_nil, or_false, reduceCtorEq, false_or] at hn
    rcases hn with rfl | rfl
    · exact ha
    · exact hb
  have h1 : parseAll false ([.not, .name a, .op o, .name b].flatMap conv) = some (.not (.bin o (.rule a) (.rule b))) := by
    cases o with
    | or => exact absurd rfl ho.1
    | and => exact absurd rfl ho.2
    | cmp c => rfl
    | add => rfl
    | sub => rfl
    | mul => rfl
  refine ⟨?_, ?_⟩
  · cases o with
    | or => exact absurd rfl ho.1
    | and => exact absurd rfl ho.2
    | cmp c => rfl
    | add => rfl
    | sub => rfl
    | mul => rfl
  · unfold metaMatch
    rw [lex_translate' h hp]
    simp only [h1]
    obtain ⟨-, -, -, -, a1, a2⟩ := ha
    obtain ⟨-, -, -, -, b1, b2⟩ := hb
    have ea : a ∉ ownNames := by simp [ownNames, a1, a2]
    have eb : b ∉ ownNames := by simp [ownNames, b1, b2]
    cases o with
    | or => exact absurd rfl ho.1
    | and => exact absurd rfl ho.2
    | _ => simp [pyEval, eval, ea, eb]

/-- When neither rule matches, the documented value of `!A + B > 1` is false and the computed one is true. -/
example :
    ∃ (text : Str) (ts : List Tok) (e : Expr) (env : Str → Int), ruleLex [] text = some ts ∧
      parseAll true ts = some e ∧ eval env e = 0 ∧ metaMatch text env = some 1 :=
  ⟨c!"!A + B > 1", [.not, .name c!"A", .op .add, .name c!"B", .op (.cmp .gt), .num 1],
   .bin (.cmp .gt) (.bin .add (.not (.rule c!"A")) (.rule c!"B")) (.num 1), fun _ => 0,
   by decide, by decide, by decide, by decide⟩

example : ruleLex [] c!"!A + B" = some [.not, .name c!"A", .op .add, .name c!"B"] := by decide

theorem letter_alpha {c : Char} (h : isLetter c) : c.isAlpha = true := by
  unfold isLetter at h
  unfold Char.isAlpha Char.isUpper Char.isLower
  simp only [Char.le_def] at h
  simp only [Bool.or_eq_true, Bool.and_eq_true, decide_eq_true_eq, ge_iff_le]
  rcases h with h | h
  · exact Or.inr h
  · exact Or.inl h

theorem ruleLex_words (w cs : Str) (h : ∀ c ∈ cs, isWord c = true) : ruleLex w cs = ruleWord (w ++ cs) := by
  induction cs generalizing w with
  | nil => simp [ruleLex]
  | cons c cs ih =>
    have hc := h c (by simp)
    cases cs with
    | nil => simp [ruleLex, hc]
    | cons d ds =>
      simp only [ruleLex, hc, if_true]
      rw [ih _ (fun x hx => h x (List.mem_cons_of_mem _ hx))]
      simp

/-- **C10** for a single rule: every name in the documented alphabet is read as that rule, so the
meta rule has its result. -/
theorem C10_single_rule (name : Str) (h : RuleName name) (hp : PlainName name) (env : Str → Int) :
    metaMatch name env = some (env name) ∧ findNames [] name = [name] := by
  cases name with
  | nil => exact h.elim
  | cons c cs =>
    obtain ⟨hc, hcs⟩ := h
    have hword : ∀ d, isLetter d ∨ d = '_' ∨ ('0' ≤ d ∧ d ≤ '9') → isWord d = true := by
      rintro d (hd | hd | hd)
      · simp [isWord, Char.isAlphanum, letter_alpha hd]
      · simp [isWord, hd]
      · have : d.isDigit = true := by
          unfold Char.isDigit
          simp only [Char.le_def] at hd
          simp only [Bool.and_eq_true, decide_eq_true_eq, ge_iff_le]
          exact hd
        simp [isWord, Char.isAlphanum, this]
    have hstart : isIdStart c = true := by
      rcases hc with hc | hc
      · simp [isIdStart, letter_alpha hc]
      · simp [isIdStart, hc]
    have hall : ∀ d ∈ c :: cs, isWord d = true := by
      intro d hd
      rcases List.mem_cons.1 hd with rfl | hd
      · apply hword
        rcases hc with hc | hc
        · exact Or.inl hc
        · exact Or.inr (Or.inl hc)
      · exact hword d (hcs d hd)
    have hnd : isDigit c = false := by
      rcases hc with hc | hc
      · unfold isLetter at hc
        unfold isDigit Char.isDigit
        simp only [Char.le_def, UInt32.le_iff_toNat_le] at hc
        simp only [Bool.and_eq_false_iff, decide_eq_false_iff_not, ge_iff_le, UInt32.le_iff_toNat_le]
        have e1 : 'a'.val.toNat = 97 := rfl
        have e2 : 'z'.val.toNat = 122 := rfl
        have e3 : 'A'.val.toNat = 65 := rfl
        have e4 : 'Z'.val.toNat = 90 := rfl
        have e5 : (57 : UInt32).toNat = 57 := rfl
        have e6 : (48 : UInt32).toNat = 48 := rfl
        right
        simp only [e1, e2, e3, e4] at hc
        show ¬ c.val.toNat ≤ 57
        omega
      · subst hc; decide
    have hlex : ruleLex [] (c :: cs) = some (written 0 (.rule (c :: cs))) := by
      rw [ruleLex_words [] _ hall]
      simp [ruleWord, written, hnd, hstart]
    have := C10_meaning_partial (c :: cs) (.rule (c :: cs)) hlex (by simpa [Expr.names] using hp) env
    obtain ⟨v, hv, hval⟩ := this.2.2
    have hve : v = env (c :: cs) := by cases hval; rfl
    refine ⟨hve ▸ hv, ?_⟩
    have hfind : ∀ (cs acc : Str), acc ≠ [] → (∀ d ∈ cs, isWord d = true) → findNames acc cs = [acc ++ cs] := by
      intro cs
      induction cs with
      | nil => intro acc ha _; simp [findNames, ha]
      | cons d ds ih =>
        intro acc ha hd
        simp only [findNames]
        rw [if_pos (hd d (by simp)), if_neg (by simp [ha]),
          ih _ (by simp) (fun x hx => hd x (List.mem_cons_of_mem _ hx))]
        simp
    simp only [findNames]
    rw [if_pos (hall c (by simp)), if_neg (by simp [hstart]),
      hfind cs _ (by simp) (fun x hx => hall x (List.mem_cons_of_mem _ hx))]
    rfl

/-- **C10** (violated): a rule whose name is a keyword of Python is a valid rule, but no meta rule
can refer to it: the translation is a syntax error. -/
theorem C10_keyword_violated (name : Str) (h : name ∈ pythonKeywords) :
    RuleName name ∧ ∀ env, metaMatch name env = none := by
  simp only [pythonKeywords, List.mem_cons, List.not_mem_nil, or_false] at h
  have key : ∀ name : Str, pyLex [] (translate name) = none → ∀ env, metaMatch name env = none := by
    intro name h env; simp [metaMatch, h]
  have rn : ∀ name : Str, (∀ c ∈ name, isLetter c) → name ≠ [] → RuleName name := by
    intro name hn hne
    cases name with
    | nil => exact absurd rfl hne
    | cons c cs => exact ⟨Or.inl (hn c (by simp)), fun d hd => Or.inl (hn d (by simp [hd]))⟩
  rcases h with h | h | h | h | h | h | h | h | h | h | h | h | h | h | h | h | h | h | h | h | h |
    h | h | h | h | h | h | h | h | h | h | h <;> subst h <;>
    exact ⟨rn _ (by unfold isLetter; decide) (by decide), key _ (by decide)⟩

theorem digit_word {c : Char} (h : isDigit c = true) : isWord c = true := by
  have : c.isDigit = true := h
  simp [isWord, Char.isAlphanum, this]

theorem T_digits (w rest : Str) (h : ∀ c ∈ w, isDigit c = true) : T false (w ++ rest) = w ++ T false rest := by
  induction w with
  | nil => rfl
  | cons c cs ih =>
    have hc := h c (by simp)
    rw [List.cons_append, T_word _ (digit_word hc), digit_not_start hc, Bool.or_self, ih (fun d hd => h d (by simp [hd]))]
    rfl

theorem pyLex_words (w v rest : Str) (h : ∀ c ∈ v, isWord c = true) : pyLex w (v ++ rest) = pyLex (w ++ v) rest := by
  induction v generalizing w with
  | nil => simp
  | cons c cs ih =>
    rw [List.cons_append, pyLex_word _ (h c (by simp)), ih _ (fun d hd => h d (by simp [hd]))]
    simp

/-- **C10** is violated: a number other than zero that is written with zeros in front, with anything after it, raises an exception. -/
theorem C10_zeros_violated (digits rest : Str) (hd : ∀ c ∈ digits, isDigit c = true) (hn : ∃ c ∈ digits, c ≠ '0')
    (hr : ∀ c ∈ rest.head?, isWord c = false) (env : Str → Int) : metaMatch ('0' :: digits ++ rest) env = none := by
  have hall : ∀ c ∈ '0' :: digits, isDigit c = true := by
    intro c hc
    rcases List.mem_cons.1 hc with rfl | hc
    · decide
    · exact hd c hc
  have hw : pyWord ('0' :: digits) = none := by
    have h1 : ('0' :: digits).all isDigit = true := List.all_eq_true.2 hall
    have h2 : pyNumber ('0' :: digits) = false := by
      obtain ⟨c, hc, hc0⟩ := hn
      have : ('0' :: digits).all (fun c => c == '0') = false := by
        rw [List.all_eq_false]
        exact ⟨c, by simp [hc], by simp [hc0]⟩
      simp [pyNumber, this]
    simp only [pyWord, h1, h2, if_true, Bool.false_eq_true, if_false, List.cons_ne_nil]
  have : pyLex [] (translate ('0' :: digits ++ rest)) = none := by
    rw [translate_eq, T_digits _ _ hall, pyLex_words [] _ _ (fun c hc => digit_word (hall c hc)), List.nil_append, pyLex_flush, hw]
    · rfl
    · intro c cs h
      rcases T_head rest c cs h with ⟨ds, rfl⟩ | rfl
      · exact hr c (by simp)
      · decide
  unfold metaMatch
  rw [this]

example : (∀ c ∈ c!"10", isDigit c = true) ∧ (∃ c ∈ c!"10", c ≠ '0') ∧ ∀ c ∈ (c!" < A + B").head?, isWord c = false := by decide

/-- Arithmetic and comparison operators. -/
def tight : Tok → Bool
  | .op o => decide (3 ≤ o.level)
  | _ => false

/-- No `not` after such an operator; `st` tells whether one is in front of the tokens. -/
def okFrom : Bool → List Tok → Bool
  | _, [] => true
  | st, t :: ts => !(st && decide (t = .not)) && okFrom (tight t) ts

/-- Whether the last token is such an operator. -/
def endState : Bool → List Tok → Bool
  | st, [] => st
  | _, t :: ts => endState (tight t) ts

theorem okFrom_append (a b : List Tok) (st : Bool) : okFrom st (a ++ b) = (okFrom st a && okFrom (endState st a) b) := by
  induction a generalizing st with
  | nil => simp [okFrom, endState]
  | cons t ts ih => simp [okFrom, endState, ih, Bool.and_assoc]

theorem endState_append (a b : List Tok) (st : Bool) : endState st (a ++ b) = endState (endState st a) b := by
  induction a generalizing st with
  | nil => rfl
  | cons t ts ih => simp [endState, ih]

theorem okFrom_weaken {ts : List Tok} {st : Bool} (h : okFrom true ts = true) : okFrom st ts = true := by
  cases ts with
  | nil => rfl
  | cons t ts => cases st <;> simp_all [okFrom]

/-- What the parser for Python has read. -/
def Read (st : Bool) (ts r : List Tok) : Prop :=
  ∃ pre, ts = pre ++ r ∧ okFrom st pre = true ∧ ∀ st', endState st' pre = false

theorem Read.weaken {st : Bool} {ts r : List Tok} (h : Read true ts r) : Read st ts r := by
  obtain ⟨pre, h1, h2, h3⟩ := h
  exact ⟨pre, h1, okFrom_weaken h2, h3⟩

/-- What a loop for Python has read. -/
def ReadMore (ts r : List Tok) : Prop := ∃ pre, ts = pre ++ r ∧ okFrom false pre = true ∧ endState false pre = false

theorem Read.more {st : Bool} {ts r r' : List Tok} (h : Read st ts r) (h' : ReadMore r r') : Read st ts r' := by
  obtain ⟨pre, rfl, h2, h3⟩ := h
  obtain ⟨pre', rfl, h5, h6⟩ := h'
  refine ⟨pre ++ pre', by simp, ?_, fun st' => ?_⟩
  · rw [okFrom_append, h2, h3, h5]; rfl
  · rw [endState_append, h3, h6]

theorem python_reads : ∀ f : Nat,
    (∀ lvl ts e r, parse false f lvl ts = some (e, r) → Read (decide (3 ≤ lvl)) ts r) ∧
    (∀ lvl a ts e r, parseLoop false f lvl a ts = some (e, r) → ReadMore ts r)
  | 0 => ⟨fun _ _ _ _ h => by simp [parse] at h, fun _ _ _ _ _ h => by simp [parseLoop] at h⟩
  | f + 1 => by
    obtain ⟨ihp, ihl⟩ := python_reads f
    constructor
    · intro lvl ts e r h
      have loop : ∀ (l k : Nat) (st : Bool), (decide (3 ≤ k) = st ∨ decide (3 ≤ k) = true) →
          (∀ (P : Prop), (∀ a r₁, parse false f k ts = some (a, r₁) → parseLoop false f l a r₁ = some (e, r) → P) → P) → Read st ts r := by
        intro l k st hk hh
        refine hh _ fun a r₁ h1 h2 => ?_
        have h3 := ihp _ _ _ _ h1
        rcases hk with hk | hk
        · rw [hk] at h3; exact h3.more (ihl _ _ _ _ _ h2)
        · rw [hk] at h3; exact h3.weaken.more (ihl _ _ _ _ _ h2)
      match lvl, h with
      | 0, h =>
        simp only [parse] at h
        split at h
        · rename_i a r₁ h1
          exact loop 0 1 _ (Or.inl rfl) fun P k => k a r₁ h1 h
        · cases h
      | 1, h =>
        simp only [parse] at h
        split at h
        · rename_i a r₁ h1
          exact loop 1 2 _ (Or.inl rfl) fun P k => k a r₁ h1 h
        · cases h
      | 2, h =>
        simp only [parse] at h
        split at h
        · rename_i r₀
          split at h
          · rename_i a r' h1
            obtain ⟨pre, h2, h3, h4⟩ := ihp _ _ _ _ h1
            have hr : r' = r := by simpa using congrArg (Option.map Prod.snd) h
            subst hr
            exact ⟨.not :: pre, by rw [h2]; rfl, by simpa [okFrom, tight] using h3, fun st => by simp [endState, h4]⟩
          · cases h
        · exact (ihp _ _ _ _ h).weaken
      | 3, h =>
        simp only [parse] at h
        split at h
        · rename_i a c r₀ h1
          split at h
          · rename_i b r' h2
            have hr : r' = r := by simpa using congrArg (Option.map Prod.snd) h
            subst hr
            obtain ⟨pre, h3, h4, h5⟩ := ihp _ _ _ _ h2
            refine (ihp _ _ _ _ h1).more ⟨.op (.cmp c) :: pre, by rw [h3]; rfl, ?_, by simp [endState, h5]⟩
            have h4' : okFrom true pre = true := h4
            simpa [okFrom, tight, BinOp.level] using h4'
          · cases h
        · exact (show Read true ts r from ihp 4 ts e r h)
      | 4, h =>
        simp only [parse] at h
        split at h
        · rename_i a r₁ h1
          exact loop 4 5 _ (Or.inl rfl) fun P k => k a r₁ h1 h
        · cases h
      | 5, h =>
        simp only [parse] at h
        split at h
        · rename_i a r₁ h1
          exact loop 5 6 _ (Or.inl rfl) fun P k => k a r₁ h1 h
        · cases h
      | n + 6, h =>
        rw [decide_eq_true (by omega : 3 ≤ n + 6)]
        simp only [parse] at h
        split at h
        · obtain ⟨-, rfl⟩ := Prod.mk.inj (Option.some.inj h)
          exact ⟨[.num _], rfl, rfl, fun _ => rfl⟩
        · split at h
          · rename_i r₀ _ a r' h1
            have hr : r' = r := by simpa using congrArg (Option.map Prod.snd) h
            subst hr
            obtain ⟨pre, h2, h3, h4⟩ := ihp _ _ _ _ h1
            refine ⟨.lp :: pre ++ [.rp], by rw [h2]; simp, ?_, fun st => by simp [endState, endState_append, tight]⟩
            have h3' : okFrom false pre = true := h3
            simp [okFrom, okFrom_append, tight, h3']
          · cases h
        · rename_i hb _
          cases hb
        · rename_i hb _
          cases hb
        · split at h
          · obtain ⟨-, rfl⟩ := Prod.mk.inj (Option.some.inj h)
            exact ⟨[.name _, .lp, .name _, .rp], rfl, rfl, fun _ => rfl⟩
          · cases h
        · cases h
    · intro lvl a ts e r h
      unfold parseLoop at h
      have stop : some (a, ts) = some (e, r) → ReadMore ts r := by
        intro h
        have : ts = r := by simpa using congrArg (Option.map Prod.snd) h
        exact ⟨[], by simp [this], rfl, rfl⟩
      split at h
      · rename_i o r₀
        split at h
        · rename_i hlvl
          split at h
          · rename_i b r' hp
            have h1 := ihp _ _ _ _ hp
            have h2 := ihl _ _ _ _ _ h
            have h3 : Read (decide (3 ≤ lvl)) r₀ r' := by
              by_cases hl : 3 ≤ lvl
              · rw [decide_eq_true (by omega : 3 ≤ lvl + 1)] at h1
                exact h1.weaken
              · by_cases hl2 : 3 ≤ lvl + 1
                · exfalso
                  have : lvl = 2 := by omega
                  subst this
                  cases o <;> simp [BinOp.level] at hlvl
                · rw [decide_eq_false hl2] at h1
                  rw [decide_eq_false hl]
                  exact h1
            obtain ⟨pre, h4, h5, h6⟩ := h3.more h2
            refine ⟨.op o :: pre, by rw [h4]; rfl, ?_, ?_⟩
            · simp [okFrom, tight, hlvl, h5]
            · simp [endState, h6]
          · cases h
        · exact stop h
      · exact stop h

/-- **C10** (violated): `A + !B` is a valid expression, but `!` after an operator of arithmetic or a comparison, anywhere in the text and whatever
the rules, gives a translation that is not Python (`A(msg) +  not B(msg)` is a syntax error). -/
theorem C10_not_operand_violated (text : Str) (before after : List Tok) (o : BinOp) (ho : o ≠ .or ∧ o ≠ .and)
    (h : ruleLex [] text = some (before ++ .op o :: .not :: after)) (hp : ∀ n, Tok.name n ∈ before ++ .op o :: .not :: after → PlainName n)
    (env : Str → Int) : metaMatch text env = none := by
  have hlex := lex_translate' h hp
  have hbad : okFrom false ((before ++ .op o :: .not :: after).flatMap conv) = false := by
    have e : (before ++ .op o :: .not :: after).flatMap conv = before.flatMap conv ++ .op o :: .not :: after.flatMap conv := by
      simp [List.flatMap_append, List.flatMap_cons, conv]
    have ht : decide (3 ≤ o.level) = true := by
      cases o with
      | or => exact absurd rfl ho.1
      | and => exact absurd rfl ho.2
      | _ => rfl
    rw [e, okFrom_append]
    simp [okFrom, tight, ht]
  have hnone : parseAll false ((before ++ .op o :: .not :: after).flatMap conv) = none := by
    generalize (before ++ .op o :: .not :: after).flatMap conv = ts at hbad
    unfold parseAll
    split
    · rename_i e hpe
      obtain ⟨pre, h1, h2, _⟩ := (python_reads _).1 _ _ _ _ hpe
      rw [List.append_nil] at h1
      subst h1
      rw [show decide (3 ≤ 0) = false from rfl, hbad] at h2
      cases h2
    · rfl
  unfold metaMatch
  rw [hlex]
  simp only [hnone]

example : ruleLex [] c!"A + !B" = some ([.name c!"A"] ++ .op .add :: .not :: [.name c!"B"]) := by decide

example : parseAll true [.name c!"A", .op .add, .not, .name c!"B"] = some (.bin .add (.rule c!"A") (.not (.rule c!"B"))) := by decide

/-- **C10** (violated): `msg` and `match` are valid names of rules and meta rules that refer to them are
accepted, but running one raises an exception, whatever the rules give: in the compiled function
`match = lambda msg: …` the two names stand for the message and for the function itself. -/
theorem C10_own_names_violated (name : Str) (h : name = c!"msg" ∨ name = c!"match") :
    RuleName name ∧ ruleLex [] name = some (written 0 (.rule name)) ∧ findNames [] name = [name] ∧
    pyLex [] (translate name) ≠ none ∧ ∀ env, metaMatch name env = none := by
  have hr : RuleName name := by
    rcases h with rfl | rfl
    · exact ⟨by unfold isLetter; decide, by unfold isLetter; decide⟩
    · exact ⟨by unfold isLetter; decide, by unfold isLetter; decide⟩
  have key : ∀ t e, pyLex [] (translate name) = some t → parseAll false t = some e → e = .rule name →
      ∀ env, metaMatch name env = none := by
    intro t e h1 h2 h3 env
    subst h3
    simp only [metaMatch, h1, h2, pyEval]
    rcases h with rfl | rfl <;> simp [ownNames]
  refine ⟨hr, ?_⟩
  rcases h with rfl | rfl
  · exact ⟨by decide, by decide, by decide,
      key [.name c!"msg", .lp, .name c!"msg", .rp] _ (by decide) (by decide) rfl⟩
  · exact ⟨by decide, by decide, by decide,
      key [.name c!"match", .lp, .name c!"msg", .rp] _ (by decide) (by decide) rfl⟩

/-! A concrete case -/

def demoExpr : Expr :=
  .bin .or (.bin .and (.rule c!"A") (.not (.rule c!"__B"))) (.bin (.cmp .ge)
    (.bin .add (.bin .add (.rule c!"A") (.rule c!"C2")) (.num 3)) (.num 5))

example : ruleLex [] c!"A&&!__B || (A + C2 +3 >= 5)" ≠ some (written 0 demoExpr) := by decide
example : ruleLex [] c!"A&&!__B || A + C2 +3 >= 5" = some (written 0 demoExpr) := by decide
example : ∀ n ∈ demoExpr.names, PlainName n := by
  intro n hn
  simp only [demoExpr, Expr.names] at hn
  revert n
  unfold PlainName
  decide
example : translate c!"A&&!__B || A + C2 +3 >= 5" =
    c!"A(msg) and  not __B(msg)  or  A(msg) + C2(msg) +3 >= 5" := by decide
example : metaMatch c!"A&&!__B || A + C2 +3 >= 5" (fun n => if n = c!"__B" then 0 else 1) = some 1 := by
  decide
example : metaMatch c!"A&&!__B || A + C2 +3 >= 5" (fun n => if n = c!"C2" then 0 else 1) = some 0 := by
  decide

example : RuleName c!"__R2x" := by
  refine ⟨Or.inr rfl, ?_⟩
  simp only [List.mem_cons, List.not_mem_nil, or_false, forall_eq_or_imp, forall_eq]
  unfold isLetter
  decide

end Verif.Props
