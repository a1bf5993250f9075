import Verif.Lemmas.Py
import Verif.Spec.MetaExpr

namespace Verif.MetaExpr
open Verif Py

/-! ### Lexing the translated text -/

/-- What a token of the rule becomes in Python. -/
def conv : Tok → List Tok
  | .name n => [.name n, .lp, .name c!"msg", .rp]
  | t => [t]

@[simp] theorem andThen_some (a b : List Tok) : andThen (some a) (some b) = some (a ++ b) := rfl
@[simp] theorem andThen_none_left (b) : andThen none b = none := rfl
@[simp] theorem andThen_none_right (a) : andThen a none = none := by cases a <;> rfl
theorem andThen_nil_right (a) : andThen a (some []) = a := by cases a <;> simp [andThen]
theorem andThen_nil_left (a) : andThen (some []) a = a := by cases a <;> simp [andThen]
theorem andThen_assoc (a b c) : andThen (andThen a b) c = andThen a (andThen b c) := by
  cases a <;> cases b <;> cases c <;> simp [andThen]

theorem andThen_eq_some {a b : Option (List Tok)} {ts : List Tok} (h : andThen a b = some ts) :
    ∃ x y, a = some x ∧ b = some y ∧ ts = x ++ y := by
  cases a <;> cases b <;> simp [andThen] at h
  exact ⟨_, _, rfl, rfl, h.symm⟩

def suf (b : Bool) : Str := if b then callSuffix else []

def T (b : Bool) (s : Str) : Str := convertOps (subNames b s)

theorem translate_eq (s : Str) : translate s = T false s := rfl

theorem convertOps_pass (p s : Str) (h1 : '&' ∉ p) (h2 : '|' ∉ p) (h3 : '!' ∉ p) :
    convertOps (p ++ s) = p ++ convertOps s := by
  unfold convertOps
  rw [replace_pass _ _ _ _ _ h1, replace_pass _ _ _ _ _ h2, replace_pass _ _ _ _ _ h3]

theorem word_ne {c : Char} (h : isWord c = true) : c ≠ '&' ∧ c ≠ '|' ∧ c ≠ '!' ∧ c ≠ ' ' := by
  refine ⟨?_, ?_, ?_, ?_⟩ <;> (intro e; subst e; revert h; decide)

theorem suf_clean (b : Bool) : '&' ∉ suf b ∧ '|' ∉ suf b ∧ '!' ∉ suf b := by
  cases b <;> decide

theorem T_nil (b : Bool) : T b [] = suf b := by
  unfold T
  have h := suf_clean b
  rw [show subNames b [] = suf b ++ [] by simp [subNames, suf], convertOps_pass _ _ h.1 h.2.1 h.2.2]
  simp [convertOps]

theorem T_word (b : Bool) {c : Char} (h : isWord c = true) (cs : Str) :
    T b (c :: cs) = c :: T (b || isIdStart c) cs := by
  unfold T
  have hn := word_ne h
  rw [show subNames b (c :: cs) = [c] ++ subNames (b || isIdStart c) cs by simp [subNames, h],
    convertOps_pass _ _ (by simp [Ne.symm hn.1]) (by simp [Ne.symm hn.2.1])
      (by simp [Ne.symm hn.2.2.1])]
  rfl

theorem sub_other (b : Bool) {c : Char} (h : isWord c = false) (cs : Str) :
    subNames b (c :: cs) = suf b ++ c :: subNames false cs := by
  simp [subNames, h, suf]

theorem T_other (b : Bool) {c : Char} (h : isWord c = false) (h1 : c ≠ '&') (h2 : c ≠ '|')
    (h3 : c ≠ '!') (cs : Str) : T b (c :: cs) = suf b ++ c :: T false cs := by
  unfold T
  have hs := suf_clean b
  rw [sub_other b h, convertOps_pass _ _ hs.1 hs.2.1 hs.2.2,
    show c :: subNames false cs = [c] ++ subNames false cs from rfl,
    convertOps_pass _ _ (by simp [Ne.symm h1]) (by simp [Ne.symm h2]) (by simp [Ne.symm h3])]
  simp

theorem T_bang (b : Bool) (cs : Str) : T b ('!' :: cs) = suf b ++ (c!" not " ++ T false cs) := by
  unfold T
  have hs := suf_clean b
  rw [sub_other b (by decide), convertOps_pass _ _ hs.1 hs.2.1 hs.2.2]
  congr 1

theorem T_and (b : Bool) (cs : Str) :
    T b ('&' :: '&' :: cs) = suf b ++ (c!" and " ++ T false cs) := by
  unfold T
  have hs := suf_clean b
  rw [sub_other b (by decide), convertOps_pass _ _ hs.1 hs.2.1 hs.2.2, sub_other false (by decide)]
  congr 1
  unfold convertOps
  simp only [suf, Bool.false_eq_true, if_false, List.nil_append]
  rw [replace_cons _ _ (by simp)]
  simp only [List.isPrefixOf, BEq.rfl, Bool.and_self, if_true, List.drop, List.length_cons,
    List.length_nil]
  rw [replace_pass _ _ _ _ _ (by decide), replace_pass _ _ _ _ _ (by decide)]

theorem T_or (b : Bool) (cs : Str) :
    T b ('|' :: '|' :: cs) = suf b ++ (c!" or " ++ T false cs) := by
  unfold T
  have hs := suf_clean b
  rw [sub_other b (by decide), convertOps_pass _ _ hs.1 hs.2.1 hs.2.2, sub_other false (by decide)]
  congr 1
  unfold convertOps
  simp only [suf, Bool.false_eq_true, if_false, List.nil_append]
  rw [show '|' :: '|' :: subNames false cs = ['|', '|'] ++ subNames false cs from rfl,
    replace_pass _ _ _ _ _ (by decide), List.cons_append, replace_cons _ _ (by simp)]
  simp only [List.isPrefixOf, BEq.rfl, Bool.and_self, if_true, List.drop, List.length_cons,
    List.length_nil, List.singleton_append, List.nil_append]
  rw [replace_pass _ _ _ _ _ (by decide)]

theorem pyLex_word (w : Str) {c : Char} (h : isWord c = true) (cs : Str) :
    pyLex w (c :: cs) = pyLex (w ++ [c]) cs := by
  cases cs <;> simp [pyLex, h]

theorem pyLex_space (w : Str) (cs : Str) :
    pyLex w (' ' :: cs) = andThen (pyWord w) (pyLex [] cs) := by
  have h : isWord ' ' = false := by decide
  cases cs with
  | nil => simp [pyLex, h, pyWord, andThen_nil_right]
  | cons d ds => simp [pyLex, h]

theorem pyLex_sym (w : Str) {c : Char} {t : Tok} (cs : Str) (h : isWord c = false) (hs : c ≠ ' ')
    (ht : symTok c = some t) (h2 : ∀ d ds, cs = d :: ds → symTok2 c d = none) :
    pyLex w (c :: cs) = andThen (pyWord w) (andThen (some [t]) (pyLex [] cs)) := by
  cases cs with
  | nil => simp [pyLex, h, hs, ht, pyWord]
  | cons d ds => simp [pyLex, h, hs, ht, h2 d ds rfl]

theorem pyLex_sym2 (w : Str) {c d : Char} {t : Tok} (cs : Str) (h : isWord c = false) (hs : c ≠ ' ')
    (ht : symTok2 c d = some t) :
    pyLex w (c :: d :: cs) = andThen (pyWord w) (andThen (some [t]) (pyLex [] cs)) := by
  simp [pyLex, h, hs, ht]

/-- At a character that is not part of a word the word so far is finished. -/
theorem pyLex_flush (w x : Str) (hx : ∀ c cs, x = c :: cs → isWord c = false) :
    pyLex w x = andThen (pyWord w) (pyLex [] x) := by
  match x, hx with
  | [], _ => simp [pyLex, pyWord, andThen_nil_right]
  | [c], hx =>
    have h := hx c [] rfl
    by_cases hs : c = ' '
    · subst hs; rw [pyLex_space, pyLex_space]; simp [pyLex, pyWord, andThen_nil_right]
    · simp only [pyLex, h, hs, if_false, Bool.false_eq_true, pyWord, if_true, andThen_nil_left]
  | c :: d :: ds, hx =>
    have h := hx c _ rfl
    by_cases hs : c = ' '
    · subst hs; rw [pyLex_space, pyLex_space]; simp [pyWord, andThen_nil_left]
    · simp only [pyLex, h, hs, if_false, Bool.false_eq_true]
      cases symTok2 c d with
      | some t => simp [pyWord, andThen_nil_left]
      | none => cases symTok c with
        | some t => simp [pyWord, andThen_nil_left]
        | none => simp

def PlainToks (ts : List Tok) : Prop := ∀ n, Tok.name n ∈ ts → PlainName n

theorem digit_not_start {c : Char} (h : isDigit c = true) : isIdStart c = false := by
  unfold isDigit Char.isDigit at h
  unfold isIdStart Char.isAlpha Char.isUpper Char.isLower
  simp only [Bool.and_eq_true, decide_eq_true_eq, UInt32.le_iff_toNat_le, ge_iff_le] at h
  have hne : c ≠ '_' := by
    intro e; subst e; revert h; decide
  have h2 : ('9' : Char).val.toNat = 57 := rfl
  have h3 : ('A' : Char).val.toNat = 65 := rfl
  have h4 : ('a' : Char).val.toNat = 97 := rfl
  simp only [Bool.or_eq_false_iff, Bool.and_eq_false_iff, decide_eq_false_iff_not,
    UInt32.le_iff_toNat_le, beq_eq_false_iff_ne, ge_iff_le]
  exact ⟨hne, by omega, by omega⟩

theorem pyWord_of_ruleWord {w : Str} {ts : List Tok} (h : ruleWord w = some ts) (hp : PlainToks ts) :
    pyWord w = some ts := by
  unfold ruleWord at h
  unfold pyWord
  split at h
  · rename_i h1; simpa [h1] using h
  · rename_i h1
    simp only [h1, if_false]
    split at h
    · rename_i h2
      split at h
      · rename_i h3
        have hn : pyNumber w = true := by
          unfold pyNumber
          rcases h3 with h3 | h3
          · subst h3; decide
          · simp [h3]
        simpa [h2, hn] using h
      · cases h
    · rename_i h2
      simp only [h2, if_false, Bool.false_eq_true]
      cases w with
      | nil => exact absurd rfl h1
      | cons c cs =>
        simp only at h ⊢
        split at h
        · rename_i h3
          have hn : PlainName (c :: cs) := hp _ (by cases h; simp)
          obtain ⟨a, b, c', d', _⟩ := hn
          have d : pyReserved.contains (c :: cs) = false := by
            rw [show pyReserved = pythonKeywords from rfl]
            simpa using d'
          simp only [a, b, c', d, h3, if_false, if_true, Bool.false_eq_true]
          exact h
        · cases h

theorem any_start {w : Str} {ts : List Tok} (h : ruleWord w = some ts) :
    (w = [] ∧ ts = []) ∨ (w.any isIdStart = false ∧ ts.flatMap conv = ts) ∨
      (w.any isIdStart = true ∧ ts = [.name w]) := by
  unfold ruleWord at h
  split at h
  · rename_i h1; cases h; exact Or.inl ⟨h1, rfl⟩
  · split at h
    · rename_i h2
      split at h
      · cases h
        refine Or.inr (Or.inl ⟨?_, by simp [conv]⟩)
        rw [List.any_eq_false]
        intro c hc
        rw [List.all_eq_true] at h2
        simp [digit_not_start (h2 c hc)]
      · cases h
    · cases w with
      | nil => simp at h
      | cons c cs =>
        simp only at h
        split at h
        · rename_i h3; cases h; exact Or.inr (Or.inr ⟨by simp [h3], rfl⟩)
        · cases h

/-- Lexing a finished word with the call suffix that the translation puts after it. -/
theorem pyLex_suffix {w : Str} {ts : List Tok} (h : ruleWord w = some ts) (hp : PlainToks ts)
    (x : Str) (hx : ∀ c cs, x = c :: cs → isWord c = false) :
    pyLex w (suf (w.any isIdStart) ++ x) = andThen (some (ts.flatMap conv)) (pyLex [] x) := by
  have hw := pyWord_of_ruleWord h hp
  rcases any_start h with ⟨h1, h2⟩ | ⟨h1, h2⟩ | ⟨h1, h2⟩
  · subst h1; subst h2; simp [suf, andThen_nil_left]
  · rw [h1, h2]; simp only [suf, Bool.false_eq_true, if_false, List.nil_append]
    rw [pyLex_flush w x hx, hw]
  · rw [h1, h2]
    simp only [suf, if_true, callSuffix]
    have e1 : pyLex w ((c!"(msg)" : Str) ++ x) =
        andThen (pyWord w) (andThen (some [.lp]) (pyLex [] ((c!"msg)" : Str) ++ x))) :=
      pyLex_sym w _ (by decide) (by decide) (by decide) (by intro d ds _; rfl)
    have e2 : pyLex [] ((c!"msg)" : Str) ++ x) = pyLex c!"msg" ((c!")" : Str) ++ x) := by
      simp only [List.cons_append]
      rw [pyLex_word _ (by decide), pyLex_word _ (by decide), pyLex_word _ (by decide)]
      rfl
    have e3 : pyLex c!"msg" ((c!")" : Str) ++ x) =
        andThen (pyWord c!"msg") (andThen (some [.rp]) (pyLex [] x)) :=
      pyLex_sym _ _ (by decide) (by decide) (by decide) (by intro d ds _; rfl)
    have e4 : pyWord c!"msg" = some [.name c!"msg"] := by decide
    rw [e1, e2, e3, hw, e4, h2]
    rw [← andThen_assoc, ← andThen_assoc, ← andThen_assoc]
    rfl

/-- The first character of the translated text: the first character itself, or a blank, or
the parenthesis closing a word. -/
theorem T_head (s : Str) (c : Char) (cs : Str) (h : T false s = c :: cs) :
    (∃ ds, s = c :: ds) ∨ c = ' ' := by
  cases s with
  | nil => rw [T_nil] at h; simp [suf] at h
  | cons d ds =>
    by_cases hw : isWord d = true
    · rw [T_word _ hw] at h; cases h; exact Or.inl ⟨_, rfl⟩
    · simp only [Bool.not_eq_true] at hw
      by_cases h3 : d = '!'
      · subst h3; rw [T_bang] at h; simp only [suf, Bool.false_eq_true, if_false, List.nil_append, List.cons_append] at h
        cases h; exact Or.inr rfl
      · by_cases h1 : d = '&' ∧ ∃ es, ds = '&' :: es
        · obtain ⟨h1, es, h2⟩ := h1
          subst h1; subst h2
          rw [T_and] at h
          simp only [suf, Bool.false_eq_true, if_false, List.nil_append, List.cons_append] at h
          cases h; exact Or.inr rfl
        · by_cases h2 : d = '|' ∧ ∃ es, ds = '|' :: es
          · obtain ⟨h1, es, h2⟩ := h2
            subst h1; subst h2
            rw [T_or] at h
            simp only [suf, Bool.false_eq_true, if_false, List.nil_append, List.cons_append] at h
            cases h; exact Or.inr rfl
          · left
            refine ⟨ds, ?_⟩
            -- copied unchanged
            have hcopy : ∃ r, T false (d :: ds) = d :: r := by
              unfold T
              rw [sub_other false hw]
              simp only [suf, Bool.false_eq_true, if_false, List.nil_append]
              have hsub : ∀ e es, subNames false ds = e :: es → ∃ fs, ds = e :: fs := by
                intro e es he
                cases ds with
                | nil => simp [subNames] at he
                | cons x xs =>
                  simp only [subNames] at he
                  split at he
                  · cases he; exact ⟨_, rfl⟩
                  · simp at he; exact ⟨xs, by rw [he.1]⟩
              have hn1 : (c!"&&" : Str).isPrefixOf (d :: subNames false ds) = false := by
                by_cases hd : d = '&'
                · cases hsn : subNames false ds with
                  | nil => simp [List.isPrefixOf]
                  | cons e es =>
                    obtain ⟨fs, hf⟩ := hsub e es hsn
                    have : e ≠ '&' := fun he => h1 ⟨hd, fs, by rw [hf, he]⟩
                    simp [List.isPrefixOf, Ne.symm this]
                · simp [List.isPrefixOf, Ne.symm hd]
              have hn3 : (c!"!" : Str).isPrefixOf (d :: []) = false := by
                simp [List.isPrefixOf, Ne.symm h3]
              unfold convertOps
              rw [replace_cons _ _ (by simp), hn1]
              simp only [Bool.false_eq_true, if_false]
              by_cases hd : d = '|'
              · subst hd
                have hhead : (c!"||" : Str).isPrefixOf ('|' :: replace c!"&&" c!" and " (subNames false ds)) = false := by
                  cases hsn : subNames false ds with
                  | nil => simp [List.isPrefixOf]
                  | cons e es =>
                    obtain ⟨fs, hf⟩ := hsub e es hsn
                    have : e ≠ '|' := fun he => h2 ⟨rfl, fs, by rw [hf, he]⟩
                    rw [replace_cons _ _ (by simp)]
                    split
                    · simp [List.isPrefixOf]
                    · simp [List.isPrefixOf, Ne.symm this]
                rw [replace_cons _ _ (by simp), hhead]
                simp only [Bool.false_eq_true, if_false]
                rw [replace_cons _ _ (by simp)]
                refine ⟨_, if_neg (by simp [List.isPrefixOf])⟩
              · rw [replace_cons _ _ (by simp)]
                have : (c!"||" : Str).isPrefixOf (d :: replace c!"&&" c!" and " (subNames false ds)) = false := by
                  simp [List.isPrefixOf, Ne.symm hd]
                rw [this]
                simp only [Bool.false_eq_true, if_false]
                rw [replace_cons _ _ (by simp)]
                refine ⟨_, if_neg (by simp [List.isPrefixOf, Ne.symm h3])⟩
            obtain ⟨r, hr⟩ := hcopy
            rw [hr] at h; cases h; rfl

theorem meant_one (c : Char) : meant [c] = symTok c := by
  by_cases h : c = '(' ∨ c = ')' ∨ c = '+' ∨ c = '-' ∨ c = '*' ∨ c = '<' ∨ c = '>'
  · rcases h with rfl | rfl | rfl | rfl | rfl | rfl | rfl <;> rfl
  · simp only [not_or] at h
    obtain ⟨h1, h2, h3, h4, h5, h6, h7⟩ := h
    have : symTok c = none := by
      unfold symTok
      split <;> simp_all
    rw [this]
    simp [meant, signs, Ne.symm h1, Ne.symm h2, Ne.symm h3, Ne.symm h4, Ne.symm h5, Ne.symm h6, Ne.symm h7]

theorem meant_two (c d : Char) : meant [c, d] = symTok2 c d := by
  by_cases h : d = '=' ∧ (c = '<' ∨ c = '>' ∨ c = '=')
  · obtain ⟨rfl, rfl | rfl | rfl⟩ := h <;> rfl
  · have : symTok2 c d = none := by
      unfold symTok2
      split <;> simp_all
    rw [this]
    simp only [meant, Option.map_eq_none_iff, List.find?_eq_none]
    intro p hp hq
    simp only [signs, List.mem_cons, List.not_mem_nil, or_false] at hp
    rcases hp with rfl | rfl | rfl | rfl | rfl | rfl | rfl | rfl | rfl | rfl <;> simp at hq
    all_goals (obtain ⟨rfl, rfl⟩ := hq; simp at h)

theorem sym_ne {c : Char} {t : Tok} (h : symTok c = some t) :
    isWord c = false ∧ c ≠ ' ' ∧ c ≠ '&' ∧ c ≠ '|' ∧ c ≠ '!' ∧ conv t = [t] := by
  unfold symTok at h
  split at h <;> first | (cases h; decide) | cases h

theorem sym2_ne {c d : Char} {t : Tok} (h : symTok2 c d = some t) :
    isWord c = false ∧ c ≠ ' ' ∧ c ≠ '&' ∧ c ≠ '|' ∧ c ≠ '!' ∧ isWord d = false ∧
      d ≠ '&' ∧ d ≠ '|' ∧ d ≠ '!' ∧ d ≠ ' ' ∧ conv t = [t] := by
  unfold symTok2 at h
  split at h <;> first | (cases h; decide) | cases h

theorem sym2_blank (c : Char) : symTok2 c ' ' = none := by
  unfold symTok2; split <;> simp_all

theorem plain_app {a b : List Tok} (h : PlainToks (a ++ b)) : PlainToks a ∧ PlainToks b :=
  ⟨fun n hn => h n (List.mem_append_left _ hn), fun n hn => h n (List.mem_append_right _ hn)⟩

/-- `pyLex` reads ` not `, ` and `, ` or ` as keywords. -/
theorem pyLex_kw (k : Str) (t : Tok) (hk : ∀ c ∈ k, isWord c = true) (hkt : pyWord k = some [t])
    (x : Str) : pyLex [] (' ' :: (k ++ ' ' :: x)) = andThen (some [t]) (pyLex [] x) := by
  have hgo : ∀ (k w : Str), (∀ c ∈ k, isWord c = true) → pyLex w (k ++ ' ' :: x) = pyLex (w ++ k) (' ' :: x) := by
    intro k
    induction k with
    | nil => intro w _; simp
    | cons a as ih =>
      intro w h
      rw [List.cons_append, pyLex_word _ (h a (by simp)), ih _ (fun c hc => h c (by simp [hc]))]
      simp
  rw [pyLex_space, hgo k [] hk, List.nil_append, pyLex_space, hkt]
  simp [pyWord, andThen_nil_left]

theorem lex_translate :
    ∀ (n : Nat) (s w : Str) (ts : List Tok), s.length ≤ n → ruleLex w s = some ts → PlainToks ts →
      pyLex w (T (w.any isIdStart) s) = some (ts.flatMap conv) := by
  intro n
  induction n with
  | zero =>
    intro s w ts hl hr hp
    have : s = [] := List.length_eq_zero_iff.1 (by omega)
    subst this
    simp only [ruleLex] at hr
    rw [T_nil]
    have := pyLex_suffix hr hp [] (by simp)
    simpa [pyLex, pyWord] using this
  | succ n ih =>
    intro s w ts hl hr hp
    cases s with
    | nil =>
      simp only [ruleLex] at hr
      rw [T_nil]
      have := pyLex_suffix hr hp [] (by simp)
      simpa [pyLex, pyWord] using this
    | cons c cs =>
      simp only [List.length_cons] at hl
      by_cases hw : isWord c = true
      · -- a word character
        have hr' : ruleLex (w ++ [c]) cs = some ts := by
          cases cs <;> simpa [ruleLex, hw] using hr
        rw [T_word _ hw, pyLex_word _ hw]
        have := ih cs (w ++ [c]) ts (by omega) hr' hp
        simpa [List.any_append] using this
      · simp only [Bool.not_eq_true] at hw
        -- generic step: the word is finished, `mid` is read as the tokens `mt`, then the rest
        have step : ∀ (mid rest : Str) (mt : List Tok), rest.length ≤ n →
            T (w.any isIdStart) (c :: cs) = suf (w.any isIdStart) ++ (mid ++ T false rest) →
            (∀ d ds, mid ++ T false rest = d :: ds → isWord d = false) →
            pyLex [] (mid ++ T false rest) = andThen (some mt) (pyLex [] (T false rest)) →
            mt.flatMap conv = mt →
            andThen (ruleWord w) (andThen (some mt) (ruleLex [] rest)) = some ts →
            pyLex w (T (w.any isIdStart) (c :: cs)) = some (ts.flatMap conv) := by
          intro mid rest mt hlen hT hnw hmid hconv hrl
          obtain ⟨x, y, hx, hy, hxy⟩ := andThen_eq_some hrl
          obtain ⟨m, z, hm, hz, hmz⟩ := andThen_eq_some hy
          cases hm
          subst hxy; subst hmz
          obtain ⟨p1, p2⟩ := plain_app hp
          obtain ⟨p3, p4⟩ := plain_app p2
          have hrest := ih rest [] z hlen hz p4
          simp only [List.any_nil] at hrest
          rw [hT, pyLex_suffix hx p1 _ hnw, hmid, hrest]
          simp [hconv]
        have nw : ∀ (a : Char) (x : Str), isWord a = false → ∀ d ds, a :: x = d :: ds → isWord d = false := by
          intro a x ha d ds h; cases h; exact ha
        by_cases hsp : c = ' '
        · subst hsp
          refine step [' '] cs [] (by omega) (T_other _ (by decide) (by decide) (by decide) (by decide) _)
            (nw _ _ (by decide)) ?_ rfl ?_
          · rw [List.singleton_append, pyLex_space]; simp [pyWord]
          · cases cs with
            | nil => simpa [ruleLex, hw, ruleWord, andThen_nil_left, andThen_nil_right] using hr
            | cons d ds => simpa [ruleLex, hw, andThen_nil_left] using hr
        · by_cases hb : c = '!'
          · subst hb
            refine step c!" not " cs [.not] (by omega) (T_bang _ _) (nw _ _ (by decide))
              (pyLex_kw c!"not" .not (by decide) (by decide) _) rfl ?_
            cases cs with
            | nil => simpa [ruleLex, hw, ruleWord] using hr
            | cons d ds =>
              simp only [ruleLex, hw, Bool.false_eq_true, if_false, if_true,
                show ('!' : Char) ≠ ' ' by decide] at hr
              split at hr
              · cases hr
              · exact hr
          · -- not a blank, not `!`
            cases cs with
            | nil =>
              simp only [ruleLex, meant_one, meant_two, hw, hsp, hb, Bool.false_eq_true, if_false] at hr
              obtain ⟨x, y, hx, hy, hxy⟩ := andThen_eq_some hr
              cases hst : symTok c with
              | none => rw [hst] at hy; cases hy
              | some t =>
                rw [hst] at hy; cases hy
                have hne := sym_ne hst
                refine step [c] [] [t] (by simp)
                  (T_other _ hw hne.2.2.1 hne.2.2.2.1 hne.2.2.2.2.1 _) (nw _ _ hw) ?_
                  (by simp [hne.2.2.2.2.2]) (by rw [hx, hxy]; rfl)
                rw [List.singleton_append, pyLex_sym [] _ hw hsp hst]
                · simp [pyWord, andThen_nil_left]
                · intro d ds h; rw [T_nil] at h; simp [suf] at h
            | cons d ds =>
              simp only [ruleLex, meant_one, meant_two, hw, hsp, hb, Bool.false_eq_true, if_false] at hr
              simp only [List.length_cons] at hl
              split at hr
              · rename_i h
                obtain ⟨h1, h2⟩ := h
                subst h1; subst h2
                exact step c!" and " ds [.op .and] (by omega) (T_and _ _) (nw _ _ (by decide))
                  (pyLex_kw c!"and" (.op .and) (by decide) (by decide) _) rfl hr
              · split at hr
                · rename_i h
                  obtain ⟨h1, h2⟩ := h
                  subst h1; subst h2
                  exact step c!" or " ds [.op .or] (by omega) (T_or _ _) (nw _ _ (by decide))
                    (pyLex_kw c!"or" (.op .or) (by decide) (by decide) _) rfl hr
                · cases hst2 : symTok2 c d with
                  | some t =>
                    rw [hst2] at hr
                    have hne := sym2_ne hst2
                    refine step [c, d] ds [t] (by omega) ?_ (nw _ _ hw) ?_
                      (by simp [hne.2.2.2.2.2.2.2.2.2.2]) hr
                    · rw [T_other _ hw hne.2.2.1 hne.2.2.2.1 hne.2.2.2.2.1,
                        T_other _ hne.2.2.2.2.2.1 hne.2.2.2.2.2.2.1 hne.2.2.2.2.2.2.2.1
                          hne.2.2.2.2.2.2.2.2.1]
                      simp [suf]
                    · rw [List.cons_append, List.singleton_append, pyLex_sym2 [] _ hw hsp hst2]
                      simp [pyWord, andThen_nil_left]
                  | none =>
                    rw [hst2] at hr
                    simp only at hr
                    cases hst : symTok c with
                    | none => rw [hst] at hr; cases hr
                    | some t =>
                      rw [hst] at hr
                      have hne := sym_ne hst
                      refine step [c] (d :: ds) [t] (by simp; omega)
                        (T_other _ hw hne.2.2.1 hne.2.2.2.1 hne.2.2.2.2.1 _) (nw _ _ hw) ?_
                        (by simp [hne.2.2.2.2.2]) hr
                      rw [List.singleton_append, pyLex_sym [] _ hw hsp hst]
                      · simp [pyWord, andThen_nil_left]
                      · intro e es he
                        rcases T_head _ _ _ he with ⟨fs, hf⟩ | hf
                        · cases hf; exact hst2
                        · subst hf; exact sym2_blank c

/-- The Python tokens of the translated text are the rule's tokens, with every name called. -/
theorem lex_translate' {s : Str} {ts : List Tok} (h : ruleLex [] s = some ts) (hp : PlainToks ts) :
    pyLex [] (translate s) = some (ts.flatMap conv) := by
  have := lex_translate s.length s [] ts (Nat.le_refl _) h hp
  simpa [translate_eq] using this

end Verif.MetaExpr
