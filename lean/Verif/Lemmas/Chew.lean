import Verif.Model.Chew
import Verif.Spec.Chew
import Verif.Lemmas.Tokens

/-!
# Substitution of whole words
-/

namespace Verif.Chew
open Verif Py Re Tokens Spec

theorem isWord_iff (c : Char) : isWord c = true ↔ plainMark c := by
  simp [isWord, plainMark]

theorem isWord_false {c : Char} : isWord c = false ↔ ¬ plainMark c := by
  rw [← isWord_iff]; simp

theorem space_not_word {c : Char} (h : isSpace c = true) : isWord c = false := by
  cases hw : isWord c with
  | false => rfl
  | true =>
    rw [isWord_iff] at hw
    simp only [isSpace, plainMark, Char.isAlphanum, Char.isAlpha, Char.isUpper, Char.isLower, Char.isDigit, Bool.or_eq_true,
      Bool.and_eq_true, decide_eq_true_eq, beq_iff_eq, UInt32.le_iff_toNat_le, List.contains_eq_mem, List.mem_cons,
      List.not_mem_nil, or_false, Char.toNat, ← Char.val_inj, ← UInt32.toNat_inj] at h hw
    have : c.toNat = c.val.toNat := rfl
    simp at h hw
    omega

/-! ### Words -/

theorem bareFrom_run : ∀ (u cur rest : Str), (∀ c ∈ u, plainMark c) → bareFrom cur (u ++ rest) = bareFrom (cur ++ u) rest := by
  intro u
  induction u with
  | nil => intro cur rest _; simp
  | cons c cs ih =>
    intro cur rest h
    rw [List.cons_append, bareFrom, if_pos (h c (by simp)), ih _ _ fun d hd => h d (List.mem_cons_of_mem _ hd)]
    simp

theorem bareWords_run {u rest : Str} (h0 : u ≠ []) (h : ∀ c ∈ u, plainMark c) (hr : wordAt rest = false) :
    bareWords (u ++ rest) = u :: bareWords rest := by
  unfold bareWords
  rw [bareFrom_run u [] rest h, List.nil_append]
  cases rest with
  | nil => simp [bareFrom, h0]
  | cons d ds =>
    have : ¬ plainMark d := isWord_false.1 hr
    simp [bareFrom, h0, this]

theorem bareWords_skip {c : Char} (h : isWord c = false) (s : Str) : bareWords (c :: s) = bareWords s := by
  unfold bareWords
  rw [bareFrom, if_neg (isWord_false.1 h)]
  simp

theorem bareWords_skips : ∀ (x s : Str), (∀ c ∈ x, isWord c = false) → bareWords (x ++ s) = bareWords s := by
  intro x
  induction x with
  | nil => intro s _; rfl
  | cons c cs ih =>
    intro s h
    rw [List.cons_append, bareWords_skip (h c (by simp)), ih s fun d hd => h d (List.mem_cons_of_mem _ hd)]

/-- What is before a character that ends words does not matter for the words after it. -/
theorem bareFrom_split {c : Char} (h : isWord c = false) (y : Str) : ∀ (x cur : Str), bareFrom cur (x ++ c :: y) = bareFrom cur x ++ bareWords y := by
  intro x
  induction x with
  | nil => intro cur; simp [bareFrom, isWord_false.1 h, bareWords]
  | cons d ds ih =>
    intro cur
    rw [List.cons_append, bareFrom, bareFrom]
    split
    · rw [ih]
    · rw [ih, List.append_assoc]

theorem bareWords_append {x y : Str} (h : wordAt x.reverse = false ∨ wordAt y = false) : bareWords (x ++ y) = bareWords x ++ bareWords y := by
  rcases h with h | h
  · rcases List.eq_nil_or_concat x with rfl | ⟨x', c, rfl⟩
    · rfl
    · rw [List.concat_eq_append] at h ⊢
      rw [List.reverse_append] at h
      have hc : isWord c = false := h
      rw [List.append_assoc]
      show bareFrom [] (x' ++ c :: y) = bareFrom [] (x' ++ c :: []) ++ _
      rw [bareFrom_split hc, bareFrom_split hc]
      simp [bareWords, bareFrom]
  · cases y with
    | nil => simp [bareWords, bareFrom]
    | cons c y =>
      show bareFrom [] (x ++ c :: y) = _
      rw [bareFrom_split h, bareWords_skip h]
      rfl

/-- A word between characters that end words. -/
theorem bareWords_mem {x u y : Str} (h0 : u ≠ []) (hu : ∀ c ∈ u, plainMark c) (hx : wordAt x.reverse = false) (hy : wordAt y = false) :
    u ∈ bareWords (x ++ u ++ y) := by
  rw [List.append_assoc, bareWords_append (Or.inl hx), bareWords_run h0 hu hy]
  simp

theorem takeWhile_append_dropWhile_word (s : Str) : s = s.takeWhile isWord ++ s.dropWhile isWord := List.takeWhile_append_dropWhile.symm

theorem wordAt_dropWhile : ∀ s : Str, wordAt (s.dropWhile isWord) = false
  | [] => rfl
  | c :: cs => by
    rw [List.dropWhile_cons]
    split
    · exact wordAt_dropWhile cs
    · rename_i h
      simpa [wordAt] using h

theorem mem_takeWhile_word : ∀ {s : Str} {d : Char}, d ∈ s.takeWhile isWord → isWord d = true
  | [], d, h => by cases h
  | c :: cs, d, h => by
    rw [List.takeWhile_cons] at h
    split at h
    · rcases List.mem_cons.1 h with rfl | h
      · assumption
      · exact mem_takeWhile_word h
    · cases h

/-- A run of characters of words that is followed by another character is the same however the text is divided. -/
theorem run_unique : ∀ {w u a rest : Str}, (∀ d ∈ w, isWord d = true) → wordAt a = false → (∀ d ∈ u, isWord d = true) → wordAt rest = false →
    w ++ a = u ++ rest → w = u
  | [], [], _, _, _, _, _, _, _ => rfl
  | [], d :: u, a, rest, _, ha, hu, _, e => by
    rw [List.nil_append, List.cons_append] at e
    rw [e] at ha
    exact absurd (hu d (by simp)) (by rw [show isWord d = false from ha]; simp)
  | d :: w, [], a, rest, hw, _, _, hr, e => by
    rw [List.nil_append, List.cons_append] at e
    rw [← e] at hr
    exact absurd (hw d (by simp)) (by rw [show isWord d = false from hr]; simp)
  | c :: w, d :: u, a, rest, hw, ha, hu, hr, e => by
    simp only [List.cons_append, List.cons.injEq] at e
    obtain ⟨rfl, e⟩ := e
    rw [run_unique (w := w) (u := u) (fun x hx => hw x (List.mem_cons_of_mem _ hx)) ha (fun x hx => hu x (List.mem_cons_of_mem _ hx)) hr e]

/-! ### Substitution -/

theorem reads_words {b a : Str} : ∀ {W : List Str} {w : Str}, Reads (alts (W.map lit)) b w a ↔ w ∈ W := by
  intro W
  induction W with
  | nil => intro w; simp [alts, Reads]
  | cons x W ih =>
    intro w
    cases W with
    | nil => simp [alts, Reads.lit]
    | cons y W =>
      simp only [List.map_cons, alts, Reads.alt, Reads.lit] at ih ⊢
      rw [ih]
      simp

theorem reads_wordRe {W : List Str} {b w a : Str} : Reads (wordRe W) b w a ↔
    w ∈ W ∧ wordAt b ≠ wordAt (w ++ a) ∧ wordAt (w.reverse ++ b) ≠ wordAt a := by
  constructor
  · rintro ⟨u, v, rfl, ⟨rfl, h1⟩, u', v', rfl, h2, rfl, h3⟩
    refine ⟨?_, by simpa using h1, by simpa using h3⟩
    simpa using reads_words.1 h2
  · rintro ⟨h1, h2, h3⟩
    exact ⟨[], w, rfl, ⟨rfl, h2⟩, w, [], by simp, reads_words.2 h1, rfl, by simpa using h3⟩

/-- Where no match begins the text stays. -/
theorem subGo_stays {r : Re} {f : St → Str} {B : Str} : ∀ (w b : Str),
    (∀ x v, w = x ++ v → v ≠ [] → m r ⟨x.reverse ++ b, v ++ B, []⟩ some = none) →
    subGo r f 0 b (w ++ B) = w ++ subGo r f 0 (w.reverse ++ b) B := by
  intro w
  induction w with
  | nil => intro b _; rfl
  | cons c cs ih =>
    intro b h
    have h1 := h [] (c :: cs) rfl (by simp)
    rw [List.cons_append] at h1
    rw [List.cons_append, subGo]
    simp only [List.reverse_nil, List.nil_append] at h1
    rw [h1]
    simp only
    rw [ih (c :: b) fun x v e hv => by
      have := h (c :: x) v (by simp [e]) hv
      simpa using this]
    simp

theorem sub_stays {r : Re} {f : St → Str} {s : Str} (h : ∀ x w a, s = x ++ w ++ a → ¬ Reads r x.reverse w a) : sub r f s = s := by
  have := subGo_stays (r := r) (f := f) (B := []) s [] (fun x v e hv => by
    cases hm : m r ⟨x.reverse ++ [], v ++ [], []⟩ some with
    | none => rfl
    | some t =>
      obtain ⟨w, h1, _, h3⟩ := m_some_takes hm
      simp only [List.append_nil] at h1 h3
      exact absurd h3 (h x w _ (by rw [e, h1]; simp)))
  simp only [List.append_nil, subGo] at this
  exact this

/-- No match where a character that every match takes does not occur. -/
theorem sub_none {r : Re} {f : St → Str} {q : Char → Prop} (hm : Must q r) {s : Str} (h : ∀ c ∈ s, ¬ q c) : sub r f s = s := by
  apply sub_stays
  intro x w a e hr
  obtain ⟨c, hc, hq⟩ := hr.must hm
  exact h c (by rw [e]; simp [hc]) hq

/-- One character at a time. -/
theorem subGo_chr (p : Char → Bool) (out : Str) : ∀ (s b : Str),
    subGo (.chr p) (fun _ => out) 0 b s = s.flatMap fun c => if p c then out else [c] := by
  intro s
  induction s with
  | nil => intro b; rfl
  | cons c cs ih =>
    intro b
    rw [subGo]
    by_cases h : p c = true
    · simp [m, h, ih]
    · simp [m, h, ih]

/-- The first match takes exactly one text. -/
theorem m_takes {r : Re} {b w a : Str} (h : Reads r b w a) (hu : ∀ w' a', w ++ a = w' ++ a' → Reads r b w' a' → w' = w) :
    ∃ t, m r ⟨b, w ++ a, []⟩ some = some t ∧ t.after = a := by
  have := (m_isSome r ⟨b, w ++ a, []⟩).2 ⟨w, a, rfl, h⟩
  cases hm : m r ⟨b, w ++ a, []⟩ some with
  | none => simp [hm] at this
  | some t =>
    obtain ⟨w', h1, _, h3⟩ := m_some_takes hm
    have := hu w' _ h1 h3
    subst this
    exact ⟨t, rfl, (List.append_cancel_left h1).symm⟩

/-- No whole word begins with a character that is not part of words. -/
theorem subGo_nonword {W : List Str} (hW : ∀ w ∈ W, w ≠ [] ∧ ∀ c ∈ w, plainMark c) {out : Str} {c : Char} (hc : isWord c = false) (cs b : Str) :
    subGo (wordRe W) (fun _ => out) 0 b (c :: cs) = c :: subGo (wordRe W) (fun _ => out) 0 (c :: b) cs := by
  rw [subGo]
  cases hm : m (wordRe W) ⟨b, c :: cs, []⟩ some with
  | none => rfl
  | some t =>
    obtain ⟨w, h1, _, h3⟩ := m_some_takes hm
    obtain ⟨h4, _, _⟩ := reads_wordRe.1 h3
    obtain ⟨h5, h6⟩ := hW w h4
    cases w with
    | nil => exact absurd rfl h5
    | cons d w =>
      rw [List.cons_append] at h1
      obtain ⟨rfl, _⟩ := List.cons.inj h1
      exact absurd (h6 c (by simp)) (isWord_false.1 hc)

/-- Substituting whole words by something that is not part of a word. -/
theorem subGo_words {W : List Str} (hW : ∀ w ∈ W, w ≠ [] ∧ ∀ c ∈ w, plainMark c) {out : Str} (ho : ∀ c ∈ out, isWord c = false) :
    ∀ (n : Nat) (s b : Str), s.length ≤ n → wordAt b = false →
      bareWords (subGo (wordRe W) (fun _ => out) 0 b s) = (bareWords s).filter (fun w => !W.contains w) ∧
      (wordAt s = false → wordAt (subGo (wordRe W) (fun _ => out) 0 b s) = false) := by
  intro n
  induction n with
  | zero =>
    intro s b hl _
    have : s = [] := by simpa using hl
    subst this
    exact ⟨rfl, fun _ => rfl⟩
  | succ n ih =>
    intro s b hl hb
    cases s with
    | nil => exact ⟨rfl, fun _ => rfl⟩
    | cons c cs =>
      by_cases hc : isWord c = true
      · refine ⟨?_, fun h => by simp [wordAt, hc] at h⟩
        have hu0 : (c :: cs).takeWhile isWord ≠ [] := by simp [List.takeWhile_cons, hc]
        have huw : ∀ d ∈ (c :: cs).takeWhile isWord, isWord d = true := fun d hd => mem_takeWhile_word hd
        have hr := wordAt_dropWhile (c :: cs)
        have es := takeWhile_append_dropWhile_word (c :: cs)
        have hlen : ((c :: cs).dropWhile isWord).length ≤ n := by
          have h1 := congrArg List.length es
          rw [List.length_append] at h1
          have h2 := List.length_pos_iff.2 hu0
          simp only [List.length_cons] at h1 hl
          omega
        generalize (c :: cs).takeWhile isWord = u at *
        generalize (c :: cs).dropWhile isWord = rest at *
        rw [es]
        have hub : ∀ x, wordAt (u.reverse ++ x) = true := by
          intro x
          rcases List.eq_nil_or_concat u with rfl | ⟨u', d, rfl⟩
          · exact absurd rfl hu0
          · simp only [List.concat_eq_append, List.reverse_append, List.reverse_cons, List.reverse_nil, List.nil_append,
              List.singleton_append, List.cons_append]
            exact huw d (by simp)
        have hua : ∀ v x, v ≠ [] → (∀ d ∈ v, isWord d = true) → wordAt (v ++ x) = true := by
          intro v x h1 h2
          cases v with
          | nil => exact absurd rfl h1
          | cons d v => exact h2 d (by simp)
        have hend : ∀ w a, w ++ a = u ++ rest → w ∈ W → wordAt (w.reverse ++ b) ≠ wordAt a → w = u := by
          intro w a e hw ht
          have hw1 := hW w hw
          have hww : ∀ d ∈ w, isWord d = true := fun d hd => (isWord_iff d).2 (hw1.2 d hd)
          have hwb : wordAt (w.reverse ++ b) = true := by
            rcases List.eq_nil_or_concat w with rfl | ⟨w', d, rfl⟩
            · exact absurd rfl hw1.1
            · simp only [List.concat_eq_append, List.reverse_append, List.reverse_cons, List.reverse_nil, List.nil_append,
                List.singleton_append, List.cons_append]
              exact hww d (by simp)
          rw [hwb] at ht
          have ha : wordAt a = false := by simpa using ht
          exact run_unique hww ha huw hr e
        have hplain : ∀ d ∈ u, plainMark d := fun d hd => (isWord_iff d).1 (huw d hd)
        have hnext : wordAt (u.reverse ++ b) = true := hub b
        by_cases hin : u ∈ W
        · obtain ⟨t, ht, hta⟩ := m_takes (r := wordRe W) (b := b) (w := u) (a := rest)
            (reads_wordRe.2 ⟨hin, by rw [hb, hua u rest hu0 huw]; simp, by rw [hnext, hr]; simp⟩)
            (fun w' a' e h => by
              obtain ⟨h1, _, h3⟩ := reads_wordRe.1 h
              exact hend w' a' e.symm h1 h3)
          rw [subGo_match hu0 hta ht, bareWords_skips _ _ ho, bareWords_run hu0 hplain hr]
          -- after the word, the one before is part of a word
          cases rest with
          | nil => simp [subGo, bareWords, bareFrom, hin]
          | cons d ds =>
            have hd : isWord d = false := hr
            have hst := subGo_nonword (W := W) (out := out) hW hd ds (u.reverse ++ b)
            rw [hst, bareWords_skip hd, bareWords_skip hd]
            rw [(ih ds (d :: (u.reverse ++ b)) (by simp at hlen; omega) hd).1]
            simp [hin]
        · have hst := subGo_stays (r := wordRe W) (f := fun _ => out) (B := rest) u b (fun x v e hv => by
            cases hm : m (wordRe W) ⟨x.reverse ++ b, v ++ rest, []⟩ some with
            | none => rfl
            | some t =>
              obtain ⟨w, h1, _, h3⟩ := m_some_takes hm
              obtain ⟨h4, h5, h6⟩ := reads_wordRe.1 h3
              have hvw : ∀ d ∈ v, isWord d = true := fun d hd => huw d (by rw [e]; simp [hd])
              rw [← h1, hua v rest hv hvw] at h5
              have hx : x = [] := by
                cases hx' : x with
                | nil => rfl
                | cons d x' =>
                  have : wordAt (x.reverse ++ b) = true := by
                    rcases List.eq_nil_or_concat x with rfl | ⟨x'', d', rfl⟩
                    · cases hx'
                    · simp only [List.concat_eq_append, List.reverse_append, List.reverse_cons, List.reverse_nil, List.nil_append,
                        List.singleton_append, List.cons_append]
                      exact huw d' (by rw [e]; simp)
                  exact absurd this h5
              subst hx
              simp only [List.nil_append] at e
              subst e
              exact absurd (hend w _ h1.symm h4 (by simpa using h6) ▸ h4) hin)
          rw [hst]
          cases rest with
          | nil =>
            rw [subGo]
            rw [bareWords_run hu0 hplain rfl]
            simp [bareWords, bareFrom, hin]
          | cons d ds =>
            have hd : isWord d = false := hr
            rw [subGo_nonword (W := W) (out := out) hW hd ds (u.reverse ++ b), bareWords_run hu0 hplain (by exact hd),
              bareWords_run hu0 hplain (by exact hd), bareWords_skip hd, bareWords_skip hd,
              (ih ds (d :: (u.reverse ++ b)) (by simp at hlen; omega) hd).1]
            simp [hin]
      · have hc' : isWord c = false := by simpa using hc
        rw [subGo_nonword (W := W) (out := out) hW hc' cs b]
        refine ⟨?_, fun _ => hc'⟩
        rw [bareWords_skip hc', bareWords_skip hc', (ih cs (c :: b) (by simp at hl; omega) hc').1]

theorem sub_words {W : List Str} (hW : ∀ w ∈ W, w ≠ [] ∧ ∀ c ∈ w, plainMark c) {out : Str} (ho : ∀ c ∈ out, isWord c = false) (s : Str) :
    bareWords (sub (wordRe W) (fun _ => out) s) = (bareWords s).filter (fun w => !W.contains w) :=
  (subGo_words hW ho s.length s [] (Nat.le_refl _) rfl).1

theorem sub_blank (s : Str) : sub (.chr (fun c => !isWord c)) (fun _ => c!" ") s = blanked s := by
  unfold sub blanked
  rw [subGo_chr]
  induction s with
  | nil => rfl
  | cons c cs ih =>
    rw [List.flatMap_cons, List.map_cons, ih]
    by_cases h : plainMark c
    · have := (isWord_iff c).2 h
      simp [h, this]
    · have := isWord_false.2 h
      simp [h, this]

/-! ### Matching -/

theorem m_times {p : Char → Bool} {g : List (Nat × Str)} {k : St → Option St} : ∀ {n : Nat} {w b a : Str}, w.length = n → (∀ c ∈ w, p c = true) →
    m (times (.chr p) n) ⟨b, w ++ a, g⟩ k = k ⟨w.reverse ++ b, a, g⟩
  | 0, w, b, a, hl, _ => by
    have : w = [] := by simpa using hl
    subst this
    rfl
  | n + 1, [], b, a, hl, _ => by simp at hl
  | n + 1, c :: w, b, a, hl, hw => by
    rw [times, List.cons_append, m_seq, m_chr (hw c (by simp)), m_times (by simpa using hl) fun d hd => hw d (List.mem_cons_of_mem _ hd)]
    simp

theorem m_group {n : Nat} {r : Re} {s : St} {k : St → Option St} :
    m (.group n r) s k = m r s (fun t => k { t with groups := (n, s.after.take (s.after.length - t.after.length)) :: t.groups }) := by rw [m]

theorem m_group_times {p : Char → Bool} {i n : Nat} {g : List (Nat × Str)} {k : St → Option St} {w b a : Str} (hl : w.length = n)
    (hw : ∀ c ∈ w, p c = true) : m (.group i (times (.chr p) n)) ⟨b, w ++ a, g⟩ k = k ⟨w.reverse ++ b, a, (i, w) :: g⟩ := by
  rw [m_group, m_times hl hw]
  simp

theorem reads_timesOk {p : Char → Bool} : ∀ {n : Nat} {b w a : Str}, w.length = n → (∀ c ∈ w, p c = true) → Reads (times (.chr p) n) b w a
  | 0, b, w, a, hl, _ => by
    have : w = [] := by simpa using hl
    subst this
    rfl
  | n + 1, b, [], a, hl, _ => by simp at hl
  | n + 1, b, c :: w, a, hl, hw =>
    ⟨[c], w, rfl, ⟨c, rfl, hw c (by simp)⟩, reads_timesOk (by simpa using hl) fun d hd => hw d (List.mem_cons_of_mem _ hd)⟩

theorem reads_upToOk {p : Char → Bool} : ∀ {n : Nat} {b w a : Str}, w.length ≤ n → (∀ c ∈ w, p c = true) → Reads (upTo (.chr p) n) b w a
  | 0, b, w, a, hl, _ => by
    have : w = [] := by simpa using hl
    subst this
    rfl
  | n + 1, b, [], a, _, _ => .inr rfl
  | n + 1, b, c :: w, a, hl, hw =>
    .inl ⟨[c], w, rfl, ⟨c, rfl, hw c (by simp)⟩, reads_upToOk (by simpa using hl) fun d hd => hw d (List.mem_cons_of_mem _ hd)⟩

theorem reads_repOk {p : Char → Bool} {lo hi : Nat} {b w a : Str} (h1 : lo ≤ w.length) (h2 : w.length ≤ hi) (hw : ∀ c ∈ w, p c = true) :
    Reads (rep (.chr p) lo hi) b w a :=
  ⟨w.take lo, w.drop lo, (List.take_append_drop _ _).symm, reads_timesOk (by simp; omega) fun c hc => hw c (List.mem_of_mem_take hc),
    reads_upToOk (by simp; omega) fun c hc => hw c (List.mem_of_mem_drop hc)⟩

/-- The last of several expressions. -/
theorem reads_snoc {x : Re} : ∀ {l : List Re} {b w a : Str}, Reads (seqs (l ++ [x])) b w a →
    ∃ u v, w = u ++ v ∧ Reads (seqs l) b u (v ++ a) ∧ Reads x (u.reverse ++ b) v a := by
  intro l
  induction l with
  | nil => intro b w a h; exact ⟨[], w, rfl, rfl, h⟩
  | cons y l ih =>
    intro b w a h
    have h' : Reads (.seq y (seqs (l ++ [x]))) b w a := by
      cases l with
      | nil => exact h
      | cons z l => exact h
    obtain ⟨u, v, rfl, h1, h2⟩ := h'
    obtain ⟨u', v', rfl, h3, h4⟩ := ih h2
    refine ⟨u ++ u', v', by simp, ?_, by simpa using h4⟩
    cases l with
    | nil =>
      have : u' = [] := h3
      subst this
      simpa [seqs] using h1
    | cons z l => exact ⟨u, u', rfl, by simpa using h1, h3⟩

/-- A text that ends with a character that is nowhere else in it. -/
theorem mark_unique {z : Char} : ∀ {u u' a a' : Str}, z ∉ u → z ∉ u' → u ++ z :: a = u' ++ z :: a' → u = u' ∧ a = a'
  | [], [], a, a', _, _, e => ⟨rfl, (List.cons.inj e).2⟩
  | [], d :: u', a, a', _, h, e => by
    have := (List.cons.inj e).1
    exact absurd (this ▸ List.mem_cons_self) h
  | d :: u, [], a, a', h, _, e => by
    have := (List.cons.inj e).1
    exact absurd (this ▸ List.mem_cons_self) h
  | c :: u, d :: u', a, a', h, h', e => by
    simp only [List.cons_append, List.cons.injEq] at e
    obtain ⟨rfl, e⟩ := e
    obtain ⟨rfl, rfl⟩ := mark_unique (u := u) (u' := u') (fun x => h (List.mem_cons_of_mem _ x)) (fun x => h' (List.mem_cons_of_mem _ x)) e
    exact ⟨rfl, rfl⟩

/-- An expression whose matches begin with a character that occurs only once. -/
theorem begins_once {z : Char} {pre t x w a : Str} (hp : z ∉ pre) (ht : z ∉ t) (e : pre ++ z :: t = x ++ (z :: w) ++ a) :
    x = pre ∧ t = w ++ a := by
  rw [List.append_assoc, List.cons_append] at e
  have hx : z ∉ x := by
    intro hx
    -- then it would occur twice
    have h1 := congrArg (List.count z) e
    rw [List.count_append, List.count_cons_self, List.count_eq_zero.2 hp, List.count_eq_zero.2 ht, List.count_append,
      List.count_cons_self] at h1
    have := List.count_pos_iff.2 hx
    omega
  obtain ⟨h1, h2⟩ := mark_unique hp hx e
  exact ⟨h1.symm, h2⟩

theorem subGo_none {r : Re} {f : St → Str} {q : Char → Prop} (hm : Must q r) {s b : Str} (h : ∀ c ∈ s, ¬ q c) : subGo r f 0 b s = s := by
  have := subGo_stays (r := r) (f := f) (B := []) s b (fun x v e hv => by
    cases hmm : m r ⟨x.reverse ++ b, v ++ [], []⟩ some with
    | none => rfl
    | some t =>
      obtain ⟨w, h1, _, h3⟩ := m_some_takes hmm
      obtain ⟨c, hc, hq⟩ := h3.must hm
      exact absurd hq (h c (by rw [e, ← List.append_nil v, h1]; simp [hc])))
  simpa [subGo] using this

/-- A match in a text where there is no other. -/
theorem sub_once {r : Re} {f : St → Str} {z : Char} {pre w rest : Str} {t : St} (hm : Must (fun c => c = z) r) (hpre : z ∉ pre) (hrest : z ∉ rest)
    (hfirst : ∀ b w a, Reads r b w a → w.head? = some z) (ht : m r ⟨pre.reverse, w ++ rest, []⟩ some = some t) (hta : t.after = rest) :
    sub r f (pre ++ (w ++ rest)) = pre ++ f t ++ rest := by
  obtain ⟨w', h1, _, h3⟩ := m_some_takes ht
  rw [hta] at h1
  have hw : w ≠ [] := by
    rintro rfl
    have : w' = [] := by simpa using (List.append_cancel_right h1).symm
    rw [this] at h3
    have := hfirst _ _ _ h3
    simp at this
  unfold sub
  rw [subGo_stays (B := w ++ rest) pre [] (fun x v e hv => by
    cases hmm : m r ⟨x.reverse ++ [], v ++ (w ++ rest), []⟩ some with
    | none => rfl
    | some t' =>
      obtain ⟨w'', h1, _, h3⟩ := m_some_takes hmm
      have hf := hfirst _ _ _ h3
      cases v with
      | nil => exact absurd rfl hv
      | cons d v =>
        cases w'' with
        | nil => simp at hf
        | cons d' w'' =>
          simp only [List.head?_cons, Option.some.injEq] at hf
          simp only [List.cons_append, List.cons.injEq] at h1
          exact absurd (by rw [e, h1.1, hf]; simp) hpre), List.append_nil, subGo_match hw hta ht, subGo_none hm fun c hc e => hrest (e ▸ hc)]
  simp

/-- If only one text can be read, the matcher reads it. -/
theorem m_one {r : Re} {b w a : Str} {g : List (Nat × Str)} (k : St → Option St) (hn : NoGroup r) (h : Reads r b w a)
    (hu : ∀ w' a', w ++ a = w' ++ a' → Reads r b w' a' → w' = w) : m r ⟨b, w ++ a, g⟩ k = k ⟨w.reverse ++ b, a, g⟩ := by
  apply m_unique
  · exact h.ways_noGroup g hn
  · rintro ⟨b', a', g'⟩ ht
    obtain ⟨w', h1, h2, h3⟩ := ht.reads
    have h4 := ht.groups hn
    have := hu w' a' h1 h3
    subst this
    simp only at h1 h2 h4
    rw [h2, h4, List.append_cancel_left h1]

/-- Two texts of the same length at the same place. -/
theorem same_length {w a w' a' : Str} (e : w ++ a = w' ++ a') (h : w'.length = w.length) : w' = w := (List.append_inj e.symm h).1

/-- Words of one length. -/
theorem m_words {W : List Str} {n : Nat} (hW : ∀ w ∈ W, w.length = n) {w b a : Str} {g : List (Nat × Str)} (k : St → Option St) (h : w ∈ W) :
    m (alts (W.map lit)) ⟨b, w ++ a, g⟩ k = k ⟨w.reverse ++ b, a, g⟩ := by
  apply m_one k
  · exact NoGroup.alts (by intro r hr; obtain ⟨w, _, rfl⟩ := List.mem_map.1 hr; exact NoGroup.lit w)
  · exact reads_words.2 h
  · intro w' a' e h'
    have := reads_words.1 h'
    exact same_length e (by rw [hW _ this, hW _ h])

/-- How many characters an expression can read, if it has no `*`. -/
def width : Re → Nat
  | .chr _ => 1
  | .seq a b => width a + width b
  | .alt a b => max (width a) (width b)
  | .group _ r => width r
  | _ => 0

/-- Without `*`. -/
def NoStar : Re → Prop
  | .star _ _ => False
  | .seq a b => NoStar a ∧ NoStar b
  | .alt a b => NoStar a ∧ NoStar b
  | .group _ r => NoStar r
  | _ => True

theorem width_le : ∀ {r : Re} {b w a : Str}, NoStar r → Reads r b w a → w.length ≤ width r := by
  intro r
  induction r with
  | eps => intro b w a _ h; have h : w = [] := h; simp [h]
  | chr p => intro b w a _ h; obtain ⟨c, rfl, _⟩ := h; simp [width]
  | seq x y ihx ihy =>
    intro b w a hn h
    obtain ⟨u, v, rfl, h1, h2⟩ := h
    have := ihx hn.1 h1
    have := ihy hn.2 h2
    simp [width]; omega
  | alt x y ihx ihy =>
    intro b w a hn h
    rcases h with h | h
    · have := ihx hn.1 h; simp [width]; omega
    · have := ihy hn.2 h; simp [width]; omega
  | star g p => intro b w a hn _; exact hn.elim
  | group n r ih => intro b w a hn h; exact ih hn (Reads.group.1 h)
  | bol => intro b w a _ h; have := h.1; simp [this]
  | eol => intro b w a _ h; have := h.1; simp [this]
  | wordb => intro b w a _ h; have := h.1; simp [this]
  | nbehind p => intro b w a _ h; have := h.1; simp [this]
  | nahead p => intro b w a _ h; have := h.1; simp [this]

/-- Two lists of expressions one after the other. -/
theorem reads_seqs_append {l' : List Re} (h' : l' ≠ []) : ∀ {l : List Re} {b w a : Str}, Reads (seqs (l ++ l')) b w a →
    ∃ u v, w = u ++ v ∧ Reads (seqs l) b u (v ++ a) ∧ Reads (seqs l') (u.reverse ++ b) v a := by
  intro l
  induction l with
  | nil => intro b w a h; exact ⟨[], w, rfl, rfl, h⟩
  | cons y l ih =>
    intro b w a h
    have h0 : Reads (.seq y (seqs (l ++ l'))) b w a := by
      cases l with
      | nil =>
        cases l' with
        | nil => exact absurd rfl h'
        | cons z l' => exact h
      | cons z l => exact h
    obtain ⟨u, v, rfl, h1, h2⟩ := h0
    obtain ⟨u', v', rfl, h3, h4⟩ := ih h2
    refine ⟨u ++ u', v', by simp, ?_, by simpa using h4⟩
    cases l with
    | nil =>
      have : u' = [] := h3
      subst this
      simpa [seqs] using h1
    | cons z l => exact ⟨u, u', rfl, by simpa using h1, h3⟩

end Verif.Chew
