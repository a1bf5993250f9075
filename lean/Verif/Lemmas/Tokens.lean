import Verif.Model.Tokens
import Verif.Spec.Tokens
import Verif.Lemmas.Re
import Verif.Lemmas.Split
import Verif.Lemmas.NetText

/-! How words get through the cleaning of a line. -/

namespace Verif.Tokens
open Verif Py Re Spec

theorem runs_reads {b w a : Str} (h : Reads runsRe b w a) :
    (w ≠ [] ∧ ∀ c ∈ w, runChar c = true) ∨ (w ≠ [] ∧ ∀ c ∈ w, 128 ≤ c.toNat) := by
  unfold runsRe at h
  simp only [alts] at h
  have hge : ∀ lo hi, 128 ≤ lo → Only (fun c => 128 ≤ c.toNat) (.chr (between lo hi)) := by
    intro lo hi hl c hc
    simp only [between, Bool.and_eq_true, decide_eq_true_eq] at hc
    omega
  rcases h with h | h | h | h | h
  · exact .inl (Reads.plus.1 h)
  · right
    refine ⟨?_, h.only (q := fun c => 128 ≤ c.toNat) ⟨hge _ _ (by decide), hge _ _ (by decide)⟩⟩
    rintro rfl
    obtain ⟨c, hc, _⟩ := h.must (q := fun _ => True) (.inl fun _ _ => trivial)
    cases hc
  · right
    refine ⟨?_, h.only (q := fun c => 128 ≤ c.toNat) ⟨hge _ _ (by decide), Only.times (hge _ _ (by decide)) _⟩⟩
    rintro rfl
    obtain ⟨c, hc, _⟩ := h.must (q := fun _ => True) (.inl fun _ _ => trivial)
    cases hc
  · right
    refine ⟨?_, h.only (q := fun c => 128 ≤ c.toNat) ⟨hge _ _ (by decide), Only.times (hge _ _ (by decide)) _⟩⟩
    rintro rfl
    obtain ⟨c, hc, _⟩ := h.must (q := fun _ => True) (.inl fun _ _ => trivial)
    cases hc
  · right
    refine ⟨?_, h.only (q := fun c => 128 ≤ c.toNat) (hge _ _ (by decide))⟩
    rintro rfl
    obtain ⟨c, hc, _⟩ := h
    cases hc

theorem runs_must : Must (fun _ => True) runsRe := by
  unfold runsRe
  refine Must.alts ?_
  intro r hr
  simp only [List.mem_cons, List.not_mem_nil, or_false] at hr
  rcases hr with rfl | rfl | rfl | rfl | rfl
  · exact .inl fun _ _ => trivial
  · exact .inl fun _ _ => trivial
  · exact .inl fun _ _ => trivial
  · exact .inl fun _ _ => trivial
  · exact fun _ _ => trivial

/-- A run is taken as a whole. -/
theorem runs_match {w b a : Str} (h0 : w ≠ []) (hw : ∀ c ∈ w, runChar c = true) (ha : ∀ c, a.head? = some c → runChar c = false) :
    m runsRe ⟨b, w ++ a, []⟩ some = some ⟨w.reverse ++ b, a, []⟩ := by
  unfold runsRe
  simp only [alts]
  refine m_altL ?_
  refine plus_greedy h0 hw ?_ rfl
  cases a with
  | nil => rfl
  | cons c cs => simpa [headIn] using ha c rfl

theorem takeWhile_head (p : Char → Bool) (s : Str) : ∀ c, (s.dropWhile p).head? = some c → p c = false := by
  intro c hc
  induction s with
  | nil => cases hc
  | cons d s ih =>
    rw [List.dropWhile_cons] at hc
    split at hc
    · exact ih hc
    · simp at hc; subst hc; simpa using ‹¬ p d = true›

theorem takeWhile_all (p : Char → Bool) (s : Str) : ∀ c ∈ s.takeWhile p, p c = true := by
  intro c hc
  induction s with
  | nil => cases hc
  | cons d s ih =>
    rw [List.takeWhile_cons] at hc
    split at hc
    · rcases List.mem_cons.1 hc with rfl | hc
      · assumption
      · exact ih hc
    · cases hc

theorem runs_go {w y : Str} (h0 : w ≠ []) (hw : ∀ c ∈ w, runChar c = true ∧ c.toNat < 128) : ∀ (x : Str) (n : Nat) (b : Str),
    n ≤ x.length → ∃ l u l', findGo runsRe n b (x ++ w ++ y) = l ++ (u ++ w ++ y.takeWhile runChar) :: l' ∧ u <:+ x := by
  intro x
  induction x with
  | nil =>
    intro n b hn
    have : n = 0 := by simpa using hn
    subst this
    refine ⟨[], [], findGo runsRe 0 ((w ++ y.takeWhile runChar).reverse ++ b) (y.dropWhile runChar), ?_, List.suffix_refl _⟩
    have e : [] ++ w ++ y = (w ++ y.takeWhile runChar) ++ y.dropWhile runChar := by simp
    rw [e, findGo_match (by simp [h0]) (runs_match (by simp [h0]) ?_ (takeWhile_head _ _))]
    · rfl
    · intro c hc
      rcases List.mem_append.1 hc with hc | hc
      · exact (hw c hc).1
      · exact takeWhile_all _ _ c hc
  | cons c cs ih =>
    intro n b hn
    cases n with
    | succ n =>
      obtain ⟨l, u, l', hl, hu⟩ := ih n (c :: b) (by simpa using hn)
      refine ⟨l, u, l', ?_, hu.trans (List.suffix_cons _ _)⟩
      rw [List.cons_append, List.cons_append, findGo, hl]
    | zero =>
      by_cases hall : ∀ d ∈ c :: cs, runChar d = true
      · refine ⟨[], c :: cs, findGo runsRe 0 ((c :: cs ++ w ++ y.takeWhile runChar).reverse ++ b) (y.dropWhile runChar), ?_,
          List.suffix_refl _⟩
        have e : c :: cs ++ w ++ y = (c :: cs ++ w ++ y.takeWhile runChar) ++ y.dropWhile runChar := by simp
        rw [e, findGo_match (by simp) (runs_match (by simp) ?_ (takeWhile_head _ _))]
        · rfl
        · intro d hd
          rcases List.mem_append.1 hd with hd | hd
          · rcases List.mem_append.1 hd with hd | hd
            · exact hall d hd
            · exact (hw d hd).1
          · exact takeWhile_all _ _ d hd
      · rw [List.cons_append, List.cons_append, findGo]
        cases hmm : m runsRe ⟨b, c :: (cs ++ w ++ y), []⟩ some with
        | none =>
          obtain ⟨l, u, l', hl, hu⟩ := ih 0 (c :: b) (by simp)
          exact ⟨l, u, l', hl, hu.trans (List.suffix_cons _ _)⟩
        | some t =>
          obtain ⟨v, h1, h2, h3⟩ := m_some_takes hmm
          have hlen : v.length ≤ (c :: cs).length := by
            apply Classical.byContradiction
            intro hgt
            obtain ⟨d, ds, rfl⟩ := List.exists_cons_of_ne_nil h0
            have hp : (c :: cs) ++ [d] <+: v := by
              apply List.prefix_of_prefix_length_le (l₃ := (c :: cs) ++ d :: ds ++ y)
              · exact ⟨ds ++ y, by simp⟩
              · exact ⟨t.after, by rw [← h1]; rfl⟩
              · simp at hgt ⊢; omega
            rcases runs_reads h3 with ⟨_, hr⟩ | ⟨_, hr⟩
            · exact hall fun e he => hr e (hp.subset (List.mem_append_left _ he))
            · have := hr d (hp.subset (by simp))
              have := (hw d (by simp)).2
              omega
          have hn : (c :: (cs ++ w ++ y)).length - t.after.length = v.length := by rw [h1]; simp
          obtain ⟨l, u, l', hl, hu⟩ := ih (v.length - 1) (c :: b) (by simp at hlen ⊢; omega)
          refine ⟨v :: l, u, l', ?_, hu.trans (List.suffix_cons _ _)⟩
          rw [hn] at h2
          simp only [hn, hl]
          rw [h2]
          rfl

theorem getLast_suffix {u x : Str} (h : u <:+ x) (hu : u ≠ []) : u.getLast? = x.getLast? := by
  obtain ⟨t, rfl⟩ := h
  rw [List.getLast?_append]
  cases e : u.getLast? with
  | none => exact absurd (List.getLast?_eq_none_iff.1 e) hu
  | some c => rfl

/-- A word that stands in the line stands in what is left of it. -/
theorem stands_runs {w line : Str} (h0 : w ≠ []) (hw : ∀ c ∈ w, runChar c = true ∧ c.toNat < 128) (h : Stands w line) :
    Stands w (join c!" " (findAll runsRe line)) := by
  obtain ⟨a, b, rfl, ha, hb⟩ := h
  obtain ⟨l, u, l', e, hu⟩ := runs_go (y := b) h0 hw a 0 [] (by simp)
  rw [findAll, e]
  have hu' : ∀ c, u.getLast? = some c → isSpace c = true := by
    intro c hc
    refine ha c ?_
    rw [← getLast_suffix hu (by rintro rfl; cases hc)]
    exact hc
  have hv : ∀ c, (b.takeWhile runChar ++ if l' = [] then [] else c!" " ++ join c!" " l').head? = some c → isSpace c = true := by
    intro c hc
    cases b with
    | nil =>
      simp only [List.takeWhile_nil, List.nil_append] at hc
      split at hc
      · cases hc
      · simp at hc; subst hc; decide
    | cons d ds =>
      have hd := hb d rfl
      have : runChar d = true := by simp [runChar, hd]
      rw [List.takeWhile_cons, if_pos this] at hc
      simp at hc
      exact hc ▸ hd
  have hj : join c!" " ((u ++ w ++ b.takeWhile runChar) :: l') =
      u ++ w ++ (b.takeWhile runChar ++ if l' = [] then [] else c!" " ++ join c!" " l') := by
    cases l' with
    | nil => simp [join]
    | cons x xs => simp [join]
  by_cases hl : l = []
  · subst hl
    exact ⟨u, _, by rw [List.nil_append, hj], hu', hv⟩
  · rw [Net.join_append _ _ _ hl (by simp), hj]
    refine ⟨join c!" " l ++ c!" " ++ u, _, by simp only [List.append_assoc], ?_, hv⟩
    intro c hc
    rw [List.getLast?_append] at hc
    cases e : u.getLast? with
    | none =>
      rw [e] at hc
      simp at hc
      subst hc
      decide
    | some d =>
      rw [e] at hc
      simp at hc
      exact hu' c (hc ▸ e)

/-! ### Substitution -/

theorem reads_times {p : Char → Bool} : ∀ {n : Nat} {b w a : Str}, Reads (times (.chr p) n) b w a → w.length = n ∧ ∀ c ∈ w, p c = true
  | 0, b, w, a, h => by
    simp only [times, Reads] at h
    subst h
    exact ⟨rfl, by simp⟩
  | n + 1, b, w, a, h => by
    obtain ⟨u, v, rfl, ⟨c, rfl, hc⟩, hv⟩ := Reads.seq.1 h
    obtain ⟨h1, h2⟩ := reads_times hv
    refine ⟨by simp [h1], ?_⟩
    intro d hd
    rcases List.mem_append.1 hd with hd | hd
    · simp at hd; exact hd ▸ hc
    · exact h2 d hd

theorem reads_upTo {p : Char → Bool} : ∀ {n : Nat} {b w a : Str}, Reads (upTo (.chr p) n) b w a → ∀ c ∈ w, p c = true
  | 0, b, w, a, h => by
    simp only [upTo, Reads] at h
    subst h
    simp
  | n + 1, b, w, a, h => by
    rcases h with h | h
    · obtain ⟨u, v, rfl, ⟨c, rfl, hc⟩, hv⟩ := h
      intro d hd
      rcases List.mem_append.1 hd with hd | hd
      · simp at hd; exact hd ▸ hc
      · exact reads_upTo hv d hd
    · simp only [Reads] at h
      subst h
      simp

/-- What a separator between two words is. -/
theorem separator_ways {c : Char} {lo : Nat} {s t : St} (h : Ways (separatorRe c lo) s t) :
    ∃ a k d, s.after = a :: (List.replicate k c ++ d :: t.after) ∧ wordChar a = true ∧ wordChar d = true ∧ lo ≤ k ∧
      apart t = [a] ++ c!" " ++ List.replicate k c ++ c!" " ++ [d] := by
  unfold separatorRe at h
  simp only [seqs] at h
  cases h with
  | seq h1 h =>
  cases h with
  | seq h2 h3 =>
  cases h1 with
  | group h1 =>
  cases h1 with
  | chr hc1 =>
  cases h2 with
  | group h2 =>
  cases h3 with
  | group h3 =>
  rename_i c1 b1 a1 gs v u
  obtain ⟨w2, e2, _, r2⟩ := h2.reads
  obtain ⟨w3, e3, _, r3⟩ := h3.reads
  have g2 := h2.groups (NoGroup.rep (show NoGroup (.chr _) from trivial) _ _)
  have g3 := h3.groups trivial
  simp only at e2 e3 g2 g3
  obtain ⟨x, y, rfl, hx, hy⟩ := Reads.seq.1 r2
  obtain ⟨d, rfl, hd⟩ := r3
  have ⟨lx, hx⟩ := reads_times hx
  have hy := reads_upTo hy
  have er : x ++ y = List.replicate (x ++ y).length c := by
    rw [List.eq_replicate_iff]
    refine ⟨rfl, ?_⟩
    intro e he
    rcases List.mem_append.1 he with he | he
    · simpa using hx e he
    · simpa using hy e he
  refine ⟨c1, (x ++ y).length, d, ?_, hc1, hd, by simp; omega, ?_⟩
  · rw [← er, e2, e3]; simp
  · have t1 : (c1 :: a1).length - a1.length = 1 := by rw [List.length_cons]; omega
    have t2 : a1.take (a1.length - v.after.length) = x ++ y := by
      rw [e2, List.length_append, Nat.add_sub_cancel, List.take_left]
    have t3 : v.after.take (v.after.length - u.after.length) = [d] := by
      rw [e3]
      simp
    simp only [apart, St.get, g3, g2, t1, t2, t3, Dict.get?, ← er]
    simp

theorem separator_match {c : Char} {lo : Nat} {b a : Str} {t : St} (h : m (separatorRe c lo) ⟨b, a, []⟩ some = some t) :
    ∃ x k d, a = x :: (List.replicate k c ++ d :: t.after) ∧ wordChar x = true ∧ wordChar d = true ∧ lo ≤ k ∧
      apart t = [x] ++ c!" " ++ List.replicate k c ++ c!" " ++ [d] := by
  obtain ⟨t', hw, e⟩ := m_sound _ _ _ _ h
  simp at e
  subst e
  exact separator_ways hw

theorem wordChar_nonblank {c : Char} (h : wordChar c = true) : isSpace c = false := by
  cases hs : isSpace c with
  | false => rfl
  | true =>
    exfalso
    simp only [isSpace, wordChar, between, Char.isAlphanum, Char.isAlpha, Char.isUpper, Char.isLower, Char.isDigit, Bool.or_eq_true,
      Bool.and_eq_true, decide_eq_true_eq, beq_iff_eq, UInt32.le_iff_toNat_le, List.contains_eq_mem, List.mem_cons,
      List.not_mem_nil, or_false, Char.toNat, bne_iff_ne, ← Char.val_inj, ← UInt32.toNat_inj] at h hs
    have : c.toNat = c.val.toNat := rfl
    simp at h
    omega

/-- What is skipped belongs to the match. -/
theorem subGo_skip (r : Re) (f : St → Str) : ∀ (w b a : Str), subGo r f w.length b (w ++ a) = subGo r f 0 (w.reverse ++ b) a := by
  intro w
  induction w with
  | nil => intro b a; rfl
  | cons c cs ih =>
    intro b a
    rw [List.cons_append, List.length_cons, subGo, ih]
    simp

/-- A match at the beginning. -/
theorem subGo_match {r : Re} {f : St → Str} {b w a : Str} {t : St} (hw : w ≠ []) (ht : t.after = a)
    (h : m r ⟨b, w ++ a, []⟩ some = some t) : subGo r f 0 b (w ++ a) = f t ++ subGo r f 0 (w.reverse ++ b) a := by
  cases w with
  | nil => exact absurd rfl hw
  | cons c cs =>
    rw [List.cons_append] at h
    rw [List.cons_append, subGo, h]
    have hn : (c :: (cs ++ a)).length - t.after.length - 1 = cs.length := by rw [ht]; simp; omega
    simp only [hn, subGo_skip]
    simp

/-- A character that no match takes stays, and separates what is before it from what is after it. -/
theorem subGo_split {r : Re} {f : St → Str} {z : Char} {q : Char → Prop} (ho : Only (fun c => c ≠ z) r) (hm : Must q r) (y : Str) :
    ∀ (x : Str) (n : Nat) (b : Str), n ≤ x.length →
      ∃ l, subGo r f n b (x ++ z :: y) = l ++ z :: subGo r f 0 (z :: (x.reverse ++ b)) y := by
  intro x
  induction x with
  | nil =>
    intro n b hn
    have : n = 0 := by simpa using hn
    subst this
    refine ⟨[], ?_⟩
    simp only [List.nil_append]
    rw [subGo]
    cases hmm : m r ⟨b, z :: y, []⟩ some with
    | none => rfl
    | some t =>
      obtain ⟨w, h1, _, h3⟩ := m_some_takes hmm
      cases w with
      | nil =>
        obtain ⟨c, hc, _⟩ := h3.must hm
        simp at hc
      | cons c cs =>
        simp at h1
        exact absurd h1.1.symm (h3.only ho c (by simp))
  | cons c cs ih =>
    intro n b hn
    cases n with
    | succ n =>
      obtain ⟨l, hl⟩ := ih n (c :: b) (by simpa using hn)
      refine ⟨l, ?_⟩
      rw [List.cons_append, subGo, hl]
      simp
    | zero =>
      rw [List.cons_append, subGo]
      cases hmm : m r ⟨b, c :: (cs ++ z :: y), []⟩ some with
      | none =>
        obtain ⟨l, hl⟩ := ih 0 (c :: b) (by simp)
        refine ⟨c :: l, ?_⟩
        simp only [hl]
        simp
      | some t =>
        obtain ⟨w, h1, h2, h3⟩ := m_some_takes hmm
        have hlen : w.length ≤ (c :: cs).length := by
          have hw : ∀ d ∈ w, d ≠ z := h3.only ho
          apply Classical.byContradiction
          intro hgt
          have : z ∈ w := by
            have h1' : (c :: cs) ++ z :: y = w ++ t.after := by simpa using h1
            have hp : (c :: cs) ++ [z] <+: w := by
              apply List.prefix_of_prefix_length_le (l₃ := (c :: cs) ++ z :: y)
              · exact ⟨y, by simp⟩
              · exact ⟨t.after, h1'.symm⟩
              · simp at hgt ⊢; omega
            exact hp.subset (by simp)
          exact hw z this rfl
        have hn : (c :: (cs ++ z :: y)).length - t.after.length - 1 = w.length - 1 := by rw [h1]; simp
        obtain ⟨l, hl⟩ := ih (w.length - 1) (c :: b) (by simp at hlen ⊢; omega)
        refine ⟨f t ++ l, ?_⟩
        simp only [hn, hl]
        simp

/-- A character that no match takes stays. -/
theorem subGo_stay {r : Re} {f : St → Str} {z : Char} {q : Char → Prop} (ho : Only (fun c => c ≠ z) r) (hm : Must q r) (y b : Str) :
    subGo r f 0 b (z :: y) = z :: subGo r f 0 (z :: b) y := by
  rw [subGo]
  cases hmm : m r ⟨b, z :: y, []⟩ some with
  | none => rfl
  | some t =>
    obtain ⟨w, h1, _, h3⟩ := m_some_takes hmm
    cases w with
    | nil =>
      obtain ⟨c, hc, _⟩ := h3.must hm
      simp at hc
    | cons c cs =>
      simp at h1
      exact absurd h1.1.symm (h3.only ho c (by simp))

/-- Where no match begins the text stays. -/
theorem subGo_keep {r : Re} {f : St → Str} {B : Str} : ∀ (w b : Str),
    (∀ v, v ≠ [] → v <:+ w → ∀ b, m r ⟨b, v ++ B, []⟩ some = none) →
    subGo r f 0 b (w ++ B) = w ++ subGo r f 0 (w.reverse ++ b) B := by
  intro w
  induction w with
  | nil => intro b _; rfl
  | cons c cs ih =>
    intro b h
    have h1 := h (c :: cs) (by simp) (List.suffix_refl _) b
    rw [List.cons_append] at h1
    rw [List.cons_append, subGo, h1]
    simp only
    rw [ih _ fun v hv hs => h v hv (hs.trans (List.suffix_cons _ _))]
    simp

theorem separator_must (c : Char) (lo : Nat) : Must (fun _ => True) (separatorRe c lo) := by
  unfold separatorRe
  exact Must.seqs ⟨.group 1 (.chr wordChar), by simp, fun _ _ => trivial⟩

theorem separator_only {c z : Char} (hc : isSpace c = false) (hz : isSpace z = true) (lo : Nat) :
    Only (fun d => d ≠ z) (separatorRe c lo) := by
  have hw : Only (fun d => d ≠ z) (.chr wordChar) := by
    rintro d hd rfl
    rw [wordChar_nonblank hd] at hz
    cases hz
  unfold separatorRe
  refine Only.seqs ?_
  intro r hr
  simp only [List.mem_cons, List.not_mem_nil, or_false] at hr
  rcases hr with rfl | rfl | rfl
  · exact hw
  · refine Only.rep ?_ _ _
    rintro d hd rfl
    simp at hd
    subst hd
    rw [hc] at hz; cases hz
  · exact hw

theorem prefix_of_blank {u v B : Str} (h : u <+: v ++ B) (hu : ∀ c ∈ u, isSpace c = false)
    (hB : ∀ c, B.head? = some c → isSpace c = true) : u <+: v := by
  cases B with
  | nil => simpa using h
  | cons z B =>
    have hz := hB z rfl
    by_cases hl : u.length ≤ v.length
    · exact List.prefix_of_prefix_length_le h ⟨_, rfl⟩ hl
    · have hp : v ++ [z] <+: u := by
        apply List.prefix_of_prefix_length_le (l₃ := v ++ z :: B)
        · exact ⟨B, by simp⟩
        · exact h
        · simp; omega
      have := hu z (hp.subset (by simp))
      rw [hz] at this; cases this

theorem stands_separator {c : Char} {lo : Nat} {w text : Str} (hc : isSpace c = false) (h0 : w ≠ [])
    (hw : ¬ List.replicate lo c <:+: w) (h : Stands w text) : Stands w (sub (separatorRe c lo) apart text) := by
  obtain ⟨a, b, rfl, ha, hb⟩ := h
  have hkeep : ∀ b', subGo (separatorRe c lo) apart 0 b' (w ++ b) = w ++ subGo (separatorRe c lo) apart 0 (w.reverse ++ b') b := by
    intro b'
    refine subGo_keep w b' ?_
    intro v hv hs b'
    cases hmm : m (separatorRe c lo) ⟨b', v ++ b, []⟩ some with
    | none => rfl
    | some t =>
      exfalso
      obtain ⟨x, k, d, e, hx, hd, hk, _⟩ := separator_match hmm
      have hp : x :: (List.replicate k c ++ [d]) <+: v := by
        refine prefix_of_blank (B := b) ⟨t.after, by rw [e]; simp⟩ ?_ hb
        intro y hy
        simp only [List.mem_cons, List.mem_append, List.mem_replicate, List.not_mem_nil, or_false] at hy
        rcases hy with rfl | ⟨_, rfl⟩ | rfl
        · exact wordChar_nonblank hx
        · exact hc
        · exact wordChar_nonblank hd
      apply hw
      obtain ⟨s1, e1⟩ := hs
      obtain ⟨s2, e2⟩ := hp
      obtain ⟨k, rfl⟩ := Nat.exists_eq_add_of_le hk
      refine ⟨s1 ++ [x], List.replicate k c ++ [d] ++ s2, ?_⟩
      rw [← e1, ← e2, ← List.replicate_append_replicate]
      simp only [List.append_assoc, List.cons_append, List.nil_append]
  have hend : ∀ b' d, (subGo (separatorRe c lo) apart 0 b' b).head? = some d → isSpace d = true := by
    intro b' d hd
    cases b with
    | nil => cases hd
    | cons z b =>
      have hz := hb z rfl
      rw [subGo_stay (separator_only hc hz lo) (separator_must c lo)] at hd
      simp at hd
      exact hd ▸ hz
  rw [sub]
  rcases List.eq_nil_or_concat a with rfl | ⟨a, z, rfl⟩
  · rw [List.nil_append, hkeep]
    exact ⟨[], _, rfl, by simp, hend _⟩
  · have hz := ha z (by simp)
    obtain ⟨l, hl⟩ := subGo_split (f := apart) (separator_only hc hz lo) (separator_must c lo) (w ++ b) a 0 [] (by simp)
    rw [List.concat_eq_append, List.append_assoc, List.append_assoc, List.singleton_append, hl, hkeep]
    refine ⟨l ++ [z], _, by simp only [List.append_assoc, List.singleton_append]; rfl, ?_, hend _⟩
    simp [hz]

/-- A word that stands in the line stands in the cleaned line. -/
theorem stands_clean {w line : Str} (h0 : w ≠ []) (hw : ∀ c ∈ w, runChar c = true ∧ c.toNat < 128)
    (h1 : ¬ c!"..." <:+: w) (h2 : ¬ c!"--" <:+: w) (h : Stands w line) : Stands w (clean line) :=
  stands_separator (lo := 2) (by decide) h0 h2 (stands_separator (lo := 3) (by decide) h0 h1 (stands_runs h0 hw h))

theorem mem_readWs {w b : Str} (h0 : Word w) (hb : ∀ c, b.head? = some c → isSpace c = true) : ∀ (a cur : Str),
    (a = [] → cur = []) → (∀ c, a.getLast? = some c → isSpace c = true) → w ∈ readWs cur (a ++ w ++ b) := by
  intro a
  induction a with
  | nil =>
    intro cur hc _
    have hc := hc rfl
    subst hc
    rw [List.nil_append, readWs_run _ _ _ h0.2, List.nil_append]
    cases b with
    | nil => simp [readWs, h0.1]
    | cons z b => simp [readWs, hb z rfl, h0.1]
  | cons d a ih =>
    intro cur _ ha
    rw [List.cons_append, List.cons_append, readWs]
    split
    · refine List.mem_append_right _ (ih [] (fun _ => rfl) ?_)
      intro c hc
      refine ha c ?_
      rw [List.getLast?_cons, hc]; rfl
    · refine ih _ ?_ ?_
      · rintro rfl
        have := ha d (by simp)
        contradiction
      · intro c hc
        refine ha c ?_
        rw [List.getLast?_cons, hc]; rfl

theorem stands_split {w text : Str} (h0 : Word w) (h : Stands w text) : w ∈ splitWs text := by
  obtain ⟨a, b, rfl, ha, hb⟩ := h
  rw [splitWs_read]
  exact mem_readWs h0 hb a [] (fun _ => rfl) ha

/-! ### Nothing but what is in the line -/

theorem mem_readWs_infix {w : Str} : ∀ (s cur : Str), (∀ c ∈ cur, isSpace c = false) → w ∈ readWs cur s →
    w <:+: cur ++ s ∧ Word w := by
  intro s
  induction s with
  | nil =>
    intro cur hc h
    rw [readWs] at h
    split at h
    · cases h
    · simp at h
      subst h
      exact ⟨by simp, ‹_›, hc⟩
  | cons d s ih =>
    intro cur hc h
    rw [readWs] at h
    split at h
    · rcases List.mem_append.1 h with h | h
      · split at h
        · cases h
        · simp at h
          subst h
          exact ⟨(List.prefix_append _ _).isInfix, ‹_›, hc⟩
      · obtain ⟨⟨x, y, e⟩, hw⟩ := ih [] (by simp) h
        refine ⟨⟨cur ++ d :: x, y, ?_⟩, hw⟩
        rw [List.nil_append] at e
        rw [← e]
        simp
    · obtain ⟨h1, hw⟩ := ih (cur ++ [d]) (by
        intro c hcc
        rcases List.mem_append.1 hcc with hcc | hcc
        · exact hc c hcc
        · rename_i hd _
          rw [List.mem_singleton] at hcc
          rw [hcc]
          simpa using hd) h
      exact ⟨by simpa using h1, hw⟩

theorem split_infix {w s : Str} (h : w ∈ splitWs s) : w <:+: s ∧ Word w := by
  rw [splitWs_read] at h
  exact mem_readWs_infix s [] (by simp) h

theorem findGo_infix {r : Re} {w : Str} : ∀ (a : Str) (n : Nat) (b : Str), w ∈ findGo r n b a → w <:+: a := by
  intro a
  induction a with
  | nil => intro n b h; cases n <;> · rw [findGo] at h; cases h
  | cons c cs ih =>
    intro n b h
    cases n with
    | succ n =>
      rw [findGo] at h
      exact (ih _ _ h).trans (List.suffix_cons _ _).isInfix
    | zero =>
      rw [findGo] at h
      split at h
      · exact (ih _ _ h).trans (List.suffix_cons _ _).isInfix
      · rcases List.mem_cons.1 h with rfl | h
        · exact (List.take_prefix _ _).isInfix
        · exact (ih _ _ h).trans (List.suffix_cons _ _).isInfix

/-- A piece without blanks of texts joined by a blank is a piece of one of them. -/
theorem infix_blank {w x y : Str} {z : Char} (h : w <:+: x ++ z :: y) (hw : z ∉ w) : w <:+: x ∨ w <:+: y := by
  obtain ⟨s, t, e⟩ := h
  rcases List.append_eq_append_iff.1 e with ⟨u, e1, e2⟩ | ⟨u, e1, e2⟩
  · left
    exact ⟨s, u, e1.symm⟩
  · cases u with
    | nil => left; exact ⟨s, [], by simpa using e1⟩
    | cons d u =>
      simp at e2
      obtain ⟨rfl, e2⟩ := e2
      rcases List.append_eq_append_iff.1 e1 with ⟨v, e3, e4⟩ | ⟨v, e3, e4⟩
      · exact absurd (by rw [e4]; simp) hw
      · cases v with
        | nil => simp at e4; exact absurd (by rw [← e4]; simp) hw
        | cons d' v =>
          simp at e4
          obtain ⟨rfl, e4⟩ := e4
          right
          exact ⟨v, t, by rw [e2, e4]⟩

theorem infix_join {w : Str} (hw : ' ' ∉ w) (h0 : w ≠ []) : ∀ (l : List Str), w <:+: join c!" " l → ∃ x ∈ l, w <:+: x
  | [], h => absurd (List.eq_nil_of_infix_nil h) h0
  | [x], h => ⟨x, by simp, h⟩
  | x :: y :: l, h => by
    rw [join, List.append_assoc, List.singleton_append] at h
    rcases infix_blank h hw with h | h
    · exact ⟨x, by simp, h⟩
    · obtain ⟨v, hv, h⟩ := infix_join hw h0 (y :: l) h
      exact ⟨v, List.mem_cons_of_mem _ hv, h⟩

theorem prefix_blank {w x y : Str} {z : Char} (h : w <+: x ++ z :: y) (hw : z ∉ w) : w <+: x := by
  by_cases hl : w.length ≤ x.length
  · exact List.prefix_of_prefix_length_le h ⟨_, rfl⟩ hl
  · have hp : x ++ [z] <+: w := by
      apply List.prefix_of_prefix_length_le (l₃ := x ++ z :: y)
      · exact ⟨y, by simp⟩
      · exact h
      · simp; omega
    exact absurd (hp.subset (by simp)) hw

theorem infix_cons {w s : Str} {c : Char} (h : w <:+: c :: s) : w <+: c :: s ∨ w <:+: s := by
  rwa [List.infix_cons_iff] at h

/-- A piece without blanks of the line with the words taken apart is a piece of the line. -/
theorem separator_infix {c : Char} {lo : Nat} : ∀ (n : Nat) (s b : Str), s.length ≤ n → ∀ w : Str, ' ' ∉ w →
    (w <+: subGo (separatorRe c lo) apart 0 b s → w <+: s) ∧ (w <:+: subGo (separatorRe c lo) apart 0 b s → w <:+: s) := by
  intro n
  induction n with
  | zero =>
    intro s b hs w hw
    have : s = [] := List.length_eq_zero_iff.1 (by omega)
    subst this
    rw [subGo]
    exact ⟨id, id⟩
  | succ n ih =>
    intro s b hs w hw
    cases s with
    | nil => rw [subGo]; exact ⟨id, id⟩
    | cons e s =>
      have hpre : ∀ (x : Char) (out rest : Str), (∀ v : Str, ' ' ∉ v → v <+: out → v <+: rest) → w <+: x :: out → w <+: x :: rest := by
        intro x out rest h hp
        cases w with
        | nil => exact List.nil_prefix
        | cons y w =>
          rw [List.cons_prefix_cons] at hp ⊢
          exact ⟨hp.1, h w (fun h => hw (List.mem_cons_of_mem _ h)) hp.2⟩
      cases hmm : m (separatorRe c lo) ⟨b, e :: s, []⟩ some with
      | none =>
        have ih' := ih s (e :: b) (by simpa using hs)
        rw [subGo, hmm]
        simp only
        have hp := hpre e _ s (fun v hv => (ih' v hv).1)
        refine ⟨hp, fun h => ?_⟩
        rcases infix_cons h with h | h
        · exact (hp h).isInfix
        · exact ((ih' w hw).2 h).trans (List.suffix_cons _ _).isInfix
      | some t =>
        obtain ⟨x, k, d, e1, _, _, _, ha⟩ := separator_match hmm
        have e2 : e :: s = (x :: (List.replicate k c ++ [d])) ++ t.after := by rw [e1]; simp
        have ih' := ih t.after ((x :: (List.replicate k c ++ [d])).reverse ++ b) (by
          have := congrArg List.length e2
          simp at this hs
          omega)
        rw [e2] at hmm ⊢
        rw [subGo_match (by simp) rfl hmm, ha]
        have e3 : ∀ rest : Str, [x] ++ c!" " ++ List.replicate k c ++ c!" " ++ [d] ++ rest =
            [x] ++ ' ' :: (List.replicate k c ++ ' ' :: (d :: rest)) := by simp
        rw [e3]
        constructor
        · intro h
          have := prefix_blank h hw
          exact this.trans ⟨_, rfl⟩
        · intro h
          have hd : ∀ v : Str, v <:+: d :: t.after → v <:+: (x :: (List.replicate k c ++ [d])) ++ t.after := by
            intro v hv
            exact hv.trans ⟨x :: List.replicate k c, [], by simp⟩
          rcases infix_blank h hw with h | h
          · exact h.trans ⟨[], List.replicate k c ++ [d] ++ t.after, by simp⟩
          · rcases infix_blank h hw with h | h
            · exact h.trans ⟨[x], [d] ++ t.after, by simp⟩
            · apply hd
              rcases infix_cons h with h | h
              · exact (hpre d _ t.after (fun v hv => (ih' v hv).1) h).isInfix
              · exact ((ih' w hw).2 h).trans (List.suffix_cons _ _).isInfix

theorem blank_notin {w : Str} (h : Word w) : ' ' ∉ w := by
  intro hm
  have := h.2 ' ' hm
  revert this
  decide

/-- A word of the cleaned line is a piece of the line. -/
theorem word_infix {w line : Str} (h : w ∈ splitWs (clean line)) : w <:+: line ∧ Word w := by
  obtain ⟨h1, hw⟩ := split_infix h
  have hb := blank_notin hw
  have h1 := (separator_infix _ _ [] (Nat.le_refl _) w hb).2 h1
  have h1 := (separator_infix _ _ [] (Nat.le_refl _) w hb).2 h1
  obtain ⟨x, hx, h2⟩ := infix_join hb hw.1 _ h1
  exact ⟨h2.trans (findGo_infix _ _ _ hx), hw⟩

/-! ### Lines -/

/-- Expressions for white space, and what is put in place of it. -/
structure BlankSub (r : Re) (f : St → Str) : Prop where
  only : Only (fun c => isSpace c = true) r
  must : Must (fun _ => True) r
  blank : ∀ t, ∃ z, f t = [z] ∧ isSpace z = true

theorem BlankSub.reads {r : Re} {f : St → Str} (h : BlankSub r f) {b a : Str} {t : St} (hm : m r ⟨b, a, []⟩ some = some t) :
    ∃ c w, a = c :: (w ++ t.after) ∧ ∀ d ∈ c :: w, isSpace d = true := by
  obtain ⟨w, h1, _, h3⟩ := m_some_takes hm
  have ho := h3.only h.only
  cases w with
  | nil =>
    obtain ⟨c, hc, _⟩ := h3.must h.must
    cases hc
  | cons c w => exact ⟨c, w, h1, ho⟩

theorem BlankSub.word {r : Re} {f : St → Str} (h : BlankSub r f) {w B : Str} (hw : ∀ c ∈ w, isSpace c = false) (b : Str) :
    subGo r f 0 b (w ++ B) = w ++ subGo r f 0 (w.reverse ++ b) B := by
  refine subGo_keep w b ?_
  intro v hv hs b'
  cases hmm : m r ⟨b', v ++ B, []⟩ some with
  | none => rfl
  | some t =>
    obtain ⟨c, u, e, hc⟩ := h.reads hmm
    obtain ⟨d, v, rfl⟩ := List.exists_cons_of_ne_nil hv
    simp at e
    have := hw d (hs.subset (by simp))
    rw [e.1, hc c (by simp)] at this
    cases this

theorem BlankSub.head {r : Re} {f : St → Str} (h : BlankSub r f) {B : Str} (hB : ∀ c, B.head? = some c → isSpace c = true) (b : Str) :
    ∀ c, (subGo r f 0 b B).head? = some c → isSpace c = true := by
  intro c hc
  cases B with
  | nil => cases hc
  | cons z B =>
    rw [subGo] at hc
    cases hmm : m r ⟨b, z :: B, []⟩ some with
    | none =>
      rw [hmm] at hc
      simp at hc
      exact hc ▸ hB z rfl
    | some t =>
      rw [hmm] at hc
      obtain ⟨y, hy, hs⟩ := h.blank t
      simp [hy] at hc
      exact hc ▸ hs

theorem BlankSub.before {r : Re} {f : St → Str} (h : BlankSub r f) {w B : Str} (h0 : Word w) : ∀ (a : Str) (n : Nat) (b : Str),
    n ≤ a.length → (∀ c, a.getLast? = some c → isSpace c = true) →
    ∃ A b', subGo r f n b (a ++ w ++ B) = A ++ subGo r f 0 b' (w ++ B) ∧ (∀ c, A.getLast? = some c → isSpace c = true) ∧
      (n = 0 → a ≠ [] → A ≠ []) := by
  intro a
  induction a with
  | nil =>
    intro n b hn _
    have : n = 0 := by simpa using hn
    subst this
    exact ⟨[], b, rfl, by simp, by simp⟩
  | cons c cs ih =>
    intro n b hn ha
    have ha' : ∀ d, cs.getLast? = some d → isSpace d = true := by
      intro d hd
      refine ha d ?_
      rw [List.getLast?_cons, hd]; rfl
    cases n with
    | succ n =>
      obtain ⟨A, b', e, hA, _⟩ := ih n (c :: b) (by simpa using hn) ha'
      refine ⟨A, b', ?_, hA, by simp⟩
      rw [List.cons_append, List.cons_append, subGo, e]
    | zero =>
      rw [List.cons_append, List.cons_append, subGo]
      cases hmm : m r ⟨b, c :: (cs ++ w ++ B), []⟩ some with
      | none =>
        obtain ⟨A, b', e, hA, hA0⟩ := ih 0 (c :: b) (by simp) ha'
        refine ⟨c :: A, b', by simp only [e]; rfl, ?_, by simp⟩
        intro d hd
        rw [List.getLast?_cons] at hd
        cases eA : A.getLast? with
        | some x =>
          rw [eA] at hd
          simp at hd
          exact hA d (hd ▸ eA)
        | none =>
          rw [eA] at hd
          simp at hd
          have hA1 : A = [] := List.getLast?_eq_none_iff.1 eA
          have : cs = [] := Classical.byContradiction fun hne => hA0 rfl hne hA1
          subst this
          exact ha d (by simp [hd])
      | some t =>
        obtain ⟨x, u, e1, hu⟩ := h.reads hmm
        simp only [List.cons.injEq] at e1
        have hlen : u.length ≤ cs.length := by
          apply Classical.byContradiction
          intro hgt
          obtain ⟨d, ds, rfl⟩ := List.exists_cons_of_ne_nil h0.1
          have hp : cs ++ [d] <+: u := by
            apply List.prefix_of_prefix_length_le (l₃ := cs ++ d :: ds ++ B)
            · exact ⟨ds ++ B, by simp⟩
            · exact ⟨t.after, e1.2.symm⟩
            · simp at hgt ⊢; omega
          have h1 := hu d (List.mem_cons_of_mem _ (hp.subset (by simp)))
          rw [h0.2 d (by simp)] at h1
          cases h1
        have hn : (c :: (cs ++ w ++ B)).length - t.after.length - 1 = u.length := by
          rw [List.length_cons, e1.2, List.length_append]; omega
        obtain ⟨A, b', e, hA, _⟩ := ih u.length (c :: b) hlen ha'
        obtain ⟨z, hz, hs⟩ := h.blank t
        refine ⟨z :: A, b', by simp only [hn, e, hz]; rfl, ?_, by simp⟩
        intro d hd
        rw [List.getLast?_cons] at hd
        cases eA : A.getLast? with
        | some y =>
          rw [eA] at hd
          simp at hd
          exact hA d (hd ▸ eA)
        | none =>
          rw [eA] at hd
          simp at hd
          exact hd ▸ hs

theorem BlankSub.stands {r : Re} {f : St → Str} (h : BlankSub r f) {w text : Str} (h0 : Word w) (hs : Stands w text) :
    Stands w (sub r f text) := by
  obtain ⟨a, b, rfl, ha, hb⟩ := hs
  obtain ⟨A, b', e, hA, _⟩ := h.before (B := b) h0 a 0 [] (by simp) ha
  rw [sub, e, h.word h0.2]
  exact ⟨A, _, by rw [List.append_assoc], hA, h.head hb _⟩

/-- What has no blanks after the substitution was there before. -/
theorem BlankSub.infix {r : Re} {f : St → Str} (h : BlankSub r f) : ∀ (n : Nat) (s b : Str), s.length ≤ n →
    ∀ w : Str, (∀ c ∈ w, isSpace c = false) →
    (w <+: subGo r f 0 b s → w <+: s) ∧ (w <:+: subGo r f 0 b s → w <:+: s) := by
  intro n
  induction n with
  | zero =>
    intro s b hs w hw
    have : s = [] := List.length_eq_zero_iff.1 (by omega)
    subst this
    rw [subGo]
    exact ⟨id, id⟩
  | succ n ih =>
    intro s b hs w hw
    cases s with
    | nil => rw [subGo]; exact ⟨id, id⟩
    | cons e s =>
      cases hmm : m r ⟨b, e :: s, []⟩ some with
      | none =>
        have ih' := ih s (e :: b) (by simpa using hs)
        rw [subGo, hmm]
        simp only
        have hp : w <+: e :: subGo r f 0 (e :: b) s → w <+: e :: s := by
          intro hp
          cases w with
          | nil => exact List.nil_prefix
          | cons y w =>
            rw [List.cons_prefix_cons] at hp ⊢
            exact ⟨hp.1, (ih' w (fun c hc => hw c (List.mem_cons_of_mem _ hc))).1 hp.2⟩
        refine ⟨hp, fun h => ?_⟩
        rcases infix_cons h with h | h
        · exact (hp h).isInfix
        · exact ((ih' w hw).2 h).trans (List.suffix_cons _ _).isInfix
      | some t =>
        obtain ⟨x, u, e1, hu⟩ := h.reads hmm
        obtain ⟨z, hz, hzs⟩ := h.blank t
        have e2 : e :: s = (x :: u) ++ t.after := e1
        have ih' := ih t.after ((x :: u).reverse ++ b) (by
          have := congrArg List.length e2
          simp at this hs
          omega)
        rw [e2] at hmm ⊢
        rw [subGo_match (by simp) rfl hmm, hz]
        have hp : w <+: [z] ++ subGo r f 0 ((x :: u).reverse ++ b) t.after → w = [] := by
          intro hp
          cases w with
          | nil => rfl
          | cons y w =>
            rw [List.singleton_append, List.cons_prefix_cons] at hp
            have := hw y (by simp)
            rw [hp.1, hzs] at this; cases this
        refine ⟨fun h => by rw [hp h]; exact List.nil_prefix, fun h => ?_⟩
        rcases infix_cons h with h | h
        · rw [hp h]; exact List.nil_infix
        · exact ((ih' w hw).2 h).trans (List.suffix_append _ _).isInfix

theorem sub1_blank : BlankSub (seqs [plus (fun c => c == '\n'), .star true isSpace, plus (fun c => c == '\n')])
    (fun _ => ['\x0c']) where
  only := by
    have h : ∀ c : Char, (c == '\n') = true → isSpace c = true := by
      intro c hc
      simp at hc
      subst hc
      decide
    exact ⟨⟨h, h⟩, fun c hc => hc, h, h⟩
  must := .inl (.inl fun _ _ => trivial)
  blank := fun _ => ⟨_, rfl, by decide⟩

theorem sub2_blank : BlankSub (lit [' ', '\t', '\n', '\r', '\x0b']) (fun _ => c!" ") where
  only := Only.lit (by decide)
  must := Must.lit ⟨' ', by simp, trivial⟩
  blank := fun _ => ⟨_, rfl, by decide⟩

theorem sub3_blank : BlankSub (.chr (fun c => c == '\x0c')) (fun _ => ['\n']) where
  only := by
    intro c hc
    simp at hc
    subst hc
    decide
  must := fun _ _ => trivial
  blank := fun _ => ⟨_, rfl, by decide⟩

theorem lineEnd_space {c : Char} (h : lineEnd c = true) : isSpace c = true := by
  simp only [lineEnd, isSpace, Bool.or_eq_true, Bool.and_eq_true, decide_eq_true_eq, List.contains_eq_mem, List.mem_cons,
    List.not_mem_nil, or_false, beq_iff_eq] at h ⊢
  omega

theorem splitLines_word {w : Str} (h0 : ∀ c ∈ w, isSpace c = false) : ∀ (cur b : Str), splitLines cur (w ++ b) = splitLines (cur ++ w) b := by
  induction w with
  | nil => intro cur b; simp
  | cons c w ih =>
    intro cur b
    have hc : lineEnd c = false := by
      cases h : lineEnd c with
      | false => rfl
      | true =>
        have := lineEnd_space h
        rw [h0 c (by simp)] at this; cases this
    rw [List.cons_append, splitLines, hc, if_neg (by simp), ih fun c hc => h0 c (List.mem_cons_of_mem _ hc)]
    simp

theorem splitLines_rest : ∀ (b cur : Str), cur ≠ [] → ∃ b1 b2 l, b = b1 ++ b2 ∧ splitLines cur b = (cur ++ b1) :: l := by
  intro b
  induction b with
  | nil => intro cur h; exact ⟨[], [], [], rfl, by simp [splitLines, h]⟩
  | cons c b ih =>
    intro cur h
    rw [splitLines]
    split
    · exact ⟨[], c :: b, _, rfl, by simp; rfl⟩
    · obtain ⟨b1, b2, l, e1, e2⟩ := ih (cur ++ [c]) (by simp)
      exact ⟨c :: b1, b2, l, by rw [e1]; rfl, by rw [e2]; simp⟩

theorem splitLines_stands {w b : Str} (h0 : Word w) (hb : ∀ c, b.head? = some c → isSpace c = true) : ∀ (a cur : Str),
    (∀ c, (cur ++ a).getLast? = some c → isSpace c = true) → ∃ line ∈ splitLines cur (a ++ w ++ b), Stands w line := by
  intro a
  induction a with
  | nil =>
    intro cur hc
    rw [List.nil_append, splitLines_word h0.2]
    obtain ⟨b1, b2, l, e1, e2⟩ := splitLines_rest b (cur ++ w) (by simp [h0.1])
    rw [e2]
    refine ⟨_, List.mem_cons_self .., cur, b1, rfl, by simpa using hc, ?_⟩
    intro c hc
    refine hb c ?_
    rw [e1]
    cases b1 with
    | nil => cases hc
    | cons x b1 => simpa using hc
  | cons d a ih =>
    intro cur hc
    rw [List.cons_append, List.cons_append, splitLines]
    split
    · obtain ⟨line, hl, hs⟩ := ih [] (by
        intro c hc'
        refine hc c ?_
        rw [List.nil_append] at hc'
        rw [List.getLast?_append, List.getLast?_cons, hc']; rfl)
      exact ⟨line, List.mem_cons_of_mem _ hl, hs⟩
    · refine ih (cur ++ [d]) ?_
      simpa using hc

/-- A word that stands in the text stands in one of the lines. -/
theorem stands_lines {w text : Str} (h0 : Word w) (h : Stands w text) : ∃ line ∈ textLines text, Stands w line := by
  have h := sub3_blank.stands h0 (sub2_blank.stands h0 (sub1_blank.stands h0 h))
  obtain ⟨a, b, e, ha, hb⟩ := h
  unfold textLines
  simp only
  rw [e]
  exact splitLines_stands h0 hb a [] (by simpa using ha)

theorem splitLines_infix {line : Str} : ∀ (s cur : Str), line ∈ splitLines cur s → line <:+: cur ++ s := by
  intro s
  induction s with
  | nil =>
    intro cur h
    rw [splitLines] at h
    split at h
    · cases h
    · simp at h; subst h; simp
  | cons c s ih =>
    intro cur h
    rw [splitLines] at h
    split at h
    · rcases List.mem_cons.1 h with rfl | h
      · exact (List.prefix_append _ _).isInfix
      · obtain ⟨x, y, e⟩ := ih _ h
        rw [List.nil_append] at e
        exact ⟨cur ++ c :: x, y, by rw [← e]; simp⟩
    · simpa using ih _ h

/-- A word of a line is a piece of the text. -/
theorem lines_infix {w line text : Str} (hw : ∀ c ∈ w, isSpace c = false) (hl : line ∈ textLines text) (h : w <:+: line) : w <:+: text := by
  unfold textLines at hl
  simp only at hl
  have h1 := h.trans (splitLines_infix _ _ hl)
  rw [List.nil_append] at h1
  have h2 := (sub3_blank.infix _ _ [] (Nat.le_refl _) w hw).2 h1
  have h3 := (sub2_blank.infix _ _ [] (Nat.le_refl _) w hw).2 h2
  exact (sub1_blank.infix _ _ [] (Nat.le_refl _) w hw).2 h3

theorem stands_join {w : Str} : ∀ (l : List Str), (∃ x ∈ l, Stands w x) → Stands w (join c!"\n" l)
  | [], h => by obtain ⟨x, hx, _⟩ := h; cases hx
  | [x], h => by
    obtain ⟨y, hy, hs⟩ := h
    simp at hy
    subst hy
    exact hs
  | x :: y :: l, h => by
    obtain ⟨v, hv, hs⟩ := h
    rw [join]
    rcases List.mem_cons.1 hv with rfl | hv
    · obtain ⟨a, b, rfl, ha, hb⟩ := hs
      refine ⟨a, b ++ c!"\n" ++ join c!"\n" (y :: l), by simp, ha, ?_⟩
      intro c hc
      cases b with
      | nil => simp at hc; subst hc; decide
      | cons d b => simp at hc; exact hb c (by simp [hc])
    · obtain ⟨a, b, e, ha, hb⟩ := stands_join (y :: l) ⟨v, hv, hs⟩
      refine ⟨x ++ c!"\n" ++ a, b, by rw [e]; simp, ?_, hb⟩
      intro c hc
      rw [List.getLast?_append] at hc
      cases ea : a.getLast? with
      | some d => rw [ea] at hc; simp at hc; exact ha c (hc ▸ ea)
      | none => rw [ea] at hc; simp at hc; subst hc; decide

theorem infix_join_line {w : Str} (hw : '\n' ∉ w) (h0 : w ≠ []) : ∀ (l : List Str), w <:+: join c!"\n" l → ∃ x ∈ l, w <:+: x
  | [], h => absurd (List.eq_nil_of_infix_nil h) h0
  | [x], h => ⟨x, by simp, h⟩
  | x :: y :: l, h => by
    rw [join, List.append_assoc, List.singleton_append] at h
    rcases infix_blank h hw with h | h
    · exact ⟨x, by simp, h⟩
    · obtain ⟨v, hv, h⟩ := infix_join_line hw h0 (y :: l) h
      exact ⟨v, List.mem_cons_of_mem _ hv, h⟩

/-! ### Words and tokens -/

theorem mapM_some {α β : Type} {f : α → Option β} : ∀ {l : List α} {r : List β}, l.mapM f = some r →
    (∀ x ∈ l, ∃ y ∈ r, f x = some y) ∧ ∀ y ∈ r, ∃ x ∈ l, f x = some y
  | [], r, h => by
    simp at h
    subst h
    simp
  | a :: l, r, h => by
    rw [List.mapM_cons] at h
    cases ha : f a with
    | none => rw [ha] at h; cases h
    | some b =>
      cases hl : l.mapM f with
      | none => rw [ha, hl] at h; cases h
      | some bs =>
        rw [ha, hl] at h
        simp at h
        subst h
        obtain ⟨h1, h2⟩ := mapM_some hl
        constructor
        · intro x hx
          rcases List.mem_cons.1 hx with rfl | hx
          · exact ⟨b, by simp, ha⟩
          · obtain ⟨y, hy, e⟩ := h1 x hx
            exact ⟨y, List.mem_cons_of_mem _ hy, e⟩
        · intro y hy
          rcases List.mem_cons.1 hy with rfl | hy
          · exact ⟨a, by simp, ha⟩
          · obtain ⟨x, hx, e⟩ := h2 y hy
            exact ⟨x, List.mem_cons_of_mem _ hx, e⟩

theorem mapM_none {α β : Type} {f : α → Option β} : ∀ {l : List α}, l.mapM f = none ↔ ∃ x ∈ l, f x = none
  | [] => by simp
  | a :: l => by
    rw [List.mapM_cons]
    cases ha : f a with
    | none => simp [ha]
    | some b =>
      cases hl : l.mapM f with
      | none =>
        obtain ⟨x, hx, e⟩ := mapM_none.1 hl
        refine ⟨fun _ => ⟨x, List.mem_cons_of_mem _ hx, e⟩, fun _ => rfl⟩
      | some bs =>
        refine ⟨fun h => (by cases h), ?_⟩
        rintro ⟨x, hx, e⟩
        rcases List.mem_cons.1 hx with rfl | hx
        · rw [ha] at e; cases e
        · have := mapM_none.2 ⟨x, hx, e⟩
          rw [hl] at this; cases this

theorem texts_some : ∀ {ts : List Tok} {l : List Str}, texts ts = some l →
    (∀ t ∈ ts, ∃ s, t = .text s ∧ (s ≠ [] → s ∈ l)) ∧ ∀ s ∈ l, s ≠ [] ∧ .text s ∈ ts
  | [], l, h => by
    simp [texts] at h
    subst h
    simp
  | .generator _ :: ts, l, h => by simp [texts] at h
  | .text s :: ts, l, h => by
    rw [texts] at h
    cases ht : texts ts with
    | none => rw [ht] at h; cases h
    | some r =>
      obtain ⟨h1, h2⟩ := texts_some ht
      rw [ht] at h
      simp only [Option.map_some, Option.some.injEq] at h
      subst h
      constructor
      · intro t hm
        rcases List.mem_cons.1 hm with rfl | hm
        · refine ⟨s, rfl, fun hs => ?_⟩
          simp [hs]
        · obtain ⟨s', e, hs'⟩ := h1 t hm
          refine ⟨s', e, fun hs => ?_⟩
          split
          · exact hs' hs
          · exact List.mem_cons_of_mem _ (hs' hs)
      · intro s' hs'
        split at hs'
        · obtain ⟨a, b⟩ := h2 s' hs'
          exact ⟨a, List.mem_cons_of_mem _ b⟩
        · rcases List.mem_cons.1 hs' with rfl | hs'
          · exact ⟨‹_›, by simp⟩
          · obtain ⟨a, b⟩ := h2 s' hs'
            exact ⟨a, List.mem_cons_of_mem _ b⟩

theorem texts_none : ∀ {ts : List Tok}, texts ts = none ↔ ∃ a, .generator a ∈ ts
  | [] => by simp [texts]
  | .generator a :: ts => by simp [texts]
  | .text s :: ts => by
    rw [texts, Option.map_eq_none_iff, texts_none]
    simp

/-- The words of a message, with the prefix and the region. -/
def AWord (C : Chew) (ui : List Str) (msg : Mail) (word pre : Str) (region : Nat) : Prop :=
  ∃ src ∈ sources C ui msg, src.2 = (pre, region) ∧ word ∈ splitWs (clean src.1)

theorem tokenise_tokens {C : Chew} {ui : List Str} {fuel : Nat} {msg : Mail} {l : List Str} (h : tokenise C ui fuel msg = .tokens l) :
    (∀ word pre region, AWord C ui msg word pre region → ∃ ts, wordTokens fuel pre region word = some ts ∧
      ∀ t ∈ ts, ∃ s, t = .text s ∧ (s ≠ [] → s ∈ l)) ∧
    ∀ s ∈ l, s ≠ [] ∧ ∃ word pre region ts, AWord C ui msg word pre region ∧ wordTokens fuel pre region word = some ts ∧ .text s ∈ ts := by
  unfold tokenise at h
  cases hm : (sources C ui msg).mapM (fun l => tokeniseLine fuel l.1 l.2.1 l.2.2) with
  | none => rw [hm] at h; cases h
  | some tss =>
    rw [hm] at h
    simp only at h
    cases ht : texts tss.flatten with
    | none => rw [ht] at h; cases h
    | some l' =>
      rw [ht] at h
      simp only [Result.tokens.injEq] at h
      obtain ⟨m1, m2⟩ := mapM_some hm
      obtain ⟨t1, t2⟩ := texts_some ht
      have hl : ∀ s, s ∈ l ↔ s ∈ l' := by intro s; rw [← h, List.mem_eraseDups]
      constructor
      · rintro word pre region ⟨src, hsrc, e, hw⟩
        obtain ⟨ts, hts, e1⟩ := m1 src hsrc
        rw [tokeniseLine, Option.map_eq_some_iff] at e1
        obtain ⟨tss', e1, rfl⟩ := e1
        obtain ⟨ts', hts', e2⟩ := (mapM_some e1).1 word hw
        rw [e] at e2
        refine ⟨ts', e2, fun t htt => ?_⟩
        obtain ⟨s, e3, hs⟩ := t1 t (List.mem_flatten.2 ⟨_, hts, List.mem_flatten.2 ⟨_, hts', htt⟩⟩)
        exact ⟨s, e3, fun h0 => (hl s).2 (hs h0)⟩
      · intro s hs
        obtain ⟨h0, hs⟩ := t2 s ((hl s).1 hs)
        obtain ⟨ts, hts, hs⟩ := List.mem_flatten.1 hs
        obtain ⟨src, hsrc, e1⟩ := m2 ts hts
        rw [tokeniseLine, Option.map_eq_some_iff] at e1
        obtain ⟨tss', e1, rfl⟩ := e1
        obtain ⟨ts', hts', hs⟩ := List.mem_flatten.1 hs
        obtain ⟨word, hw, e2⟩ := (mapM_some e1).2 ts' hts'
        exact ⟨h0, word, src.2.1, src.2.2, ts', ⟨src, hsrc, rfl, hw⟩, e2, hs⟩

theorem tokenise_running {C : Chew} {ui : List Str} {fuel : Nat} {msg : Mail} : tokenise C ui fuel msg = .running ↔
    ∃ word pre region, AWord C ui msg word pre region ∧ wordTokens fuel pre region word = none := by
  have h1 : tokenise C ui fuel msg = .running ↔ (sources C ui msg).mapM (fun l => tokeniseLine fuel l.1 l.2.1 l.2.2) = none := by
    unfold tokenise
    cases hm : (sources C ui msg).mapM (fun l => tokeniseLine fuel l.1 l.2.1 l.2.2) with
    | none => simp
    | some tss =>
      simp only
      cases ht : texts tss.flatten <;> simp
  rw [h1, mapM_none]
  constructor
  · rintro ⟨src, hsrc, e⟩
    rw [tokeniseLine, Option.map_eq_none_iff, mapM_none] at e
    obtain ⟨word, hw, e⟩ := e
    exact ⟨word, src.2.1, src.2.2, ⟨src, hsrc, rfl, hw⟩, e⟩
  · rintro ⟨word, pre, region, ⟨src, hsrc, e, hw⟩, e1⟩
    refine ⟨src, hsrc, ?_⟩
    rw [tokeniseLine, Option.map_eq_none_iff, mapM_none]
    exact ⟨word, hw, by rw [e]; exact e1⟩

theorem tokenise_failed {C : Chew} {ui : List Str} {fuel : Nat} {msg : Mail} (hr : tokenise C ui fuel msg ≠ .running) :
    tokenise C ui fuel msg = .failed ↔
    ∃ word pre region ts a, AWord C ui msg word pre region ∧ wordTokens fuel pre region word = some ts ∧ .generator a ∈ ts := by
  unfold tokenise at hr ⊢
  cases hm : (sources C ui msg).mapM (fun l => tokeniseLine fuel l.1 l.2.1 l.2.2) with
  | none => rw [hm] at hr; exact absurd rfl hr
  | some tss =>
    obtain ⟨m1, m2⟩ := mapM_some hm
    simp only
    have h1 : (match texts tss.flatten with | none => Result.failed | some l => .tokens l.eraseDups) = .failed ↔
        texts tss.flatten = none := by
      cases ht : texts tss.flatten <;> simp
    refine Iff.trans h1 ?_
    rw [texts_none]
    constructor
    · rintro ⟨a, ha⟩
      obtain ⟨ts, hts, ha⟩ := List.mem_flatten.1 ha
      obtain ⟨src, hsrc, e1⟩ := m2 ts hts
      rw [tokeniseLine, Option.map_eq_some_iff] at e1
      obtain ⟨tss', e1, rfl⟩ := e1
      obtain ⟨ts', hts', ha⟩ := List.mem_flatten.1 ha
      obtain ⟨word, hw, e2⟩ := (mapM_some e1).2 ts' hts'
      exact ⟨word, src.2.1, src.2.2, ts', a, ⟨src, hsrc, rfl, hw⟩, e2, ha⟩
    · rintro ⟨word, pre, region, ts, a, ⟨src, hsrc, e, hw⟩, e2, ha⟩
      obtain ⟨ts', hts', e1⟩ := m1 src hsrc
      rw [tokeniseLine, Option.map_eq_some_iff] at e1
      obtain ⟨tss', e1, rfl⟩ := e1
      obtain ⟨ts'', hts'', e3⟩ := (mapM_some e1).1 word hw
      rw [e, e2] at e3
      cases e3
      exact ⟨a, List.mem_flatten.2 ⟨_, hts', List.mem_flatten.2 ⟨_, hts'', ha⟩⟩⟩

/-- The loop over the domains never ends. -/
theorem domainLoop_none : ∀ (fuel : Nat) (bit : Str), bit ≠ [] → domainLoop fuel bit = none
  | 0, _, _ => rfl
  | fuel + 1, bit, h => by
    have h1 : sub domainRe (fun _ => [Char.ofNat 1]) bit ≠ [] := by
      cases bit with
      | nil => exact absurd rfl h
      | cons c cs =>
        rw [sub, subGo]
        cases m domainRe ⟨[], c :: cs, []⟩ some <;> simp
    rw [domainLoop]
    simp only [if_neg h1, domainLoop_none fuel _ h1, Option.map_none]

/-- What is left of a word. -/
def trim (word : Str) : Str := rstripBy (fun c => edgeChars.contains c) (lstripChars edgeChars word)

theorem wordTokens_none {fuel : Nat} {pre : Str} {region : Nat} {word : Str} : wordTokens fuel pre region word = none ↔
    (region = 1 ∨ region = 2) ∧ startsDomain (trim word) = true ∧ stopWords.contains (trim word) = false := by
  have hd : startsDomain (trim word) = true → 3 ≤ (trim word).length ∧ startsAddress (trim word) = false := by
    intro h
    unfold startsDomain at h
    split at h
    · rename_i a b c r e
      rw [e]
      simp at h
      simp [startsAddress, h.1.2]
    · cases h
  have hn : ∀ (x : List Tok → List Tok), startsDomain (trim word) = true → (domainLoop fuel (trim word)).map x = none := by
    intro x h
    have := hd h
    rw [domainLoop_none _ _ (by intro e; rw [e] at this; simp at this)]
    rfl
  unfold wordTokens
  simp only
  show (if (trim word).length < 3 then some [] else if stopWords.contains (trim word) = true then some [] else
    if ((decide (region = 1) || decide (region = 2)) && startsAddress (trim word)) = true then _ else
    if ((decide (region = 1) || decide (region = 2)) && startsDomain (trim word)) = true then
      (domainLoop fuel (trim word)).map _ else _) = none ↔ _
  split
  · rename_i h3
    refine ⟨fun h => (by cases h), fun h => ?_⟩
    have := (hd h.2.1).1
    omega
  · split
    · rename_i hs
      refine ⟨fun h => (by cases h), fun h => ?_⟩
      rw [h.2.2] at hs; cases hs
    · rename_i hs
      split
      · rename_i ha
        refine ⟨fun h => (by cases h), fun h => ?_⟩
        rw [(hd h.2.1).2] at ha
        simp at ha
      · split
        · rename_i hh
          simp only [Bool.and_eq_true, Bool.or_eq_true, decide_eq_true_eq] at hh
          rw [hn _ hh.2]
          exact ⟨fun _ => ⟨hh.1, hh.2, by simpa using hs⟩, fun _ => rfl⟩
        · rename_i hh
          refine ⟨fun h => (by cases h), fun h => ?_⟩
          exact absurd (by simp [h.1, h.2.1]) hh

theorem wordTokens_some {fuel : Nat} {pre : Str} {region : Nat} {word : Str} {ts : List Tok} (h : wordTokens fuel pre region word = some ts) :
    (ts = [] ∧ ((trim word).length < 3 ∨ stopWords.contains (trim word) = true)) ∨
    (3 ≤ (trim word).length ∧ stopWords.contains (trim word) = false ∧
      ((ts = .generator (trim word) :: keep pre region (trim word) ∧ (region = 1 ∨ region = 2) ∧ startsAddress (trim word) = true) ∨
       (ts = keep pre region (trim word) ∧ ¬ ((region = 1 ∨ region = 2) ∧ startsAddress (trim word) = true)))) := by
  have hnn : wordTokens fuel pre region word ≠ none := by rw [h]; simp
  rw [Ne, wordTokens_none] at hnn
  unfold wordTokens at h
  simp only at h
  change (if (trim word).length < 3 then some [] else if stopWords.contains (trim word) = true then some [] else
    if ((decide (region = 1) || decide (region = 2)) && startsAddress (trim word)) = true then
      some (.generator (trim word) :: keep pre region (trim word)) else
    if ((decide (region = 1) || decide (region = 2)) && startsDomain (trim word)) = true then
      (domainLoop fuel (trim word)).map _ else some (keep pre region (trim word))) = some ts at h
  split at h
  · exact .inl ⟨(Option.some.inj h).symm, .inl ‹_›⟩
  · split at h
    · exact .inl ⟨(Option.some.inj h).symm, .inr ‹_›⟩
    · rename_i h3 hs
      right
      refine ⟨by omega, by simpa using hs, ?_⟩
      split at h
      · rename_i ha
        simp at h ha
        exact .inl ⟨h.symm, ha⟩
      · rename_i ha
        split at h
        · rename_i hd
          simp only [Bool.and_eq_true, Bool.or_eq_true, decide_eq_true_eq] at hd
          exact absurd ⟨hd.1, hd.2, by simpa using hs⟩ hnn
        · right
          simp at h
          exact ⟨h.symm, by simpa using ha⟩

end Verif.Tokens
