import Verif.Props.Tokens

/-!
# C127: words joined by dots and dashes
-/

namespace Verif.Props
open Verif Py Re Spec Tokens

theorem times_reads {p : Char → Bool} : ∀ {w : Str} {b a : Str}, (∀ c ∈ w, p c = true) → Reads (times (.chr p) w.length) b w a
  | [], b, a, _ => by simp only [List.length_nil, times, Reads]
  | c :: w, b, a, h => by
    rw [List.length_cons, times]
    exact Reads.seq.2 ⟨[c], w, rfl, ⟨c, rfl, h c (by simp)⟩, times_reads fun d hd => h d (List.mem_cons_of_mem _ hd)⟩

theorem upTo_reads {p : Char → Bool} : ∀ {n : Nat} {w : Str} {b a : Str}, (∀ c ∈ w, p c = true) → w.length ≤ n →
    Reads (upTo (.chr p) n) b w a
  | 0, w, b, a, _, hn => by
    have : w = [] := List.length_eq_zero_iff.1 (by omega)
    subst this
    simp only [upTo, Reads]
  | n + 1, [], b, a, _, _ => .inr (by simp only [Reads])
  | n + 1, c :: w, b, a, h, hn =>
    .inl ⟨[c], w, rfl, ⟨c, rfl, h c (by simp)⟩, upTo_reads (fun d hd => h d (List.mem_cons_of_mem _ hd)) (by simpa using hn)⟩

theorem reads_upTo_length {p : Char → Bool} : ∀ {n : Nat} {b w a : Str}, Reads (upTo (.chr p) n) b w a → w.length ≤ n
  | 0, b, w, a, h => by
    simp only [upTo, Reads] at h
    simp [h]
  | n + 1, b, w, a, h => by
    rcases h with h | h
    · obtain ⟨u, v, rfl, ⟨c, rfl, hc⟩, hv⟩ := h
      have := reads_upTo_length hv
      simp
      omega
    · simp only [Reads] at h
      simp [h]

/-- What the expression for a separator reads: a character of a word, up to six marks, and a character of a word. -/
theorem separator_reads {c : Char} {lo : Nat} (hlo : lo ≤ 6) {b w a : Str} : Reads (separatorRe c lo) b w a ↔
    ∃ x k d, w = x :: (List.replicate k c ++ [d]) ∧ wordChar x = true ∧ wordChar d = true ∧ lo ≤ k ∧ k ≤ 6 := by
  unfold separatorRe
  simp only [seqs, rep]
  constructor
  · intro h
    obtain ⟨u, v, rfl, ⟨x, rfl, hx⟩, hv⟩ := Reads.seq.1 h
    obtain ⟨y, z, rfl, hy, ⟨d, rfl, hd⟩⟩ := Reads.seq.1 hv
    obtain ⟨y1, y2, rfl, h1, h2⟩ := Reads.seq.1 (show Reads (.seq _ _) _ y _ from hy)
    have ⟨l1, p1⟩ := reads_times h1
    have p2 := reads_upTo h2
    have l2 := reads_upTo_length h2
    have er : y1 ++ y2 = List.replicate (y1 ++ y2).length c := by
      rw [List.eq_replicate_iff]
      refine ⟨rfl, ?_⟩
      intro e he
      rcases List.mem_append.1 he with he | he
      · simpa using p1 e he
      · simpa using p2 e he
    refine ⟨x, (y1 ++ y2).length, d, ?_, hx, hd, by simp; omega, by simp; omega⟩
    rw [← er]
    simp
  · rintro ⟨x, k, d, rfl, hx, hd, h1, h2⟩
    obtain ⟨j, rfl⟩ := Nat.exists_eq_add_of_le h1
    refine Reads.seq.2 ⟨[x], _, rfl, ⟨x, rfl, hx⟩, ?_⟩
    refine Reads.seq.2 ⟨List.replicate (lo + j) c, [d], rfl, ?_, ⟨d, rfl, hd⟩⟩
    show Reads (.seq _ _) _ _ _
    refine Reads.seq.2 ⟨List.replicate lo c, List.replicate j c, by simp, ?_, ?_⟩
    · have := times_reads (p := fun d => d == c) (w := List.replicate lo c) (b := [x].reverse ++ b)
        (a := List.replicate j c ++ ([d] ++ a)) (by intro e he; simp [List.eq_of_mem_replicate he])
      simpa using this
    · exact upTo_reads (by intro e he; simp [List.eq_of_mem_replicate he]) (by simp; omega)

theorem run_unique {c d d' : Char} (hd : d ≠ c) (hd' : d' ≠ c) : ∀ {k k' : Nat} {r r' : Str},
    List.replicate k c ++ d :: r = List.replicate k' c ++ d' :: r' → k = k' ∧ d = d' ∧ r = r'
  | 0, 0, r, r', h => by simp at h; exact ⟨rfl, h.1, h.2⟩
  | 0, k' + 1, r, r', h => by
    rw [List.replicate_succ] at h
    simp at h
    exact absurd h.1 hd
  | k + 1, 0, r, r', h => by
    rw [List.replicate_succ] at h
    simp at h
    exact absurd h.1.symm hd'
  | k + 1, k' + 1, r, r', h => by
    rw [List.replicate_succ, List.replicate_succ] at h
    simp only [List.cons_append, List.cons.injEq, true_and] at h
    obtain ⟨h1, h2, h3⟩ := run_unique hd hd' h
    exact ⟨by omega, h2, h3⟩

/-- What becomes of a piece between blanks stands between blanks. -/
theorem stands_replaced {c : Char} {lo : Nat} {w w' text : Str} (hc : isSpace c = false)
    (hkeep : ∀ b b', (∀ d, b.head? = some d → isSpace d = true) →
      subGo (separatorRe c lo) apart 0 b' (w ++ b) = w' ++ subGo (separatorRe c lo) apart 0 (w.reverse ++ b') b)
    (h : Stands w text) : Stands w' (sub (separatorRe c lo) apart text) := by
  obtain ⟨a, b, rfl, ha, hb⟩ := h
  have hend : ∀ b' d, (subGo (separatorRe c lo) apart 0 b' b).head? = some d → isSpace d = true := by
    intro b' d hd
    cases b with
    | nil => cases hd
    | cons z b =>
      have hz := hb z rfl
      rw [subGo_stay (separator_only hc hz lo) (separator_must c lo)] at hd
      simp at hd
      exact hd ▸ hz
  rw [sub]
  rcases List.eq_nil_or_concat a with rfl | ⟨a, z, rfl⟩
  · rw [List.nil_append, hkeep _ _ hb]
    exact ⟨[], _, rfl, by simp, hend _⟩
  · have hz := ha z (by simp)
    obtain ⟨l, hl⟩ := subGo_split (f := apart) (separator_only hc hz lo) (separator_must c lo) (w ++ b) a 0 [] (by simp)
    rw [List.concat_eq_append, List.append_assoc, List.append_assoc, List.singleton_append, hl, hkeep _ _ hb]
    refine ⟨l ++ [z], _, by simp only [List.append_assoc, List.singleton_append]; rfl, ?_, hend _⟩
    simp [hz]

/-- No separator begins where there is none in the rest of the piece. -/
theorem no_separator {c : Char} {lo : Nat} (hlo : lo ≤ 6) (hc : isSpace c = false) {v b b' : Str}
    (hb : ∀ d, b.head? = some d → isSpace d = true)
    (hv : ∀ x k d, wordChar x = true → wordChar d = true → lo ≤ k → k ≤ 6 → ¬ x :: (List.replicate k c ++ [d]) <+: v) :
    m (separatorRe c lo) ⟨b', v ++ b, []⟩ some = none := by
  cases hmm : m (separatorRe c lo) ⟨b', v ++ b, []⟩ some with
  | none => rfl
  | some t =>
    exfalso
    obtain ⟨w, h1, _, h3⟩ := m_some_takes hmm
    obtain ⟨x, k, d, rfl, hx, hd, hk, hk6⟩ := (separator_reads hlo).1 h3
    refine hv x k d hx hd hk hk6 (prefix_of_blank (B := b) ⟨t.after, h1.symm⟩ ?_ hb)
    intro y hy
    simp only [List.mem_cons, List.mem_append, List.mem_replicate, List.not_mem_nil, or_false] at hy
    rcases hy with rfl | ⟨_, rfl⟩ | rfl
    · exact wordChar_nonblank hx
    · exact hc
    · exact wordChar_nonblank hd

theorem prefix_replicate {c x d : Char} {k lo : Nat} {v w : Str} (hk : lo ≤ k) (hp : x :: (List.replicate k c ++ [d]) <+: v)
    (hs : v <:+ w) : List.replicate lo c <:+: w := by
  obtain ⟨s1, e1⟩ := hs
  obtain ⟨s2, e2⟩ := hp
  obtain ⟨k, rfl⟩ := Nat.exists_eq_add_of_le hk
  refine ⟨s1 ++ [x], List.replicate k c ++ [d] ++ s2, ?_⟩
  rw [← e1, ← e2, ← List.replicate_append_replicate]
  simp only [List.append_assoc, List.cons_append, List.nil_append]

theorem run_within {c x : Char} (hxc : x ≠ c) {k : Nat} {u r : Str} (h : List.replicate k c <+: u ++ x :: r) :
    List.replicate k c <+: u ++ [x] := by
  by_cases hl : k ≤ u.length
  · have : List.replicate k c <+: u := List.prefix_of_prefix_length_le h ⟨_, rfl⟩ (by simpa using hl)
    exact this.trans ⟨_, rfl⟩
  · exfalso
    have : u ++ [x] <+: List.replicate k c := by
      apply List.prefix_of_prefix_length_le (l₃ := u ++ x :: r)
      · exact ⟨r, by simp⟩
      · exact h
      · simp; omega
    exact hxc (List.eq_of_mem_replicate (this.subset (by simp)))

/-- Two words, the first ending and the second beginning with a character of a word, are taken apart if at most six marks are between
them. -/
theorem separator_between {c : Char} {lo k : Nat} (hlo : lo ≤ 6) (hlo1 : 0 < lo) (hc : isSpace c = false) (hcw : wordChar c = false)
    {u v : Str} {x d : Char} (hx : wordChar x = true) (hd : wordChar d = true) (hk : lo ≤ k) (hk6 : k ≤ 6)
    (hu : ¬ List.replicate lo c <:+: u ++ [x]) (hv : ¬ List.replicate lo c <:+: d :: v) {b b' : Str}
    (hb : ∀ e, b.head? = some e → isSpace e = true) :
    subGo (separatorRe c lo) apart 0 b' (u ++ [x] ++ List.replicate k c ++ d :: v ++ b) =
      (u ++ [x] ++ c!" " ++ List.replicate k c ++ c!" " ++ d :: v) ++
        subGo (separatorRe c lo) apart 0 ((u ++ [x] ++ List.replicate k c ++ d :: v).reverse ++ b') b := by
  have hxc : x ≠ c := by rintro rfl; rw [hx] at hcw; cases hcw
  have hdc : d ≠ c := by rintro rfl; rw [hd] at hcw; cases hcw
  induction u generalizing b' with
  | nil =>
    have hr : Reads (separatorRe c lo) b' (x :: (List.replicate k c ++ [d])) (v ++ b) :=
      (separator_reads hlo).2 ⟨x, k, d, rfl, hx, hd, hk, hk6⟩
    have hm : (m (separatorRe c lo) ⟨b', x :: (List.replicate k c ++ [d]) ++ (v ++ b), []⟩ some).isSome = true := by
      rw [m_isSome]
      exact ⟨_, _, rfl, hr⟩
    obtain ⟨t, ht⟩ := Option.isSome_iff_exists.1 hm
    obtain ⟨x', k', d', e, hx', hd', hk', ea⟩ := separator_match ht
    have hdc' : d' ≠ c := by rintro rfl; rw [hd'] at hcw; cases hcw
    simp only [List.cons_append, List.append_assoc, List.nil_append, List.cons.injEq] at e
    obtain ⟨rfl, e⟩ := e
    obtain ⟨rfl, rfl, e'⟩ := run_unique hdc hdc' e
    have hsub := subGo_match (f := apart) (w := x :: (List.replicate k c ++ [d])) (by simp) (Eq.symm e') ht
    have hrest := subGo_keep (r := separatorRe c lo) (f := apart) (B := b) v ((x :: (List.replicate k c ++ [d])).reverse ++ b')
      (fun w _ hs b'' => no_separator hlo hc hb fun y j z _ _ hj _ hp =>
        hv (prefix_replicate hj hp (hs.trans (List.suffix_cons _ _))))
    rw [show [] ++ [x] ++ List.replicate k c ++ d :: v ++ b = x :: (List.replicate k c ++ [d]) ++ (v ++ b) by simp, hsub, hrest, ea]
    simp
  | cons y u ih =>
    have hu' : ¬ List.replicate lo c <:+: u ++ [x] := fun h => hu (h.trans (List.suffix_cons _ _).isInfix)
    have hno : m (separatorRe c lo) ⟨b', (y :: u ++ [x] ++ List.replicate k c ++ d :: v) ++ b, []⟩ some = none := by
      refine no_separator hlo hc hb ?_
      intro x' k' d' hx' hd' hk' _ hp
      obtain ⟨r, e⟩ := hp
      simp only [List.cons_append, List.append_assoc, List.nil_append, List.cons.injEq] at e
      obtain ⟨rfl, e⟩ := e
      have hdc' : d' ≠ c := by rintro rfl; rw [hd'] at hcw; cases hcw
      apply hu
      have hp : List.replicate k' c <+: u ++ [x] := run_within hxc ⟨_, e⟩
      have h2 : List.replicate lo c <+: List.replicate k' c := by
        obtain ⟨j, rfl⟩ := Nat.exists_eq_add_of_le hk'
        exact ⟨List.replicate j c, by simp⟩
      exact ((h2.trans hp).isInfix).trans (List.suffix_cons _ _).isInfix
    have := ih hu' (b' := y :: b')
    simp only [List.cons_append, List.append_assoc, List.nil_append] at this hno ⊢
    rw [subGo, hno]
    simp only
    rw [this]
    simp

/-- Words with more than six marks between them stay together. -/
theorem separator_long {c : Char} {lo k : Nat} (hlo : lo ≤ 6) (hlo1 : 0 < lo) (hc : isSpace c = false) (hcw : wordChar c = false)
    {u v : Str} {x d : Char} (hx : wordChar x = true) (hd : wordChar d = true) (hk : 6 < k)
    (hu : ¬ List.replicate lo c <:+: u ++ [x]) (hv : ¬ List.replicate lo c <:+: d :: v) {b b' : Str}
    (hb : ∀ e, b.head? = some e → isSpace e = true) :
    subGo (separatorRe c lo) apart 0 b' (u ++ [x] ++ List.replicate k c ++ d :: v ++ b) =
      (u ++ [x] ++ List.replicate k c ++ d :: v) ++
        subGo (separatorRe c lo) apart 0 ((u ++ [x] ++ List.replicate k c ++ d :: v).reverse ++ b') b := by
  have hxc : x ≠ c := by rintro rfl; rw [hx] at hcw; cases hcw
  have hdc : d ≠ c := by rintro rfl; rw [hd] at hcw; cases hcw
  refine subGo_keep _ _ ?_
  intro w _ hs b''
  refine no_separator hlo hc hb ?_
  intro x' k' d' hx' hd' hk' hk6 hp
  have hdc' : d' ≠ c := by rintro rfl; rw [hd'] at hcw; cases hcw
  have hxc' : x' ≠ c := by rintro rfl; rw [hx'] at hcw; cases hcw
  obtain ⟨s1, e1⟩ := hs
  have hshort : List.replicate lo c <+: List.replicate k' c := by
    obtain ⟨j, rfl⟩ := Nat.exists_eq_add_of_le hk'
    exact ⟨List.replicate j c, by simp⟩
  rw [List.append_assoc (u ++ [x])] at e1
  rcases List.append_eq_append_iff.1 e1 with ⟨a, e2, rfl⟩ | ⟨a, e2, e3⟩
  · -- it would begin in the first word
    rcases List.eq_nil_or_concat a with rfl | ⟨a, z, rfl⟩
    · obtain ⟨j, rfl⟩ : ∃ j, k = j + 1 := ⟨k - 1, by omega⟩
      obtain ⟨s2, e4⟩ := hp
      rw [List.replicate_succ] at e4
      simp only [List.cons_append, List.nil_append, List.cons.injEq] at e4
      exact hxc' e4.1
    · rw [List.concat_eq_append] at hp e2
      have hz : x = z := by
        have := congrArg List.getLast? e2
        simp at this
        exact this
      subst hz
      obtain ⟨s2, e4⟩ := hp
      cases a with
      | nil =>
        simp only [List.cons_append, List.append_assoc, List.nil_append, List.cons.injEq] at e4
        have := (run_unique hdc' hdc e4.2).1
        omega
      | cons y a =>
        simp only [List.cons_append, List.append_assoc, List.nil_append, List.cons.injEq] at e4
        have h1 : List.replicate k' c <+: a ++ [x] := run_within hxc ⟨_, e4.2⟩
        apply hu
        rw [e2]
        refine (hshort.trans h1).isInfix.trans ?_
        exact ⟨s1 ++ [y], [], by simp⟩
  · -- it would begin behind the first word
    rcases List.append_eq_append_iff.1 e3.symm with ⟨a', e4, rfl⟩ | ⟨a', e4, e5⟩
    · cases a' with
      | nil => exact hv (prefix_replicate hk' hp (List.suffix_refl _))
      | cons y a' =>
        obtain ⟨s2, e5⟩ := hp
        simp only [List.cons_append, List.cons.injEq] at e5
        refine hxc' (e5.1.trans (List.eq_of_mem_replicate (n := k) ?_))
        rw [e4]
        simp
    · exact hv (prefix_replicate hk' hp ⟨_, e5.symm⟩)

theorem stands_piece {a b w text : Str} (h : Stands (a ++ w ++ b) text) (ha : ∀ c, a.getLast? = some c → isSpace c = true)
    (hb : ∀ c, b.head? = some c → isSpace c = true) : Stands w text := by
  obtain ⟨x, y, rfl, hx, hy⟩ := h
  refine ⟨x ++ a, b ++ y, by simp, ?_, ?_⟩
  · intro c hc
    rw [List.getLast?_append] at hc
    cases hl : a.getLast? with
    | none => rw [hl] at hc; exact hx c (by simpa using hc)
    | some d =>
      rw [hl] at hc
      simp at hc
      exact hc ▸ ha d hl
  · intro c hc
    rw [List.head?_append] at hc
    cases hl : b.head? with
    | none => rw [hl] at hc; exact hy c (by simpa using hc)
    | some d =>
      rw [hl] at hc
      simp at hc
      exact hc ▸ hb d hl

/-- A word of the cleaned line becomes a token. -/
theorem word_token {C : Chew} {ui : List Str} {fuel : Nat} {msg : Mail} {l : List Str} (h : tokenise C ui fuel msg = .tokens l)
    {w : Str} (ha : AWord C ui msg w [] 1) (h1 : ∀ c, w.head? = some c → ¬ edgeMark c) (h2 : ∀ c, w.getLast? = some c → ¬ edgeMark c)
    (h3 : 3 ≤ w.length) (h15 : w.length ≤ 15) (hn : w ∉ sayNothing) : w ∈ l ∧ lower w ∈ l := by
  have h0 : w ≠ [] := by rintro rfl; simp at h3
  obtain ⟨ts, e, hts⟩ := (tokenise_tokens h).1 _ _ _ ha
  have htrim := trim_same h1 h2
  have hk : ∀ t ∈ keep [] 1 w, t ∈ ts := by
    intro t ht
    rcases wordTokens_some e with ⟨_, h | h⟩ | ⟨_, _, ⟨rfl, _⟩ | ⟨rfl, _⟩⟩
    · rw [htrim] at h; omega
    · rw [htrim, stopWords_eq] at h; exact absurd h hn
    · rw [htrim]; exact List.mem_cons_of_mem _ ht
    · rw [htrim]; exact ht
  constructor
  · obtain ⟨s, es, hs⟩ := hts _ (hk _ (keep_last [] 1 w h15))
    cases es
    exact hs h0
  · obtain ⟨s, es, hs⟩ := hts _ (hk _ (keep_lower [] w h15))
    cases es
    refine hs ?_
    simpa [lower] using h0

theorem aword_line {C : Chew} {ui : List Str} {msg : Mail} {w line : Str} (h : Word w) (hl : line ∈ textLines (rendered msg))
    (hs : Stands w (clean line)) : AWord C ui msg w [] 1 := by
  refine ⟨(line, [], 1), ?_, rfl, stands_split h hs⟩
  unfold sources
  exact List.mem_append_left _ (List.mem_append_left _ (List.mem_map.2 ⟨line, hl, rfl⟩))

theorem dots_infix {w u v : Str} {z c : Char} (hzc : z ≠ c) : ∀ {k lo : Nat}, 0 < k → w = List.replicate lo c →
    w <:+: u ++ List.replicate k z ++ v → w <:+: u ∨ w <:+: v := by
  intro k lo hk hw h
  have hz : z ∉ w := by rw [hw]; intro hm; exact hzc (List.eq_of_mem_replicate hm)
  induction k generalizing u with
  | zero => omega
  | succ k ih =>
    rw [List.replicate_succ, List.append_assoc, List.cons_append] at h
    rcases infix_blank h hz with h | h
    · exact .inl h
    · cases k with
      | zero => exact .inr (by simpa using h)
      | succ k =>
        rcases ih (u := []) (by omega) (by simpa using h) with h | h
        · refine .inl (h.trans ?_)
          exact (List.nil_prefix).isInfix
        · exact .inr h

theorem _root_.Verif.Spec.Joined.parts {u v : Str} {c : Char} {k : Nat} (h : Joined u c k v) :
    ∃ u' x d v', u = u' ++ [x] ∧ v = d :: v' ∧ wordChar x = true ∧ wordChar d = true := by
  obtain ⟨x, hx, hxa⟩ := h.leftEnd
  obtain ⟨d, hd, hda⟩ := h.rightStart
  obtain ⟨u', rfl⟩ := List.getLast?_eq_some_iff.1 hx
  obtain ⟨v', rfl⟩ := List.head?_eq_some_iff.1 hd
  exact ⟨u', x, d, v', rfl, rfl, by simp [wordChar, hxa], by simp [wordChar, hda]⟩

theorem _root_.Verif.Spec.Joined.chars {u v : Str} {c : Char} {k : Nat} (h : Joined u c k v) : ∀ e ∈ u ++ List.replicate k c ++ v, wordMark e := by
  intro e he
  rcases List.mem_append.1 he with he | he
  · rcases List.mem_append.1 he with he | he
    · exact h.left.chars e he
    · rw [List.eq_of_mem_replicate he]
      rcases h.mark with ⟨rfl, _⟩ | ⟨rfl, _⟩
      · exact .inr (by decide)
      · exact .inr (by decide)
  · exact h.right.chars e he

/-- Words joined by up to six marks stand apart in the cleaned line, with the marks. -/
theorem joined_clean {u v line : Str} {c : Char} {k : Nat} (h : Joined u c k v) (hk : k ≤ 6)
    (hs : Stands (u ++ List.replicate k c ++ v) line) : Stands u (clean line) ∧ Stands v (clean line) := by
  have hruns := stands_runs (by
    obtain ⟨x, hx, _⟩ := h.leftEnd
    intro e
    simp at e
    rw [e.1] at hx
    cases hx) (fun e he => ⟨(mark_facts (h.chars e he)).1, (mark_facts (h.chars e he)).2.1⟩) hs
  have hL := h.left
  have hR := h.right
  obtain ⟨u', x, d, v', rfl, rfl, hx, hd⟩ := h.parts
  have hpieces : ∀ {text : Str}, Stands (u' ++ [x] ++ c!" " ++ List.replicate k c ++ c!" " ++ d :: v') text →
      Stands (u' ++ [x]) text ∧ Stands (d :: v') text := by
    intro text ht
    constructor
    · refine stands_piece (a := []) (b := c!" " ++ List.replicate k c ++ c!" " ++ d :: v') (by simpa using ht) (by simp) ?_
      intro e he
      simp at he
      subst he; decide
    · refine stands_piece (a := u' ++ [x] ++ c!" " ++ List.replicate k c ++ c!" ") (b := []) (by simpa using ht) ?_ (by simp)
      intro e he
      rw [List.getLast?_append] at he
      simp at he
      subst he; decide
  unfold clean
  rcases h.mark with ⟨rfl, h3⟩ | ⟨rfl, h2⟩
  · have hsub := stands_replaced (lo := 3) (by decide) (fun b b' hb => separator_between (by decide) (by decide) (by decide) (by decide)
      hx hd h3 hk hL.noDots hR.noDots (b' := b') hb) hruns
    obtain ⟨h1, h2⟩ := hpieces hsub
    exact ⟨stands_separator (lo := 2) (by decide) (by simp) hL.noDashes h1, stands_separator (lo := 2) (by decide) (by simp) hR.noDashes h2⟩
  · have hno : ¬ List.replicate 3 '.' <:+: u' ++ [x] ++ List.replicate k '-' ++ d :: v' := by
      intro hi
      rcases dots_infix (by decide) (by omega) rfl hi with hi | hi
      · exact hL.noDots hi
      · exact hR.noDots hi
    have h1 := stands_separator (lo := 3) (c := '.') (by decide) (by simp) hno hruns
    exact hpieces (stands_replaced (lo := 2) (by decide) (fun b b' hb => separator_between (by decide) (by decide) (by decide) (by decide)
      hx hd h2 hk hL.noDashes hR.noDashes (b' := b') hb) h1)

/-- Words joined by more than six marks stay together. -/
theorem joined_long {u v line : Str} {c : Char} {k : Nat} (h : Joined u c k v) (hk : 6 < k)
    (hs : Stands (u ++ List.replicate k c ++ v) line) : Stands (u ++ List.replicate k c ++ v) (clean line) := by
  have hruns := stands_runs (by
    obtain ⟨x, hx, _⟩ := h.leftEnd
    intro e
    simp at e
    rw [e.1] at hx
    cases hx) (fun e he => ⟨(mark_facts (h.chars e he)).1, (mark_facts (h.chars e he)).2.1⟩) hs
  have hL := h.left
  have hR := h.right
  obtain ⟨u', x, d, v', rfl, rfl, hx, hd⟩ := h.parts
  unfold clean
  rcases h.mark with ⟨rfl, h3⟩ | ⟨rfl, h2⟩
  · have hsub := stands_replaced (lo := 3) (by decide) (fun b b' hb => separator_long (lo := 3) (by decide) (by decide) (by decide) (by decide)
      hx hd hk hL.noDots hR.noDots (b' := b') hb) hruns
    refine stands_separator (lo := 2) (by decide) (by simp) ?_ hsub
    intro hi
    rcases dots_infix (by decide) (by omega) rfl hi with hi | hi
    · exact hL.noDashes hi
    · exact hR.noDashes hi
  · have hno : ¬ List.replicate 3 '.' <:+: u' ++ [x] ++ List.replicate k '-' ++ d :: v' := by
      intro hi
      rcases dots_infix (by decide) (by omega) rfl hi with hi | hi
      · exact hL.noDots hi
      · exact hR.noDots hi
    have h1 := stands_separator (lo := 3) (c := '.') (by decide) (by simp) hno hruns
    exact stands_replaced (lo := 2) (by decide) (fun b b' hb => separator_long (lo := 2) (by decide) (by decide) (by decide) (by decide)
      hx hd hk hL.noDashes hR.noDashes (b' := b') hb) h1

/-- Two words with three to six dots, or two to six dashes, between them are tokens each. -/
theorem C127_joined_partial (C : Chew) (ui : List Str) (fuel : Nat) (msg : Mail) (l : List Str) (h : tokenise C ui fuel msg = .tokens l)
    (text u v : Str) (c : Char) (k : Nat) (ht : ToRead msg text) (hj : Joined u c k v) (hk : k ≤ 6)
    (hs : Stands (u ++ List.replicate k c ++ v) text) (w : Str) (hw : w = u ∨ w = v) (h3 : 3 ≤ w.length) (h15 : w.length ≤ 15)
    (hn : w ∉ sayNothing) : w ∈ l ∧ lower w ∈ l := by
  have h0 : w ≠ [] := by rintro rfl; simp at h3
  have hne : u ++ List.replicate k c ++ v ≠ [] := by
    intro e
    simp at e
    rcases hw with rfl | rfl
    · exact h0 e.1
    · exact h0 e.2.2
  have hW := asciiWord_word hne hj.chars
  obtain ⟨line, hl, hs⟩ := stands_lines hW (readable_rendered hne ht hs)
  obtain ⟨h1, h2⟩ := joined_clean hj hk hs
  have hA : AsciiWord w := by
    rcases hw with rfl | rfl
    · exact hj.left
    · exact hj.right
  refine word_token h (aword_line (asciiWord_word h0 hA.chars) hl ?_) hA.start hA.stop h3 h15 hn
  rcases hw with rfl | rfl
  · exact h1
  · exact h2

/-- With more dots or dashes the two words are one token. -/
theorem C127_run_violated (C : Chew) (ui : List Str) (fuel : Nat) (msg : Mail) (l : List Str) (h : tokenise C ui fuel msg = .tokens l)
    (text u v : Str) (c : Char) (k : Nat) (ht : ToRead msg text) (hj : Joined u c k v) (hk : 6 < k)
    (hs : Stands (u ++ List.replicate k c ++ v) text) (h15 : (u ++ List.replicate k c ++ v).length ≤ 15) :
    u ++ List.replicate k c ++ v ∈ l := by
  obtain ⟨x, hx, _⟩ := hj.leftEnd
  obtain ⟨d, hd, _⟩ := hj.rightStart
  have hu : u ≠ [] := by rintro rfl; cases hx
  have hv : v ≠ [] := by rintro rfl; cases hd
  have hne : u ++ List.replicate k c ++ v ≠ [] := by simp [hu]
  have hW := asciiWord_word hne hj.chars
  obtain ⟨line, hl, hs⟩ := stands_lines hW (readable_rendered hne ht hs)
  have hlen : 6 < (u ++ List.replicate k c ++ v).length := by simp; omega
  refine (word_token h (aword_line hW hl (joined_long hj hk hs)) ?_ ?_ (by omega) h15 ?_).1
  · intro e he
    refine hj.left.start e ?_
    obtain ⟨y, u', rfl⟩ := List.exists_cons_of_ne_nil hu
    simpa using he
  · intro e he
    refine hj.right.stop e ?_
    obtain ⟨y, v', rfl⟩ := List.exists_cons_of_ne_nil hv
    rw [List.getLast?_append] at he
    cases hg : (y :: v').getLast? with
    | none => simp at hg
    | some g => rw [hg] at he; simpa using he
  · intro hm
    have hno : ∀ w ∈ sayNothing, '.' ∉ w ∧ '-' ∉ w := by decide +kernel
    obtain ⟨h1, h2⟩ := hno _ hm
    obtain ⟨j, rfl⟩ : ∃ j, k = j + 1 := ⟨k - 1, by omega⟩
    rcases hj.mark with ⟨rfl, _⟩ | ⟨rfl, _⟩
    · exact h1 (by simp)
    · exact h2 (by simp)

/-- The dots and dashes themselves are never a token: what is made of dots and dashes only is not a token of the texts. -/
theorem C127_marks_violated (C : Chew) (ui : List Str) (fuel : Nat) (msg : Mail) (l : List Str) (h : tokenise C ui fuel msg = .tokens l)
    (hh : msg.headers = []) (t : Str) (ht : ∀ c ∈ t, c = '.' ∨ c = '-') : t ∉ l := by
  intro hm
  obtain ⟨text, w, _, _, _, h3, _, hd, hs, _⟩ := C127_from_text C ui fuel msg l h hh t hm
  have h0 : t ≠ [] := by rintro rfl; exact (C127_once C ui fuel msg l h).2 hm
  have hlow : ∀ c : Char, c ≠ '.' → c ≠ '-' → c.toLower ≠ '.' ∧ c.toLower ≠ '-' := by
    intro c h1 h2
    unfold Char.toLower
    split
    · rename_i hc
      constructor
      all_goals
        intro e
        have := congrArg (fun c : Char => c.val.toNat) e
        simp only [UInt32.le_iff_toNat_le] at hc
        simp at this hc
        omega
    · exact ⟨h1, h2⟩
  have key : ∀ {s : Str}, Derived w s → s = [] ∨ ∃ c ∈ s, c ≠ '.' ∧ c ≠ '-' := by
    intro s hd
    induction hd with
    | same =>
      right
      obtain ⟨y, w', rfl⟩ := List.exists_cons_of_ne_nil (show w ≠ [] by rintro rfl; simp at h3)
      have := hs y rfl
      refine ⟨y, by simp, ?_, ?_⟩
      · rintro rfl; exact this (by unfold edgeMark; decide)
      · rintro rfl; exact this (by unfold edgeMark; decide)
    | lower _ ih =>
      rcases ih with rfl | ⟨c, hc, h1, h2⟩
      · exact .inl rfl
      · exact .inr ⟨c.toLower, List.mem_map.2 ⟨c, hc, rfl⟩, hlow c h1 h2⟩
    | @letters s _ _ =>
      cases hf : s.filter (fun c => wordChar c || c == ':' || c == '*') with
      | nil => exact .inl rfl
      | cons y ys =>
        right
        have hy : y ∈ s.filter (fun c => wordChar c || c == ':' || c == '*') := by rw [hf]; simp
        rw [List.mem_filter] at hy
        refine ⟨y, by simp, ?_, ?_⟩
        · rintro rfl; exact absurd hy.2 (by decide)
        · rintro rfl; exact absurd hy.2 (by decide)
    | short _ => exact .inr ⟨'s', by simp, by decide, by decide⟩
    | tail n _ => exact .inr ⟨'8', by simp, by decide, by decide⟩
  rcases key hd with e | ⟨c, hc, h1, h2⟩
  · exact h0 e
  · rcases ht c hc with e | e
    · exact h1 e
    · exact h2 e

/-! ### Examples -/

example : Joined c!"Hello" '-' 2 c!"cheap" := by
  refine ⟨?_, ?_, ⟨'o', rfl, by decide⟩, ⟨'c', rfl, by decide⟩, .inr ⟨rfl, by decide⟩⟩
  all_goals
    refine ⟨?_, ?_, ?_, by decide, by decide⟩
    · intro c hc
      left
      revert c
      decide
    · intro c hc
      cases hc
      unfold edgeMark
      decide
    · intro c hc
      cases hc
      unfold edgeMark
      decide

end Verif.Props
