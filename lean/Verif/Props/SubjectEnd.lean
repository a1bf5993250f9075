import Verif.Props.SubjectId

/-!
# C146: identifiers at the end of a subject
-/

namespace Verif.Props
open Verif Py Re SubjectId Spec

theorem textFrom_infix (r : Re) : ∀ (a b w : Str), textFrom r b a = some w → ∃ u z, a = u ++ w ++ z ∧ Reads r (u.reverse ++ b) w z := by
  intro a
  induction a with
  | nil =>
    intro b w h
    unfold textFrom at h
    cases hm : m r ⟨b, [], []⟩ some with
    | none => rw [hm] at h; cases h
    | some t =>
      rw [hm] at h
      obtain ⟨v, e, ev, hv⟩ := m_some_takes hm
      have hv0 : v = [] := by
        cases v with
        | nil => rfl
        | cons x v => simp at e
      subst hv0
      have ht : t.after = [] := by simpa using e.symm
      have : w = [] := by simpa using h.symm
      subst this
      exact ⟨[], [], rfl, by simpa [ht] using hv⟩
  | cons c cs ih =>
    intro b w h
    unfold textFrom at h
    cases hm : m r ⟨b, c :: cs, []⟩ some with
    | some t =>
      rw [hm] at h
      obtain ⟨v, e, ev, hv⟩ := m_some_takes hm
      have : w = v := by rw [← ev]; exact (Option.some.inj h).symm
      subst this
      exact ⟨[], t.after, by simpa using e, by simpa using hv⟩
    | none =>
      rw [hm] at h
      obtain ⟨u, z, e, hr⟩ := ih (c :: b) w h
      exact ⟨c :: u, z, by simp [e], by simpa using hr⟩

theorem searchText_reads {r : Re} {text w : Str} (h : searchText r text = some w) : ∃ u z, text = u ++ w ++ z ∧ Reads r u.reverse w z := by
  obtain ⟨u, z, e, hr⟩ := textFrom_infix r text [] w h
  exact ⟨u, z, e, by simpa using hr⟩

theorem textFrom_isSome (r : Re) : ∀ (a b : Str), (textFrom r b a).isSome = (searchFrom r b a).isSome := by
  intro a
  induction a with
  | nil =>
    intro b
    unfold textFrom searchFrom
    cases m r ⟨b, [], []⟩ some <;> rfl
  | cons c cs ih =>
    intro b
    unfold textFrom searchFrom
    cases m r ⟨b, c :: cs, []⟩ some with
    | none => exact ih _
    | some t => rfl

theorem firstMatch_none {rs : List Re} {text : Str} (h : firstMatch rs text = none) :
    ∀ r ∈ rs, ∀ u w z, text = u ++ w ++ z → ¬ Reads r u.reverse w z := by
  induction rs with
  | nil => intro r hr; cases hr
  | cons r rs ih =>
    unfold firstMatch at h
    cases hs : searchText r text with
    | some w => rw [hs] at h; cases h
    | none =>
      rw [hs] at h
      intro r' hr'
      rcases List.mem_cons.1 hr' with rfl | hr'
      · intro u w z e hr
        have h1 : (searchText r' text).isSome = (search r' text).isSome := textFrom_isSome r' text []
        rw [hs] at h1
        have h2 := (search_isSome r' text).2 ⟨u, w, z, e, hr⟩
        rw [← h1] at h2
        cases h2
      · exact ih h r' hr'

theorem firstMatch_some {rs : List Re} {text id : Str} (h : firstMatch rs text = some id) :
    ∃ r ∈ rs, ∃ u z, text = u ++ id ++ z ∧ Reads r u.reverse id z := by
  induction rs with
  | nil => cases h
  | cons r rs ih =>
    unfold firstMatch at h
    cases hs : searchText r text with
    | some w =>
      rw [hs] at h
      cases h
      exact ⟨r, List.mem_cons_self .., searchText_reads hs⟩
    | none =>
      rw [hs] at h
      obtain ⟨r', hr', h⟩ := ih h
      exact ⟨r', List.mem_cons_of_mem _ hr', h⟩

/-! ### The parts of the expressions -/

theorem dashes_reads : ∀ {n : Nat} {b w a : Str}, Reads (upTo (.seq (lit c!"-") (plus isWord)) n) b w a ↔
    ∃ ws, ws.length ≤ n ∧ IdWords ws ∧ w = dashed ws := by
  intro n
  induction n with
  | zero =>
    intro b w a
    constructor
    · intro h
      have h : w = [] := h
      subst h
      exact ⟨[], by simp, (fun _ hw => nomatch hw), rfl⟩
    · rintro ⟨ws, h, _, rfl⟩
      have : ws = [] := List.length_eq_zero_iff.1 (by omega)
      subst this
      exact rfl
  | succ n ih =>
    intro b w a
    constructor
    · rintro (⟨u, v, rfl, ⟨x, y, rfl, hx, hy⟩, hv⟩ | h)
      · obtain rfl := Reads.lit.1 hx
        obtain ⟨ws, h1, h2, rfl⟩ := ih.1 hv
        have hy := Reads.plus.1 hy
        refine ⟨y :: ws, by simp; omega, ?_, by simp [dashed]⟩
        intro w hw
        rcases List.mem_cons.1 hw with rfl | hw
        · refine ⟨hy.1, fun c hc => ?_⟩
          have := hy.2 c hc
          simpa [isWord] using this
        · exact h2 w hw
      · have h : w = [] := h
        subst h
        exact ⟨[], by simp, (fun _ hw => nomatch hw), rfl⟩
    · rintro ⟨ws, h, hw, rfl⟩
      cases ws with
      | nil => exact .inr rfl
      | cons y ws =>
        refine .inl ⟨'-' :: y, dashed ws, by simp [dashed], ⟨['-'], y, rfl, Reads.lit.2 rfl, Reads.plus.2 ⟨(hw y (by simp)).1, ?_⟩⟩,
          ih.2 ⟨ws, by simpa using h, fun w h => hw w (List.mem_cons_of_mem _ h), rfl⟩⟩
        intro c hc
        have := (hw y (by simp)).2 c hc
        simpa [isWord] using this

theorem dashed_length {ws : List Str} (_h : IdWords ws) : ws.length ≤ (dashed ws).length := by
  induction ws with
  | nil => simp
  | cons w ws ih =>
    have := ih (fun w h => _h w (List.mem_cons_of_mem _ h))
    simp only [dashed, List.flatMap_cons, List.length_append, List.length_cons] at this ⊢
    omega

theorem wordChars_iff {s : Str} : (∀ c ∈ s, isWord c = true) ↔ WordChars s := by
  unfold WordChars
  simp [isWord]

theorem idChars_iff {s : Str} : (∀ c ∈ s, idChar c = true) ↔ IdChars s := by
  unfold IdChars
  simp [idChar]

theorem gapChars_iff {s : Str} {n : Nat} : (n ≤ s.length ∧ ∀ c ∈ s, gapChar c = true) ↔ IdGap n s := by
  unfold IdGap
  simp [gapChar, or_assoc]

theorem lineChars_iff {s : Str} : (∀ c ∈ s, lineChar c = true) ↔ ∀ c ∈ s, isSpace c = true ∨ c ∈ c!"-_." := by
  refine forall_congr' fun c => imp_congr_right fun _ => ?_
  constructor
  · exact line_mark
  · rintro (h | h)
    · exact space_line h
    · simp only [List.mem_cons, List.not_mem_nil, or_false] at h
      rcases h with rfl | rfl | rfl <;> decide

theorem hexChar_iff {c : Char} : hexChar c = true ↔ ('0' ≤ c ∧ c ≤ '9') ∨ ('a' ≤ c ∧ c ≤ 'f') ∨ ('A' ≤ c ∧ c ≤ 'F') := by
  by_cases hn : c.toNat < 128
  · have all : ∀ n < 128, (hexChar (Char.ofNat n) = true ↔ ('0' ≤ Char.ofNat n ∧ Char.ofNat n ≤ '9') ∨
        ('a' ≤ Char.ofNat n ∧ Char.ofNat n ≤ 'f') ∨ ('A' ≤ Char.ofNat n ∧ Char.ofNat n ≤ 'F')) := by decide +kernel
    have := all _ hn
    rwa [Char.ofNat_toNat] at this
  · constructor
    · intro h
      exfalso
      simp only [hexChar, Bool.or_eq_true] at h
      rcases h with h | h
      · simp only [Char.isDigit, Bool.and_eq_true, decide_eq_true_eq] at h
        have : c.toNat ≤ 57 := h.2
        omega
      · have hl : c.toLower = c := by
          unfold Char.toLower
          rw [dif_neg]
          rintro ⟨_, h1⟩
          have h1 : c.toNat ≤ 90 := h1
          omega
        rw [hl, List.contains_iff_mem] at h
        simp only [List.mem_cons, List.not_mem_nil, or_false] at h
        rcases h with rfl | rfl | rfl | rfl | rfl | rfl <;> exact hn (by decide)
    · rintro (h | h | h)
      · have : c.toNat ≤ 57 := h.2; omega
      · have : c.toNat ≤ 102 := h.2; omega
      · have : c.toNat ≤ 70 := h.2; omega

theorem nonSpaces_iff {s : Str} : (∀ c ∈ s, nonSpace c = true) ↔ ∀ c ∈ s, isSpace c = false := by
  refine forall_congr' fun c => imp_congr_right fun _ => ?_
  simp [nonSpace]

/-! ### The expressions -/

theorem idEnd_reads {text : Str} (hb : '\n' ∉ text) : (∃ r ∈ idRes text.length, ∃ u w z, text = u ++ w ++ z ∧ Reads r u.reverse w z) ↔ IdEnd text := by
  constructor
  · rintro ⟨r, hr, u, w, z, e, h⟩
    simp only [idRes, List.mem_cons, List.not_mem_nil, or_false] at hr
    rcases hr with rfl | rfl | rfl | rfl | rfl | rfl | rfl | rfl | rfl | rfl | rfl
    · obtain ⟨w1, w, rfl, h1, h⟩ := reads_seqs.1 h
      obtain ⟨w2, w, rfl, h2, h⟩ := reads_seqs.1 h
      obtain ⟨rfl, rfl⟩ := eol_end hb e h
      have h1 := atLeast_reads.1 h1
      have h2 := atLeast_reads.1 h2
      have : text = u ++ w1 ++ w2 := by rw [e]; simp
      rw [this]
      exact .ruled u w1 w2 h1.1 (lineChars_iff.1 h1.2) h2.1 (idChars_iff.1 h2.2)
    · obtain ⟨w1, w, rfl, h1, h⟩ := reads_seqs.1 h
      obtain ⟨w2, w, rfl, h2, h⟩ := reads_seqs.1 h
      obtain ⟨w3, w, rfl, h3, h⟩ := reads_seqs.1 h
      obtain ⟨rfl, rfl⟩ := eol_end hb e h
      have h1 := atLeast_reads.1 h1
      have h3 := Reads.plus.1 h3
      have : text = u ++ w1 ++ w2 ++ w3 := by rw [e]; simp
      rw [this]
      refine .far u w1 w2 w3 h1.1 h1.2 ?_ h3.1 (nonSpaces_iff.1 h3.2)
      rcases h2 with ⟨x, y, rfl, ⟨c, rfl, hc⟩, ⟨d, rfl, hd⟩⟩ | h2
      · exact .inr ⟨c, d, rfl, by simpa [nonSpace] using hc, hd⟩
      · exact .inl h2
    · obtain ⟨w1, w, rfl, h1, h⟩ := reads_seqs.1 h
      obtain ⟨w2, w, rfl, h2, h⟩ := reads_seqs.1 h
      obtain ⟨w3, w, rfl, h3, h⟩ := reads_seqs.1 h
      obtain ⟨w4, w, rfl, h4, h⟩ := reads_seqs.1 h
      obtain ⟨rfl, rfl⟩ := eol_end hb e h
      have h1 := atLeast_reads.1 h1
      have h2 := Reads.plus.1 h2
      have h3 := atLeast_reads.1 h3
      have h4 := Reads.plus.1 h4
      have : text = u ++ w1 ++ w2 ++ w3 ++ w4 := by rw [e]; simp
      rw [this]
      exact .bracketed u w1 w2 w3 w4 h1.1 h1.2 h2.1 (fun c hc => List.contains_iff_mem.1 (h2.2 c hc)) h3.1 (idChars_iff.1 h3.2) h4.1
        (fun c hc => List.contains_iff_mem.1 (h4.2 c hc))
    · obtain ⟨w1, w, rfl, h1, h⟩ := reads_seqs.1 h
      obtain ⟨w2, w, rfl, ⟨x, rfl, hx⟩, h⟩ := reads_seqs.1 h
      obtain ⟨w3, w, rfl, h3, h⟩ := reads_seqs.1 h
      obtain ⟨rfl, rfl⟩ := eol_end hb e h
      have h1 := atLeast_reads.1 h1
      have h3 := atLeast_reads.1 h3
      have : text = u ++ w1 ++ [x] ++ w3 := by rw [e]; simp
      rw [this]
      exact .marked u w1 w3 x h1.1 h1.2 (List.contains_iff_mem.1 hx) h3.1 h3.2
    · obtain ⟨w1, w, rfl, h1, h⟩ := reads_seqs.1 h
      obtain ⟨w2, w, rfl, ⟨x, rfl, hx⟩, h⟩ := reads_seqs.1 h
      obtain ⟨w3, w, rfl, h3, h⟩ := reads_seqs.1 h
      obtain ⟨rfl, rfl⟩ := eol_end hb e h
      have h1 := gapChars_iff.1 (atLeast_reads.1 h1)
      have h3 := atLeast_reads.1 h3
      have : text = u ++ w1 ++ [x] ++ w3 := by rw [e]; simp
      rw [this]
      refine .number u w1 w3 x h1 ?_ h3.1 h3.2
      simpa [gapChar, and_assoc] using hx
    · obtain ⟨w1, w, rfl, h1, h⟩ := reads_seqs.1 h
      obtain ⟨w2, w, rfl, h2, h⟩ := reads_seqs.1 h
      obtain ⟨w3, w, rfl, h3, h⟩ := reads_seqs.1 h
      obtain ⟨w4, w, rfl, h4, h⟩ := reads_seqs.1 h
      obtain ⟨rfl, rfl⟩ := eol_end hb e h
      obtain rfl := Reads.lit.1 h2
      obtain rfl := Reads.lit.1 h4
      have h1 := gapChars_iff.1 (atLeast_reads.1 h1)
      have h3 := Reads.plus.1 h3
      have : text = u ++ w1 ++ c!"[" ++ w3 ++ c!"]" := by rw [e]; simp
      rw [this]
      exact .boxed u w1 w3 h1 h3.1 (nonSpaces_iff.1 h3.2)
    · obtain ⟨w1, w, rfl, h1, h⟩ := reads_seqs.1 h
      obtain ⟨w2, w, rfl, h2, h⟩ := reads_seqs.1 h
      obtain ⟨w3, w, rfl, h3, h⟩ := reads_seqs.1 h
      obtain ⟨w4, w, rfl, h4, h⟩ := reads_seqs.1 h
      obtain ⟨w5, w, rfl, h5, h⟩ := reads_seqs.1 h
      obtain ⟨rfl, rfl⟩ := eol_end hb e h
      obtain rfl := Reads.lit.1 h1
      obtain rfl := Reads.lit.1 h3
      obtain rfl := Reads.lit.1 h5
      have h2 := atLeast_reads.1 h2
      have h4 := Reads.plus.1 h4
      have : text = u ++ c!"(" ++ w2 ++ c!"@" ++ w4 ++ c!")" := by rw [e]; simp
      rw [this]
      refine .address u w2 w4 h2.1 (fun c hc => ?_) h4
      have := h2.2 c hc
      simpa [isWord, or_assoc] using this
    · obtain ⟨w1, w, rfl, h1, h⟩ := reads_seqs.1 h
      obtain ⟨w2, w, rfl, h2, h⟩ := reads_seqs.1 h
      obtain ⟨w3, w, rfl, h3, h⟩ := reads_seqs.1 h
      obtain ⟨rfl, rfl⟩ := eol_end hb e h
      obtain ⟨rfl, h1⟩ := h1
      have h2 := atLeast_reads.1 h2
      have h3 : IdBlank w3 := h3
      have : text = u ++ w2 ++ w3 := by rw [e]; simp
      rw [this]
      refine .seven u w2 w3 (fun c hc => ?_) h2.1 h2.2 h3
      obtain ⟨x, w2, rfl⟩ := List.exists_cons_of_length_pos (show 0 < w2.length by omega)
      have hx : isWord x = true := by
        have : x.isDigit = true := h2.2 x (by simp)
        simp [isWord, Char.isAlphanum, this]
      have hu : u.reverse.head? = some c := by rw [List.head?_reverse]; exact hc
      obtain ⟨ys, hys⟩ := List.head?_eq_some_iff.1 hu
      rw [hys] at h1
      have : isWord c = false := by
        have h1 : isWord c ≠ isWord x := h1
        rw [hx] at h1
        simpa using h1
      simpa [isWord] using this
    · obtain ⟨w1, w, rfl, ⟨x, rfl, hx⟩, h⟩ := reads_seqs.1 h
      obtain ⟨w2, w, rfl, h2, h⟩ := reads_seqs.1 h
      obtain ⟨w3, w, rfl, h3, h⟩ := reads_seqs.1 h
      obtain ⟨w4, w, rfl, h4, h⟩ := reads_seqs.1 h
      obtain ⟨rfl, rfl⟩ := eol_end hb e h
      have h2 : IdBlank w2 := h2
      have h4 : IdBlank w4 := h4
      rcases h3 with h3 | ⟨a, b, rfl, h3, hd⟩
      · have h3 := atLeast_reads.1 h3
        have : text = u ++ [x] ++ w2 ++ w3 ++ w4 := by rw [e]; simp
        rw [this]
        exact .called u w2 w3 w4 x (List.contains_iff_mem.1 hx) h2 h3.1 h3.2 h4
      · obtain ⟨p, q, rfl, ⟨d, y, rfl, hd1, hy⟩, hq⟩ := hd
        obtain rfl := Reads.lit.1 hd1
        obtain ⟨ws, _, hw, rfl⟩ := dashes_reads.1 hq
        have h3 := Reads.plus.1 h3
        have hy := Reads.plus.1 hy
        have : text = u ++ [x] ++ w2 ++ a ++ dashed (y :: ws) ++ w4 := by rw [e]; simp [dashed]
        rw [this]
        refine .calledWords u w2 w4 a (y :: ws) x (List.contains_iff_mem.1 hx) h2 ?_ (by simp) h4
        intro v hv
        rcases List.mem_cons.1 hv with rfl | hv
        · exact ⟨h3.1, wordChars_iff.1 h3.2⟩
        · rcases List.mem_cons.1 hv with rfl | hv
          · exact ⟨hy.1, wordChars_iff.1 hy.2⟩
          · exact hw v hv
    · obtain ⟨w0, w, rfl, _, h⟩ := reads_seqs.1 h
      obtain ⟨w1, w, rfl, h1, h⟩ := reads_seqs.1 h
      obtain ⟨w2, w, rfl, h2, h⟩ := reads_seqs.1 h
      obtain ⟨w3, w, rfl, h3, h⟩ := reads_seqs.1 h
      obtain ⟨w4, w, rfl, h4, h⟩ := reads_seqs.1 h
      obtain ⟨w5, w, rfl, h5, h⟩ := reads_seqs.1 h
      obtain ⟨w6, w, rfl, h6, h⟩ := reads_seqs.1 h
      obtain ⟨w7, w, rfl, h7, h⟩ := reads_seqs.1 h
      obtain ⟨rfl, rfl⟩ := eol_end hb e h
      obtain rfl := Reads.lit.1 h4
      obtain ⟨ws, _, hw, rfl⟩ := dashes_reads.1 h6
      have h1 := Reads.plus.1 h1
      have h2 := Reads.plus.1 h2
      have h3 := atLeast_reads.1 h3
      have h5 := atLeast_reads.1 h5
      have h7 : IdBlank w7 := h7
      have : text = (u ++ w0) ++ w1 ++ w2 ++ w3 ++ c!"-" ++ w5 ++ dashed ws ++ w7 := by rw [e]; simp
      rw [this]
      exact .long _ w1 w2 w3 w5 w7 ws h1.1 (wordChars_iff.1 h1.2) h2.1 h2.2 h3.1 (wordChars_iff.1 h3.2) h5.1 (wordChars_iff.1 h5.2) hw h7
    · obtain ⟨w1, w, rfl, ⟨x, rfl, hx⟩, h⟩ := reads_seqs.1 h
      obtain ⟨w2, w, rfl, h2, h⟩ := reads_seqs.1 h
      obtain ⟨w3, w, rfl, h3, h⟩ := reads_seqs.1 h
      obtain ⟨w4, w, rfl, h4, h⟩ := reads_seqs.1 h
      obtain ⟨w5, w, rfl, h5, h⟩ := reads_seqs.1 h
      obtain ⟨rfl, rfl⟩ := eol_end hb e h
      obtain rfl := Reads.lit.1 h2
      have h4 := atLeast_reads.1 h4
      have h3 : IdBlank w3 := h3
      have h5 : IdBlank w5 := h5
      have : text = u ++ [x] ++ c!"#" ++ w3 ++ w4 ++ w5 := by rw [e]; simp
      rw [this]
      exact .hash u w3 w4 w5 x hx h3 h4.1 (fun c hc => hexChar_iff.1 (h4.2 c hc)) h5
  · intro h
    have last : ∀ {b : Str}, Reads (seqs [.eol]) b [] [] := ⟨rfl, .inl rfl⟩
    cases h with
    | ruled pre gap id hg hc h4 hi =>
      refine ⟨_, List.mem_cons_self .., pre, gap ++ id, [], by simp, reads_seqs.2 ⟨gap, id, rfl, atLeast_reads.2 ⟨hg, lineChars_iff.2 hc⟩,
        reads_seqs.2 ⟨id, [], by simp, atLeast_reads.2 ⟨h4, idChars_iff.2 hi⟩, last⟩⟩⟩
    | far pre gap o id hg hbl ho h0 hi =>
      refine ⟨_, .tail _ (List.mem_cons_self ..), pre, gap ++ (o ++ id), [], by simp, reads_seqs.2 ⟨gap, o ++ id, rfl, atLeast_reads.2 ⟨hg, hbl⟩,
        reads_seqs.2 ⟨o, id, rfl, ?_, reads_seqs.2 ⟨id, [], by simp, Reads.plus.2 ⟨h0, nonSpaces_iff.2 hi⟩, last⟩⟩⟩⟩
      rcases ho with rfl | ⟨x, y, rfl, hx, hy⟩
      · exact .inr rfl
      · exact .inl ⟨[x], [y], rfl, ⟨x, rfl, by simp [nonSpace, hx]⟩, ⟨y, rfl, hy⟩⟩
    | bracketed pre gap l id r hg hbl hl hlc h4 hi hr hrc =>
      exact ⟨_, .tail _ (.tail _ (List.mem_cons_self ..)), pre, gap ++ (l ++ (id ++ r)), [], by simp,
        reads_seqs.2 ⟨gap, _, rfl, atLeast_reads.2 ⟨hg, hbl⟩, reads_seqs.2 ⟨l, _, rfl, Reads.plus.2 ⟨hl, fun c hc => List.contains_iff_mem.2 (hlc c hc)⟩,
          reads_seqs.2 ⟨id, _, rfl, atLeast_reads.2 ⟨h4, idChars_iff.2 hi⟩,
            reads_seqs.2 ⟨r, [], by simp, Reads.plus.2 ⟨hr, fun c hc => List.contains_iff_mem.2 (hrc c hc)⟩, last⟩⟩⟩⟩⟩
    | marked pre gap id x hg hbl hx h5 hi =>
      exact ⟨_, .tail _ (.tail _ (.tail _ (List.mem_cons_self ..))), pre, gap ++ ([x] ++ id), [], by simp,
        reads_seqs.2 ⟨gap, _, rfl, atLeast_reads.2 ⟨hg, hbl⟩, reads_seqs.2 ⟨[x], id, rfl, ⟨x, rfl, List.contains_iff_mem.2 hx⟩,
          reads_seqs.2 ⟨id, [], by simp, atLeast_reads.2 ⟨h5, hi⟩, last⟩⟩⟩⟩
    | number pre gap n x hg hx h3 hn =>
      refine ⟨_, .tail _ (.tail _ (.tail _ (.tail _ (List.mem_cons_self ..)))), pre, gap ++ ([x] ++ n), [], by simp,
        reads_seqs.2 ⟨gap, _, rfl, atLeast_reads.2 (gapChars_iff.2 hg), reads_seqs.2 ⟨[x], n, rfl, ⟨x, rfl, ?_⟩,
          reads_seqs.2 ⟨n, [], by simp, atLeast_reads.2 ⟨h3, hn⟩, last⟩⟩⟩⟩
      simpa [gapChar, and_assoc] using hx
    | boxed pre gap id hg h0 hi =>
      exact ⟨_, .tail _ (.tail _ (.tail _ (.tail _ (.tail _ (List.mem_cons_self ..))))), pre, gap ++ (c!"[" ++ (id ++ c!"]")), [], by simp,
        reads_seqs.2 ⟨gap, _, rfl, atLeast_reads.2 (gapChars_iff.2 hg), reads_seqs.2 ⟨_, _, rfl, Reads.lit.2 rfl,
          reads_seqs.2 ⟨id, _, rfl, Reads.plus.2 ⟨h0, nonSpaces_iff.2 hi⟩, reads_seqs.2 ⟨c!"]", [], by simp, Reads.lit.2 rfl, last⟩⟩⟩⟩⟩
    | address pre id n h7 hi hn =>
      refine ⟨_, .tail _ (.tail _ (.tail _ (.tail _ (.tail _ (.tail _ (List.mem_cons_self ..)))))), pre,
        c!"(" ++ (id ++ (c!"@" ++ (n ++ c!")"))), [], by simp,
        reads_seqs.2 ⟨_, _, rfl, Reads.lit.2 rfl, reads_seqs.2 ⟨id, _, rfl, atLeast_reads.2 ⟨h7, fun c hc => ?_⟩,
          reads_seqs.2 ⟨_, _, rfl, Reads.lit.2 rfl, reads_seqs.2 ⟨n, _, rfl, Reads.plus.2 hn,
            reads_seqs.2 ⟨c!")", [], by simp, Reads.lit.2 rfl, last⟩⟩⟩⟩⟩⟩
      have := hi c hc
      simpa [isWord, or_assoc] using this
    | seven pre n z hp h7 hn hz =>
      refine ⟨_, .tail _ (.tail _ (.tail _ (.tail _ (.tail _ (.tail _ (.tail _ (List.mem_cons_self ..))))))), pre, n ++ z, [], by simp,
        reads_seqs.2 ⟨[], _, rfl, ⟨rfl, ?_⟩, reads_seqs.2 ⟨n, z, rfl, atLeast_reads.2 ⟨h7, hn⟩, reads_seqs.2 ⟨z, [], by simp, hz, last⟩⟩⟩⟩
      obtain ⟨x, n, rfl⟩ := List.exists_cons_of_length_pos (show 0 < n.length by omega)
      have hx : isWord x = true := by
        have : x.isDigit = true := hn x (by simp)
        simp [isWord, Char.isAlphanum, this]
      show wordAt pre.reverse ≠ isWord x
      rw [hx]
      cases hl : pre.reverse with
      | nil => simp [wordAt]
      | cons c cs =>
        have := hp c (by rw [← List.head?_reverse, hl]; rfl)
        show isWord c ≠ true
        simp [isWord, this]
    | called pre b n z x hx hbl h4 hn hz =>
      exact ⟨_, .tail _ (.tail _ (.tail _ (.tail _ (.tail _ (.tail _ (.tail _ (.tail _ (List.mem_cons_self ..)))))))), pre,
        [x] ++ (b ++ (n ++ z)), [], by simp,
        reads_seqs.2 ⟨[x], _, rfl, ⟨x, rfl, List.contains_iff_mem.2 hx⟩, reads_seqs.2 ⟨b, _, rfl, hbl,
          reads_seqs.2 ⟨n, z, rfl, .inl (atLeast_reads.2 ⟨h4, hn⟩), reads_seqs.2 ⟨z, [], by simp, hz, last⟩⟩⟩⟩⟩
    | calledWords pre b z w ws x hx hbl hw h0 hz =>
      cases ws with
      | nil => exact absurd rfl h0
      | cons y ws =>
        have hws : IdWords ws := fun v hv => hw v (List.mem_cons_of_mem _ (List.mem_cons_of_mem _ hv))
        have hlen := dashed_length hws
        refine ⟨_, .tail _ (.tail _ (.tail _ (.tail _ (.tail _ (.tail _ (.tail _ (.tail _ (List.mem_cons_self ..)))))))), pre,
          [x] ++ (b ++ ((w ++ (('-' :: y) ++ dashed ws)) ++ z)), [], by simp [dashed],
          reads_seqs.2 ⟨[x], _, rfl, ⟨x, rfl, List.contains_iff_mem.2 hx⟩, reads_seqs.2 ⟨b, _, rfl, hbl,
            reads_seqs.2 ⟨_, z, rfl, .inr ⟨w, _, rfl, Reads.plus.2 ⟨(hw w (by simp)).1, wordChars_iff.2 (hw w (by simp)).2⟩,
              '-' :: y, dashed ws, rfl, ⟨['-'], y, rfl, Reads.lit.2 rfl, Reads.plus.2 ⟨(hw y (by simp)).1, wordChars_iff.2 (hw y (by simp)).2⟩⟩,
              dashes_reads.2 ⟨ws, ?_, hws, rfl⟩⟩, reads_seqs.2 ⟨z, [], by simp, hz, last⟩⟩⟩⟩⟩
        simp [dashed] at hlen ⊢
        omega
    | long pre v b x y z ws hv hvw hb0 hbl hx hxw hy hyw hw hz =>
      have hlen := dashed_length hw
      refine ⟨_, .tail _ (.tail _ (.tail _ (.tail _ (.tail _ (.tail _ (.tail _ (.tail _ (.tail _ (List.mem_cons_self ..))))))))), pre,
        [] ++ (v ++ (b ++ (x ++ (c!"-" ++ (y ++ (dashed ws ++ z)))))), [], by simp,
        reads_seqs.2 ⟨[], _, rfl, .inr rfl, reads_seqs.2 ⟨v, _, rfl, Reads.plus.2 ⟨hv, wordChars_iff.2 hvw⟩,
          reads_seqs.2 ⟨b, _, rfl, Reads.plus.2 ⟨hb0, hbl⟩, reads_seqs.2 ⟨x, _, rfl, atLeast_reads.2 ⟨hx, wordChars_iff.2 hxw⟩,
            reads_seqs.2 ⟨_, _, rfl, Reads.lit.2 rfl, reads_seqs.2 ⟨y, _, rfl, atLeast_reads.2 ⟨hy, wordChars_iff.2 hyw⟩,
              reads_seqs.2 ⟨_, _, rfl, dashes_reads.2 ⟨ws, ?_, hw, rfl⟩, reads_seqs.2 ⟨z, [], by simp, hz, last⟩⟩⟩⟩⟩⟩⟩⟩⟩
      simp at hlen ⊢
      omega
    | hash pre b n z x hx hbl h4 hn hz =>
      exact ⟨_, .tail _ (.tail _ (.tail _ (.tail _ (.tail _ (.tail _ (.tail _ (.tail _ (.tail _ (.tail _ (List.mem_cons_self ..)))))))))), pre,
        [x] ++ (c!"#" ++ (b ++ (n ++ z))), [], by simp,
        reads_seqs.2 ⟨[x], _, rfl, ⟨x, rfl, hx⟩, reads_seqs.2 ⟨_, _, rfl, Reads.lit.2 rfl, reads_seqs.2 ⟨b, _, rfl, hbl,
          reads_seqs.2 ⟨n, z, rfl, atLeast_reads.2 ⟨h4, fun c hc => hexChar_iff.2 (hn c hc)⟩, reads_seqs.2 ⟨z, [], by simp, hz, last⟩⟩⟩⟩⟩⟩

theorem seqs_empty : ∀ {l : List Re} {b a : Str}, Reads (seqs l) b [] a → ∀ r ∈ l, ∃ b a, Reads r b [] a := by
  intro l
  induction l with
  | nil => intro b a _ r hr; cases hr
  | cons x l ih =>
    intro b a h r hr
    obtain ⟨u, v, e, hu, hv⟩ := reads_seqs.1 h
    obtain ⟨rfl, rfl⟩ := List.append_eq_nil_iff.1 e.symm
    rcases List.mem_cons.1 hr with rfl | hr
    · exact ⟨_, _, hu⟩
    · exact ih hv r hr

/-- **C146**.  A subject of one line in which there are no five digits in a row is reported exactly if it ends in one of the ways in
which identifiers are attached to subjects. -/
theorem C146_found (E : Str → Str → Option Bool) (text : Str) (hb : '\n' ∉ text)
    (hd : ∀ n, n <:+: text → (∀ c ∈ n, c.isDigit = true) → n.length < 5) :
    ∃ answer, uniqueId E text = some answer ∧ (answer = true ↔ IdEnd text) := by
  unfold uniqueId
  cases hf : firstMatch (idRes text.length) text with
  | none =>
    refine ⟨false, rfl, by simp, fun h => ?_⟩
    obtain ⟨r, hr, u, w, z, e, h⟩ := (idEnd_reads hb).2 h
    exact absurd h (firstMatch_none hf r hr u w z e)
  | some id =>
    obtain ⟨r, hr, u, z, e, h⟩ := firstMatch_some hf
    have hend : IdEnd text := (idEnd_reads hb).1 ⟨r, hr, u, id, z, e, h⟩
    have h0 : id ≠ [] := by
      rintro rfl
      simp only [idRes, List.mem_cons, List.not_mem_nil, or_false] at hr
      have no : ∀ {n : Nat} {p : Char → Bool}, 0 < n → ¬ ∃ b a, Reads (atLeast n p) b [] a := by
        rintro n p hn ⟨b, a, h⟩
        have := (atLeast_reads.1 h).1
        simp at this
        omega
      have all := fun l => seqs_empty (l := l) (b := u.reverse) (a := z)
      rcases hr with rfl | rfl | rfl | rfl | rfl | rfl | rfl | rfl | rfl | rfl | rfl
      · exact no (by decide) (all _ h (atLeast 7 lineChar) (by simp))
      · exact no (by decide) (all _ h (atLeast 10 isSpace) (by simp))
      · exact no (by decide) (all _ h (atLeast 3 isSpace) (by simp))
      · exact no (by decide) (all _ h (atLeast 3 isSpace) (by simp))
      · exact no (by decide) (all _ h (atLeast 3 gapChar) (by simp))
      · exact no (by decide) (all _ h (atLeast 3 gapChar) (by simp))
      · obtain ⟨b, a, h⟩ := all _ h (lit c!"(") (by simp)
        cases Reads.lit.1 h
      · exact no (by decide) (all _ h (atLeast 7 digit) (by simp))
      · obtain ⟨b, a, c, hc, _⟩ := all _ h (.chr (fun c => c!"!?".contains c)) (by simp)
        cases hc
      · exact no (by decide) (all _ h (atLeast 7 isWord) (by simp))
      · exact no (by decide) (all _ h (atLeast 4 hexChar) (by simp))
    have hl : longNumber id = false := by
      rw [Bool.eq_false_iff]
      intro hx
      obtain ⟨a, w, b, e', hw⟩ := (search_isSome _ _).1 hx
      obtain ⟨h1, h2⟩ := atLeast_reads.1 hw
      have := hd w ⟨u ++ a, b ++ z, by rw [e, e']; simp⟩ h2
      omega
    simp only []
    rw [if_neg h0, hl]
    exact ⟨true, rfl, by simp [hend]⟩

example : IdEnd c!"Buy now #3AfB" :=
  .hash c!"Buy now" [] c!"3AfB" [] ' ' (by decide) (by intro c hc; cases hc) (by decide) (by decide) (by intro c hc; cases hc)

example : IdEnd c!"Buy-------x9-q" := .ruled c!"Buy" c!"-------" c!"x9-q" (by decide) (by decide) (by decide) (by unfold IdChars; decide)

example : ∃ answer, uniqueId (fun _ _ => none) c!"Buy now #3AfB" = some answer ∧ (answer = true ↔ IdEnd c!"Buy now #3AfB") := by
  refine C146_found _ _ (by decide) ?_
  intro n hn hd
  have : ∀ n, n <:+: c!"Buy now #3AfB" → (n.all (fun c => c.isDigit)) = true → n.length < 5 := by
    intro n hn
    have h : ∀ i ≤ 13, ∀ j ≤ 13, (((c!"Buy now #3AfB".drop i).take j).all (fun c => c.isDigit)) = true → ((c!"Buy now #3AfB".drop i).take j).length < 5 := by
      decide +kernel
    obtain ⟨a, b, e⟩ := hn
    have hl := congrArg List.length e
    simp at hl
    have hi := h a.length (by omega) n.length (by omega)
    have : (c!"Buy now #3AfB".drop a.length).take n.length = n := by rw [← e]; simp
    rw [this] at hi
    exact hi
  exact this n hn (List.all_eq_true.2 hd)

end Verif.Props
