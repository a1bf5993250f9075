import Verif.Model.SubjectId
import Verif.Spec.SubjectId
import Verif.Lemmas.Re
import Verif.Lemmas.Tokens

/-!
# C146: numbers at the end of a subject
-/

namespace Verif.Props
open Verif Py Re SubjectId Spec

/-! ### Matches -/

theorem textFrom_none (r : Re) : ∀ (a b : Str), (∀ u w z, a = u ++ w ++ z → ¬ Reads r (u.reverse ++ b) w z) → textFrom r b a = none := by
  intro a
  induction a with
  | nil =>
    intro b h
    unfold textFrom
    cases hm : m r ⟨b, [], []⟩ some with
    | none => rfl
    | some t =>
      obtain ⟨w, z, e, hr⟩ := (m_isSome r ⟨b, [], []⟩).1 (by rw [hm]; rfl)
      exact absurd hr (h [] w z (by simpa using e))
  | cons c cs ih =>
    intro b h
    unfold textFrom
    cases hm : m r ⟨b, c :: cs, []⟩ some with
    | some t =>
      obtain ⟨w, z, e, hr⟩ := (m_isSome r ⟨b, c :: cs, []⟩).1 (by rw [hm]; rfl)
      exact absurd hr (h [] w z (by simpa using e))
    | none =>
      refine ih _ fun u w z e hr => h (c :: u) w z (by simp [e]) ?_
      simpa using hr

theorem searchText_none {r : Re} {text : Str} (h : ∀ u w z, text = u ++ w ++ z → ¬ Reads r u.reverse w z) : searchText r text = none :=
  textFrom_none r text [] (by simpa using h)

theorem textFrom_some (r : Re) (w z : Str) : ∀ (u b : Str), Reads r (u.reverse ++ b) w z →
    (∀ u' w' z', u ++ w ++ z = u' ++ w' ++ z' → Reads r (u'.reverse ++ b) w' z' → u.length ≤ u'.length ∧ (u' = u → w' = w)) →
    textFrom r b (u ++ w ++ z) = some w := by
  intro u
  induction u with
  | nil =>
    intro b hr hu
    have hs := (m_isSome r ⟨b, w ++ z, []⟩).2 ⟨w, z, rfl, by simpa using hr⟩
    have key : ∀ t, m r ⟨b, w ++ z, []⟩ some = some t → (w ++ z).take ((w ++ z).length - t.after.length) = w := by
      intro t ht
      obtain ⟨v, e, ev, hv⟩ := m_some_takes ht
      rw [ev]
      exact (hu [] v t.after (by simpa using e) (by simpa using hv)).2 rfl
    simp only [List.nil_append]
    generalize hx : w ++ z = x at *
    cases x with
    | nil =>
      unfold textFrom
      cases hm : m r ⟨b, [], []⟩ some with
      | none => rw [hm] at hs; cases hs
      | some t =>
        have := key t hm
        simp at this
        subst this
        rfl
    | cons c cs =>
      unfold textFrom
      cases hm : m r ⟨b, c :: cs, []⟩ some with
      | none => rw [hm] at hs; cases hs
      | some t => exact congrArg some (key t hm)
  | cons c cs ih =>
    intro b hr hu
    simp only [List.cons_append]
    unfold textFrom
    cases hm : m r ⟨b, c :: (cs ++ w ++ z), []⟩ some with
    | some t =>
      obtain ⟨v, a, e, hv⟩ := (m_isSome r ⟨b, c :: (cs ++ w ++ z), []⟩).1 (by rw [hm]; rfl)
      have := (hu [] v a (by simpa using e) (by simpa using hv)).1
      simp at this
    | none =>
      refine ih (c :: b) (by simpa using hr) ?_
      intro u' w' z' e hr'
      have := hu (c :: u') w' z' (by simp [e]) (by simpa using hr')
      refine ⟨by simpa using this.1, fun h => this.2 (by rw [h])⟩

theorem searchText_some {r : Re} {text u w z : Str} (e : text = u ++ w ++ z) (hr : Reads r u.reverse w z)
    (hu : ∀ u' w' z', text = u' ++ w' ++ z' → Reads r u'.reverse w' z' → u.length ≤ u'.length ∧ (u' = u → w' = w)) :
    searchText r text = some w := by
  subst e
  exact textFrom_some r w z u [] (by simpa using hr) (by simpa using hu)

theorem reads_seqs {r : Re} {rs : List Re} {b w a : Str} : Reads (seqs (r :: rs)) b w a ↔
    ∃ u v, w = u ++ v ∧ Reads r b u (v ++ a) ∧ Reads (seqs rs) (u.reverse ++ b) v a := by
  cases rs with
  | nil =>
    simp only [seqs, Reads]
    constructor
    · intro h; exact ⟨w, [], by simp, by simpa using h, rfl⟩
    · rintro ⟨u, v, rfl, h, rfl⟩; simpa using h
  | cons s ss => exact Iff.rfl

theorem timesChr_reads {p : Char → Bool} : ∀ {n : Nat} {b w a : Str}, Reads (times (.chr p) n) b w a ↔ w.length = n ∧ ∀ c ∈ w, p c = true := by
  intro n
  induction n with
  | zero =>
    intro b w a
    simp only [times, Reads]
    constructor
    · rintro rfl; simp
    · intro h; exact List.length_eq_zero_iff.1 h.1
  | succ n ih =>
    intro b w a
    constructor
    · intro h; exact Tokens.reads_times h
    · rintro ⟨hl, hw⟩
      match w, hl with
      | c :: cs, hl =>
        exact ⟨[c], cs, rfl, ⟨c, rfl, hw c (by simp)⟩, ih.2 ⟨by simpa using hl, fun d hd => hw d (by simp [hd])⟩⟩

theorem atLeast_reads {n : Nat} {p : Char → Bool} {b w a : Str} : Reads (atLeast n p) b w a ↔ n ≤ w.length ∧ ∀ c ∈ w, p c = true := by
  unfold atLeast
  rw [Reads.seq]
  constructor
  · rintro ⟨u, v, rfl, hu, hv⟩
    obtain ⟨h1, h2⟩ := timesChr_reads.1 hu
    rw [Reads.star] at hv
    refine ⟨by simp; omega, fun c hc => ?_⟩
    rcases List.mem_append.1 hc with hc | hc
    · exact h2 c hc
    · exact hv c hc
  · rintro ⟨h1, h2⟩
    refine ⟨w.take n, w.drop n, (List.take_append_drop n w).symm, timesChr_reads.2 ⟨by simp; omega, fun c hc => h2 c (List.mem_of_mem_take hc)⟩, ?_⟩
    rw [Reads.star]
    exact fun c hc => h2 c (List.mem_of_mem_drop hc)

/-- Two ways to see the end of a text: they agree if neither can be moved. -/
theorem suffix_exact {P n A x : Str} {f g : Char → Bool} (e : P ++ n = A ++ x) (hn : ∀ c ∈ n, g c = true)
    (hA : ∀ c, A.getLast? = some c → g c = false) (hx : ∀ c ∈ x, f c = true) (hP : ∀ c, P.getLast? = some c → f c = false)
    (hA0 : A ≠ [] ∨ P = []) : A = P ∧ x = n := by
  rcases List.append_eq_append_iff.1 e with ⟨as, h1, h2⟩ | ⟨bs, h1, h2⟩
  · rcases List.eq_nil_or_concat as with rfl | ⟨L, d, rfl⟩
    · simp at h1 h2; exact ⟨h1, h2.symm⟩
    · have h3 := hA d (by rw [h1]; simp)
      have h4 := hn d (by rw [h2]; simp)
      rw [h3] at h4; cases h4
  · rcases List.eq_nil_or_concat bs with rfl | ⟨L, d, rfl⟩
    · simp at h1 h2; exact ⟨h1.symm, h2⟩
    · have h3 := hP d (by rw [h1]; simp)
      have h4 := hx d (by rw [h2]; simp)
      rw [h3] at h4; cases h4

/-! ### Calm texts -/

theorem line_mark {c : Char} (h : lineChar c = true) : isSpace c = true ∨ c ∈ c!"-_." := by
  simp only [lineChar, gapChar, Bool.or_eq_true, beq_iff_eq] at h
  rcases h with ((h | rfl) | rfl) | rfl
  · exact .inl h
  all_goals simp

theorem digit_facts {c : Char} (h : c.isDigit = true) : isSpace c = false ∧ lineChar c = false ∧ c ≠ '-' ∧ c ≠ '\n' ∧ c ≠ '#' ∧ c ≠ '!' ∧
    c ≠ '(' ∧ c ≠ ')' ∧ c ≠ '.' := by
  have h1 : 48 ≤ c.toNat ∧ c.toNat ≤ 57 := by
    simp only [Char.isDigit, Bool.and_eq_true, decide_eq_true_eq, ge_iff_le, UInt32.le_iff_toNat_le] at h
    exact h
  have hs : isSpace c = false := by
    simp only [isSpace]
    simp
    omega
  have hne : ∀ d : Char, (d.toNat < 48 ∨ 57 < d.toNat) → c ≠ d := by
    rintro d hd rfl; omega
  refine ⟨hs, ?_, hne _ (by decide), hne _ (by decide), hne _ (by decide), hne _ (by decide), hne _ (by decide), hne _ (by decide),
    hne _ (by decide)⟩
  simp only [lineChar, gapChar, hs, Bool.false_or, Bool.or_eq_false_iff, beq_eq_false_iff_ne]
  exact ⟨⟨hne _ (by decide), hne _ (by decide)⟩, hne _ (by decide)⟩

/-- No three characters of gaps in a row. -/
def NoRun (s : Str) : Prop := ∀ x, x <:+: s → x.length = 3 → ∃ c ∈ x, lineChar c = false

theorem calm_noRun {pre n : Str} (h : Calm pre) (hn : ∀ c ∈ n, c.isDigit = true) : NoRun (pre ++ n) := by
  intro x hx hl
  rcases hd : x.find? (fun c => !lineChar c) with _ | c
  · exfalso
    have hall : ∀ c ∈ x, lineChar c = true := by simpa using hd
    have hin : x <:+: pre := by
      obtain ⟨s, t, e⟩ := hx
      rw [List.append_assoc] at e
      rcases List.append_eq_append_iff.1 e with ⟨as, h1, h2⟩ | ⟨bs, h1, h2⟩
      · rcases List.append_eq_append_iff.1 h2 with ⟨as', h3, h4⟩ | ⟨bs', h3, h4⟩
        · exact ⟨s, as', by rw [h1, h3, List.append_assoc]⟩
        · rcases bs' with _ | ⟨d, ds⟩
          · exact ⟨s, [], by rw [h1, ← List.append_nil as, ← h3]; simp⟩
          · have h5 := hall d (by rw [h3]; simp)
            have h6 := (digit_facts (hn d (by rw [h4]; simp))).2.1
            rw [h6] at h5; cases h5
      · match x, hl with
        | d :: ds, _ =>
          have h5 := hall d (by simp)
          have h6 := (digit_facts (hn d (by rw [h2]; simp))).2.1
          rw [h6] at h5; cases h5
    have hb : ∀ c ∈ x, c = ' ' := by
      intro c hc
      rcases line_mark (hall c hc) with h1 | h1
      · exact h.blank c (hin.subset hc) h1
      · exact absurd h1 (h.marks c (hin.subset hc))
    have : x = c!"   " := List.eq_replicate_iff.2 ⟨hl, hb⟩
    exact h.few (this ▸ hin)
  · have := List.find?_some hd
    exact ⟨c, List.mem_of_find?_eq_some hd, by simpa using this⟩

theorem noRun_none {s : Str} (h : NoRun s) {n : Nat} (hn : 3 ≤ n) {p : Char → Bool} (hp : ∀ c, p c = true → lineChar c = true)
    (rs : List Re) : searchText (seqs (atLeast n p :: rs)) s = none := by
  apply searchText_none
  intro u w z e hr
  obtain ⟨x, y, rfl, hx, _⟩ := reads_seqs.1 hr
  obtain ⟨hl, hx⟩ := atLeast_reads.1 hx
  obtain ⟨c, hc, hf⟩ := h (x.take 3) ⟨u, x.drop 3 ++ y ++ z, by rw [e, ← List.append_assoc, ← List.append_assoc]; simp [List.append_assoc]⟩
    (by simp; omega)
  rw [hp c (hx c (List.mem_of_mem_take hc))] at hf
  cases hf

/-- The end of a line, in a text without line breaks. -/
theorem eol_end {text u w z b : Str} (h : '\n' ∉ text) (e : text = u ++ w ++ z) {v : Str} (hr : Reads .eol b v z) : v = [] ∧ z = [] := by
  obtain ⟨rfl, hz | hz⟩ := hr
  · exact ⟨rfl, hz⟩
  · exact absurd (by rw [e, hz]; simp) h

theorem space_line {c : Char} (h : isSpace c = true) : lineChar c = true := by simp [lineChar, gapChar, h]

theorem gap_line {c : Char} (h : gapChar c = true) : lineChar c = true := by simp [lineChar, h]

structure Plain (pre n : Str) : Prop where
  calm : Calm pre
  num : Number n

theorem Plain.noBreak {pre n : Str} (h : Plain pre n) : '\n' ∉ pre ++ n := by
  intro hm
  rcases List.mem_append.1 hm with hm | hm
  · exact absurd (h.calm.blank _ hm (by decide)) (by decide)
  · exact (digit_facts (h.num.2 _ hm)).2.2.2.1 rfl

theorem Plain.noDash {pre n : Str} (h : Plain pre n) : '-' ∉ pre ++ n := by
  intro hm
  rcases List.mem_append.1 hm with hm | hm
  · exact h.calm.marks _ hm (by decide)
  · exact (digit_facts (h.num.2 _ hm)).2.2.1 rfl

theorem Plain.last {pre n : Str} (h : Plain pre n) : ∃ c, (pre ++ n).getLast? = some c ∧ c.isDigit = true := by
  rcases List.eq_nil_or_concat n with rfl | ⟨L, d, rfl⟩
  · exact absurd rfl h.num.1
  · exact ⟨d, by simp, h.num.2 d (by simp)⟩

/-- What ends in blanks cannot end in a digit. -/
theorem Plain.noBlanks {pre n A x : Str} (h : Plain pre n) (e : pre ++ n = A ++ x) (hx : ∀ c ∈ x, isSpace c = true) : x = [] := by
  rcases List.eq_nil_or_concat x with rfl | ⟨L, d, rfl⟩
  · rfl
  · obtain ⟨c, hc, hd⟩ := h.last
    rw [e] at hc
    simp at hc
    subst hc
    have := hx d (by simp)
    rw [(digit_facts hd).1] at this; cases this

/-- The first seven expressions find nothing. -/
theorem Plain.first {pre n : Str} (h : Plain pre n) (len : Nat) :
    firstMatch (idRes len) (pre ++ n) = firstMatch ((idRes len).drop 7) (pre ++ n) := by
  have hr := calm_noRun h.calm h.num.2
  have h7 : searchText (seqs [lit c!"(", atLeast 7 (fun c => isWord c || c == '-'), lit c!"@", plus digit, lit c!")", .eol]) (pre ++ n) = none := by
    apply searchText_none
    intro u w z e hr
    obtain ⟨w1, v1, rfl, _, hr⟩ := reads_seqs.1 hr
    obtain ⟨w2, v2, rfl, _, hr⟩ := reads_seqs.1 hr
    obtain ⟨w3, v3, rfl, _, hr⟩ := reads_seqs.1 hr
    obtain ⟨w4, v4, rfl, _, hr⟩ := reads_seqs.1 hr
    obtain ⟨w5, v5, rfl, h5, hr⟩ := reads_seqs.1 hr
    obtain ⟨rfl, rfl⟩ := eol_end h.noBreak e hr
    obtain rfl := Reads.lit.1 h5
    obtain ⟨c, hc, hd⟩ := h.last
    rw [e] at hc
    have : c = ')' := by
      have h1 : (u ++ (w1 ++ (w2 ++ (w3 ++ (w4 ++ (c!")" ++ []))))) ++ []) = (u ++ w1 ++ w2 ++ w3 ++ w4) ++ [')'] := by simp
      rw [h1, List.getLast?_concat] at hc
      exact (Option.some.inj hc).symm
    exact (digit_facts hd).2.2.2.2.2.2.2.1 this
  unfold idRes
  simp only [firstMatch, List.drop_succ_cons, List.drop_zero]
  rw [noRun_none hr (by decide) (fun _ h => h), noRun_none hr (by decide) (fun _ h => space_line h),
    noRun_none hr (by decide) (fun _ h => space_line h), noRun_none hr (by decide) (fun _ h => space_line h),
    noRun_none hr (by decide) (fun _ h => gap_line h), noRun_none hr (by decide) (fun _ h => gap_line h), h7]

theorem Plain.eighth {pre n : Str} (h : Plain pre n) (hl : n.length < 7) (hp : ∃ c, pre.getLast? = some c ∧ c.isDigit = false) :
    searchText (seqs [.wordb, atLeast 7 digit, blanks, .eol]) (pre ++ n) = none := by
  apply searchText_none
  intro u w z e hr
  obtain ⟨w1, v1, rfl, ⟨rfl, _⟩, hr⟩ := reads_seqs.1 hr
  obtain ⟨w2, v2, rfl, h2, hr⟩ := reads_seqs.1 hr
  obtain ⟨w3, v3, rfl, h3, hr⟩ := reads_seqs.1 hr
  obtain ⟨rfl, rfl⟩ := eol_end h.noBreak e hr
  obtain ⟨h7, hd⟩ := atLeast_reads.1 h2
  have e' : pre ++ n = (u ++ w2) ++ w3 := by rw [e]; simp
  obtain rfl := h.noBlanks e' h3
  rw [List.append_nil] at e'
  rcases List.append_eq_append_iff.1 e' with ⟨as, h1, h2⟩ | ⟨bs, h1, h2⟩
  · have := congrArg List.length h2
    simp at this
    omega
  · obtain ⟨c, hc, hf⟩ := hp
    rcases List.eq_nil_or_concat bs with rfl | ⟨L, d, rfl⟩
    · have := congrArg List.length h2
      simp at this
      omega
    · rw [h1] at hc
      simp at hc
      have h4 := hd d (by rw [h2]; simp)
      rw [hc] at h4
      exact Bool.noConfusion (h4.symm.trans hf)

theorem Plain.number {pre n : Str} (h : Plain pre n) (hl : 7 ≤ n.length) (hp : ∀ c, pre.getLast? = some c → isWord c = false) :
    searchText (seqs [.wordb, atLeast 7 digit, blanks, .eol]) (pre ++ n) = some n := by
  have hdig : ∀ {c : Char}, digit c = true → isWord c = true := by
    intro c hc
    simp only [isWord, Char.isAlphanum, Bool.or_eq_true]
    exact .inl (.inr hc)
  refine searchText_some (u := pre) (w := n) (z := []) (by simp) ?_ ?_
  · refine reads_seqs.2 ⟨[], n, rfl, ⟨rfl, ?_⟩, reads_seqs.2 ⟨n, [], by simp, atLeast_reads.2 ⟨hl, h.num.2⟩,
      reads_seqs.2 ⟨[], [], rfl, by simp [blanks, Reads], rfl, .inl rfl⟩⟩⟩
    have h1 : wordAt pre.reverse = false := by
      cases hr : pre.reverse with
      | nil => rfl
      | cons c cs => exact hp c (by rw [← List.head?_reverse, hr]; rfl)
    have h2 : wordAt (n ++ []) = true := by
      obtain ⟨d, ds, rfl⟩ := List.exists_cons_of_ne_nil h.num.1
      exact hdig (h.num.2 d (by simp))
    rw [h1, h2]
    simp
  · intro u w z e hr
    obtain ⟨w1, v1, rfl, ⟨rfl, _⟩, hr⟩ := reads_seqs.1 hr
    obtain ⟨w2, v2, rfl, h2, hr⟩ := reads_seqs.1 hr
    obtain ⟨w3, v3, rfl, h3, hr⟩ := reads_seqs.1 hr
    obtain ⟨rfl, rfl⟩ := eol_end h.noBreak e hr
    obtain ⟨h7, hd⟩ := atLeast_reads.1 h2
    have e' : pre ++ n = (u ++ w2) ++ w3 := by rw [e]; simp
    obtain rfl := h.noBlanks e' h3
    rw [List.append_nil] at e'
    rcases List.append_eq_append_iff.1 e' with ⟨as, h1, h2⟩ | ⟨bs, h1, h2⟩
    · refine ⟨by rw [h1]; simp, ?_⟩
      rintro rfl
      have : as = [] := by simpa using h1
      subst this
      simpa using h2.symm
    · rcases List.eq_nil_or_concat bs with rfl | ⟨L, d, rfl⟩
      · simp at h1 h2
        exact ⟨by rw [h1]; exact Nat.le_refl _, fun _ => by rw [h2]; simp⟩
      · have h4 := hdig (hd d (by rw [h2]; simp))
        have h5 := hp d (by rw [h1]; simp)
        rw [h5] at h4; cases h4

/-! ### The expression made of the number -/

theorem verbose_digits : ∀ {n : Str}, (∀ c ∈ n, c.isDigit = true) → ∀ d, verbose false d n =
    if d = 0 then .parts (n.map fun c => .chr (fun x => x.toLower == c.toLower)) false else .error
  | [], _, d => by simp [verbose]
  | c :: cs, h, d => by
    obtain ⟨h1, _, _, h2, h3, _, h4, h5, h6⟩ := digit_facts (h c (by simp))
    have hk : skipped c = false := by
      rw [Bool.eq_false_iff]
      intro hs
      have : ∀ x ∈ [' ', '\t', '\n', '\r', '\x0b', '\x0c'], isSpace x = true := by decide
      rw [this c (List.contains_iff_mem.1 hs)] at h1; cases h1
    have ho : c!"\\?*+{}[]|^$".contains c = false := by
      rw [Bool.eq_false_iff]
      intro hs
      have : ∀ x ∈ c!"\\?*+{}[]|^$", x.isDigit = false := by decide
      have h7 := this c (List.contains_iff_mem.1 hs)
      rw [h c (by simp)] at h7; cases h7
    rw [verbose, if_neg (by simp [hk]), if_neg h3, if_neg h4, if_neg h5, if_neg h6, if_neg (by rw [ho]; simp),
      verbose_digits (fun x hx => h x (by simp [hx]))]
    split <;> rfl

theorem lower_digit {c d : Char} (h : c.toLower = d) (hd : d.isDigit = true) : c = d := by
  unfold Char.toLower at h
  split at h
  · rename_i hc
    exfalso
    have h1 : 48 ≤ d.toNat ∧ d.toNat ≤ 57 := by
      simp only [Char.isDigit, Bool.and_eq_true, decide_eq_true_eq, ge_iff_le, UInt32.le_iff_toNat_le] at hd
      exact hd
    have h2 : 65 ≤ c.toNat := hc.1
    have h3 : c.toNat ≤ 90 := hc.2
    have : d.toNat = c.toNat + 32 := by
      rw [← h]
      show (c.val + ('a'.val - 'A'.val)).toNat = c.toNat + 32
      rw [UInt32.toNat_add]
      show (c.toNat + 32) % 4294967296 = c.toNat + 32
      omega
    omega
  · exact h

theorem toLower_digit {c : Char} (h : c.isDigit = true) : c.toLower = c := by
  unfold Char.toLower
  split
  · rename_i hc
    exfalso
    have h1 : 48 ≤ c.toNat ∧ c.toNat ≤ 57 := by
      simp only [Char.isDigit, Bool.and_eq_true, decide_eq_true_eq, ge_iff_le, UInt32.le_iff_toNat_le] at h
      exact h
    have h2 : 65 ≤ c.toNat := hc.1
    omega
  · rfl

/-- The digits, and then the rest. -/
theorem digits_reads {rs : List Re} : ∀ {n : Str}, (∀ c ∈ n, c.isDigit = true) → ∀ {b w a : Str},
    Reads (seqs (n.map (fun c => .chr (fun x => x.toLower == c.toLower)) ++ rs)) b w a ↔
      ∃ v, w = n ++ v ∧ Reads (seqs rs) (n.reverse ++ b) v a
  | [], _, b, w, a => by simp
  | d :: ds, h, b, w, a => by
    rw [List.map_cons, List.cons_append, reads_seqs]
    constructor
    · rintro ⟨u, v, rfl, ⟨c, rfl, hc⟩, hv⟩
      have hd := h d (by simp)
      have : c = d := by
        simp only [beq_iff_eq, toLower_digit hd] at hc
        exact lower_digit hc hd
      subst this
      obtain ⟨v', rfl, hv'⟩ := (digits_reads (fun x hx => h x (by simp [hx]))).1 hv
      exact ⟨v', by simp, by simpa using hv'⟩
    · rintro ⟨v, rfl, hv⟩
      refine ⟨[d], ds ++ v, by simp, ⟨d, rfl, by simp⟩, (digits_reads (fun x hx => h x (by simp [hx]))).2 ⟨v, rfl, by simpa using hv⟩⟩

theorem alts_reads {b w a : Str} : ∀ {l : List Re}, Reads (alts l) b w a ↔ ∃ r ∈ l, Reads r b w a
  | [] => by simp [alts, Reads]
  | [r] => by simp [alts]
  | r :: s :: l => by
    rw [show alts (r :: s :: l) = .alt r (alts (s :: l)) from rfl, Reads.alt, alts_reads]
    simp

theorem words_reads {b w a : Str} : Reads (alts (commercialWords.map ilit)) b w a ↔ Announces w := by
  rw [alts_reads]
  unfold Announces commercialWords
  simp only [List.map_cons, List.map_nil, List.mem_cons, List.not_mem_nil, or_false, exists_eq_or_imp, exists_eq_left, Reads.ilit]
  rfl

theorem upToChr_reads {p : Char → Bool} : ∀ {n : Nat} {b w a : Str}, Reads (upTo (.chr p) n) b w a ↔ w.length ≤ n ∧ ∀ c ∈ w, p c = true := by
  intro n
  induction n with
  | zero =>
    intro b w a
    simp only [upTo, Reads]
    constructor
    · rintro rfl; simp
    · intro h; exact List.length_eq_zero_iff.1 (by omega)
  | succ n ih =>
    intro b w a
    rw [upTo, Reads.alt, Reads.seq]
    constructor
    · rintro (⟨u, v, rfl, ⟨c, rfl, hc⟩, hv⟩ | h)
      · obtain ⟨h1, h2⟩ := ih.1 hv
        refine ⟨by simp; omega, ?_⟩
        intro d hd
        rcases List.mem_append.1 hd with hd | hd
        · simp at hd; subst hd; exact hc
        · exact h2 d hd
      · have : w = [] := h
        subst this
        simp
    · rintro ⟨h1, h2⟩
      cases w with
      | nil => exact .inr rfl
      | cons c cs =>
        exact .inl ⟨[c], cs, rfl, ⟨c, rfl, h2 c (by simp)⟩, ih.2 ⟨by simpa using h1, fun d hd => h2 d (by simp [hd])⟩⟩

theorem gap_reads {b w a : Str} : Reads (rep (.chr dot) 1 6) b w a ↔ 1 ≤ w.length ∧ w.length ≤ 6 ∧ ∀ c ∈ w, dot c = true := by
  unfold rep
  rw [Reads.seq]
  constructor
  · rintro ⟨u, v, rfl, hu, hv⟩
    obtain ⟨h1, h2⟩ := timesChr_reads.1 hu
    obtain ⟨h3, h4⟩ := upToChr_reads.1 hv
    refine ⟨by simp; omega, by simp; omega, fun c hc => ?_⟩
    rcases List.mem_append.1 hc with hc | hc
    · exact h2 c hc
    · exact h4 c hc
  · rintro ⟨h1, h2, h3⟩
    exact ⟨w.take 1, w.drop 1, (List.take_append_drop 1 w).symm, timesChr_reads.2 ⟨by simp; omega, fun c hc => h3 c (List.mem_of_mem_take hc)⟩,
      upToChr_reads.2 ⟨by simp; omega, fun c hc => h3 c (List.mem_of_mem_drop hc)⟩⟩

theorem longNumber_of {a n : Str} (hl : 5 ≤ n.length) (hn : ∀ c ∈ n, c.isDigit = true) : longNumber (a ++ n) = true :=
  (search_isSome _ _).2 ⟨a, n, [], by simp, atLeast_reads.2 ⟨hl, hn⟩⟩

/-! ## C146 -/

/-- A number of seven or more digits at the end of a calm subject is reported exactly if it is not announced.  Missing: subjects with
dots, dashes or much space. -/
theorem C146_number_partial (E : Str → Str → Option Bool) (pre n : Str) (hp : Calm pre) (hn : Number n) (hl : 7 ≤ n.length)
    (hw : ∀ c, pre.getLast? = some c → isWord c = false) :
    ∃ answer, uniqueId E (pre ++ n) = some answer ∧ (answer = true ↔ ¬ Announced (pre ++ n) n) := by
  have h : Plain pre n := ⟨hp, hn⟩
  have hf : firstMatch (idRes (pre ++ n).length) (pre ++ n) = some n := by
    rw [h.first]
    unfold idRes
    simp only [firstMatch, List.drop_succ_cons, List.drop_zero]
    rw [h.number hl hw]
  have hlong : longNumber n = true := by simpa using longNumber_of (a := []) (n := n) (by omega) hn.2
  unfold uniqueId
  rw [hf]
  simp only [if_neg hn.1, hlong, if_true]
  unfold commercial
  rw [verbose_digits hn.2]
  simp only [if_true, Option.map_some]
  refine ⟨_, rfl, ?_⟩
  rw [Bool.not_eq_true', ← Bool.not_eq_true]
  refine not_congr ?_
  rw [search_isSome]
  constructor
  · rintro ⟨u, w, z, e, hr⟩
    simp only [List.cons_append, List.nil_append, Bool.false_eq_true, if_false] at hr
    obtain ⟨w1, v1, rfl, h1, hr⟩ := reads_seqs.1 hr
    obtain ⟨w2, v2, rfl, h2, hr⟩ := reads_seqs.1 hr
    obtain ⟨v3, rfl, hr3⟩ := (digits_reads hn.2).1 hr
    obtain ⟨w4, v4, rfl, h4, hr4⟩ := reads_seqs.1 hr3
    obtain ⟨rfl, rfl⟩ := eol_end h.noBreak e hr4
    have e' : pre ++ n = (u ++ w1 ++ w2 ++ n) ++ w4 := by rw [e]; simp
    obtain rfl := h.noBlanks e' h4
    obtain ⟨h5, h6, _⟩ := gap_reads.1 h2
    exact ⟨u, w1, w2, by simpa using e', words_reads.1 h1, h5, h6⟩
  · rintro ⟨a, w, gap, e, hA, h1, h6⟩
    refine ⟨a, w ++ gap ++ n, [], by rw [e]; simp, ?_⟩
    simp only [List.cons_append, List.nil_append, Bool.false_eq_true, if_false]
    refine reads_seqs.2 ⟨w, gap ++ n, by simp, words_reads.2 hA, reads_seqs.2 ⟨gap, n, rfl, gap_reads.2 ⟨h1, h6, ?_⟩, ?_⟩⟩
    · intro c hc
      simp only [dot, bne_iff_ne]
      rintro rfl
      exact h.noBreak (by rw [e]; simp [hc])
    · refine (digits_reads hn.2).2 ⟨[], by simp, reads_seqs.2 ⟨[], [], rfl, by simp [blanks, Reads], rfl, .inl rfl⟩⟩

theorem announces_letters {w : Str} (h : Announces w) : w ≠ [] ∧ ∀ c ∈ w, c ≠ ' ' ∧ c ≠ '#' ∧ c ≠ '!' ∧ c.isDigit = false := by
  have hl : ∀ s ∈ [c!"item", c!"invoice", c!"order", c!"number", c!"confirmation"], s ≠ [] ∧ ∀ d ∈ s, d.isAlpha = true := by decide
  obtain ⟨h0, h1⟩ := hl _ h
  refine ⟨by rintro rfl; exact h0 rfl, fun c hc => ?_⟩
  have hc' := h1 c.toLower (List.mem_map.2 ⟨c, hc, rfl⟩)
  refine ⟨?_, ?_, ?_, ?_⟩
  · rintro rfl; revert hc'; decide
  · rintro rfl; revert hc'; decide
  · rintro rfl; revert hc'; decide
  · rw [Bool.eq_false_iff]
    intro hd
    rw [toLower_digit hd] at hc'
    have h1 : 48 ≤ c.toNat ∧ c.toNat ≤ 57 := by
      simp only [Char.isDigit, Bool.and_eq_true, decide_eq_true_eq, ge_iff_le, UInt32.le_iff_toNat_le] at hd
      exact hd
    simp only [Char.isAlpha, Char.isUpper, Char.isLower, Bool.or_eq_true, Bool.and_eq_true, decide_eq_true_eq, ge_iff_le,
      UInt32.le_iff_toNat_le] at hc'
    have : c.val.toNat = c.toNat := rfl
    simp at hc'
    omega

theorem verbose_comment : ∀ {n : Str}, '\n' ∉ n → verbose true 0 n = .parts [] true
  | [], _ => rfl
  | c :: cs, h => by
    have h1 : c ≠ '\n' := by rintro rfl; exact h (by simp)
    rw [verbose, show (c != '\n') = true by simpa using h1]
    exact verbose_comment (fun hm => h (by simp [hm]))

/-- The tenth expression needs a dash. -/
theorem noDash_tenth {text : Str} (h : '-' ∉ text) (len : Nat) :
    searchText (seqs [opt (seqs [rep (.chr isWord) 2 3, lit c!":", sp]), plus isWord, plus isSpace, atLeast 7 isWord, lit c!"-",
      atLeast 7 isWord, upTo (.seq (lit c!"-") (plus isWord)) len, blanks, .eol]) text = none := by
  apply searchText_none
  intro u w z e hr
  obtain ⟨w1, v1, rfl, _, hr⟩ := reads_seqs.1 hr
  obtain ⟨w2, v2, rfl, _, hr⟩ := reads_seqs.1 hr
  obtain ⟨w3, v3, rfl, _, hr⟩ := reads_seqs.1 hr
  obtain ⟨w4, v4, rfl, _, hr⟩ := reads_seqs.1 hr
  obtain ⟨w5, v5, rfl, h5, hr⟩ := reads_seqs.1 hr
  obtain rfl := Reads.lit.1 h5
  exact h (by rw [e]; simp)

/-- What the ninth expression reads in a calm text with a number at its end. -/
theorem Plain.ninth_reads {pre n : Str} (h : Plain pre n) (hp : ∃ c, pre.getLast? = some c ∧ c.isDigit = false) {len : Nat} {u w z : Str}
    (e : pre ++ n = u ++ w ++ z)
    (hr : Reads (seqs [.chr (fun c => c!"!?".contains c), blanks,
      .alt (atLeast 4 digit) (.seq (plus isWord) (many len (.seq (lit c!"-") (plus isWord)))), blanks, .eol]) u.reverse w z) :
    ∃ c bs, (c = '!' ∨ c = '?') ∧ (∀ d ∈ bs, isSpace d = true) ∧ pre = u ++ c :: bs ∧ w = c :: bs ++ n := by
  obtain ⟨w1, v1, rfl, ⟨c, rfl, hc⟩, hr⟩ := reads_seqs.1 hr
  obtain ⟨w2, v2, rfl, h2, hr⟩ := reads_seqs.1 hr
  obtain ⟨w3, v3, rfl, h3, hr⟩ := reads_seqs.1 hr
  obtain ⟨w4, v4, rfl, h4, hr⟩ := reads_seqs.1 hr
  obtain ⟨rfl, rfl⟩ := eol_end h.noBreak e hr
  have e' : pre ++ n = (u ++ [c] ++ w2 ++ w3) ++ w4 := by rw [e]; simp
  obtain rfl := h.noBlanks e' h4
  have hc' : c = '!' ∨ c = '?' := by
    have := List.contains_iff_mem.1 hc
    simpa using this
  have hcd : c.isDigit = false := by rcases hc' with rfl | rfl <;> decide
  rcases h3 with h3 | ⟨x, y, rfl, _, hy⟩
  · obtain ⟨_, hd⟩ := atLeast_reads.1 h3
    obtain ⟨c0, hc0, hcf⟩ := hp
    obtain ⟨hA, hx⟩ := suffix_exact (P := pre) (n := n) (A := u ++ [c] ++ w2) (x := w3) (f := digit) (g := digit)
      (by rw [e']; simp) h.num.2 (by
        intro d hd'
        rcases List.eq_nil_or_concat w2 with rfl | ⟨L, x, rfl⟩
        · simp at hd'; subst hd'; exact hcd
        · have : d = x := by
            have h1 : (u ++ [c] ++ (L ++ [x])) = (u ++ [c] ++ L) ++ [x] := by simp
            rw [List.concat_eq_append, h1, List.getLast?_concat] at hd'
            exact (Option.some.inj hd').symm
          subst this
          rw [Bool.eq_false_iff]
          intro hdd
          have h1 := (digit_facts hdd).1
          rw [h2 d (by simp)] at h1; cases h1) hd (by
        intro d hd'
        rw [hc0] at hd'
        cases hd'
        exact hcf) (.inl (by simp))
    exact ⟨c, w2, hc', h2, by rw [← hA]; simp, by rw [hx]; simp⟩
  · exfalso
    obtain ⟨x1, y1, rfl, ⟨x2, y2, rfl, hx2, _⟩, _⟩ := hy
    obtain rfl := Reads.lit.1 hx2
    exact h.noDash (by rw [e]; simp)

/-- Behind `#`, a number of five or six digits is not reported as soon as one of the words is anywhere in the subject: the number is
part of a comment in the expression. -/
theorem C146_hash_violated (E : Str → Str → Option Bool) (q n : Str) (hp : Calm (q ++ c!" #")) (hn : Number n) (h5 : 5 ≤ n.length)
    (h6 : n.length ≤ 6) :
    ∃ answer, uniqueId E (q ++ c!" #" ++ n) = some answer ∧ (answer = true ↔ ¬ ∃ a w b, q = a ++ w ++ b ∧ Announces w) := by
  have h : Plain (q ++ c!" #") n := ⟨hp, hn⟩
  have hlast : ∃ c, (q ++ c!" #").getLast? = some c ∧ c.isDigit = false := ⟨'#', by simp, by decide⟩
  have hhex : ∀ c, digit c = true → hexChar c = true := by
    intro c hc
    simp only [hexChar, Bool.or_eq_true]
    exact .inl hc
  have h9 : searchText (seqs [.chr (fun c => c!"!?".contains c), blanks,
      .alt (atLeast 4 digit) (.seq (plus isWord) (many (q ++ c!" #" ++ n).length (.seq (lit c!"-") (plus isWord)))), blanks, .eol])
      (q ++ c!" #" ++ n) = none := by
    apply searchText_none
    intro u w z e hr
    obtain ⟨c, bs, hc, hbs, ep, _⟩ := h.ninth_reads hlast e hr
    rcases List.eq_nil_or_concat bs with rfl | ⟨L, d, rfl⟩
    · have := congrArg List.getLast? ep
      simp at this
      subst this
      simp at hc
    · have e1 : (q ++ [' ']) ++ ['#'] = (u ++ c :: L) ++ [d] := by simpa using ep
      have := (List.append_inj' e1 rfl).2
      have : d = '#' := by simpa using this.symm
      subst this
      have := hbs '#' (by simp)
      revert this
      decide
  have h11 : searchText (seqs [sp, lit c!"#", blanks, atLeast 4 hexChar, blanks, .eol]) (q ++ c!" #" ++ n) = some (c!" #" ++ n) := by
    refine searchText_some (u := q) (w := c!" #" ++ n) (z := []) (by simp) ?_ ?_
    · refine reads_seqs.2 ⟨[' '], '#' :: n, rfl, ⟨' ', rfl, by decide⟩, reads_seqs.2 ⟨['#'], n, rfl, Reads.lit.2 rfl,
        reads_seqs.2 ⟨[], n, rfl, by simp [blanks, Reads], reads_seqs.2 ⟨n, [], by simp, atLeast_reads.2 ⟨by omega, fun c hc => hhex c (hn.2 c hc)⟩,
          reads_seqs.2 ⟨[], [], rfl, by simp [blanks, Reads], rfl, .inl rfl⟩⟩⟩⟩⟩
    · intro u w z e hr
      obtain ⟨w1, v1, rfl, ⟨s, rfl, hs⟩, hr⟩ := reads_seqs.1 hr
      obtain ⟨w2, v2, rfl, h2, hr⟩ := reads_seqs.1 hr
      obtain ⟨w3, v3, rfl, h3, hr⟩ := reads_seqs.1 hr
      obtain ⟨w4, v4, rfl, h4, hr⟩ := reads_seqs.1 hr
      obtain ⟨w5, v5, rfl, h5', hr⟩ := reads_seqs.1 hr
      obtain ⟨rfl, rfl⟩ := eol_end h.noBreak e hr
      obtain rfl := Reads.lit.1 h2
      have e' : q ++ c!" #" ++ n = (u ++ [s] ++ c!"#" ++ w3 ++ w4) ++ w5 := by rw [e]; simp
      obtain rfl := h.noBlanks e' h5'
      have hlast3 : w3 = [] ∨ ∃ L d, w3 = L ++ [d] := by
        rcases List.eq_nil_or_concat w3 with h | ⟨L, d, h⟩
        · exact .inl h
        · exact .inr ⟨L, d, by simpa using h⟩
      obtain ⟨hA, hx⟩ := suffix_exact (P := q ++ c!" #") (n := n) (A := u ++ [s] ++ c!"#" ++ w3) (x := w4) (f := hexChar) (g := digit)
        (by rw [e']; simp) hn.2 (by
          intro d hd'
          rcases hlast3 with rfl | ⟨L, x, rfl⟩
          · simp at hd'; subst hd'; decide
          · have : d = x := by
              have h1 : (u ++ [s] ++ c!"#" ++ (L ++ [x])) = (u ++ [s] ++ c!"#" ++ L) ++ [x] := by simp
              rw [h1, List.getLast?_concat] at hd'
              exact (Option.some.inj hd').symm
            subst this
            rw [Bool.eq_false_iff]
            intro hdd
            have h1 := (digit_facts hdd).1
            rw [h3 d (by simp)] at h1; cases h1) (atLeast_reads.1 h4).2 (by
          intro d hd'
          simp at hd'
          subst hd'
          decide) (.inl (by simp))
      rcases hlast3 with rfl | ⟨L, x, rfl⟩
      · have h1 : (u ++ [s]) ++ ['#'] = (q ++ [' ']) ++ ['#'] := by simpa using hA
        have h2 := List.append_inj' h1 rfl
        have h3 := List.append_inj' h2.1 rfl
        refine ⟨by rw [h3.1]; exact Nat.le_refl _, fun _ => ?_⟩
        have : s = ' ' := by simpa using h3.2
        rw [this, hx]; simp
      · exfalso
        have h1 : (u ++ [s] ++ c!"#" ++ L) ++ [x] = (q ++ [' ']) ++ ['#'] := by simpa using hA
        have h2 := List.append_inj' h1 rfl
        have : x = '#' := by simpa using h2.2
        subst this
        have := h3 '#' (by simp)
        revert this
        decide
  have hf : firstMatch (idRes (q ++ c!" #" ++ n).length) (q ++ c!" #" ++ n) = some (c!" #" ++ n) := by
    rw [h.first]
    unfold idRes
    simp only [firstMatch, List.drop_succ_cons, List.drop_zero]
    rw [h.eighth (by omega) hlast, h9, noDash_tenth h.noDash, h11]
  have hv : verbose false 0 (c!" #" ++ n) = .parts [] true := by
    show verbose false 0 (' ' :: '#' :: n) = _
    rw [verbose, if_pos (by decide), verbose, if_neg (by decide), if_pos rfl]
    exact verbose_comment fun hm => h.noBreak (by simp [hm])
  unfold uniqueId
  rw [hf]
  simp only [longNumber_of h5 hn.2, if_true]
  rw [if_neg (by simp)]
  unfold commercial
  rw [hv]
  simp only [List.append_nil, if_true, Option.map_some]
  refine ⟨_, rfl, ?_⟩
  rw [Bool.not_eq_true', ← Bool.not_eq_true]
  refine not_congr ?_
  rw [search_isSome]
  constructor
  · rintro ⟨u, w, z, e, hr⟩
    obtain ⟨w1, v1, rfl, h1, hr⟩ := reads_seqs.1 hr
    have hA := words_reads.1 h1
    obtain ⟨h0, hA'⟩ := announces_letters hA
    have hin : w1 <:+: q ++ ' ' :: ('#' :: n) := ⟨u, v1 ++ z, by rw [show q ++ ' ' :: '#' :: n = q ++ c!" #" ++ n by simp, e]; simp⟩
    rcases Tokens.infix_blank hin (fun hm => (hA' _ hm).1 rfl) with hi | hi
    · obtain ⟨a, b, e⟩ := hi
      exact ⟨a, w1, b, e.symm, hA⟩
    · exfalso
      have hi : w1 <:+: [] ++ '#' :: n := hi
      obtain ⟨c, cs, rfl⟩ := List.exists_cons_of_ne_nil h0
      rcases Tokens.infix_blank hi (fun hm => (hA' _ hm).2.1 rfl) with hi | hi
      · have := hi.subset (show c ∈ c :: cs by simp)
        cases this
      · have h1 := hn.2 c (hi.subset (by simp))
        rw [(hA' c (by simp)).2.2.2] at h1; cases h1
  · rintro ⟨a, w, b, rfl, hA⟩
    have hb : ∃ c cs, b ++ c!" #" ++ n = c :: cs := by
      cases b with
      | nil => exact ⟨' ', _, rfl⟩
      | cons c cs => exact ⟨c, _, rfl⟩
    obtain ⟨c, cs, hb⟩ := hb
    have e : a ++ w ++ b ++ c!" #" ++ n = a ++ (w ++ [c]) ++ cs := by
      have : a ++ w ++ b ++ c!" #" ++ n = a ++ w ++ (b ++ c!" #" ++ n) := by simp
      rw [this, hb]; simp
    refine ⟨a, w ++ [c], cs, e, reads_seqs.2 ⟨w, [c], rfl, words_reads.2 hA, ?_⟩⟩
    refine gap_reads.2 ⟨by simp, by simp, ?_⟩
    intro d hd
    simp at hd
    subst hd
    simp only [dot, bne_iff_ne]
    rintro rfl
    exact h.noBreak (by rw [e]; simp)

/-- Behind `!` and a blank, a number of five or six digits is reported although it is announced: the mark and the blank are taken to be
part of the number, and then the blank is lost. -/
theorem C146_mark_violated (E : Str → Str → Option Bool) (a w gap n : Str) (hp : Calm (a ++ w ++ gap ++ c!"! ")) (hn : Number n)
    (h5 : 5 ≤ n.length) (h6 : n.length ≤ 6) (hA : Announces w) (hg : (gap ++ c!"! ").length ≤ 6) :
    Announced (a ++ w ++ gap ++ c!"! " ++ n) n ∧ uniqueId E (a ++ w ++ gap ++ c!"! " ++ n) = some true := by
  refine ⟨⟨a, w, gap ++ c!"! ", by simp, hA, by simp, hg⟩, ?_⟩
  generalize hq : a ++ w ++ gap = q at *
  have h : Plain (q ++ c!"! ") n := ⟨hp, hn⟩
  have hlast : ∃ c, (q ++ c!"! ").getLast? = some c ∧ c.isDigit = false := ⟨' ', by simp, by decide⟩
  have h9 : searchText (seqs [.chr (fun c => c!"!?".contains c), blanks,
      .alt (atLeast 4 digit) (.seq (plus isWord) (many (q ++ c!"! " ++ n).length (.seq (lit c!"-") (plus isWord)))), blanks, .eol])
      (q ++ c!"! " ++ n) = some (c!"! " ++ n) := by
    refine searchText_some (u := q) (w := c!"! " ++ n) (z := []) (by simp) ?_ ?_
    · refine reads_seqs.2 ⟨['!'], ' ' :: n, rfl, ⟨'!', rfl, by decide⟩, reads_seqs.2 ⟨[' '], n, rfl, ?_,
        reads_seqs.2 ⟨n, [], by simp, .inl (atLeast_reads.2 ⟨by omega, hn.2⟩),
          reads_seqs.2 ⟨[], [], rfl, by simp [blanks, Reads], rfl, .inl rfl⟩⟩⟩⟩
      intro c hc
      simp at hc
      subst hc
      decide
    · intro u w z e hr
      obtain ⟨c, bs, hc, hbs, ep, rfl⟩ := h.ninth_reads hlast e hr
      rcases List.eq_nil_or_concat bs with rfl | ⟨L, d, rfl⟩
      · exfalso
        have e1 : (q ++ ['!']) ++ [' '] = u ++ [c] := by simpa using ep
        have := (List.append_inj' e1 rfl).2
        have : c = ' ' := by simpa using this.symm
        subst this
        simp at hc
      · have e1 : (q ++ ['!']) ++ [' '] = (u ++ c :: L) ++ [d] := by simpa using ep
        have e2 := List.append_inj' e1 rfl
        have hd : d = ' ' := by simpa using e2.2.symm
        rcases List.eq_nil_or_concat L with rfl | ⟨L, x, rfl⟩
        · have e3 := List.append_inj' e2.1 rfl
          have hc : c = '!' := by simpa using e3.2.symm
          refine ⟨by rw [e3.1]; exact Nat.le_refl _, fun _ => ?_⟩
          rw [hc, hd]; simp
        · exfalso
          have e3 : q ++ ['!'] = (u ++ c :: L) ++ [x] := by simpa using e2.1
          have := (List.append_inj' e3 rfl).2
          have : x = '!' := by simpa using this.symm
          subst this
          have := hbs '!' (by simp)
          revert this
          decide
  have hf : firstMatch (idRes (q ++ c!"! " ++ n).length) (q ++ c!"! " ++ n) = some (c!"! " ++ n) := by
    rw [h.first]
    unfold idRes
    simp only [firstMatch, List.drop_succ_cons, List.drop_zero]
    rw [h.eighth (by omega) hlast, h9]
  have hv : verbose false 0 (c!"! " ++ n) = .parts (.chr (fun x => x.toLower == '!'.toLower) ::
      n.map fun c => .chr (fun x => x.toLower == c.toLower)) false := by
    show verbose false 0 ('!' :: ' ' :: n) = _
    rw [verbose, if_neg (by decide), if_neg (by decide), if_neg (by decide), if_neg (by decide), if_neg (by decide), if_neg (by decide),
      verbose, if_pos (by decide), verbose_digits hn.2]
    rfl
  unfold uniqueId
  rw [hf]
  simp only [longNumber_of h5 hn.2, if_true]
  rw [if_neg (by simp)]
  unfold commercial
  rw [hv]
  simp only [Option.map_some, Option.some.injEq, Bool.not_eq_true']
  rw [← Bool.not_eq_true, search_isSome]
  rintro ⟨u, x, z, e, hr⟩
  simp only [List.cons_append, List.nil_append, Bool.false_eq_true, if_false] at hr
  obtain ⟨w1, v1, rfl, h1, hr⟩ := reads_seqs.1 hr
  obtain ⟨w2, v2, rfl, h2, hr⟩ := reads_seqs.1 hr
  obtain ⟨w3, v3, rfl, ⟨c, rfl, hc⟩, hr⟩ := reads_seqs.1 hr
  obtain ⟨v4, rfl, hr4⟩ := (digits_reads hn.2).1 hr
  obtain ⟨w5, v5, rfl, h5', hr5⟩ := reads_seqs.1 hr4
  obtain ⟨rfl, rfl⟩ := eol_end h.noBreak e hr5
  have e' : q ++ c!"! " ++ n = (u ++ w1 ++ w2 ++ [c] ++ n) ++ w5 := by rw [e]; simp
  obtain rfl := h.noBlanks e' h5'
  have e2 : (q ++ ['!'] ++ [' ']) ++ n = (u ++ w1 ++ w2 ++ [c]) ++ n := by simpa using e'
  have e3 := (List.append_inj' e2 rfl).1
  have := (List.append_inj' e3 rfl).2
  have : c = ' ' := by simpa using this.symm
  subst this
  revert hc
  decide

/-- After ten blanks, a number behind an opening parenthesis is never reported: the parenthesis makes the expression invalid. -/
theorem C146_parenthesis_violated (E : Str → Str → Option Bool) (q n : Str) (k : Nat) (hp : Calm q) (hq : ∀ c, q.getLast? = some c → c ≠ ' ')
    (hk : 10 ≤ k) (hn : Number n) (h5 : 5 ≤ n.length) :
    uniqueId E (q ++ List.replicate k ' ' ++ c!"(" ++ n) = none := by
  obtain ⟨j, rfl⟩ : ∃ j, k = j + 10 := ⟨k - 10, by omega⟩
  have hb : ∀ c ∈ List.replicate (j + 10) ' ', c = ' ' := fun c hc => List.eq_of_mem_replicate hc
  have hdig : ∀ c, c.isDigit = true → nonSpace c = true := fun c hc => by simp [nonSpace, (digit_facts hc).1]
  generalize ht : q ++ List.replicate (j + 10) ' ' ++ c!"(" ++ n = text
  have hbreak : '\n' ∉ text := by
    rw [← ht]
    intro hm
    simp only [List.mem_append, List.mem_singleton] at hm
    rcases hm with ((hm | hm) | hm) | hm
    · exact absurd (hp.blank _ hm (by decide)) (by decide)
    · exact absurd (hb _ hm) (by decide)
    · exact absurd hm (by decide)
    · exact (digit_facts (hn.2 _ hm)).2.2.2.1 rfl
  have h1 : searchText (seqs [atLeast 7 lineChar, atLeast 4 idChar, .eol]) text = none := by
    apply searchText_none
    intro u w z e hr
    obtain ⟨w1, v1, rfl, h1, hr⟩ := reads_seqs.1 hr
    obtain ⟨w2, v2, rfl, h2, hr⟩ := reads_seqs.1 hr
    obtain ⟨rfl, rfl⟩ := eol_end hbreak e hr
    obtain ⟨h7, h1⟩ := atLeast_reads.1 h1
    rcases List.eq_nil_or_concat w1 with rfl | ⟨L, d, rfl⟩
    · simp at h7
    · have hA : ∀ c, (u ++ L.concat d).getLast? = some c → lineChar c = true := by
        intro c hc
        simp at hc
        subst hc
        exact h1 d (by simp)
      obtain ⟨hA', _⟩ := suffix_exact (P := q ++ List.replicate (j + 10) ' ' ++ c!"(") (n := n) (A := u ++ L.concat d) (x := w2)
        (f := idChar) (g := digit) (by rw [ht, e]; simp) hn.2 (by
          intro c hc
          rw [Bool.eq_false_iff]
          intro hdd
          have h1 := (digit_facts hdd).2.1
          rw [hA c hc] at h1; cases h1) (atLeast_reads.1 h2).2 (by
          intro c hc
          simp at hc
          subst hc
          decide) (.inl (by simp))
      have := hA '(' (by rw [hA']; simp)
      revert this
      decide
  have h2 : searchText (seqs [atLeast 10 isSpace, opt (.seq (.chr nonSpace) sp), plus nonSpace, .eol]) text =
      some (List.replicate (j + 10) ' ' ++ (c!"(" ++ n)) := by
    refine searchText_some (u := q) (z := []) (by rw [← ht]; simp) ?_ ?_
    · refine reads_seqs.2 ⟨List.replicate (j + 10) ' ', c!"(" ++ n, rfl, atLeast_reads.2 ⟨by simp, fun c hc => by rw [hb c hc]; decide⟩,
        reads_seqs.2 ⟨[], c!"(" ++ n, rfl, .inr rfl, reads_seqs.2 ⟨c!"(" ++ n, [], by simp, Reads.plus.2 ⟨by simp, ?_⟩, rfl, .inl rfl⟩⟩⟩
      intro c hc
      rcases List.mem_append.1 hc with hc | hc
      · simp at hc; subst hc; decide
      · exact hdig c (hn.2 c hc)
    · intro u w z e hr
      obtain ⟨w1, v1, rfl, h1, hr⟩ := reads_seqs.1 hr
      obtain ⟨w2, v2, rfl, h2, hr⟩ := reads_seqs.1 hr
      obtain ⟨w3, v3, rfl, h3, hr⟩ := reads_seqs.1 hr
      obtain ⟨rfl, rfl⟩ := eol_end hbreak e hr
      obtain ⟨h10, hw1⟩ := atLeast_reads.1 h1
      obtain ⟨_, hw3⟩ := Reads.plus.1 h3
      have hA : ∃ L d, u ++ w1 ++ w2 = L ++ [d] ∧ isSpace d = true ∧ (w2 = [] ∨ ∃ c, w2 = [c, d] ∧ isSpace c = false) := by
        rcases h2 with ⟨x, y, rfl, ⟨c, rfl, hc⟩, ⟨d, rfl, hd⟩⟩ | h2
        · exact ⟨u ++ w1 ++ [c], d, by simp, hd, .inr ⟨c, rfl, by simpa [nonSpace] using hc⟩⟩
        · have : w2 = [] := h2
          subst this
          rcases List.eq_nil_or_concat w1 with rfl | ⟨L, d, rfl⟩
          · simp at h10
          · exact ⟨u ++ L, d, by simp, hw1 d (by simp), .inl rfl⟩
      obtain ⟨L, d, hL, hd, hw2⟩ := hA
      obtain ⟨hA', hx⟩ := suffix_exact (P := q ++ List.replicate (j + 10) ' ') (n := c!"(" ++ n) (A := u ++ w1 ++ w2) (x := w3)
        (f := nonSpace) (g := nonSpace) (by rw [← List.append_assoc, ht, e]; simp) (by
          intro c hc
          rcases List.mem_append.1 hc with hc | hc
          · simp at hc; subst hc; decide
          · exact hdig c (hn.2 c hc)) (by
          intro c hc
          rw [hL] at hc
          simp at hc
          subst hc
          simp [nonSpace, hd]) hw3 (by
          intro c hc
          have : c = ' ' := by
            rw [List.replicate_succ', ← List.append_assoc] at hc
            simp at hc
            exact hc.symm
          subst this
          decide) (.inl (by rw [hL]; simp))
      rcases hw2 with rfl | ⟨c, rfl, hc⟩
      · rw [List.append_nil] at hA'
        rcases List.append_eq_append_iff.1 hA'.symm with ⟨as, h5, h6⟩ | ⟨bs, h5, h6⟩
        · refine ⟨by rw [h5]; simp, ?_⟩
          rintro rfl
          have : as = [] := by simpa using h5
          subst this
          rw [hx, show w1 = List.replicate (j + 10) ' ' by simpa using h6.symm]
          simp
        · rcases List.eq_nil_or_concat bs with rfl | ⟨M, d, rfl⟩
          · simp at h5 h6
            refine ⟨by rw [h5]; exact Nat.le_refl _, fun _ => by rw [hx, h6]; simp⟩
          · exfalso
            have h7 := hw1 d (by rw [h6]; simp)
            have h8 := hp.blank d (by rw [h5]; simp) h7
            exact hq d (by rw [h5]; simp) h8
      · exfalso
        have e1 : (u ++ w1 ++ [c]) ++ [d] = (q ++ List.replicate (j + 8) ' ' ++ [' ']) ++ [' '] := by
          have : List.replicate (j + 10) ' ' = List.replicate (j + 8) ' ' ++ [' '] ++ [' '] := by
            rw [List.append_assoc, show [' '] ++ [' '] = List.replicate 2 ' ' from rfl, List.replicate_append_replicate]
          rw [this] at hA'
          simpa using hA'
        have e2 := (List.append_inj' (List.append_inj' e1 rfl).1 rfl).2
        have : c = ' ' := by simpa using e2
        subst this
        revert hc
        decide
  have hf : firstMatch (idRes text.length) text = some (List.replicate (j + 10) ' ' ++ (c!"(" ++ n)) := by
    unfold idRes
    simp only [firstMatch]
    rw [h1, h2]
  have hv : verbose false 0 (List.replicate (j + 10) ' ' ++ (c!"(" ++ n)) = .error := by
    have hskip : ∀ (k : Nat) (s : Str), verbose false 0 (List.replicate k ' ' ++ s) = verbose false 0 s := by
      intro k s
      induction k with
      | zero => rfl
      | succ k ih => rw [List.replicate_succ, List.cons_append, verbose, if_pos (by decide), ih]
    rw [hskip]
    show verbose false 0 ('(' :: n) = _
    rw [verbose, if_neg (by decide), if_neg (by decide), if_pos rfl, verbose_digits hn.2, if_neg (by decide)]
  unfold uniqueId
  rw [hf]
  have hlong : longNumber (List.replicate (j + 10) ' ' ++ (c!"(" ++ n)) = true := by
    rw [← List.append_assoc]
    exact longNumber_of h5 hn.2
  simp only [hlong, if_true]
  rw [if_neg (by simp)]
  unfold commercial
  rw [hv]
  rfl

/-! ### Examples -/

theorem calm_of {s : Str} (h : (s.all fun c => (!isSpace c || c == ' ') && !(c!"-_.").contains c) = true) (hf : ¬ c!"   " <:+: s) : Calm s := by
  have h' : ∀ c ∈ s, (!isSpace c || c == ' ') = true ∧ (!(c!"-_.").contains c) = true := by simpa [Bool.and_eq_true] using h
  refine ⟨fun c hc hs => ?_, hf, fun c hc hm => ?_⟩
  · have := (h' c hc).1
    rw [hs] at this
    simpa using this
  · have := (h' c hc).2
    rw [List.contains_iff_mem.2 hm] at this
    cases this

def noSpecial : Str → Str → Option Bool := fun _ _ => none

-- an order, and a number out of nowhere
example : uniqueId noSpecial c!"Your order no 12345678" = some false ∧ uniqueId noSpecial c!"Hello my friend, 12345678" = some true := by
  constructor <;> decide +kernel

example : Calm c!"Your order no " ∧ Number c!"12345678" ∧ Announced c!"Your order no 12345678" c!"12345678" :=
  ⟨calm_of (by decide) (by decide), ⟨by decide, by decide⟩, c!"Your ", c!"order", c!" no ", by decide, by simp [Announces]; decide, by decide, by decide⟩

-- a comment
example : uniqueId noSpecial c!"Order pills today #12345" = some false ∧ uniqueId noSpecial c!"Buy pills today #12345" = some true := by
  constructor <;> decide +kernel

example : Calm c!"Order pills today #" := calm_of (by decide) (by decide)

-- a mark
example : uniqueId noSpecial c!"Your order ok! 12345" = some true ∧ Calm c!"Your order ok! " ∧ (c!" ok! ").length ≤ 6 :=
  ⟨by decide +kernel, calm_of (by decide) (by decide), by decide⟩

-- a parenthesis
example : uniqueId noSpecial c!"Hello          (12345" = none := by decide +kernel

end Verif.Props
