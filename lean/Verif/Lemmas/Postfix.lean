import Verif.Lemmas.ReceivedRe
import Verif.Lemmas.Words
import Verif.Lemmas.Py
import Verif.Spec.ReceivedRe

/-!
# The line of a Postfix server under the expressions of the parser
-/

namespace Verif.ReceivedRe
open Verif Py Re Spec Received

/-- The characters of names of hosts. -/
def hostChar (c : Char) : Bool := c.isAlphanum || c == '-' || c == '.' || c == '_'

theorem host_chars {s : Str} (h : HostName s) : ∀ c ∈ s, hostChar c = true := by
  intro c hc
  simpa [hostChar, or_assoc] using h.2 c hc

theorem isSpace_alnum {c : Char} (h : c.isAlphanum = true) : isSpace c = false := by
  cases hs : isSpace c with
  | false => rfl
  | true =>
    exfalso
    simp only [isSpace, Bool.or_eq_true, Bool.and_eq_true, decide_eq_true_eq, beq_iff_eq] at hs
    simp only [Char.isAlphanum, Char.isAlpha, Char.isUpper, Char.isLower, Char.isDigit, Bool.or_eq_true, Bool.and_eq_true,
      decide_eq_true_eq, ge_iff_le] at h
    have e : c.toNat = c.val.toNat := rfl
    rw [e] at hs
    have k : ∀ n : UInt32, (n ≤ c.val ↔ n.toNat ≤ c.val.toNat) ∧ (c.val ≤ n ↔ c.val.toNat ≤ n.toNat) := fun n => ⟨UInt32.le_iff_toNat_le, UInt32.le_iff_toNat_le⟩
    simp only [(k _).1, (k _).2] at h
    simp only [show 'A'.val.toNat = 65 from rfl, show 'Z'.val.toNat = 90 from rfl, show 'a'.val.toNat = 97 from rfl,
      show 'z'.val.toNat = 122 from rfl, show '0'.val.toNat = 48 from rfl, show '9'.val.toNat = 57 from rfl] at h
    omega

theorem host_solid {c : Char} (h : hostChar c = true) : isSpace c = false := by
  simp only [hostChar, Bool.or_eq_true, beq_iff_eq] at h
  rcases h with ((h | rfl) | rfl) | rfl
  · exact isSpace_alnum h
  all_goals decide

theorem solid_host {s : Str} (h : HostName s) : Words.Solid s := fun c hc => host_solid (host_chars h c hc)

/-- What follows the address in the line. -/
def afterAddress (l : PostfixLine) : Str :=
  c!" by " ++ l.by_ ++ c!" (Postfix) with " ++ l.proto ++ c!" id " ++ l.id_ ++ forPart l.rcpt

theorem text_eq (l : PostfixLine) :
    l.text = l.helo ++ (' ' :: '(' :: (l.rdns ++ (' ' :: '[' :: (dotted l.a l.b l.c l.d ++ ']' :: ')' :: afterAddress l)))) := by
  simp [PostfixLine.text, afterAddress]

/-- The part of `HELO_RE7` behind the address. -/
theorem helo7_end (B R : Str) (G : List (Nat × Str)) :
    ∃ x, m (.seq (lit c!"]") (.seq dots (lit c!")"))) ⟨B, ']' :: ')' :: R, G⟩ some = some x ∧ x.groups = G := by
  have hr : Reads (.seq (lit c!"]") (.seq dots (lit c!")"))) B c!"])" R :=
    ⟨c!"]", c!")", rfl, Reads.lit.mpr rfl, [], c!")", rfl, by simp [dots, Reads], Reads.lit.mpr rfl⟩
  have hn : NoGroup (.seq (lit c!"]") (.seq dots (lit c!")"))) := ⟨NoGroup.lit _, trivial, NoGroup.lit _⟩
  have := m_complete (hr.ways_noGroup G hn) some rfl
  cases hm : m (.seq (lit c!"]") (.seq dots (lit c!")"))) ⟨B, c!"])" ++ R, G⟩ some with
  | none => rw [hm] at this; simp at this
  | some x =>
    obtain ⟨t, hw, e⟩ := m_sound _ _ _ _ hm
    simp at e
    subst e
    exact ⟨t, hm, hw.groups hn⟩

theorem helo7 (l : PostfixLine) (h : l.Ok) :
    ∃ x, matchRe heloRe7 l.text = some x ∧ x.groups = [(1, l.rdns), (0, l.helo)] := by
  rw [text_eq]
  obtain ⟨x, hx, hg⟩ := helo7_end ((dotted l.a l.b l.c l.d).reverse ++ ('[' :: ' ' :: (l.rdns.reverse ++ ('(' :: ' ' :: (l.helo.reverse ++ []))))) (afterAddress l)
    [(1, l.rdns), (0, l.helo)]
  refine ⟨x, ?_, hg⟩
  unfold matchRe heloRe7
  have hns : ∀ {s : Str}, HostName s → ∀ c ∈ s, nonSpace c = true := by
    intro s hs c hc
    simp [nonSpace, solid_host hs c hc]
  simp only [seqs]
  simp only [m_seq]
  rw [m_bol]
  simp only [word]
  refine word_greedy h.helo.1 (hns h.helo) (by rfl) ?_
  rw [sp, m_chr (by rfl), m_lit1]
  refine word_greedy h.rdns.1 (hns h.rdns) (by rfl) ?_
  refine m_opt ?_
  rw [m_chr (by rfl), m_lit1, m_ip _ _ h.ip.a255 h.ip.b255 h.ip.c255 h.ip.d255 (by decide) (by decide) (by decide) (by rfl) (by rfl)]
  simp only [m_seq] at hx
  exact hx

/-- The words of the line. -/
def lineWords (l : PostfixLine) : List Str :=
  [l.helo, '(' :: l.rdns, '[' :: (dotted l.a l.b l.c l.d ++ c!"])"), c!"by", l.by_, c!"(Postfix)", c!"with", l.proto, c!"id", l.id_] ++
    match l.rcpt with
    | none => []
    | some r => [c!"for", '<' :: (r ++ c!">")]

theorem text_words (l : PostfixLine) : l.text = join [' '] (lineWords l) := by
  unfold PostfixLine.text lineWords forPart
  cases l.rcpt <;> simp [join]

theorem proto_host {s : Str} (h : s ∈ [c!"SMTP", c!"ESMTP", c!"ESMTPS", c!"ESMTPA", c!"ESMTPSA"]) : HostName s := by
  simp only [List.mem_cons, List.not_mem_nil, or_false] at h
  rcases h with rfl | rfl | rfl | rfl | rfl <;> exact ⟨by simp, by decide⟩

theorem dotted_host {a b c d : Nat} (h : PublicAddress a b c d) : HostName (dotted a b c d) := by
  refine ⟨dotted_ne, fun x hx => ?_⟩
  rcases dotted_chars h.a255 h.b255 h.c255 h.d255 x hx with h | h
  · exact .inl (by simp [Char.isAlphanum, h])
  · exact .inr (.inr (.inl h))

/-- The characters of addresses of mail. -/
def mailChar (c : Char) : Bool := hostChar c || c == '@' || c == '+'

theorem rcpt_chars {l : PostfixLine} (h : l.Ok) {r : Str} (hr : l.rcpt = some r) : ∀ c ∈ r, mailChar c = true := by
  intro c hc
  simpa [mailChar, hostChar, or_assoc] using h.rcpt r (by simp [hr]) c hc

theorem mail_solid {c : Char} (h : mailChar c = true) : isSpace c = false := by
  simp only [mailChar, Bool.or_eq_true, beq_iff_eq] at h
  rcases h with (h | rfl) | rfl
  · exact host_solid h
  all_goals decide

theorem words_solid {l : PostfixLine} (h : l.Ok) : ∀ w ∈ lineWords l, Words.Solid w := by
  intro w hw c hc
  have hh : ∀ {s : Str}, HostName s → c ∈ s → isSpace c = false := fun hs hc => solid_host hs c hc
  unfold lineWords at hw
  simp only [List.cons_append, List.nil_append, List.mem_cons, List.mem_append, List.not_mem_nil, or_false] at hw
  rcases hw with rfl | rfl | rfl | rfl | rfl | rfl | rfl | rfl | rfl | rfl | hw
  · exact hh h.helo hc
  · rcases List.mem_cons.mp hc with rfl | hc
    · decide
    · exact hh h.rdns hc
  · simp only [List.mem_cons, List.mem_append, List.not_mem_nil, or_false] at hc
    rcases hc with rfl | hc | rfl | rfl
    · decide
    · exact hh (dotted_host h.ip) hc
    · decide
    · decide
  · clear hh; revert c; decide
  · exact hh h.by_ hc
  · clear hh; revert c; decide
  · clear hh; revert c; decide
  · exact hh (proto_host h.proto) hc
  · clear hh; revert c; decide
  · exact hh h.id_ hc
  · cases hr : l.rcpt with
    | none => simp [hr] at hw
    | some r =>
      simp only [hr, List.mem_cons, List.not_mem_nil, or_false] at hw
      rcases hw with rfl | rfl
      · clear hh; revert c; decide
      · simp only [List.mem_cons, List.mem_append, List.not_mem_nil, or_false] at hc
        rcases hc with rfl | hc | rfl
        · decide
        · exact mail_solid (rcpt_chars h hr c hc)
        · decide

/-- Which word follows which. -/
theorem pairs_cases {l : PostfixLine} {x y : Str} (h : (x, y) ∈ (lineWords l).zip (lineWords l).tail) :
    (x = l.helo ∧ y = '(' :: l.rdns) ∨ (x = '(' :: l.rdns ∧ y = '[' :: (dotted l.a l.b l.c l.d ++ c!"])")) ∨
    (x = '[' :: (dotted l.a l.b l.c l.d ++ c!"])") ∧ y = c!"by") ∨ (x = c!"by" ∧ y = l.by_) ∨ (x = l.by_ ∧ y = c!"(Postfix)") ∨
    (x = c!"(Postfix)" ∧ y = c!"with") ∨ (x = c!"with" ∧ y = l.proto) ∨ (x = l.proto ∧ y = c!"id") ∨ (x = c!"id" ∧ y = l.id_) ∨
    (x = l.id_ ∧ y = c!"for" ∧ l.rcpt ≠ none) ∨ (x = c!"for" ∧ ∃ r, l.rcpt = some r ∧ y = '<' :: (r ++ c!">")) := by
  unfold lineWords at h
  cases hr : l.rcpt with
  | none =>
    simp only [hr, List.cons_append, List.nil_append, List.tail_cons, List.zip_cons_cons, List.zip_nil_right, List.append_nil, List.mem_cons,
      Prod.mk.injEq, List.not_mem_nil, or_false] at h
    rcases h with h | h | h | h | h | h | h | h | h <;> simp [h]
  | some r =>
    simp only [hr, List.cons_append, List.nil_append, List.tail_cons, List.zip_cons_cons, List.zip_nil_right, List.append_nil, List.mem_cons,
      Prod.mk.injEq, List.not_mem_nil, or_false] at h
    rcases h with h | h | h | h | h | h | h | h | h | h | h <;> simp [h]

/-- The first word and what follows it. -/
theorem after_first {l : PostfixLine} (h : l.Ok) {x y : Str} {c : Char} (hx : Words.Solid x) (hc : isSpace c = true)
    (e : l.text = x ++ c :: y) :
    x = l.helo ∧ y = '(' :: (l.rdns ++ (' ' :: '[' :: (dotted l.a l.b l.c l.d ++ ']' :: ')' :: afterAddress l))) := by
  rw [text_eq] at e
  obtain ⟨h1, _, h3⟩ := Words.solid_cut (solid_host h.helo) hx (by decide) hc e
  exact ⟨h1.symm, h3.symm⟩

theorem nonSpace_solid {w : Str} (h : ∀ c ∈ w, nonSpace c = true) : Words.Solid w := by
  intro c hc
  simpa [nonSpace] using h c hc

theorem not_match {r : Re} {h : Str} (hn : ∀ w z, h = w ++ z → ¬ Reads r [] w z) : isMatch r h = false := by
  cases hm : isMatch r h with
  | false => rfl
  | true =>
    obtain ⟨w, z, e, hr⟩ := (matchRe_isSome r h).mp hm
    exact (hn w z e hr).elim

theorem not_search {r : Re} {h : Str} (hn : ∀ u w z, h = u ++ w ++ z → ¬ Reads r u.reverse w z) : (search r h).isSome = false := by
  cases hm : (search r h).isSome with
  | false => rfl
  | true =>
    obtain ⟨u, w, z, e, hr⟩ := (search_isSome r h).mp hm
    exact (hn u w z e hr).elim

theorem no_char {l : PostfixLine} (h : l.Ok) {x : Char} (hx : mailChar x = false) (h2 : x ∉ c!" ([])<>") : x ∉ l.text := by
  have hhost : hostChar x = false := by
    cases hb : hostChar x with
    | false => rfl
    | true => simp [mailChar, hb] at hx
  have hh : ∀ {s : Str}, HostName s → x ∉ s := fun hs hc => by
    rw [host_chars hs x hc] at hhost
    simp at hhost
  have hl : ∀ s : Str, (∀ c ∈ s, mailChar c = true ∨ c ∈ c!" ([])<>") → x ∉ s := fun s hs hc => by
    rcases hs x hc with h | h
    · rw [h] at hx; simp at hx
    · exact h2 h
  have hf : x ∉ forPart l.rcpt := by
    cases hr : l.rcpt with
    | none => simp [forPart]
    | some r =>
      apply hl
      intro c hc
      simp only [forPart, List.cons_append, List.nil_append, List.mem_append, List.mem_cons, List.not_mem_nil, or_false] at hc
      rcases hc with rfl | rfl | rfl | rfl | rfl | rfl | hc | rfl
      all_goals first
        | exact .inl (rcpt_chars h hr c hc)
        | decide
  have l1 := hl c!" (" (by decide)
  have l2 := hl c!" [" (by decide)
  have l3 := hl c!"]) by " (by decide)
  have l4 := hl c!" (Postfix) with " (by decide)
  have l5 := hl c!" id " (by decide)
  intro hc
  simp only [PostfixLine.text, List.mem_append] at hc
  rcases hc with ((((((((((hc | hc) | hc) | hc) | hc) | hc) | hc) | hc) | hc) | hc) | hc) | hc
  · exact hh h.helo hc
  · exact l1 hc
  · exact hh h.rdns hc
  · exact l2 hc
  · exact hh (dotted_host h.ip) hc
  · exact l3 hc
  · exact hh h.by_ hc
  · exact l4 hc
  · exact hh (proto_host h.proto) hc
  · exact l5 hc
  · exact hh h.id_ hc
  · exact hf hc

theorem rdns_head {l : PostfixLine} (h : l.Ok) : ∃ c cs, l.rdns = c :: cs ∧ hostChar c = true := by
  cases hr : l.rdns with
  | nil => exact absurd hr h.rdns.1
  | cons c cs => exact ⟨c, cs, rfl, host_chars h.rdns c (by simp [hr])⟩

theorem solid_opt {o w : Str} (ho : Reads (opt (lit c!"(")) [] o w) : Words.Solid o := by
  rcases ho with ho | ho
  · rw [Reads.lit] at ho
    subst ho
    unfold Words.Solid
    decide
  · subst ho
    intro c hc
    simp at hc

theorem solid_append {a b : Str} (ha : Words.Solid a) (hb : Words.Solid b) : Words.Solid (a ++ b) := by
  intro c hc
  rcases List.mem_append.mp hc with hc | hc
  · exact ha c hc
  · exact hb c hc

/-- After the name of the client comes `(` and then a name, so no bracket. -/
theorem no_bracket {l : PostfixLine} (h : l.Ok) {x y : Str} {c : Char} (hx : Words.Solid x) (hc : isSpace c = true) :
    l.text ≠ x ++ c :: ('[' :: y) ∧ l.text ≠ x ++ c :: ('(' :: '[' :: y) := by
  obtain ⟨d, ds, hd, hh⟩ := rdns_head h
  constructor
  · intro e
    have := (after_first h hx hc e).2
    simp at this
  · intro e
    have := (after_first h hx hc e).2
    rw [hd] at this
    simp at this
    rw [← this.1] at hh
    exact absurd hh (by decide)

theorem no_helo4 {l : PostfixLine} (h : l.Ok) : isMatch heloRe4 l.text = false := by
  apply not_match
  rintro w z e ⟨_, _, rfl, ⟨rfl, _⟩, o, _, rfl, ho, x, _, rfl, hx, _, _, rfl, ⟨c, rfl, hc⟩, o2, _, rfl, ho2, o3, _, rfl, ho3, _, v, rfl, hb, _⟩
  rw [Reads.lit] at hb
  subst hb
  have hx := nonSpace_solid ((Reads.plus (p := nonSpace)).mp hx).2
  have hs := solid_append (solid_opt ho) hx
  obtain ⟨d, ds, hd, hh⟩ := rdns_head h
  have hin : ∀ {t : Str}, l.text = (o ++ x) ++ c :: t → t = '(' :: (l.rdns ++ (' ' :: '[' :: (dotted l.a l.b l.c l.d ++ ']' :: ')' :: afterAddress l))) :=
    fun e => (after_first h hs hc e).2
  have := hin (t := o2 ++ (o3 ++ ('[' :: (v ++ z)))) (by rw [e]; simp)
  rcases ho2 with ho2 | ho2
  · rw [Reads.lit] at ho2
    subst ho2
    rcases ho3 with ⟨k, rfl, hk⟩ | rfl
    · rw [hd] at this
      simp at this
      rw [this.1, host_solid hh] at hk
      simp at hk
    · rw [hd] at this
      simp at this
      rw [← this.1] at hh
      exact absurd hh (by decide)
  · subst ho2
    rcases ho3 with ⟨k, rfl, hk⟩ | rfl
    · simp at this
      rw [this.1] at hk
      exact absurd hk (by decide)
    · simp at this

theorem no_helo5 {l : PostfixLine} (h : l.Ok) : isMatch heloRe5 l.text = false := by
  apply not_match
  rintro w z e ⟨_, _, rfl, ⟨rfl, _⟩, x, _, rfl, hx, _, _, rfl, ⟨c, rfl, hc⟩, _, _, rfl, hp, o, _, rfl, ho, i, _, rfl, hi, hb⟩
  replace hb := (Reads.lit (s := c!")")).mp hb
  rw [Reads.lit] at hp
  subst hp hb
  have hx := nonSpace_solid ((Reads.plus (p := nonSpace)).mp hx).2
  obtain ⟨d, ds, hd, hh⟩ := rdns_head h
  have := (after_first h hx hc (y := '(' :: (o ++ (i ++ (')' :: z)))) (by rw [e]; simp)).2
  simp only [List.cons.injEq, true_and] at this
  rcases ho with ⟨k, rfl, hk⟩ | rfl
  · rw [hd] at this
    simp at this
    rw [this.1, host_solid hh] at hk
    simp at hk
  · simp only [List.nil_append] at this
    have hic : ∀ c ∈ i, (fun c => c != ' ' && c != ')') c = true := by
      intro c hc
      have := hi.only only_ip c hc
      have h1 : c ≠ ' ' := by rintro rfl; simp [ipChar, Char.isAlpha, Char.isUpper, Char.isLower] at this
      have h2 : c ≠ ')' := by rintro rfl; simp [ipChar, Char.isAlpha, Char.isUpper, Char.isLower] at this
      simp [h1, h2]
    have hrc : ∀ c ∈ l.rdns, (fun c => c != ' ' && c != ')') c = true := by
      intro c hc
      have := host_chars h.rdns c hc
      have h1 : c ≠ ' ' := by rintro rfl; exact absurd this (by decide)
      have h2 : c ≠ ')' := by rintro rfl; exact absurd this (by decide)
      simp [h1, h2]
    have := (Words.run_cut hic hrc (by decide) (by decide) this).2.1
    simp at this

theorem no_helo6 {l : PostfixLine} (h : l.Ok) : isMatch heloRe6 l.text = false := by
  apply not_match
  rintro w z e ⟨_, _, rfl, ⟨rfl, _⟩, x, _, rfl, hx, _, _, rfl, ⟨c, rfl, hc⟩, _, v, rfl, hp, _⟩
  rw [Reads.lit] at hp
  subst hp
  have hx := nonSpace_solid ((Reads.plus (p := nonSpace)).mp hx).2
  exact (no_bracket h (y := v ++ z) hx hc).2 (by rw [e]; simp)

theorem no_helo8 {l : PostfixLine} (h : l.Ok) : isMatch heloRe8 l.text = false := by
  apply not_match
  rintro w z e ⟨_, _, rfl, ⟨rfl, _⟩, o, _, rfl, ho, x, _, rfl, hx, _, _, rfl, ⟨c, rfl, hc⟩, _, v, rfl, hp, _⟩
  rw [Reads.lit] at hp
  subst hp
  have hx := nonSpace_solid ((Reads.plus (p := nonSpace)).mp hx).2
  exact (no_bracket h (y := v ++ z) (solid_append (solid_opt ho) hx) hc).1 (by rw [e]; simp)

theorem no_helo9 {l : PostfixLine} (h : l.Ok) : isMatch heloRe9 l.text = false := by
  apply not_match
  rintro w z e ⟨_, _, rfl, ⟨rfl, _⟩, o, _, rfl, ho, x, _, rfl, hx, _, _, rfl, ⟨c, rfl, hc⟩, o2, _, rfl, ho2, o3, _, rfl, ho3, _, v, rfl, hb, _⟩
  rw [Reads.lit] at hb
  subst hb
  have hx := nonSpace_solid ((Reads.plus (p := nonSpace)).mp hx).2
  have hs := solid_append (solid_opt ho) hx
  obtain ⟨d, ds, hd, hh⟩ := rdns_head h
  have := (after_first h hs hc (y := o2 ++ (o3 ++ ('[' :: (v ++ z)))) (by rw [e]; simp)).2
  rcases ho2 with ho2 | ho2
  · rw [Reads.lit] at ho2
    subst ho2
    rcases ho3 with ⟨k, rfl, hk⟩ | rfl
    · rw [hd] at this
      simp at this
      rw [this.1, host_solid hh] at hk
      simp at hk
    · rw [hd] at this
      simp at this
      rw [← this.1] at hh
      exact absurd hh (by decide)
  · subst ho2
    rcases ho3 with ⟨k, rfl, hk⟩ | rfl
    · simp at this
      rw [this.1] at hk
      exact absurd hk (by decide)
    · simp at this

theorem no_rdns3 {l : PostfixLine} (h : l.Ok) : isMatch rdnsRe3 l.text = false := by
  apply not_match
  rintro w z e ⟨_, _, rfl, ⟨rfl, _⟩, x, _, rfl, hx, _, _, rfl, ⟨c, rfl, hc⟩, _, v, rfl, hp, _⟩
  rw [Reads.lit] at hp
  subst hp
  have hx := nonSpace_solid ((Reads.plus (p := nonSpace)).mp hx).2
  exact (no_bracket h (y := v ++ z) hx hc).1 (by rw [e]; simp)

theorem no_rdns4 {l : PostfixLine} (h : l.Ok) : isMatch rdnsRe4 l.text = false := by
  apply not_match
  rintro w z e ⟨_, _, rfl, ⟨rfl, _⟩, _, r, rfl, ⟨x, _, rfl, hx, _, _, rfl, ⟨c, rfl, hc⟩, _, v, rfl, hp, _⟩, _⟩
  rw [Reads.lit] at hp
  subst hp
  have hx := nonSpace_solid ((Reads.plus (p := nonSpace)).mp hx).2
  exact (no_bracket h (y := v ++ (r ++ z)) hx hc).2 (by rw [e]; simp)

theorem no_unknown {l : PostfixLine} (h : l.Ok) : isMatch unknownRdns l.text = false := by
  apply not_match
  rintro w z e ⟨_, _, rfl, ⟨rfl, _⟩, x, _, rfl, hx, _, _, rfl, ⟨c, rfl, hc⟩, _, _, rfl, hp1, _, _, rfl, hp2, _, _, rfl, ⟨k, rfl, hk⟩,
    _, _, rfl, hp3, i, _, rfl, hi, _, _, rfl, hp4, _, _, rfl, ⟨k', rfl, hk'⟩, hp5⟩
  replace hp2 := (Reads.lit (s := c!"unknown")).mp hp2
  replace hp5 := (Reads.lit (s := c!"(")).mp hp5
  rw [Reads.lit] at hp1 hp3 hp4
  subst hp1 hp2 hp3 hp4 hp5
  have hx := nonSpace_solid ((Reads.plus (p := nonSpace)).mp hx).2
  have := (after_first h hx hc (y := '(' :: (c!"unknown" ++ (k :: ('[' :: (i ++ (']' :: ')' :: k' :: '(' :: z)))))) (by rw [e]; simp)).2
  simp only [List.cons.injEq, true_and] at this
  have := (Words.solid_cut (x := c!"unknown") (by unfold Words.Solid; decide) (solid_host h.rdns) hk (by decide) this).2.2
  simp only [List.cons.injEq, true_and] at this
  have hic : ∀ c ∈ i, (fun c => c != ']') c = true := by
    intro c hc
    have := hi.only only_ip c hc
    have h2 : c ≠ ']' := by rintro rfl; simp [ipChar, Char.isAlpha, Char.isUpper, Char.isLower] at this
    simp [h2]
  have hrc : ∀ c ∈ dotted l.a l.b l.c l.d, (fun c => c != ']') c = true := by
    intro c hc
    have := host_chars (dotted_host h.ip) c hc
    have h2 : c ≠ ']' := by rintro rfl; exact absurd this (by decide)
    simp [h2]
  have := (Words.run_cut hic hrc (by decide) (by decide) this).2.2
  simp [afterAddress] at this

/-! ## Words of the line -/

theorem m_noreads {r : Re} {b t : Str} {g : List (Nat × Str)} {k : St → Option St} (h : ∀ w a, t = w ++ a → ¬ Reads r b w a) :
    m r ⟨b, t, g⟩ k = none := by
  apply m_none
  intro x hx
  obtain ⟨w, h1, _, h3⟩ := hx.reads
  exact h w x.after h1 h3

/-- A text before white space and the whole word after it. -/
theorem adjacent_word {ws : List Str} {u s t v : Str} {x y : Char} (hw : ∀ w ∈ ws, Words.Solid w) (hs : Words.Solid s) (ht : Words.Solid t)
    (hx : isSpace x = true) (hy : isSpace y = true) (h : join [' '] ws = (u ++ s) ++ x :: (t ++ y :: v)) :
    ∃ p, (p ++ s, t) ∈ ws.zip ws.tail := by
  obtain ⟨A, B, rfl, hA, hB, e1, e2, _⟩ := Words.cut_space hw h hx
  obtain ⟨P, a, rfl⟩ : ∃ P a, A = P ++ [a] := ⟨_, _, (List.dropLast_concat_getLast hA).symm⟩
  obtain ⟨S, hS, rfl, _⟩ := Words.first_word (fun w hw' => hw w (List.mem_append_right _ hw')) ht hy e2.symm
  obtain ⟨p, rfl⟩ := Words.suffix_solid e1.symm hs
  refine ⟨p, ?_⟩
  have := Words.zip_tail_mem P S (p ++ s) t
  simpa using this

/-- A whole word between white space and the beginning of the next word. -/
theorem word_adjacent {ws : List Str} {u s t v : Str} {x y : Char} (hw : ∀ w ∈ ws, Words.Solid w) (hs : Words.Solid s) (ht : Words.Solid t)
    (hx : isSpace x = true) (hy : isSpace y = true) (h : join [' '] ws = u ++ x :: (s ++ y :: (t ++ v))) :
    ∃ q, (s, t ++ q) ∈ ws.tail.zip ws.tail.tail := by
  obtain ⟨P, S, hP, hS, rfl, _, e⟩ := Words.whole_word hw hs hx hy h
  cases P with
  | nil => exact absurd rfl hP
  | cons p P =>
    cases S with
    | nil => exact absurd rfl hS
    | cons y S =>
      obtain ⟨q, rfl⟩ := Words.prefix_solid e.symm ht
      exact ⟨q, Words.zip_tail_mem P S s (t ++ q)⟩

/-- Which word follows which, after the first. -/
theorem pairs_mid {l : PostfixLine} {x y : Str} (h : (x, y) ∈ (lineWords l).tail.zip (lineWords l).tail.tail) :
    (x = '(' :: l.rdns ∧ y = '[' :: (dotted l.a l.b l.c l.d ++ c!"])")) ∨
    (x = '[' :: (dotted l.a l.b l.c l.d ++ c!"])") ∧ y = c!"by") ∨ (x = c!"by" ∧ y = l.by_) ∨ (x = l.by_ ∧ y = c!"(Postfix)") ∨
    (x = c!"(Postfix)" ∧ y = c!"with") ∨ (x = c!"with" ∧ y = l.proto) ∨ (x = l.proto ∧ y = c!"id") ∨ (x = c!"id" ∧ y = l.id_) ∨
    (x = l.id_ ∧ y = c!"for" ∧ l.rcpt ≠ none) ∨ (x = c!"for" ∧ ∃ r, l.rcpt = some r ∧ y = '<' :: (r ++ c!">")) := by
  unfold lineWords at h
  cases hr : l.rcpt with
  | none =>
    simp only [hr, List.cons_append, List.nil_append, List.tail_cons, List.zip_cons_cons, List.zip_nil_right, List.append_nil, List.mem_cons,
      Prod.mk.injEq, List.not_mem_nil, or_false] at h
    rcases h with h | h | h | h | h | h | h | h <;> simp [h]
  | some r =>
    simp only [hr, List.cons_append, List.nil_append, List.tail_cons, List.zip_cons_cons, List.zip_nil_right, List.append_nil, List.mem_cons,
      Prod.mk.injEq, List.not_mem_nil, or_false] at h
    rcases h with h | h | h | h | h | h | h | h | h | h <;> simp [h]

theorem host_no {s : Str} (h : HostName s) {x : Char} (hx : hostChar x = false) : x ∉ s := by
  intro hc
  rw [host_chars h x hc] at hx
  simp at hx

theorem suffix_ne {p s t : Str} {x : Char} (h : t = p ++ s) (hx : x ∈ s) : x ∈ t := by
  rw [h]; exact List.mem_append_right _ hx

theorem prefix_mem {t q y : Str} {x : Char} (h : y = t ++ q) (hx : x ∈ t) : x ∈ y := by
  rw [h]; exact List.mem_append_left _ hx

/-! ## Expressions that do not match -/

theorem solid_lower {w s : Str} (h : w.map Char.toLower = s) (hs : Words.Solid s) : Words.Solid w := by
  intro c hc
  cases hsp : isSpace c with
  | false => rfl
  | true =>
    have hl : c.toLower = c := by
      unfold Char.toLower
      split
      · rename_i hu
        have := isSpace_alnum (c := c) (by
          simp only [Char.isAlphanum, Char.isAlpha, Char.isUpper, Bool.or_eq_true, Bool.and_eq_true, decide_eq_true_eq]
          exact .inl (.inl hu))
        rw [hsp] at this
        simp at this
      · rfl
    have := hs c (by rw [← h]; exact List.mem_map.mpr ⟨c, hc, hl⟩)
    rw [hsp] at this
    simp at this

theorem lower_space {c : Char} (h : c.toLower = ' ') : c = ' ' := by
  unfold Char.toLower at h
  split at h
  · rename_i hu
    exfalso
    have := congrArg (fun c : Char => c.val.toNat) h
    simp only [UInt32.le_iff_toNat_le] at hu
    simp at this hu
    omega
  · exact h

theorem paren_last {p H r : Str} (h : '(' :: r = p ++ '(' :: H) (hr : '(' ∉ r) : p = [] ∧ H = r := by
  cases p with
  | nil => simp at h; exact ⟨rfl, h.symm⟩
  | cons c cs =>
    simp at h
    exact absurd (by rw [h.2]; simp) hr

theorem addr_no {l : PostfixLine} (h : l.Ok) {x : Char} (hx : hostChar x = false) (h2 : x ∉ c!"[])") :
    x ∉ '[' :: (dotted l.a l.b l.c l.d ++ c!"])") := by
  intro hc
  simp only [List.mem_cons, List.mem_append, List.not_mem_nil, or_false] at hc h2
  rcases hc with hc | hc | hc | hc
  · exact h2 (.inl hc)
  · exact host_no (dotted_host h.ip) hx hc
  · exact h2 (.inr (.inl hc))
  · exact h2 (.inr (.inr hc))

/-- The only words with `(` in them, except the last, are the name of the address and `(Postfix)`. -/
theorem paren_word {l : PostfixLine} (h : l.Ok) {p H y : Str} (hp : (p ++ '(' :: H, y) ∈ (lineWords l).zip (lineWords l).tail) :
    (H = l.rdns ∧ y = '[' :: (dotted l.a l.b l.c l.d ++ c!"])")) ∨ (H = c!"Postfix)" ∧ y = c!"with") := by
  have hin : '(' ∈ p ++ '(' :: H := by simp
  rcases pairs_cases hp with ⟨e, _⟩ | ⟨e, e'⟩ | ⟨e, _⟩ | ⟨e, _⟩ | ⟨e, _⟩ | ⟨e, e'⟩ | ⟨e, _⟩ | ⟨e, _⟩ | ⟨e, _⟩ | ⟨e, _⟩ | ⟨e, _⟩
  · rw [e] at hin; exact absurd hin (host_no h.helo (by decide))
  · exact .inl ⟨(paren_last e.symm (host_no h.rdns (by decide))).2, e'⟩
  · rw [e] at hin; exact absurd hin (addr_no h (by decide) (by decide))
  · rw [e] at hin; exact absurd hin (by decide)
  · rw [e] at hin; exact absurd hin (host_no h.by_ (by decide))
  · exact .inr ⟨(paren_last e.symm (by decide)).2, e'⟩
  · rw [e] at hin; exact absurd hin (by decide)
  · rw [e] at hin; exact absurd hin (host_no (proto_host h.proto) (by decide))
  · rw [e] at hin; exact absurd hin (by decide)
  · rw [e] at hin; exact absurd hin (host_no h.id_ (by decide))
  · rw [e] at hin; exact absurd hin (by decide)

theorem no_helo {l : PostfixLine} (h : l.Ok) (hp : l.Plain) : isMatch heloRe l.text = false := by
  apply not_match
  rintro w z e ⟨u, _, rfl, _, _, _, rfl, hb, H, _, rfl, hH, _, _, rfl, hs, g, v, rfl, hg, hv⟩
  replace hv := (Reads.lit (s := c!")")).mp hv
  rw [Reads.lit] at hb hs
  subst hb hs hv
  have hH : H.map Char.toLower = c!"helo" ∨ H.map Char.toLower = c!"ehlo" := by
    rcases hH with hH | hH
    · exact .inl (Reads.ilit.mp hH)
    · exact .inr (Reads.ilit.mp hH)
  have hHs : Words.Solid ('(' :: H) := by
    intro c hc
    rcases List.mem_cons.mp hc with rfl | hc
    · decide
    · rcases hH with hH | hH <;> exact solid_lower hH (by unfold Words.Solid; decide) c hc
  have hgs : Words.Solid (g ++ c!")") := solid_append (nonSpace_solid hg) (by unfold Words.Solid; decide)
  rw [text_words] at e
  obtain ⟨p, q, hpq⟩ := Words.adjacent (words_solid h) hHs hgs (x := ' ') (by decide) (u := u) (v := z) (by rw [e]; simp)
  rcases paren_word h hpq with ⟨rfl, _⟩ | ⟨rfl, _⟩
  · rcases hH with hH | hH
    · exact hp.rdnsHelo.1 hH
    · exact hp.rdnsHelo.2 hH
  · revert hH; decide

theorem no_helo10 {l : PostfixLine} (h : l.Ok) (hp : l.Plain) : isMatch heloRe10 l.text = false := by
  apply not_match
  rintro w z e ⟨u, _, rfl, _, _, _, rfl, hb, d, _, rfl, _, _, _, rfl, hs, H, _, rfl, hH, _, _, rfl, hs', g, v, rfl, hg, hv⟩
  replace hv := (Reads.lit (s := c!")")).mp hv
  rw [Reads.lit] at hb hs hs'
  subst hb hs hs' hv
  have hH : H.map Char.toLower = c!"helo" ∨ H.map Char.toLower = c!"ehlo" := by
    rcases hH with hH | hH
    · exact .inl (Reads.ilit.mp hH)
    · exact .inr (Reads.ilit.mp hH)
  have hHs : Words.Solid H := by
    intro c hc
    rcases hH with hH | hH <;> exact solid_lower hH (by unfold Words.Solid; decide) c hc
  have hgs : Words.Solid (g ++ c!")") := solid_append (nonSpace_solid ((Reads.plus (p := nonSpace)).mp hg).2) (by unfold Words.Solid; decide)
  rw [text_words] at e
  obtain ⟨q, hpq⟩ := word_adjacent (words_solid h) hHs hgs (x := ' ') (y := ' ') (by decide) (by decide) (u := u ++ '(' :: d) (v := z) (by rw [e]; simp)
  rcases pairs_mid hpq with ⟨e, _⟩ | ⟨e, e'⟩ | ⟨e, _⟩ | ⟨e, _⟩ | ⟨e, _⟩ | ⟨e, e'⟩ | ⟨e, _⟩ | ⟨e, _⟩ | ⟨_, e, _⟩ | ⟨e, _⟩
  · subst e; simp at hH
  · subst e; simp at hH
  · subst e; revert hH; decide
  · subst e
    rcases hH with hH | hH
    · exact hp.byHelo.1 hH
    · exact hp.byHelo.2 hH
  · subst e; revert hH; decide
  · subst e; revert hH; decide
  · subst e
    have := h.proto
    simp only [List.mem_cons, List.not_mem_nil, or_false] at this
    rcases this with hh | hh | hh | hh | hh <;> (rw [hh] at hH; revert hH; decide)
  · subst e; revert hH; decide
  · exact absurd (prefix_mem e.symm (x := ')') (by simp)) (by decide)
  · subst e; revert hH; decide

theorem no_helo3 {l : PostfixLine} (h : l.Ok) : isMatch heloRe3 l.text = false := by
  apply not_match
  rintro w z e ⟨u, _, rfl, _, H, v, rfl, hH, _⟩
  rw [Reads.ilit] at hH
  have : '=' ∈ H.map Char.toLower := by rw [hH]; decide
  obtain ⟨c, hc, he⟩ := List.mem_map.mp this
  have hcc : c = '=' := by
    unfold Char.toLower at he
    split at he
    · rename_i hu
      exfalso
      have := congrArg (fun c : Char => c.val.toNat) he
      simp only [UInt32.le_iff_toNat_le] at hu
      simp at this hu
      omega
    · exact he
  subst hcc
  exact no_char h (x := '=') (by decide) (by decide) (by rw [e]; simp [hc])

theorem no_must {l : PostfixLine} (h : l.Ok) {r : Re} {x : Char} (hx : mailChar x = false) (h2 : x ∉ c!" ([])<>") (hm : Must (fun c => c = x) r) :
    isMatch r l.text = false ∧ (search r l.text).isSome = false := by
  constructor
  · apply not_match
    intro w z e hr
    obtain ⟨c, hc, rfl⟩ := hr.must hm
    exact no_char h hx h2 (by rw [e]; simp [hc])
  · apply not_search
    intro u w z e hr
    obtain ⟨c, hc, rfl⟩ := hr.must hm
    exact no_char h hx h2 (by rw [e]; simp [hc])

theorem no_ident {l : PostfixLine} (h : l.Ok) : isMatch identRe l.text = false :=
  (no_must h (x := '=') (by decide) (by decide) (Must.seqs ⟨_, List.mem_cons_of_mem _ List.mem_cons_self, Must.lit ⟨'=', by decide, rfl⟩⟩)).1

theorem word_cases {l : PostfixLine} {w : Str} (hw : w ∈ lineWords l) :
    w = l.helo ∨ w = '(' :: l.rdns ∨ w = '[' :: (dotted l.a l.b l.c l.d ++ c!"])") ∨ w = c!"by" ∨ w = l.by_ ∨ w = c!"(Postfix)" ∨
    w = c!"with" ∨ w = l.proto ∨ w = c!"id" ∨ w = l.id_ ∨ w = c!"for" ∨ ∃ r, l.rcpt = some r ∧ w = '<' :: (r ++ c!">") := by
  unfold lineWords at hw
  simp only [List.cons_append, List.nil_append, List.mem_cons, List.mem_append, List.not_mem_nil, or_false] at hw
  rcases hw with h | h | h | h | h | h | h | h | h | h | hw
  all_goals try simp [h]
  cases hr : l.rcpt with
  | none => simp [hr] at hw
  | some r =>
    simp only [hr, List.mem_cons, List.not_mem_nil, or_false] at hw
    rcases hw with h | h <;> simp [h]

theorem no_ident2 {l : PostfixLine} (h : l.Ok) : isMatch identRe2 l.text = false := by
  apply not_match
  rintro w z e ⟨u, _, rfl, _, _, _, rfl, hb, g, v, rfl, hg, hv⟩
  replace hv := (Reads.lit (s := c!"@")).mp hv
  rw [Reads.lit] at hb
  subst hb hv
  have hs : Words.Solid ('(' :: (g ++ c!"@")) := by
    have := solid_append (nonSpace_solid ((Reads.plus (p := nonSpace)).mp hg).2) (b := c!"@") (by unfold Words.Solid; decide)
    exact solid_append (a := c!"(") (by unfold Words.Solid; decide) this
  rw [text_words] at e
  obtain ⟨p, q, hpq⟩ := Words.in_word (u := u) (v := z) hs (by simp) (by rw [e]; simp)
  have h1 : '(' ∈ p ++ '(' :: (g ++ c!"@") ++ q := by simp
  have h2 : '@' ∈ p ++ '(' :: (g ++ c!"@") ++ q := by simp
  rcases word_cases hpq with e | e | e | e | e | e | e | e | e | e | e | ⟨r, hr, e⟩ <;> rw [e] at h1 h2
  · exact host_no h.helo (by decide) h1
  · simp only [List.mem_cons] at h2
    rcases h2 with h2 | h2
    · simp at h2
    · exact host_no h.rdns (by decide) h2
  · exact addr_no h (by decide) (by decide) h1
  · revert h1; decide
  · exact host_no h.by_ (by decide) h1
  · revert h2; decide
  · revert h1; decide
  · exact host_no (proto_host h.proto) (by decide) h1
  · revert h1; decide
  · exact host_no h.id_ (by decide) h1
  · revert h1; decide
  · simp only [List.mem_cons, List.mem_append, List.not_mem_nil, or_false] at h1
    rcases h1 with h1 | h1 | h1
    · simp at h1
    · exact absurd (rcpt_chars h hr _ h1) (by decide)
    · simp at h1

theorem no_rdnsIp {s : Str} (h : HostName s) : isMatch rdnsIp s = false := by
  apply not_match
  rintro w z e ⟨_, _, rfl, ⟨rfl, _⟩, _, v, rfl, hp, _⟩
  rw [Reads.lit] at hp
  subst hp
  exact host_no h (x := '[') (by decide) (by rw [e]; simp)

/-! ## The line is not skipped -/

theorem not_search_bol {r : Re} {h : Str} (hn : ∀ w z, h = w ++ z → ¬ Reads r [] w z) : (search (.seq .bol r) h).isSome = false := by
  apply not_search
  rintro u w z e ⟨_, v, rfl, ⟨rfl, hu⟩, hr⟩
  have hu : u = [] := by simpa using hu
  subst hu
  exact hn v z (by simpa using e) (by simpa using hr)

theorem lower_lit {w s : Str} (h : w.map Char.toLower = ' ' :: s) : ∃ v, w = ' ' :: v ∧ v.map Char.toLower = s := by
  cases w with
  | nil => simp at h
  | cons c cs =>
    simp at h
    exact ⟨cs, by rw [lower_space h.1], h.2⟩

theorem lower_cut {w a s : Str} (h : w.map Char.toLower = a ++ ' ' :: s) :
    ∃ u v, w = u ++ ' ' :: v ∧ u.map Char.toLower = a ∧ v.map Char.toLower = s := by
  obtain ⟨u, x, rfl, hu, hx⟩ := List.map_eq_append_iff.mp h
  obtain ⟨v, rfl, hv⟩ := lower_lit hx
  exact ⟨u, v, rfl, hu, hv⟩

theorem no_withLocal {l : PostfixLine} (h : l.Ok) : (search withLocal l.text).isSome = false := by
  apply not_search
  rintro u w z e ⟨_, _, rfl, ⟨rfl, _⟩, W, v, rfl, hW, _⟩
  replace hW := (Reads.ilit (s := c!"with local")).mp hW
  obtain ⟨a, b, rfl, ha, hb⟩ := lower_cut (a := c!"with") (s := c!"local") hW
  rw [text_words] at e
  obtain ⟨p, q, hpq⟩ := Words.adjacent (words_solid h) (solid_lower ha (by unfold Words.Solid; decide)) (solid_lower hb (by unfold Words.Solid; decide)) (x := ' ') (by decide)
    (u := u) (v := v ++ z) (by rw [e]; simp)
  have key1 : ∀ t : Str, t = p ++ a → (t.map Char.toLower).drop (t.length - 4) = c!"with" := by
    rintro t rfl
    have hl : a.length = 4 := by simpa using congrArg List.length ha
    rw [List.length_append, hl, List.map_append, ha, Nat.add_sub_cancel, List.drop_append_of_le_length (by simp)]
    simp
  have key2 : ∀ t : Str, t = b ++ q → (t.map Char.toLower).take 5 = c!"local" := by
    rintro t rfl
    rw [List.map_append, hb]
    simp
  rcases pairs_cases hpq with ⟨_, e⟩ | ⟨_, e⟩ | ⟨_, e⟩ | ⟨e, _⟩ | ⟨_, e⟩ | ⟨e, e'⟩ | ⟨_, e⟩ | ⟨_, e⟩ | ⟨e, _⟩ | ⟨_, e, _⟩ | ⟨e, _⟩
  · have := key2 _ e.symm; simp at this
  · have := key2 _ e.symm; simp at this
  · exact absurd (key2 _ e.symm) (by decide)
  · exact absurd (key1 _ e.symm) (by decide)
  · exact absurd (key2 _ e.symm) (by decide)
  · exact absurd (key2 _ e'.symm) (by decide)
  · have := h.proto
    simp only [List.mem_cons, List.not_mem_nil, or_false] at this
    rcases this with hh | hh | hh | hh | hh <;> (rw [hh] at e; exact absurd (key2 _ e.symm) (by decide))
  · exact absurd (key2 _ e.symm) (by decide)
  · exact absurd (key1 _ e.symm) (by decide)
  · exact absurd (key2 _ e.symm) (by decide)
  · exact absurd (key1 _ e.symm) (by decide)

theorem no_fetchmail {l : PostfixLine} (h : l.Ok) : (search fetchmail l.text).isSome = false := by
  apply not_search
  intro u w z e hr
  -- the end of the expression is all that matters
  obtain ⟨a, _, rfl, _, _, _, rfl, _, b, _, rfl, _, _, _, rfl, _, c, _, rfl, _, _, _, rfl, _, _, _, rfl, _, d, _, rfl, _, _, _, rfl, _, _, _, rfl, _,
    _, _, rfl, ⟨k, rfl, hk⟩, W, _, rfl, hW, _, v, rfl, ⟨k', rfl, hk'⟩, hv⟩ := hr
  replace hv := (Reads.lit (s := c!"(fetchmail")).mp hv
  subst hv
  rw [text_words] at e
  have hW := nonSpace_solid ((Reads.plus (p := nonSpace)).mp hW).2
  obtain ⟨q, hpq⟩ := word_adjacent (words_solid h) (t := c!"(fetchmail") (x := k) (y := k') hW (by unfold Words.Solid; decide) hk hk' (by
    rw [e]
    simp only [List.append_assoc, List.singleton_append, List.cons_append, List.nil_append]
    simp only [← List.append_assoc]
    rfl)
  have hin : '(' ∈ c!"(fetchmail" ++ q := by simp
  rcases pairs_mid hpq with ⟨_, e⟩ | ⟨_, e⟩ | ⟨_, e⟩ | ⟨_, e⟩ | ⟨_, e⟩ | ⟨_, e⟩ | ⟨_, e⟩ | ⟨_, e⟩ | ⟨_, e, _⟩ | ⟨_, r, hr, e⟩
  · simp at e
  · simp at e
  · rw [e] at hin; exact host_no h.by_ (by decide) hin
  · simp at e
  · simp at e
  · rw [e] at hin; exact host_no (proto_host h.proto) (by decide) hin
  · simp at e
  · rw [e] at hin; exact host_no h.id_ (by decide) hin
  · simp at e
  · simp at e

/-- No expression matches that reads a word, white space and a character other than `(`. -/
theorem no_second {l : PostfixLine} (h : l.Ok) {x y : Str} {c d : Char} (hx : Words.Solid x) (hc : isSpace c = true) (hd : d ≠ '(') :
    l.text ≠ x ++ c :: (d :: y) := by
  intro e
  have := (after_first h hx hc e).2
  simp at this
  exact hd this.1

theorem no_bsmtp {l : PostfixLine} (h : l.Ok) : (search bsmtp l.text).isSome = false := by
  apply not_search_bol
  rintro w z e ⟨x, _, rfl, hx, W, v, rfl, hW, _⟩
  replace hW := (Reads.ilit (s := c!" by ")).mp hW
  obtain ⟨b, rfl, hb⟩ := lower_lit (s := c!"by ") hW
  replace hx := nonSpace_solid ((Reads.plus (p := nonSpace)).mp hx).2
  cases b with
  | nil => simp at hb
  | cons d ds =>
    refine no_second h (y := ds ++ (v ++ z)) (c := ' ') (d := d) hx (by decide) ?_ (by rw [e]; simp)
    rintro rfl
    simp at hb

theorem no_contentTech {l : PostfixLine} (h : l.Ok) : (search contentTech l.text).isSome = false := by
  apply not_search_bol
  rintro w z e ⟨x, _, rfl, hx, _, _, rfl, ⟨c, rfl, hc⟩, _, _, rfl, hp, y, _, rfl, hy, _, _, rfl, hq, _, v, rfl, ⟨d, rfl, hd⟩, _⟩
  rw [Reads.lit] at hp hq
  subst hp hq
  have hx := nonSpace_solid ((Reads.plus (p := nonSpace)).mp hx).2
  have hy := nonSpace_solid ((Reads.plus (p := nonSpace)).mp hy).2
  have := (after_first h hx hc (y := '(' :: (y ++ (')' :: d :: (v ++ z)))) (by rw [e]; simp)).2
  simp only [List.cons.injEq, true_and] at this
  have := (Words.solid_cut (x := y ++ c!")") (u := v ++ z) (solid_append hy (by unfold Words.Solid; decide)) (d := ' ') (solid_host h.rdns) hd (by decide) (by rw [← this]; simp)).1
  exact host_no h.rdns (x := ')') (by decide) (by rw [← this]; simp)

theorem no_localhost {l : PostfixLine} (h : l.Ok) : (search localhostRe l.text).isSome = false := by
  apply not_search_bol
  rintro w z e ⟨x, _, rfl, hx, _, _, rfl, ⟨c, rfl, hc⟩, _, _, rfl, hp, y, _, rfl, hy, _, v, rfl, hq, _⟩
  rw [Reads.lit] at hp hq
  subst hp hq
  have hx := nonSpace_solid ((Reads.plus (p := nonSpace)).mp hx).2
  have hy := (Reads.plus.mp hy).2
  have := (after_first h hx hc (y := '(' :: (y ++ ('@' :: (v ++ z)))) (by rw [e]; simp)).2
  simp only [List.cons.injEq, true_and] at this
  have := (Words.run_cut (p := fun c => !isSpace c && c != '@') hy (by
    intro c hc
    have h1 := solid_host h.rdns c hc
    have h2 : c ≠ '@' := by rintro rfl; exact host_no h.rdns (by decide) hc
    simp [h1, h2]) (by decide) (by decide) this).2.1
  simp at this

theorem no_avg {l : PostfixLine} (h : l.Ok) : (search avgSmtp l.text).isSome = false := by
  apply not_search_bol
  rintro w z e ⟨x, v, rfl, hx, _⟩
  replace hx := (Reads.lit (s := c!"127.0.0.1 (AVG SMTP ")).mp hx
  subst hx
  rw [text_words] at e
  obtain ⟨p, q, hpq⟩ := Words.adjacent (words_solid h) (s := c!"(AVG") (t := c!"SMTP") (by unfold Words.Solid; decide) (by unfold Words.Solid; decide) (x := ' ') (by decide)
    (u := c!"127.0.0.1 ") (v := ' ' :: (v ++ z)) (by rw [e]; simp)
  rcases paren_word h hpq with ⟨_, e⟩ | ⟨_, e⟩
  · simp at e
  · simp at e

theorem no_from {l : PostfixLine} (h : l.Ok) {r : Re} : (search (.seq .bol (.seq words (.seq (lit c!"@") (.seq words (.seq (lit c!" by ") r))))) l.text).isSome = false := by
  apply not_search_bol
  rintro w z e ⟨x, _, rfl, hx, _, _, rfl, hp, y, _, rfl, hy, _, v, rfl, hq, _⟩
  rw [Reads.lit] at hp hq
  subst hp hq
  have hx := nonSpace_solid ((Reads.plus (p := nonSpace)).mp hx).2
  have hy := nonSpace_solid ((Reads.plus (p := nonSpace)).mp hy).2
  refine no_second h (x := x ++ ('@' :: y)) (y := c!"y " ++ (v ++ z)) (c := ' ') (d := 'b') ?_ (by decide) (by decide) (by rw [e]; simp)
  exact solid_append hx (solid_append (a := c!"@") (by unfold Words.Solid; decide) hy)

theorem no_novell {l : PostfixLine} (h : l.Ok) : (search novell l.text).isSome = false := by
  apply not_search_bol
  rintro w z e ⟨x, _, rfl, _, _, _, rfl, hp, y, v, rfl, hy, hq⟩
  replace hq := (Reads.lit (s := c!" with Novell_GroupWise")).mp hq
  rw [Reads.lit] at hp
  subst hp hq
  rw [text_words] at e
  obtain ⟨p, q, hpq⟩ := Words.adjacent (words_solid h) (s := c!"with") (t := c!"Novell_GroupWise") (by unfold Words.Solid; decide) (by unfold Words.Solid; decide) (x := ' ') (by decide)
    (u := x ++ c!" by " ++ y ++ c!" ") (v := z) (by rw [e]; simp)
  have suff : ∀ {t : Str}, p ++ c!"with" = t → c!"with" <:+ t := fun e => ⟨p, e⟩
  have pref : ∀ {t : Str}, c!"Novell_GroupWise" ++ q = t → c!"Novell_GroupWise" <+: t := fun e => ⟨q, e⟩
  rcases pairs_cases hpq with ⟨_, e⟩ | ⟨_, e⟩ | ⟨_, e⟩ | ⟨e, _⟩ | ⟨_, e⟩ | ⟨e, e'⟩ | ⟨_, e⟩ | ⟨_, e⟩ | ⟨e, _⟩ | ⟨_, e, _⟩ | ⟨e, _⟩
  · simp at e
  · simp at e
  · simp at e
  · exact absurd (suff e) (by decide)
  · simp at e
  · simp at e'
  · have := h.proto
    simp only [List.mem_cons, List.not_mem_nil, or_false] at this
    rcases this with hh | hh | hh | hh | hh <;> (rw [hh] at e; exact absurd (pref e) (by decide))
  · simp at e
  · exact absurd (suff e) (by decide)
  · simp at e
  · exact absurd (suff e) (by decide)

theorem no_noName {l : PostfixLine} (h : l.Ok) : (search noName l.text).isSome = false := by
  apply not_search_bol
  rintro w z e ⟨x, v, rfl, hx, _⟩
  replace hx := (Reads.lit (s := c!"no.name.available by ")).mp hx
  subst hx
  exact no_second h (x := c!"no.name.available") (c := ' ') (d := 'b') (y := c!"y " ++ (v ++ z)) (by unfold Words.Solid; decide) (by decide) (by decide) (by rw [e]; simp)

theorem no_smtpsvc {l : PostfixLine} (h : l.Ok) : (search smtpsvc l.text).isSome = false := by
  apply not_search_bol
  rintro w z e ⟨x, _, rfl, hx, _, _, rfl, ⟨c, rfl, hc⟩, _, v, rfl, hp, _⟩
  rw [Reads.lit] at hx hp
  subst hx hp
  exact no_second h (x := c!"mail") (c := c) (d := 'p') (y := c!"ickup" ++ (v ++ z)) (by unfold Words.Solid; decide) hc (by decide) (by rw [e]; simp)

theorem not_skipped {l : PostfixLine} (h : l.Ok) : skip l.text = false := by
  have h1 : (search unknownRe l.text).isSome = false :=
    (no_must h (x := '/') (by decide) (by decide) (Must.seqs ⟨lit c!"Unknown/Local (", by simp, Must.lit ⟨'/', by decide, rfl⟩⟩)).2
  have h2 : (search authSkip l.text).isSome = false :=
    (no_must h (x := ':') (by decide) (by decide) (Must.seqs ⟨lit c!"(AUTH: ", by simp, Must.lit ⟨':', by decide, rfl⟩⟩)).2
  have h3 : (search localSkip l.text).isSome = false :=
    (no_must h (x := ':') (by decide) (by decide) (Must.seqs ⟨lit c!"[[UNIX:", by simp, Must.lit ⟨':', by decide, rfl⟩⟩)).2
  have h4 : (search amazon l.text).isSome = false :=
    (no_must h (x := ':') (by decide) (by decide) (Must.seqs ⟨lit c!"crosscheck:", by simp, Must.lit ⟨':', by decide, rfl⟩⟩)).2
  have h5 : (search qmail l.text).isSome = false := by
    have := no_from h (r := seqs [words, lit c!" by uid ", words, lit c!" "])
    exact this
  have h6 : (search fromRe l.text).isSome = false := by
    have := no_from h (r := seqs [words, lit c!" "])
    exact this
  simp [skip, no_withLocal h, no_fetchmail h, no_bsmtp h, no_contentTech h, no_localhost h, no_avg h, no_novell h, no_noName h, no_smtpsvc h, h1, h2, h3, h4, h5, h6]

/-! ## The fields -/

theorem no_newline {l : PostfixLine} (h : l.Ok) : ∀ c ∈ l.text, dot c = true := by
  intro c hc
  have : c ≠ '\n' := by
    rintro rfl
    exact no_char h (by decide) (by decide) hc
  simp [dot, this]

/-- An expression without groups leaves them as they are. -/
theorem noGroup_match {r : Re} {b w a : Str} {g : List (Nat × Str)} (hn : NoGroup r) (hr : Reads r b w a) :
    ∃ x, m r ⟨b, w ++ a, g⟩ some = some x ∧ x.groups = g := by
  have := m_complete (hr.ways_noGroup g hn) some rfl
  cases hm : m r ⟨b, w ++ a, g⟩ some with
  | none => rw [hm] at this; simp at this
  | some x =>
    obtain ⟨t, hw, e⟩ := m_sound _ _ _ _ hm
    simp at e
    subst e
    exact ⟨t, rfl, hw.groups hn⟩

/-- The line up to the address. -/
def upToAddress (l : PostfixLine) : Str := l.helo ++ c!" (" ++ l.rdns ++ c!" [" ++ dotted l.a l.b l.c l.d ++ c!"])"

/-- The line after the name of the server. -/
def afterBy (l : PostfixLine) : Str := c!"(Postfix) with " ++ l.proto ++ c!" id " ++ l.id_ ++ forPart l.rcpt

theorem text_by (l : PostfixLine) : l.text = upToAddress l ++ (c!" by " ++ (l.by_ ++ (' ' :: afterBy l))) := by
  simp [PostfixLine.text, upToAddress, afterBy]

theorem no_earlier_by {l : PostfixLine} (h : l.Ok) {u z : Str} : upToAddress l ++ c!" by" ≠ u ++ c!" by " ++ z := by
  intro e
  have hj : upToAddress l ++ c!" by" = join [' '] [l.helo, '(' :: l.rdns, '[' :: (dotted l.a l.b l.c l.d ++ c!"])"), c!"by"] := by
    simp [join, upToAddress]
  have hs : ∀ w ∈ [l.helo, '(' :: l.rdns, '[' :: (dotted l.a l.b l.c l.d ++ c!"])"), c!"by"], Words.Solid w := by
    intro w hw
    apply words_solid h
    simp only [lineWords, List.mem_cons, List.mem_append, List.not_mem_nil, or_false] at hw ⊢
    rcases hw with h | h | h | h <;> simp [h]
  rw [hj] at e
  obtain ⟨P, S, hP, hS, e2, _⟩ := Words.whole_word hs (s := c!"by") (x := ' ') (y := ' ') (u := u) (v := z) (by unfold Words.Solid; decide) (by decide) (by decide)
    (by rw [e]; simp)
  match P, hP with
  | [_], _ => simp at e2
  | [_, _], _ => simp at e2
  | [_, _, _], _ => simp at e2; exact hS e2.2.2.2
  | _ :: _ :: _ :: _ :: P, _ =>
    have := congrArg List.length e2
    simp at this

theorem by_field {l : PostfixLine} (h : l.Ok) : field byRe 0 l.text = some l.by_ := by
  have key : ∃ x, matchRe byRe l.text = some x ∧ x.groups = [(0, l.by_)] := by
    obtain ⟨x, hx, hg⟩ := noGroup_match (r := dots) (b := ' ' :: (l.by_.reverse ++ ((c!" by ").reverse ++ ((upToAddress l).reverse ++ []))))
      (w := []) (a := afterBy l) (g := [(0, l.by_)]) trivial (by simp [dots, Reads])
    refine ⟨x, ?_, hg⟩
    unfold matchRe byRe
    simp only [seqs]
    rw [m_seq, text_by]
    simp only [dotsLazy, m]
    refine star_first dot [] _ x _ (upToAddress l) [] ?_ ?_ ?_
    · intro c hc
      exact no_newline h c (by rw [text_by]; exact List.mem_append_left _ hc)
    · intro u v e hv
      rw [← m_seq]
      apply m_noreads
      rintro w a ee ⟨_, y, rfl, hb, _⟩
      rw [Reads.lit] at hb
      subst hb
      -- the match would begin within the first part
      have : c!" by " <+: v ++ c!" by" := by
        have hp : c!" by " <+: v ++ (c!" by " ++ (l.by_ ++ (' ' :: afterBy l))) := ⟨y ++ a, by rw [ee]; simp⟩
        rw [show v ++ (c!" by " ++ (l.by_ ++ (' ' :: afterBy l))) = (v ++ c!" by") ++ (' ' :: (l.by_ ++ (' ' :: afterBy l))) by simp] at hp
        refine List.prefix_of_prefix_length_le hp (List.prefix_append _ _) ?_
        cases v with
        | nil => exact absurd rfl hv
        | cons c cs => simp
      obtain ⟨z, hz⟩ := this
      exact no_earlier_by h (u := u) (z := z) (by rw [e]; simp only [List.append_assoc]; rw [← hz])
    · rw [m_lit, word]
      refine word_greedy h.by_.1 (fun c hc => by simp [nonSpace, solid_host h.by_ c hc]) (by rfl) ?_
      rw [m_lit1]
      exact hx
  obtain ⟨x, hx, hg⟩ := key
  unfold field
  rw [hx]
  simp [St.get, hg, Dict.get?]

theorem get_by {l : PostfixLine} (h : l.Ok) : getBy l.text = l.by_ := by
  simp [getBy, no_rdns3 h, by_field h]

/-- The words from the `d` of `id` on. -/
def idWords (l : PostfixLine) : List Str :=
  [c!"d", l.id_] ++
    match l.rcpt with
    | none => []
    | some r => [c!"for", '<' :: (r ++ c!">")]

theorem idWords_text (l : PostfixLine) : c!"d " ++ (l.id_ ++ forPart l.rcpt) = join [' '] (idWords l) := by
  unfold idWords forPart
  cases l.rcpt <;> simp [join]

theorem idWords_solid {l : PostfixLine} (h : l.Ok) : ∀ w ∈ idWords l, Words.Solid w := by
  intro w hw
  have hd : Words.Solid c!"d" := by unfold Words.Solid; decide
  have := words_solid h w
  unfold idWords at hw
  unfold lineWords at this
  cases hr : l.rcpt with
  | none =>
    simp only [hr, List.append_nil, List.mem_cons, List.not_mem_nil, or_false] at hw this
    rcases hw with rfl | hw
    · exact hd
    · exact this (by simp [hw])
  | some r =>
    simp only [hr, List.cons_append, List.nil_append, List.mem_cons, List.not_mem_nil, or_false] at hw this
    rcases hw with rfl | hw | hw | hw
    · exact hd
    all_goals exact this (by simp [hw])

theorem no_later_id {l : PostfixLine} (h : l.Ok) (hp : l.Plain) {u g z : Str} (hg : g ≠ []) (hs : ∀ c ∈ g, nonSpace c = true) (hu : u ≠ []) :
    c!"id " ++ (l.id_ ++ forPart l.rcpt) ≠ u ++ (c!"id " ++ (g ++ z)) := by
  intro e
  cases u with
  | nil => exact hu rfl
  | cons c u =>
    have e : c!"d " ++ (l.id_ ++ forPart l.rcpt) = u ++ (c!"id " ++ (g ++ z)) := by
      simp only [List.cons_append, List.nil_append, List.cons.injEq] at e
      simpa using e.2
    rw [idWords_text] at e
    obtain ⟨p, q, hpq⟩ := Words.adjacent (idWords_solid h) (s := c!"id") (t := g) (x := ' ') (u := u) (v := z) (by unfold Words.Solid; decide) (nonSpace_solid hs)
      (by decide) (by rw [e]; simp)
    have suff : ∀ {t : Str}, p ++ c!"id" = t → c!"id" <:+ t := fun e => ⟨p, e⟩
    unfold idWords at hpq
    cases hr : l.rcpt with
    | none =>
      simp only [hr, List.append_nil, List.tail_cons, List.zip_cons_cons, List.zip_nil_right, List.mem_cons, Prod.mk.injEq, List.not_mem_nil, or_false] at hpq
      exact absurd (suff hpq.1) (by decide)
    | some r =>
      simp only [hr, List.cons_append, List.nil_append, List.tail_cons, List.zip_cons_cons, List.zip_nil_right, List.mem_cons, Prod.mk.injEq, List.not_mem_nil,
        or_false] at hpq
      rcases hpq with ⟨e, _⟩ | ⟨e, _⟩ | ⟨e, _⟩
      · exact absurd (suff e) (by decide)
      · rcases hp.idEnd with hi | hi
        · rw [hr] at hi; simp at hi
        · exact hi (suff e)
      · exact absurd (suff e) (by decide)

theorem id_field {l : PostfixLine} (h : l.Ok) (hp : l.Plain) : field idRe 0 l.text = some l.id_ := by
  let A : Str := upToAddress l ++ c!" by " ++ l.by_ ++ c!" (Postfix) with " ++ l.proto ++ c!" "
  have ht : l.text = A ++ (c!"id " ++ (l.id_ ++ forPart l.rcpt)) := by
    simp [A, PostfixLine.text, upToAddress]
  have key : matchRe idRe l.text = some ⟨l.id_.reverse ++ ((c!"id ").reverse ++ (A.reverse ++ [])), forPart l.rcpt, [(0, l.id_)]⟩ := by
    unfold matchRe idRe
    simp only [seqs]
    rw [m_seq, ht]
    simp only [dots, m]
    refine star_last dot [] _ _ _ A [] ?_ ?_ ?_
    · intro c hc
      exact no_newline h c (by rw [ht]; exact List.mem_append_left _ hc)
    · intro u v e hu _
      rw [← m_seq]
      apply m_noreads
      rintro w a ee ⟨_, y, rfl, hb, hy⟩
      rw [Reads.lit] at hb
      subst hb
      obtain ⟨hy1, hy2⟩ := (Reads.plus (p := nonSpace)).mp hy
      exact no_later_id h hp (u := u) (g := y) (z := a) hy1 hy2 hu (by rw [e, ee]; simp)
    · rw [m_lit, word]
      refine word_greedy h.id_.1 (fun c hc => by simp [nonSpace, solid_host h.id_ c hc]) ?_ rfl
      cases l.rcpt <;> rfl
  unfold field
  rw [key]
  simp [St.get, Dict.get?]

theorem strip_keep {chars s : Str} (h : ∀ c ∈ s, c ∉ chars) : stripChars chars s = s := by
  have drop : ∀ t : Str, (∀ c ∈ t, c ∉ chars) → t.dropWhile (fun c => chars.contains c) = t := by
    intro t ht
    cases t with
    | nil => rfl
    | cons c cs =>
      have : chars.contains c = false := by simpa using ht c (by simp)
      rw [List.dropWhile_cons, if_neg (by rw [this]; simp)]
  unfold stripChars stripBy rstripBy lstripBy
  rw [drop s h, drop s.reverse (by simpa using h), List.reverse_reverse]

theorem get_id {l : PostfixLine} (h : l.Ok) (hp : l.Plain) : getId l.text = l.id_ := by
  simp only [getId, id_field h hp]
  apply strip_keep
  intro c hc hb
  have := host_chars h.id_ c hc
  simp only [List.mem_cons, List.not_mem_nil, or_false] at hb
  rcases hb with rfl | rfl <;> exact absurd this (by decide)

/-- A word that another one follows does not end like this text. -/
theorem no_ending {l : PostfixLine} (h : l.Ok) {s p y : Str} (hs : ∀ c ∈ s, c.isLower = true ∨ c = '-') (hl : 5 ≤ s.length)
    (hn : ∀ n ∈ [l.helo, l.rdns, l.by_, l.id_], ¬ s <:+ n) : (p ++ s, y) ∉ (lineWords l).zip (lineWords l).tail := by
  intro hpq
  have short : ∀ {t : Str}, p ++ s = t → 5 ≤ t.length := by
    rintro t rfl
    simp
    omega
  have hb : ')' ∉ s := fun hc => absurd (hs _ hc) (by decide)
  have last : ∀ {t : Str}, p ++ s ≠ t ++ c!")" := by
    intro t e
    have hs0 : s ≠ [] := by rintro rfl; simp at hl
    have hd := List.dropLast_concat_getLast hs0
    rw [← hd, ← List.append_assoc] at e
    have := (List.append_inj' e rfl).2
    simp at this
    exact hb (by rw [← this]; exact List.getLast_mem hs0)
  have suff : ∀ {t : Str}, p ++ s = t → s <:+ t := fun e => ⟨p, e⟩
  rcases pairs_cases hpq with ⟨e, _⟩ | ⟨e, _⟩ | ⟨e, _⟩ | ⟨e, _⟩ | ⟨e, _⟩ | ⟨e, _⟩ | ⟨e, _⟩ | ⟨e, _⟩ | ⟨e, _⟩ | ⟨e, _⟩ | ⟨e, _⟩
  · exact hn l.helo (by simp) (suff e)
  · cases p with
    | nil =>
      simp at e
      exact absurd (hs '(' (by rw [e]; simp)) (by decide)
    | cons c p =>
      simp at e
      exact hn l.rdns (by simp) ⟨p, e.2⟩
  · exact last (t := '[' :: (dotted l.a l.b l.c l.d ++ c!"]")) (by rw [e]; simp)
  · exact absurd (short e) (by decide)
  · exact hn l.by_ (by simp) (suff e)
  · exact last (t := c!"(Postfix") e
  · exact absurd (short e) (by decide)
  · have hh := h.proto
    have hp : ∀ c ∈ s, c ∈ l.proto := fun c hc => by rw [← e]; exact List.mem_append_right _ hc
    cases s with
    | nil => simp at hl
    | cons c s =>
      have h1 := hs c (by simp)
      have h2 := hp c (by simp)
      clear hp hs hb last suff short e hl hn hpq
      simp only [List.mem_cons, List.not_mem_nil, or_false] at hh
      rcases hh with hh | hh | hh | hh | hh <;> (rw [hh] at h2; revert h1; revert c; decide)
  · exact absurd (short e) (by decide)
  · exact hn l.id_ (by simp) (suff e)
  · exact absurd (short e) (by decide)

theorem no_envfrom {l : PostfixLine} (h : l.Ok) (hp : l.Plain) : isMatch envfromRe l.text = false := by
  apply not_match
  rintro w z e ⟨u, _, rfl, _, a, _, rfl, ha, g, v, rfl, hg, hv⟩
  replace hg := nonSpace_solid ((Reads.plus (p := nonSpace)).mp hg).2
  have hno : ∀ x : Char, x = ':' ∨ x = '=' → x ∉ a := by
    rintro x hx hc
    have : x ∉ l.text := by rcases hx with rfl | rfl <;> exact no_char h (by decide) (by decide)
    exact this (by rw [e]; simp [hc])
  have key : ∃ s c, a = s ++ [c] ∧ isSpace c = true ∧ (s = c!"return-path" ∨ s = c!"envelope-sender" ∨ s = c!"envelope-from") := by
    rcases ha with ⟨_, _, rfl, hr, o, _, rfl, ho, c, rfl, hc⟩ | ⟨_, _, rfl, hr, o, _, rfl, ho, c, rfl, hc⟩
    · rw [Reads.lit] at hr
      subst hr
      rcases ho with ho | ho
      · rw [Reads.lit] at ho
        subst ho
        exact absurd (by simp) (hno ':' (.inl rfl))
      · have ho : o = [] := ho
        subst ho
        exact ⟨c!"return-path", c, by simp, hc, .inl rfl⟩
    · rw [Reads.lit] at hr
      subst hr
      have hc : isSpace c = true := by
        simp only [Bool.or_eq_true, beq_iff_eq] at hc
        rcases hc with hc | rfl
        · exact hc
        · exact absurd (by simp) (hno '=' (.inr rfl))
      rcases ho with ho | ho
      · rw [Reads.lit] at ho
        subst ho
        exact ⟨c!"envelope-sender", c, by simp, hc, .inr (.inl rfl)⟩
      · rw [Reads.lit] at ho
        subst ho
        exact ⟨c!"envelope-from", c, by simp, hc, .inr (.inr rfl)⟩
  obtain ⟨s, c, rfl, hc, hs⟩ := key
  have hsol : Words.Solid s := by rcases hs with rfl | rfl | rfl <;> (unfold Words.Solid; decide)
  rw [text_words] at e
  obtain ⟨p, q, hpq⟩ := Words.adjacent (words_solid h) (u := u) (x := c) (t := g) (v := v ++ z) hsol hg hc (by rw [e]; simp)
  have hlow : ∀ c ∈ s, c.isLower = true ∨ c = '-' := by rcases hs with rfl | rfl | rfl <;> decide
  have hlen : 5 ≤ s.length := by rcases hs with rfl | rfl | rfl <;> decide
  refine no_ending h hlow hlen ?_ hpq
  intro n hn
  have := hp.envelope n hn
  rcases hs with rfl | rfl | rfl
  · exact this.1
  · exact this.2.1
  · exact this.2.2

/-- The protocols that `AUTH_RE` knows, in lower case. -/
def authNames : List Str :=
  [c!"esmtpsa", c!"esmtpa", c!"lmtpsa", c!"lmtpa", c!"utf8smtpsa", c!"utf8smtpa", c!"utf8lmtpsa", c!"utf8lmtpa", c!"asmtp", c!"httpu", c!"http"]

theorem auth_names {b w a : Str} (h : Reads (alts [seqs [alts [ilit c!"ES", ilit c!"L", ilit c!"UTF8S", ilit c!"UTF8L"], ilit c!"MTP", opt (ilit c!"S"), ilit c!"A"],
      ilit c!"ASMTP", .seq (ilit c!"HTTP") (opt (ilit c!"U"))]) b w a) : w.map Char.toLower ∈ authNames := by
  rcases h with ⟨x, _, rfl, hx, y, _, rfl, hy, o, t, rfl, ho, ht⟩ | h | ⟨x, o, rfl, hx, ho⟩
  · replace ht := (Reads.ilit (s := c!"A")).mp ht
    replace hy := (Reads.ilit (s := c!"MTP")).mp hy
    have ho : o.map Char.toLower = c!"s" ∨ o.map Char.toLower = [] := by
      rcases ho with ho | ho
      · exact .inl ((Reads.ilit (s := c!"S")).mp ho)
      · have ho : o = [] := ho
        subst ho
        exact .inr rfl
    have hx : x.map Char.toLower = c!"es" ∨ x.map Char.toLower = c!"l" ∨ x.map Char.toLower = c!"utf8s" ∨ x.map Char.toLower = c!"utf8l" := by
      rcases hx with hx | hx | hx | hx
      · exact .inl ((Reads.ilit (s := c!"ES")).mp hx)
      · exact .inr (.inl ((Reads.ilit (s := c!"L")).mp hx))
      · exact .inr (.inr (.inl ((Reads.ilit (s := c!"UTF8S")).mp hx)))
      · exact .inr (.inr (.inr ((Reads.ilit (s := c!"UTF8L")).mp hx)))
    rw [List.map_append, List.map_append, List.map_append, ht, hy]
    rcases hx with hx | hx | hx | hx <;> rcases ho with ho | ho <;> (rw [hx, ho]; decide)
  · rw [(Reads.ilit (s := c!"ASMTP")).mp h]; decide
  · replace hx := (Reads.ilit (s := c!"HTTP")).mp hx
    rw [List.map_append, hx]
    rcases ho with ho | ho
    · rw [(Reads.ilit (s := c!"U")).mp ho]; decide
    · have ho : o = [] := ho
      subst ho
      decide

theorem authNames_solid {w : Str} (h : w.map Char.toLower ∈ authNames) : Words.Solid w ∧ w ≠ [] := by
  constructor
  · refine solid_lower rfl ?_
    have : ∀ s ∈ authNames, Words.Solid s := by unfold Words.Solid; decide
    exact this _ h
  · rintro rfl
    revert h
    decide

/-- Where `AUTH_RE` without its beginning can match: at ` with ` before the protocol. -/
theorem auth_place {l : PostfixLine} (h : l.Ok) {u w z : Str} (e : l.text = u ++ (w ++ z))
    (hr : Reads (seqs [sp, ilit c!"with", sp,
    .group 0 (alts [seqs [alts [ilit c!"ES", ilit c!"L", ilit c!"UTF8S", ilit c!"UTF8L"], ilit c!"MTP", opt (ilit c!"S"), ilit c!"A"],
      ilit c!"ASMTP", .seq (ilit c!"HTTP") (opt (ilit c!"U"))]),
    alts [sp, lit c!";", .eol]]) u.reverse w z) :
    l.proto.map Char.toLower ∈ authNames ∧ u = upToAddress l ++ c!" by " ++ l.by_ ++ c!" (Postfix)" := by
  obtain ⟨_, _, rfl, ⟨c, rfl, hc⟩, W, _, rfl, hW, _, _, rfl, ⟨d, rfl, hd⟩, X, E, rfl, hX, hE⟩ := hr
  replace hW : W.map Char.toLower = c!"with" := (Reads.ilit (s := c!"with")).mp hW
  have hX := auth_names hX
  obtain ⟨hXs, hX0⟩ := authNames_solid hX
  have hnl : '\n' ∉ l.text := no_char h (by decide) (by decide)
  have hE : (∃ k E', E ++ z = k :: E' ∧ isSpace k = true) ∨ E ++ z = [] := by
    rcases hE with ⟨k, rfl, hk⟩ | hE | ⟨rfl, hE⟩
    · exact .inl ⟨k, z, rfl, hk⟩
    · replace hE := (Reads.lit (s := c!";")).mp hE
      subst hE
      exact absurd (by rw [e]; simp) (no_char h (x := ';') (by decide) (by decide))
    · rcases hE with rfl | rfl
      · exact .inr rfl
      · exact absurd (by rw [e]; simp) hnl
  rw [text_words] at e
  have hws := solid_lower hW (by unfold Words.Solid; decide)
  obtain ⟨P, S, hP, hS, e2, e3, e4⟩ := Words.whole_word (words_solid h) (s := W) (x := c) (y := d) (u := u) (v := X ++ (E ++ z)) hws hc hd (by rw [e]; simp)
  have hSs : ∀ w ∈ S, Words.Solid w := fun w hw => words_solid h w (by rw [e2]; simp [hw])
  have hS : ∃ S', S = X :: S' := by
    rcases hE with ⟨k, E', he, hk⟩ | he
    · rw [he] at e4
      obtain ⟨S', _, h1, _⟩ := Words.first_word hSs hXs hk e4.symm
      exact ⟨S', h1⟩
    · rw [he, List.append_nil] at e4
      obtain ⟨x, hx⟩ := Words.solid_join hS (by rw [← e4]; exact hXs)
      rw [hx] at e4
      simp only [join] at e4
      exact ⟨[], by rw [hx, e4]⟩
  obtain ⟨S', rfl⟩ := hS
  have low : ∀ {t : Str}, t.map Char.toLower ≠ c!"with" → W ≠ t := by
    rintro t ht rfl
    exact ht hW
  have lowX : ∀ {t : Str}, t.map Char.toLower ∉ authNames → X ≠ t := by
    rintro t ht rfl
    exact ht hX
  have paren : ∀ {t : Str}, X ≠ '(' :: t := by
    rintro t rfl
    revert hX
    simp [authNames]
  have hproto : l.proto.map Char.toLower ≠ c!"with" := by
    have := h.proto
    simp only [List.mem_cons, List.not_mem_nil, or_false] at this
    rcases this with hh | hh | hh | hh | hh <;> (rw [hh]; decide)
  unfold lineWords at e2
  match P, hP with
  | [_], _ =>
    simp only [List.cons_append, List.nil_append, List.cons.injEq] at e2
    exact absurd e2.2.1.symm (low (by simp))
  | [_, _], _ =>
    simp only [List.cons_append, List.nil_append, List.cons.injEq] at e2
    exact absurd e2.2.2.1.symm (low (by simp))
  | [_, _, _], _ =>
    simp only [List.cons_append, List.nil_append, List.cons.injEq] at e2
    exact absurd e2.2.2.2.1.symm (low (by decide))
  | [_, _, _, _], _ =>
    simp only [List.cons_append, List.nil_append, List.cons.injEq] at e2
    exact absurd e2.2.2.2.2.2.1.symm paren
  | [_, _, _, _, _], _ =>
    simp only [List.cons_append, List.nil_append, List.cons.injEq] at e2
    exact absurd e2.2.2.2.2.2.1.symm (low (by decide))
  | [_, _, _, _, _, _], _ =>
    simp only [List.cons_append, List.nil_append, List.cons.injEq] at e2
    obtain ⟨rfl, rfl, rfl, rfl, rfl, rfl, _, hx, _⟩ := e2
    rw [hx]
    refine ⟨hX, ?_⟩
    rw [e3]
    simp [join, upToAddress]
  | [_, _, _, _, _, _, _], _ =>
    simp only [List.cons_append, List.nil_append, List.cons.injEq] at e2
    exact absurd e2.2.2.2.2.2.2.2.1.symm (low hproto)
  | [_, _, _, _, _, _, _, _], _ =>
    simp only [List.cons_append, List.nil_append, List.cons.injEq] at e2
    exact absurd e2.2.2.2.2.2.2.2.2.1.symm (low (by decide))
  | [_, _, _, _, _, _, _, _, _], _ =>
    simp only [List.cons_append, List.nil_append, List.cons.injEq] at e2
    have e2 := e2.2.2.2.2.2.2.2.2.2.2
    cases hr : l.rcpt with
    | none => simp [hr] at e2
    | some r =>
      simp only [hr, List.cons.injEq] at e2
      exact absurd e2.1.symm (lowX (by decide))
  | [_, _, _, _, _, _, _, _, _, _], _ =>
    simp only [List.cons_append, List.nil_append, List.cons.injEq] at e2
    have e2 := e2.2.2.2.2.2.2.2.2.2.2
    cases hr : l.rcpt with
    | none => simp [hr] at e2
    | some r =>
      simp only [hr, List.cons.injEq] at e2
      exact absurd e2.1.symm (low (by decide))
  | _ :: _ :: _ :: _ :: _ :: _ :: _ :: _ :: _ :: _ :: _ :: P, _ =>
    have := congrArg List.length e2
    cases hr : l.rcpt with
    | none => simp [hr] at this
    | some r => simp [hr] at this; omega

/-- `AUTH_RE` without its beginning. -/
def authTail : Re :=
  seqs [sp, ilit c!"with", sp,
    .group 0 (alts [seqs [alts [ilit c!"ES", ilit c!"L", ilit c!"UTF8S", ilit c!"UTF8L"], ilit c!"MTP", opt (ilit c!"S"), ilit c!"A"],
      ilit c!"ASMTP", .seq (ilit c!"HTTP") (opt (ilit c!"U"))]),
    alts [sp, lit c!";", .eol]]

theorem auth_esmtpa (B X : Str) :
    m authTail ⟨B, c!" with ESMTPA " ++ X, []⟩ some = some ⟨(c!" with ESMTPA ").reverse ++ B, X, [(0, c!"ESMTPA")]⟩ := by
  simp [authTail, seqs, alts, ilit, opt, m, sp, isSpace, Char.toLower]

theorem auth_esmtpsa (B X : Str) :
    m authTail ⟨B, c!" with ESMTPSA " ++ X, []⟩ some = some ⟨(c!" with ESMTPSA ").reverse ++ B, X, [(0, c!"ESMTPSA")]⟩ := by
  simp [authTail, seqs, alts, ilit, opt, m, sp, isSpace, Char.toLower]

theorem auth_field {l : PostfixLine} (h : l.Ok) :
    field authRe 0 l.text = if l.proto = c!"ESMTPA" ∨ l.proto = c!"ESMTPSA" then some l.proto else none := by
  have hpr := h.proto
  by_cases hA : l.proto = c!"ESMTPA" ∨ l.proto = c!"ESMTPSA"
  · rw [if_pos hA]
    have ht : l.text = (upToAddress l ++ c!" by " ++ l.by_ ++ c!" (Postfix)") ++ (c!" with " ++ (l.proto ++ (' ' :: (c!"id " ++ (l.id_ ++ forPart l.rcpt))))) := by
      simp [PostfixLine.text, upToAddress]
    have key : ∃ x, matchRe authRe l.text = some x ∧ x.groups = [(0, l.proto)] := by
      unfold matchRe authRe
      simp only [seqs]
      rw [m_seq, ht]
      simp only [dotsLazy]
      rw [m]
      refine ⟨⟨' ' :: (l.proto.reverse ++ ((c!" with ").reverse ++ ((upToAddress l ++ c!" by " ++ l.by_ ++ c!" (Postfix)").reverse ++ []))),
        c!"id " ++ (l.id_ ++ forPart l.rcpt), [(0, l.proto)]⟩, star_first dot [] _ _ _ (upToAddress l ++ c!" by " ++ l.by_ ++ c!" (Postfix)") [] ?_ ?_ ?_, ?_⟩
      · intro c hc
        exact no_newline h c (by rw [ht]; exact List.mem_append_left _ hc)
      · intro u v e hv
        apply m_noreads
        intro w a ee hr
        have := (auth_place h (u := u) (w := w) (z := a) (by rw [ht, e, ← ee]; simp) (by simpa [seqs] using hr)).2
        rw [e] at this
        simp at this
        exact hv this
      · generalize c!"id " ++ (l.id_ ++ forPart l.rcpt) = X
        generalize (upToAddress l ++ c!" by " ++ l.by_ ++ c!" (Postfix)").reverse ++ [] = B
        rcases hA with hA | hA <;> rw [hA]
        · have := auth_esmtpa B X
          simpa [authTail, seqs] using this
        · have := auth_esmtpsa B X
          simpa [authTail, seqs] using this
      · rfl
    obtain ⟨x, hx, hg⟩ := key
    unfold field
    rw [hx]
    simp [St.get, hg, Dict.get?]
  · rw [if_neg hA]
    have : isMatch authRe l.text = false := by
      apply not_match
      rintro w z e ⟨u, v, rfl, _, hr⟩
      have := (auth_place h (u := u) (w := v) (z := z) (by rw [e]; simp) (by simpa using hr)).1
      simp only [List.mem_cons, List.not_mem_nil, or_false] at hpr
      rcases hpr with hh | hh | hh | hh | hh
      · rw [hh] at this; revert this; decide
      · rw [hh] at this; revert this; decide
      · rw [hh] at this; revert this; decide
      · exact hA (.inl hh)
      · exact hA (.inr hh)
    unfold field
    unfold isMatch at this
    cases hm : matchRe authRe l.text with
    | none => rfl
    | some x => rw [hm] at this; simp at this


theorem no_auth4 {l : PostfixLine} (h : l.Ok) (hp : l.Plain) : search authRe4 l.text = none := by
  have : (search authRe4 l.text).isSome = false := by
    apply not_search
    rintro u w z e ⟨d, _, rfl, _, _, _, rfl, hb, _, _, rfl, ⟨_, g, rfl, hm, hg⟩, _, v, rfl, hq, _⟩
    rw [Reads.lit] at hb hq hm
    subst hb hq hm
    have hg : g = c!"net" ∨ g = c!"com" := by
      rcases hg with hg | hg
      · exact .inl (Reads.lit.mp hg)
      · exact .inr (Reads.lit.mp hg)
    rw [text_words] at e
    obtain ⟨q, hpq⟩ := word_adjacent (words_solid h) (s := c!"mail.gmx." ++ g) (t := c!"(") (x := ' ') (y := ' ') (u := u ++ d ++ c!" by") (v := v ++ z)
      (by rcases hg with rfl | rfl <;> (unfold Words.Solid; decide)) (by unfold Words.Solid; decide) (by decide) (by decide) (by rw [e]; simp)
    have hin : '(' ∈ c!"(" ++ q := by simp
    rcases pairs_mid hpq with ⟨_, e⟩ | ⟨_, e⟩ | ⟨_, e⟩ | ⟨e, _⟩ | ⟨_, e⟩ | ⟨_, e⟩ | ⟨_, e⟩ | ⟨_, e⟩ | ⟨_, e, _⟩ | ⟨_, r, hr, e⟩
    · simp at e
    · simp at e
    · rw [e] at hin; exact host_no h.by_ (by decide) hin
    · rcases hg with rfl | rfl
      · exact hp.gmx.1 e.symm
      · exact hp.gmx.2 e.symm
    · simp at e
    · rw [e] at hin; exact host_no (proto_host h.proto) (by decide) hin
    · simp at e
    · rw [e] at hin; exact host_no h.id_ (by decide) hin
    · simp at e
    · simp at e
  cases hs : search authRe4 l.text with
  | none => rfl
  | some x => rw [hs] at this; simp at this

theorem no_auth5 {l : PostfixLine} (h : l.Ok) : (search authRe5 l.text).isSome = false := by
  apply not_search
  rintro u w z e ⟨a, _, rfl, _, _, _, rfl, _, b, _, rfl, _, _, _, rfl, _, c, _, rfl, _, _, v, rfl, hq, _⟩
  rw [Reads.lit] at hq
  subst hq
  rw [text_words] at e
  obtain ⟨p, q, hpq⟩ := Words.adjacent (words_solid h) (s := c!"(CommuniGate") (t := c!"Pro") (x := ' ') (v := ' ' :: (v ++ z)) (by unfold Words.Solid; decide)
    (by unfold Words.Solid; decide) (by decide) (by
      rw [e]
      simp only [List.append_assoc, List.singleton_append, List.cons_append, List.nil_append]
      rw [show ∀ t : Str, ' ' :: '(' :: 'C' :: t = [' '] ++ ('(' :: 'C' :: t) from fun _ => rfl]
      simp only [← List.append_assoc]
      rw [show ∀ t y : Str, t ++ '(' :: 'C' :: 'o' :: 'm' :: 'm' :: 'u' :: 'n' :: 'i' :: 'G' :: 'a' :: 't' :: 'e' :: y = t ++ c!"(CommuniGate" ++ y by intro t y; simp])
  rcases paren_word h hpq with ⟨_, e⟩ | ⟨_, e⟩
  · simp at e
  · simp at e

theorem get_auth {l : PostfixLine} (h : l.Ok) (hp : l.Plain) :
    getAuth rx l.text = if l.proto = c!"ESMTPA" ∨ l.proto = c!"ESMTPSA" then l.proto else [] := by
  have hby : hasSub c!" by " l.text = true := by
    rw [hasSub_iff, text_by]
    exact ⟨upToAddress l, l.by_ ++ (' ' :: afterBy l), by simp⟩
  have h3 : (search authRe3 l.text).isSome = false :=
    (no_must h (x := ':') (by decide) (by decide) (Must.seqs ⟨lit c!"sender:", by simp, Must.lit ⟨':', by decide, rfl⟩⟩)).2
  have hg : hasSub c!" by mx.google.com with ESMTPS id " l.text = false := by
    cases hs : hasSub c!" by mx.google.com with ESMTPS id " l.text with
    | false => rfl
    | true =>
      obtain ⟨u, v, e⟩ := (hasSub_iff _ _).mp hs
      rw [text_words] at e
      obtain ⟨q, hpq⟩ := word_adjacent (words_solid h) (s := c!"mx.google.com") (t := c!"with") (x := ' ') (y := ' ') (u := u ++ c!" by") (v := c!" ESMTPS id " ++ v)
        (by unfold Words.Solid; decide) (by unfold Words.Solid; decide) (by decide) (by decide) (by rw [← e]; simp)
      rcases pairs_mid hpq with ⟨e, _⟩ | ⟨e, _⟩ | ⟨e, _⟩ | ⟨_, e⟩ | ⟨e, _⟩ | ⟨e, _⟩ | ⟨_, e⟩ | ⟨e, _⟩ | ⟨_, e, _⟩ | ⟨e, _⟩
      all_goals simp at e
  have ha : hasSub c!"authenticated" l.text = false := by
    cases hs : hasSub c!"authenticated" l.text with
    | false => rfl
    | true => exact absurd ((hasSub_iff _ _).mp hs) hp.authenticated
  have hq : hasSub c!"SquirrelMail authenticated " l.text = false := by
    cases hs : hasSub c!"SquirrelMail authenticated " l.text with
    | false => rfl
    | true =>
      obtain ⟨u, v, e⟩ := (hasSub_iff _ _).mp hs
      exact absurd ⟨u ++ c!"SquirrelMail ", ' ' :: v, by rw [← e]; simp⟩ hp.authenticated
  have ha2 : rx.auth l.text = if l.proto = c!"ESMTPA" ∨ l.proto = c!"ESMTPSA" then some l.proto else none := auth_field h
  have h32 : rx.auth3 l.text = false := h3
  have h42 : rx.auth4 l.text = none := by
    show two (search authRe4 l.text) 0 3 = none
    rw [no_auth4 h hp]
    rfl
  have h52 : rx.auth5 l.text = false := no_auth5 h
  unfold getAuth
  rw [if_pos hby, ha2]
  by_cases hA : l.proto = c!"ESMTPA" ∨ l.proto = c!"ESMTPSA"
  · rw [if_pos hA, if_pos hA]
  · rw [if_neg hA, if_neg hA, h32, hg, hq, ha, h42, h52]
    simp

theorem helo7_fields {l : PostfixLine} (h : l.Ok) :
    isMatch heloRe7 l.text = true ∧ field heloRe7 0 l.text = some l.helo ∧ field heloRe7 1 l.text = some l.rdns := by
  obtain ⟨x, hx, hg⟩ := helo7 l h
  refine ⟨by simp [isMatch, hx], ?_, ?_⟩ <;> simp [field, hx, St.get, hg, Dict.get?]

theorem get_helo {l : PostfixLine} (h : l.Ok) (hp : l.Plain) : getHelo l.text = l.helo := by
  obtain ⟨h1, h2, _⟩ := helo7_fields h
  simp [getHelo, no_helo h hp, no_helo3 h, no_helo4 h, no_helo5 h, no_helo6 h, no_helo8 h, no_helo9 h, no_rdns4 h, no_helo10 h hp, h1, h2]

theorem strip_brackets {s : Str} (h : HostName s) : stripChars c!"[]" s = s := by
  apply strip_keep
  intro c hc hb
  have := host_chars h c hc
  simp only [List.mem_cons, List.not_mem_nil, or_false] at hb
  rcases hb with rfl | rfl <;> exact absurd this (by decide)

theorem get_rdns {l : PostfixLine} (h : l.Ok) (hp : l.Plain) : getRdns l.text = l.rdns := by
  obtain ⟨h1, _, h2⟩ := helo7_fields h
  have hf : rdnsFirst l.text = l.rdns := by
    simp [rdnsFirst, h1, h2, hp.known'.1]
  have hat : l.rdns.contains '@' = false := by
    simpa using host_no h.rdns (x := '@') (by decide)
  have hu : hasSub c!"unknown" l.rdns = false := by
    cases hs : hasSub c!"unknown" l.rdns with
    | false => rfl
    | true => exact absurd ((hasSub_iff _ _).mp hs) hp.known
  have hk : (l.rdns == c!"UnknownHost") = false := by simpa using hp.known'.2
  unfold getRdns
  simp only [hf, hat, no_unknown h, Bool.and_false, Bool.false_eq_true, if_false, no_rdnsIp h.rdns, hu, hk, Bool.or_false]
  exact strip_brackets h.rdns

theorem get_ident {l : PostfixLine} (h : l.Ok) : getIdent l.text = [] := by
  simp [getIdent, no_ident h, no_ident2 h]

theorem get_envfrom {l : PostfixLine} (h : l.Ok) (hp : l.Plain) : getEnvfrom rx l.text = [] := by
  have : rx.envfrom l.text = none := by
    show field envfromRe 0 l.text = none
    have := no_envfrom h hp
    unfold isMatch at this
    unfold field
    cases hm : matchRe envfromRe l.text with
    | none => rfl
    | some x => rw [hm] at this; simp at this
  unfold getEnvfrom
  rw [this]
  rfl

end Verif.ReceivedRe
