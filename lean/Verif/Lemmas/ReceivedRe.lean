import Verif.Lemmas.Re
import Verif.Model.ReceivedRe
import Verif.Spec.ReceivedRe

/-!
# Addresses in the expressions of `oa/received_parser.py`
-/

namespace Verif.ReceivedRe
open Verif Py Re Spec

/-- The texts that `octet` reads. -/
def octetText : Str → Bool
  | [x] => digit x
  | [x, y] => digit x && digit y
  | [x, y, z] => (x == '1' && digit y && digit z) || (x == '2' && between '0' '4' y && digit z) ||
      (x == '2' && y == '5' && between '0' '5' z)
  | _ => false

theorem octet_of_text {b w a : Str} (h : octetText w = true) : Reads octet b w a := by
  match w, h with
  | [x], h =>
    refine .inr (.inr (.inr (.inr ⟨x, rfl, h⟩)))
  | [x, y], h =>
    simp [octetText] at h
    exact .inr (.inr (.inr (.inl ⟨[x], [y], rfl, ⟨x, rfl, h.1⟩, y, rfl, h.2⟩)))
  | [x, y, z], h =>
    simp [octetText] at h
    rcases h with (h | h) | h
    · exact .inl ⟨[x], [y, z], rfl, Reads.lit.mpr (by simp [h.1]), [y], [z], rfl, ⟨y, rfl, h.1.2⟩, z, rfl, h.2⟩
    · exact .inr (.inl ⟨[x], [y, z], rfl, Reads.lit.mpr (by simp [h.1]), [y], [z], rfl, ⟨y, rfl, h.1.2⟩, z, rfl, h.2⟩)
    · exact .inr (.inr (.inl ⟨[x, y], [z], rfl, Reads.lit.mpr (by simp [h.1]), z, rfl, h.2⟩))

theorem between_digit {a b c : Char} (ha : '0' ≤ a) (hb : b ≤ '9') (h : between a b c = true) : c.isDigit = true := by
  simp [between] at h
  simp only [Char.isDigit, Bool.and_eq_true, decide_eq_true_eq]
  constructor
  · exact Nat.le_trans (show '0'.toNat ≤ a.toNat from ha) h.1
  · exact Nat.le_trans (show c.toNat ≤ b.toNat from h.2) hb

theorem octet_digits : Only (fun c => c.isDigit = true) octet := by
  refine ⟨⟨⟨?_, trivial⟩, ?_, ?_⟩, ⟨⟨?_, trivial⟩, ?_, ?_⟩, ⟨⟨?_, ?_, trivial⟩, ?_⟩, ⟨?_, ?_⟩, ?_⟩
  all_goals first
    | exact fun c hc => hc
    | exact fun c hc => between_digit (by decide) (by decide) hc
    | (intro c hc; simp at hc; subst hc; decide)

theorem octet_must : Must (fun c => c.isDigit = true) octet := by
  refine ⟨.inr (.inl fun c hc => hc), .inr (.inr fun c hc => hc), .inr fun c hc => between_digit (by decide) (by decide) hc,
    .inl fun c hc => hc, fun c hc => hc⟩

theorem octet_reads {b w a : Str} (h : Reads octet b w a) : w ≠ [] ∧ ∀ c ∈ w, c.isDigit = true := by
  refine ⟨?_, h.only octet_digits⟩
  rintro rfl
  obtain ⟨c, hc, _⟩ := h.must octet_must
  simp at hc

set_option maxRecDepth 8000 in
theorem decimal_octet {n : Nat} (h : n ≤ 255) : octetText (decimal n) = true := by
  have : ∀ n : Fin 256, octetText (decimal n.val) = true := by decide +kernel
  exact this ⟨n, by omega⟩

set_option maxRecDepth 8000 in
theorem decimal_digits {n : Nat} (h : n ≤ 255) : decimal n ≠ [] ∧ ∀ c ∈ decimal n, c.isDigit = true :=
  octet_reads (octet_of_text (b := []) (a := []) (decimal_octet h))

theorem quad_reads {b w a : Str} (h : Reads quad b w a) : ∃ p q r s, w = p ++ '.' :: (q ++ '.' :: (r ++ '.' :: s)) ∧
    (p ≠ [] ∧ ∀ c ∈ p, c.isDigit = true) ∧ (q ≠ [] ∧ ∀ c ∈ q, c.isDigit = true) ∧
    (r ≠ [] ∧ ∀ c ∈ r, c.isDigit = true) ∧ (s ≠ [] ∧ ∀ c ∈ s, c.isDigit = true) := by
  obtain ⟨p, _, rfl, hp, _, _, rfl, h1, q, _, rfl, hq, _, _, rfl, h2, r, _, rfl, hr, _, s, rfl, h3, hs⟩ := h
  rw [Reads.lit] at h1 h2 h3
  subst h1 h2 h3
  exact ⟨p, q, r, s, rfl, octet_reads hp, octet_reads hq, octet_reads hr, octet_reads hs⟩

theorem quad_of {x y a : Str} {n₁ n₂ n₃ n₄ : Nat} (h₁ : n₁ ≤ 255) (h₂ : n₂ ≤ 255) (h₃ : n₃ ≤ 255) (h₄ : n₄ ≤ 255) :
    Reads quad x (dotted n₁ n₂ n₃ n₄) a :=
  ⟨_, _, rfl, octet_of_text (decimal_octet h₁), ['.'], _, rfl, Reads.lit.mpr rfl, _, _, rfl, octet_of_text (decimal_octet h₂), ['.'], _, rfl,
    Reads.lit.mpr rfl, _, _, rfl, octet_of_text (decimal_octet h₃), ['.'], _, rfl, Reads.lit.mpr rfl, octet_of_text (decimal_octet h₄)⟩

/-- Digits up to a character that is none are determined. -/
theorem digits_cut {p q x y : Str} {c d : Char} (hp : ∀ c ∈ p, c.isDigit = true) (hq : ∀ c ∈ q, c.isDigit = true)
    (hc : c.isDigit = false) (hd : d.isDigit = false) (e : p ++ c :: x = q ++ d :: y) : p = q ∧ c = d ∧ x = y := by
  induction p generalizing q with
  | nil =>
    cases q with
    | nil => simp at e; simp [e]
    | cons k ks =>
      simp at e
      have := hq k (by simp)
      rw [← e.1, hc] at this
      simp at this
  | cons h hs ih =>
    cases q with
    | nil =>
      simp at e
      have := hp h (by simp)
      rw [e.1, hd] at this
      simp at this
    | cons k ks =>
      simp at e
      obtain ⟨h1, h2⟩ := ih (fun c hc => hp c (List.mem_cons_of_mem _ hc)) (fun c hc => hq c (List.mem_cons_of_mem _ hc)) e.2
      exact ⟨by rw [e.1, h1], h2⟩

/-- The characters of addresses. -/
def ipChar (c : Char) : Prop := c.isDigit = true ∨ c.isAlpha = true ∨ c = ':' ∨ c = '.'

theorem only_hex : Only ipChar (.chr hex) := by
  intro c hc
  simp only [hex, Bool.or_eq_true, Bool.and_eq_true, decide_eq_true_eq] at hc
  rcases hc with hc | ⟨h1, h2⟩
  · exact .inl hc
  · refine .inr (.inl ?_)
    simp only [Char.isAlpha, Char.isLower, Bool.or_eq_true, Bool.and_eq_true, decide_eq_true_eq]
    exact .inr ⟨h1, Nat.le_trans (show c.toNat ≤ 'f'.toNat from h2) (by decide)⟩

theorem only_colon : Only ipChar (lit c!":") := Only.lit (by simp [ipChar])
theorem only_colons : Only ipChar (lit c!"::") := Only.lit (by simp [ipChar])
theorem only_h4 : Only ipChar h4 := Only.rep only_hex 1 4
theorem only_h4c : Only ipChar h4c := ⟨only_h4, only_colon⟩
theorem only_ch4 : Only ipChar ch4 := ⟨only_colon, only_h4⟩
theorem only_dot : Only ipChar (lit c!".") := Only.lit (by simp [ipChar])
theorem only_octet : Only ipChar octet := octet_digits.mono (fun _ h => .inl h)
theorem only_quad : Only ipChar quad := by
  apply Only.seqs
  simp [only_octet, only_dot]

theorem only_ipv6 : Only ipChar ipv6 := by
  apply Only.alts
  simp only [List.mem_cons, List.not_mem_nil, or_false, forall_eq_or_imp, forall_eq]
  refine ⟨⟨?_, only_quad⟩, ⟨only_h4c.times _, only_h4⟩, ⟨only_colon, only_ch4.rep _ _⟩, ⟨only_h4c.rep _ _, only_colon⟩, ?_,
    ⟨only_h4c.times _, only_ch4.rep _ _⟩, ⟨only_h4c.times _, only_ch4.rep _ _⟩, ⟨only_h4c.times _, only_ch4.rep _ _⟩,
    ⟨only_h4c.times _, only_ch4.rep _ _⟩, ?_, only_colons⟩
  · apply Only.alts
    simp only [List.mem_cons, List.not_mem_nil, or_false, forall_eq_or_imp, forall_eq]
    refine ⟨only_h4c.times _, ⟨only_colons, only_h4c.rep _ _⟩, ⟨only_h4c.rep _ _, only_colon⟩, ?_, ?_, ?_, ?_⟩ <;>
    · apply Only.seqs
      simp [only_h4, only_colons, only_colon, only_h4c, only_h4c.times, only_h4c.rep]
  · apply Only.seqs
    simp [only_h4, only_colon, only_ch4.rep]
  · apply Only.seqs
    simp [only_h4, only_colon, only_h4c.times]

theorem only_ip : Only ipChar ipAddress := by
  refine ⟨?_, ?_⟩
  · apply Only.seqs
    simp [only_quad, Only]
  · apply Only.seqs
    simp only [List.mem_cons, List.not_mem_nil, or_false, forall_eq_or_imp, forall_eq]
    exact ⟨⟨Only.lit (by simp [ipChar, Char.isAlpha, Char.isUpper, Char.isLower]), trivial⟩, only_ipv6, trivial⟩

theorem must_colon : Must (fun c => c = ':') (lit c!":") := Must.lit (by simp)
theorem must_colons : Must (fun c => c = ':') (lit c!"::") := Must.lit (by simp)
theorem must_h4c : Must (fun c => c = ':') h4c := .inr must_colon
theorem must_ch4 : Must (fun c => c = ':') ch4 := .inl must_colon

theorem must_ipv6 : Must (fun c => c = ':') ipv6 := by
  apply Must.alts
  simp only [List.mem_cons, List.not_mem_nil, or_false, forall_eq_or_imp, forall_eq]
  refine ⟨.inl ?_, .inl (must_h4c.times _), .inl must_colon, .inr must_colon, Must.seqs ⟨_, by simp, must_colon⟩, .inl (must_h4c.times _),
    .inl (must_h4c.times _), .inl (must_h4c.times _), .inl (must_h4c.times _), Must.seqs ⟨_, by simp, must_colon⟩, must_colons⟩
  apply Must.alts
  simp only [List.mem_cons, List.not_mem_nil, or_false, forall_eq_or_imp, forall_eq]
  exact ⟨must_h4c.times _, .inl must_colons, .inr must_colon, Must.seqs ⟨_, by simp, must_colons⟩, Must.seqs ⟨_, by simp, must_colon⟩,
    Must.seqs ⟨_, by simp, must_colon⟩, Must.seqs ⟨_, by simp, must_colon⟩⟩

theorem must_ip : Must (fun c => c = '.' ∨ c = ':') ipAddress := by
  refine ⟨Must.seqs ⟨quad, by simp, Must.seqs ⟨lit c!".", by simp, Must.lit (by simp)⟩⟩, ?_⟩
  exact Must.seqs ⟨ipv6, by simp, must_ipv6.mono (fun _ h => .inr h)⟩

theorem must_z4c : Must (fun c => c = ':') z4c := .inr must_colon

theorem must_mapped : Must (fun c => c = ':') mapped := by
  refine .inl ?_
  apply Must.alts
  simp only [List.mem_cons, List.not_mem_nil, or_false, forall_eq_or_imp, forall_eq]
  exact ⟨must_z4c.times _, .inl must_colons, .inr must_colon, Must.seqs ⟨_, by simp, must_colons⟩, Must.seqs ⟨_, by simp, must_colon⟩,
    Must.seqs ⟨lit c!":0:", by simp, Must.lit (by simp)⟩, .inr must_colon⟩

theorem must_loop6 : Must (fun c => c = ':') loop6 := by
  apply Must.alts
  simp only [List.mem_cons, List.not_mem_nil, or_false, forall_eq_or_imp, forall_eq]
  exact ⟨.inl (must_z4c.times _), Must.seqs ⟨_, by simp, must_colon⟩, Must.seqs ⟨_, by simp, must_colon⟩,
    Must.seqs ⟨_, by simp, must_colon⟩, Must.seqs ⟨_, by simp, must_colon⟩, Must.seqs ⟨_, by simp, must_colon⟩,
    Must.seqs ⟨_, by simp, must_colon⟩, Must.seqs ⟨_, by simp, must_colon⟩⟩

theorem must_private6 : Must (fun c => c = ':') private6 := by
  refine Must.seqs ⟨_, List.mem_cons_of_mem _ (List.mem_cons_of_mem _ (List.mem_cons_self ..)), ?_⟩
  apply Must.alts
  simp only [List.mem_cons, List.not_mem_nil, or_false, forall_eq_or_imp, forall_eq]
  exact ⟨Must.seqs ⟨_, by simp, must_mapped⟩, Must.seqs ⟨_, by simp, must_colon⟩, must_loop6⟩

theorem noGroup_octet : NoGroup octet := by simp [octet, alts, seqs, NoGroup, lit]
theorem noGroup_quad : NoGroup quad := by
  apply NoGroup.seqs
  simp [noGroup_octet, NoGroup.lit]
theorem noGroup_h4 : NoGroup h4 := NoGroup.rep (r := .chr hex) trivial 1 4
theorem noGroup_h4c : NoGroup h4c := ⟨noGroup_h4, NoGroup.lit _⟩
theorem noGroup_ch4 : NoGroup ch4 := ⟨NoGroup.lit _, noGroup_h4⟩

theorem noGroup_ipv6 : NoGroup ipv6 := by
  apply NoGroup.alts
  simp only [List.mem_cons, List.not_mem_nil, or_false, forall_eq_or_imp, forall_eq]
  refine ⟨⟨?_, noGroup_quad⟩, ⟨noGroup_h4c.times _, noGroup_h4⟩, ⟨NoGroup.lit _, noGroup_ch4.rep _ _⟩, ⟨noGroup_h4c.rep _ _, NoGroup.lit _⟩, ?_,
    ⟨noGroup_h4c.times _, noGroup_ch4.rep _ _⟩, ⟨noGroup_h4c.times _, noGroup_ch4.rep _ _⟩, ⟨noGroup_h4c.times _, noGroup_ch4.rep _ _⟩,
    ⟨noGroup_h4c.times _, noGroup_ch4.rep _ _⟩, ?_, NoGroup.lit _⟩
  · apply NoGroup.alts
    simp only [List.mem_cons, List.not_mem_nil, or_false, forall_eq_or_imp, forall_eq]
    refine ⟨noGroup_h4c.times _, ⟨NoGroup.lit _, noGroup_h4c.rep _ _⟩, ⟨noGroup_h4c.rep _ _, NoGroup.lit _⟩, ?_, ?_, ?_, ?_⟩ <;>
    · apply NoGroup.seqs
      simp [noGroup_h4, NoGroup.lit, noGroup_h4c, noGroup_h4c.times, noGroup_h4c.rep]
  · apply NoGroup.seqs
    simp [noGroup_h4, NoGroup.lit, noGroup_ch4.rep]
  · apply NoGroup.seqs
    simp [noGroup_h4, NoGroup.lit, noGroup_h4c.times]

theorem noGroup_ip : NoGroup ipAddress := by
  refine ⟨?_, ?_⟩
  · apply NoGroup.seqs
    simp [noGroup_quad, NoGroup]
  · apply NoGroup.seqs
    simp only [List.mem_cons, List.not_mem_nil, or_false, forall_eq_or_imp, forall_eq]
    exact ⟨⟨NoGroup.lit _, trivial⟩, noGroup_ipv6, trivial⟩

/-- Digits and dots. -/
theorem dotted_chars {n₁ n₂ n₃ n₄ : Nat} (h₁ : n₁ ≤ 255) (h₂ : n₂ ≤ 255) (h₃ : n₃ ≤ 255) (h₄ : n₄ ≤ 255) :
    ∀ c ∈ dotted n₁ n₂ n₃ n₄, c.isDigit = true ∨ c = '.' := by
  intro c hc
  simp only [dotted, List.mem_append, List.mem_cons] at hc
  have d1 := (decimal_digits h₁).2 c
  have d2 := (decimal_digits h₂).2 c
  have d3 := (decimal_digits h₃).2 c
  have d4 := (decimal_digits h₄).2 c
  rcases hc with h | h | h | h | h | h | h <;> simp_all

theorem isWord_digit {c : Char} (h : c.isDigit = true) : isWord c = true := by simp [isWord, Char.isAlphanum, h]

/-- The last digits of an address are followed by a character that is not of words: its reading is determined. -/
theorem ip_unique {b z : Str} {c : Char} {n₁ n₂ n₃ n₄ : Nat} (h₁ : n₁ ≤ 255) (h₂ : n₂ ≤ 255) (h₃ : n₃ ≤ 255) (h₄ : n₄ ≤ 255)
    (hc : isWord c = false) (hp : c ≠ '.') (hl : c ≠ ':') {w a : Str} (e : dotted n₁ n₂ n₃ n₄ ++ c :: z = w ++ a)
    (hr : Reads ipAddress b w a) : w = dotted n₁ n₂ n₃ n₄ ∧ a = c :: z := by
  have hcd : c.isDigit = false := by
    cases h : c.isDigit with
    | false => rfl
    | true => rw [isWord_digit h] at hc; simp at hc
  rcases hr with hr | hr
  · obtain ⟨u1, v1, rfl, ⟨rfl, _⟩, u2, v2, rfl, ⟨rfl, _⟩, u3, v3, rfl, hq, rfl, hb⟩ := hr
    obtain ⟨p, q, r, s, rfl, hp, hq, hr, hs⟩ := quad_reads hq
    simp only [dotted, List.nil_append, List.append_nil, List.append_assoc, List.cons_append] at e ⊢
    obtain ⟨e1, _, e⟩ := digits_cut (decimal_digits h₁).2 hp.2 (by decide) (by decide) e
    obtain ⟨e2, _, e⟩ := digits_cut (decimal_digits h₂).2 hq.2 (by decide) (by decide) e
    obtain ⟨e3, _, e⟩ := digits_cut (decimal_digits h₃).2 hr.2 (by decide) (by decide) e
    have hw : wordAt a = false := by
      obtain ⟨s', d, rfl⟩ : ∃ s' d, s = s' ++ [d] := ⟨_, _, (List.dropLast_concat_getLast hs.1).symm⟩
      have hd : isWord d = true := isWord_digit (hs.2 d (by simp))
      cases hwa : wordAt a with
      | false => rfl
      | true =>
        refine absurd ?_ hb
        rw [hwa]
        simp [wordAt, hd]
    have e' : decimal n₄ ++ c :: z = s ++ a := by simpa using e
    cases a with
    | nil =>
      have : c ∈ s := by rw [List.append_nil] at e'; rw [← e']; simp
      rw [hs.2 c this] at hcd
      simp at hcd
    | cons d ds =>
      have hd : d.isDigit = false := by
        cases h : d.isDigit with
        | false => rfl
        | true =>
          simp only [wordAt] at hw
          rw [isWord_digit h] at hw
          simp at hw
      obtain ⟨e4, e5, e6⟩ := digits_cut (decimal_digits h₄).2 hs.2 hcd hd e'
      subst e1 e2 e3 e4 e5 e6
      exact ⟨rfl, rfl⟩
  · exfalso
    have hi : ∀ d ∈ w, ipChar d := (show Reads ipAddress b w a from .inr hr).only only_ip
    have hcn : c ∉ w := by
      intro hcw
      rcases hi c hcw with h | h | h | h
      · rw [h] at hcd; simp at hcd
      · simp [isWord, Char.isAlphanum, h] at hc
      · exact hl h
      · exact hp h
    have hpre : w <+: dotted n₁ n₂ n₃ n₄ := by
      apply List.prefix_of_prefix_length_le (l₃ := dotted n₁ n₂ n₃ n₄ ++ c :: z)
      · exact ⟨a, e.symm⟩
      · exact ⟨_, rfl⟩
      · apply Classical.byContradiction
        intro hgt
        apply hcn
        have : dotted n₁ n₂ n₃ n₄ ++ [c] <+: w := by
          apply List.prefix_of_prefix_length_le (l₃ := dotted n₁ n₂ n₃ n₄ ++ c :: z)
          · exact ⟨z, by simp⟩
          · exact ⟨a, e.symm⟩
          · simp at hgt ⊢; omega
        exact this.subset (by simp)
    have hm : Must (fun c => c = ':') (seqs [.alt (lit c!"IPv6:") (.nbehind hexColon), ipv6, .nahead hexColon]) :=
      Must.seqs ⟨ipv6, by simp, must_ipv6⟩
    obtain ⟨d, hd, rfl⟩ := hr.must hm
    rcases dotted_chars h₁ h₂ h₃ h₄ ':' (hpre.subset hd) with h | h <;> simp at h

theorem dotted_ne {n₁ n₂ n₃ n₄ : Nat} : dotted n₁ n₂ n₃ n₄ ≠ [] := by simp [dotted]

/-- An address after a character that is neither of words nor a colon is read. -/
theorem ip_reads {b z : Str} {c : Char} {n₁ n₂ n₃ n₄ : Nat} (h₁ : n₁ ≤ 255) (h₂ : n₂ ≤ 255) (h₃ : n₃ ≤ 255) (h₄ : n₄ ≤ 255)
    (hc : isWord c = false) (hb : wordAt b = false) (hb' : headIn (fun c => c == ':') b = false) :
    Reads ipAddress b (dotted n₁ n₂ n₃ n₄) (c :: z) := by
  refine .inl ⟨[], _, rfl, ⟨rfl, ?_⟩, [], _, rfl, ⟨rfl, by simpa using hb'⟩, dotted n₁ n₂ n₃ n₄, [], by simp [dotted], quad_of h₁ h₂ h₃ h₄ (y := []), rfl, ?_⟩
  · rw [hb]
    have d1 := decimal_digits h₁
    cases hd : decimal n₁ with
    | nil => exact absurd hd d1.1
    | cons d ds =>
      have : isWord d = true := isWord_digit (d1.2 d (by simp [hd]))
      simp [dotted, hd, wordAt, this]
  · have d4 := decimal_digits h₄
    obtain ⟨s', d, hs⟩ : ∃ s' d, decimal n₄ = s' ++ [d] := ⟨_, _, (List.dropLast_concat_getLast d4.1).symm⟩
    have : isWord d = true := isWord_digit (d4.2 d (by simp [hs]))
    simp [dotted, hs, wordAt, this, hc]

/-- What the matcher does at an address between brackets. -/
theorem m_ip {b z : Str} {c : Char} {n₁ n₂ n₃ n₄ : Nat} (g : List (Nat × Str)) (k : St → Option St)
    (h₁ : n₁ ≤ 255) (h₂ : n₂ ≤ 255) (h₃ : n₃ ≤ 255) (h₄ : n₄ ≤ 255)
    (hc : isWord c = false) (hp : c ≠ '.') (hl : c ≠ ':') (hb : wordAt b = false) (hb' : headIn (fun c => c == ':') b = false) :
    m ipAddress ⟨b, dotted n₁ n₂ n₃ n₄ ++ c :: z, g⟩ k = k ⟨(dotted n₁ n₂ n₃ n₄).reverse ++ b, c :: z, g⟩ := by
  apply m_unique
  · exact (ip_reads h₁ h₂ h₃ h₄ hc hb hb').ways_noGroup g noGroup_ip
  · intro t ht
    obtain ⟨w, e, h2, h3⟩ := ht.reads
    obtain ⟨rfl, ha⟩ := ip_unique h₁ h₂ h₃ h₄ hc hp hl e h3
    have hg := ht.groups noGroup_ip
    obtain ⟨b', a', g'⟩ := t
    simp only at ha h2 hg
    subst ha h2 hg
    rfl

/-- The addresses found in a text with an address between brackets: those before it, this one, and those after it. -/
theorem findAll_brackets (pre z : Str) {n₁ n₂ n₃ n₄ : Nat} (h₁ : n₁ ≤ 255) (h₂ : n₂ ≤ 255) (h₃ : n₃ ≤ 255) (h₄ : n₄ ≤ 255)
    (hz : ∀ c ∈ z, c ≠ '.' ∧ c ≠ ':') :
    ∃ l, findAll ipAddress (pre ++ '[' :: (dotted n₁ n₂ n₃ n₄ ++ ']' :: z)) = l ++ [dotted n₁ n₂ n₃ n₄] := by
  have ho : Only (fun c => c ≠ '[') ipAddress := only_ip.mono (fun c hc => by
    rintro rfl
    simp [ipChar, Char.isAlpha, Char.isUpper, Char.isLower] at hc)
  obtain ⟨l, hl⟩ := findGo_split ho must_ip (dotted n₁ n₂ n₃ n₄ ++ ']' :: z) pre 0 [] (by simp)
  refine ⟨l, ?_⟩
  unfold findAll
  rw [hl, findGo_match dotted_ne (m_ip [] some h₁ h₂ h₃ h₄ (by decide) (by decide) (by decide) rfl rfl), findGo_none must_ip]
  intro c hc
  rcases List.mem_cons.mp hc with rfl | hc
  · decide
  · have := hz c hc
    simp [this]

end Verif.ReceivedRe
