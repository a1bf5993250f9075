import Verif.Lemmas.Re
import Verif.Lemmas.Py
import Verif.Spec.NetText

namespace Verif.Net
open Verif Py Re Spec

/-! ### The expression -/

theorem m_opt_miss {c : Char} {b a : Str} {g : List (Nat × Str)} {k : St → Option St} (h : a.head? ≠ some c) :
    m (opt (lit [c])) ⟨b, a, g⟩ k = k ⟨b, a, g⟩ := by
  cases a with
  | nil => simp [opt, lit, m]
  | cons d a =>
    have : d ≠ c := by simpa using h
    simp [opt, lit, m, this]

theorem m_opt_hit {c : Char} {b a : Str} {g : List (Nat × Str)} {k : St → Option St} {x : St}
    (h : k ⟨c :: b, a, g⟩ = some x) : m (opt (lit [c])) ⟨b, c :: a, g⟩ k = some x := m_opt (m_lit1.trans h)

theorem upTo_all {p : Char → Bool} {k : St → Option St} {x : St} {g : List (Nat × Str)} : ∀ (n : Nat) (w b : Str),
    w.length ≤ n → (∀ c ∈ w, p c = true) → k ⟨w.reverse ++ b, [], g⟩ = some x → m (upTo (.chr p) n) ⟨b, w, g⟩ k = some x := by
  intro n
  induction n with
  | zero =>
    intro w b hl _ hk
    have : w = [] := by simpa using hl
    subst this
    simpa [upTo, m] using hk
  | succ n ih =>
    intro w b hl hw hk
    cases w with
    | nil => simpa [upTo, m] using hk
    | cons c cs =>
      unfold upTo
      apply m_altL
      rw [m_seq, m_chr (hw c (by simp))]
      exact ih cs (c :: b) (by simpa using hl) (fun d hd => hw d (List.mem_cons_of_mem _ hd)) (by simpa using hk)

/-- What is written after the address. -/
def tailText (br : Bool) (mask : Str) : Str :=
  (if br then c!"]" else []) ++ if mask = [] then [] else '/' :: mask

theorem after_match (br : Bool) (mask b : Str) (g : List (Nat × Str)) (hl : mask.length ≤ 5) (hd : ∀ c ∈ mask, c.isDigit = true) :
    ∃ b', m afterRe ⟨b, tailText br mask, g⟩ some = some ⟨b', [], (3, mask) :: g⟩ := by
  have last : ∀ b, ∃ b', m (.seq (opt (lit c!"/")) (.seq (.group 3 (upTo (.chr digit) 5)) .eol))
      ⟨b, if mask = [] then [] else '/' :: mask, g⟩ some = some ⟨b', [], (3, mask) :: g⟩ := by
    intro b
    have fin : ∀ b, m (.seq (.group 3 (upTo (.chr digit) 5)) .eol) ⟨b, mask, g⟩ some =
        some ⟨mask.reverse ++ b, [], (3, mask) :: g⟩ := by
      intro b
      rw [m_seq, m]
      apply upTo_all 5 mask b hl hd
      simp [m]
    by_cases hm : mask = []
    · subst hm
      refine ⟨[].reverse ++ b, ?_⟩
      rw [if_pos rfl, m_seq, m_opt_miss (by simp), fin]
    · refine ⟨mask.reverse ++ ('/' :: b), ?_⟩
      rw [if_neg hm, m_seq]
      exact m_opt_hit (fin _)
  unfold afterRe seqs seqs seqs seqs tailText
  cases br with
  | true =>
    obtain ⟨b', h⟩ := last (']' :: b)
    exact ⟨b', by rw [m_seq]; exact m_opt_hit (by simpa using h)⟩
  | false =>
    obtain ⟨b', h⟩ := last b
    refine ⟨b', ?_⟩
    rw [m_seq, m_opt_miss]
    · simpa using h
    · by_cases hm : mask = [] <;> simp [hm]

theorem tail_head_v4 (br : Bool) (mask : Str) : headIn v4Char (tailText br mask) = false := by
  unfold tailText
  cases br <;> by_cases h : mask = [] <;> simp [h, headIn, v4Char] <;> decide

theorem tail_head_v6 (br : Bool) (mask : Str) : headIn v6Char (tailText br mask) = false := by
  unfold tailText
  cases br <;> by_cases h : mask = [] <;> simp [h, headIn, v6Char] <;> decide

/-- What is written before the address. -/
def headText (ex br : Bool) : Str := (if ex then c!"!" else []) ++ if br then c!"[" else []

theorem network_match (ex br : Bool) (ip mask : Str) (hip : ∀ c ∈ ip, v4Char c = true ∨ v6Char c = true)
    (hg : ∀ b g, ∃ b', m (.seq (.group 2 (.alt (plus v4Char) (.star true v6Char))) afterRe) ⟨b, ip ++ tailText br mask, g⟩ some =
      some ⟨b', [], (3, mask) :: (2, ip) :: g⟩) :
    ∃ b', matchRe networkRe (headText ex br ++ (ip ++ tailText br mask)) =
      some ⟨b', [], [(3, mask), (2, ip), (1, if ex then c!"!" else [])]⟩ := by
  have hne : ∀ c : Char, c = '!' ∨ c = '[' → (ip ++ tailText br mask).head? ≠ some c := by
    intro c hc e
    cases ip with
    | nil =>
      unfold tailText at e
      revert e
      rcases hc with rfl | rfl <;> cases br <;> by_cases h : mask = [] <;> simp [h]
    | cons d ip =>
      have : d = c := by simpa using e
      subst this
      have := hip d (by simp)
      revert this
      rcases hc with rfl | rfl <;> decide
  unfold matchRe networkRe seqs seqs seqs seqs seqs headText
  rw [m_seq, m_bol, m_seq]
  cases ex with
  | true =>
    simp only [if_true, List.append_assoc]
    cases br with
    | true =>
      obtain ⟨b', h⟩ := hg c!"[!" [(1, c!"!")]
      refine ⟨b', ?_⟩
      rw [m]
      apply m_opt_hit
      rw [m_seq]
      apply m_opt_hit
      simpa using h
    | false =>
      obtain ⟨b', h⟩ := hg c!"!" [(1, c!"!")]
      refine ⟨b', ?_⟩
      rw [m]
      apply m_opt_hit
      rw [m_seq, m_opt_miss (by simpa using hne '[' (.inr rfl))]
      simpa using h
  | false =>
    simp only [Bool.false_eq_true, if_false, List.nil_append]
    cases br with
    | true =>
      obtain ⟨b', h⟩ := hg c!"[" [(1, [])]
      refine ⟨b', ?_⟩
      rw [m, m_opt_miss (by simp), m_seq]
      apply m_opt_hit
      simpa using h
    | false =>
      obtain ⟨b', h⟩ := hg [] [(1, [])]
      refine ⟨b', ?_⟩
      rw [m, m_opt_miss (by simpa using hne '!' (.inl rfl)), m_seq, m_opt_miss (by simpa using hne '[' (.inr rfl))]
      simpa using h

theorem extract_v4 (ex br : Bool) (ip mask : Str) (h0 : ip ≠ []) (hip : ∀ c ∈ ip, v4Char c = true) (hl : mask.length ≤ 5)
    (hd : ∀ c ∈ mask, c.isDigit = true) :
    extract (headText ex br ++ (ip ++ tailText br mask)) = some (ex, ipNetwork (formatNetwork dec ip mask)) := by
  obtain ⟨b', h⟩ := network_match ex br ip mask (fun c hc => .inl (hip c hc)) (by
    intro b g
    obtain ⟨b', h⟩ := after_match br mask (ip.reverse ++ b) ((2, ip) :: g) hl hd
    refine ⟨b', ?_⟩
    rw [m_seq, m]
    apply m_altL
    apply plus_greedy h0 hip (tail_head_v4 br mask)
    simpa using h)
  unfold extract
  rw [h]
  cases ex <;> rfl

theorem seqs_only {q : Char → Prop} (h1 : q ']') (h2 : q '/') (h3 : ∀ c, c.isDigit = true → q c) : Only q afterRe := by
  unfold afterRe
  apply Only.seqs
  intro r hr
  simp only [List.mem_cons, List.not_mem_nil, or_false] at hr
  rcases hr with rfl | rfl | rfl | rfl
  · exact ⟨Only.lit (by simpa using h1), trivial⟩
  · exact ⟨Only.lit (by simpa using h2), trivial⟩
  · exact Only.upTo (r := .chr digit) (show ∀ c, digit c = true → q c from h3) 5
  · trivial

theorem extract_v6 (ex br : Bool) (ip mask : Str) (h0 : ':' ∈ ip) (hip : ∀ c ∈ ip, v6Char c = true) (hl : mask.length ≤ 5)
    (hd : ∀ c ∈ mask, c.isDigit = true) :
    extract (headText ex br ++ (ip ++ tailText br mask)) = some (ex, ipNetwork (formatNetwork dec ip mask)) := by
  obtain ⟨b', h⟩ := network_match ex br ip mask (fun c hc => .inr (hip c hc)) (by
    intro b g
    obtain ⟨b', h⟩ := after_match br mask (ip.reverse ++ b) ((2, ip) :: g) hl hd
    refine ⟨b', ?_⟩
    rw [m_seq, m]
    have hno : m (plus v4Char) ⟨b, ip ++ tailText br mask, g⟩ (fun t => (fun t => m afterRe t some)
        { t with groups := (2, (ip ++ tailText br mask).take ((ip ++ tailText br mask).length - t.after.length)) :: t.groups }) = none := by
      have := m_none (r := .seq (.group 2 (plus v4Char)) afterRe) (s := ⟨b, ip ++ tailText br mask, g⟩) some (by
        intro t ht
        obtain ⟨w, e, _, hw⟩ := ht.reads
        obtain ⟨u, v, rfl, hu, hv⟩ := hw
        have hall : ∀ c ∈ u ++ v, c ≠ ':' := by
          intro c hc
          rcases List.mem_append.1 hc with hc | hc
          · have := (Reads.plus.1 hu).2 c hc
            rintro rfl
            exact absurd this (by decide)
          · exact hv.only (q := fun c => c ≠ ':') (seqs_only (by decide) (by decide) (by rintro c hc rfl; exact absurd hc (by decide))) c hc
        have hend : t.after = [] ∨ t.after = ['\n'] := by
          obtain ⟨_, _, _, _, _, _, _, _, _, _, _, _, h⟩ := hv
          exact h.2
        have hmem : ':' ∈ (u ++ v) ++ t.after := by
          rw [← e]
          exact List.mem_append_left _ h0
        rcases List.mem_append.1 hmem with hc | hc
        · exact hall _ hc rfl
        · rcases hend with e | e <;> rw [e] at hc <;> simp at hc)
      rw [m_seq, m] at this
      exact this
    rw [m, hno]
    simp only [m]
    apply star_greedy v6Char g _ _ ip b _ hip (tail_head_v6 br mask)
    simpa using h)
  unfold extract
  rw [h]
  cases ex <;> rfl

/-! ### Addresses with dots -/

set_option maxRecDepth 8000 in
theorem decimal_facts {n : Nat} (h : n ≤ 255) :
    decimal n ≠ [] ∧ (∀ c ∈ decimal n, c.isDigit = true) ∧ (decimal n).length ≤ 3 ∧ octet? (decimal n) = some n := by
  have key : ∀ n : Fin 256, decimal n.val ≠ [] ∧ (∀ c ∈ decimal n.val, c.isDigit = true) ∧ (decimal n.val).length ≤ 3 ∧
      octet? (decimal n.val) = some n.val := by decide +kernel
  exact key ⟨n, by omega⟩

set_option maxRecDepth 8000 in
theorem prefix_decimal {n : Nat} (h : n ≤ 128) : (∀ w, n ≤ w → prefix? w (decimal n) = some n) := by
  have key : ∀ n : Fin 129, decimal n.val ≠ [] ∧ (decimal n.val).all Char.isDigit = true ∧
      (decimal n.val).foldl (fun v c => v * 10 + (c.toNat - '0'.toNat)) 0 = n.val := by decide +kernel
  obtain ⟨h1, h2, h3⟩ := key ⟨n, by omega⟩
  intro w hw
  unfold prefix?
  simp only at h1 h2 h3
  simp only [h1, h2, h3]
  simp
  exact hw

theorem decimal_not {n : Nat} (h : n ≤ 255) {c : Char} (hc : c.isDigit = false) : c ∉ decimal n := by
  intro hm
  rw [(decimal_facts h).2.1 c hm] at hc
  cases hc

theorem ends_dot (s : Str) : endsWith c!"." (s ++ c!".") = true := by
  simp [endsWith, List.isSuffixOf_iff_suffix]

theorem ends_not (s d : Str) (h : d ≠ []) (hd : '.' ∉ d) : endsWith c!"." (s ++ d) = false := by
  rw [Bool.eq_false_iff]
  intro he
  unfold endsWith at he
  rw [List.isSuffixOf_iff_suffix] at he
  obtain ⟨t, ht⟩ := he
  have h1 : (t ++ c!".").getLast? = some '.' := by simp
  rw [ht, List.getLast?_append, List.getLast?_eq_some_getLast h, Option.some_or] at h1
  exact hd (Option.some.inj h1 ▸ List.getLast_mem h)

theorem fmt_dot (ip mask : Str) (h : endsWith c!"." ip = true) :
    formatNetwork dec ip mask = ip ++ join c!"." (List.replicate (4 - ip.count '.') c!"0") ++ c!"/" ++
      (if mask = [] then dec (ip.count '.' * 8) else mask) := by
  have hd : ∀ n, dec n ≠ [] := by
    intro n
    unfold dec
    show (Nat.repr n).toList ≠ []
    simp [Nat.repr, Nat.toDigits_ne_nil]
  unfold formatNetwork
  simp only [h, Bool.not_true, Bool.false_and, Bool.false_eq_true, if_false, if_true, Bool.true_and]
  by_cases hm : mask = []
  · simp [hm, hd]
  · simp [hm]

theorem fmt_plain (ip mask : Str) (h : endsWith c!"." ip = false)
    (hl : (splitChar '.' ip).length ≠ 3 ∧ (splitChar '.' ip).length ≠ 7) :
    formatNetwork dec ip mask = if mask = [] then ip else ip ++ c!"/" ++ mask := by
  unfold formatNetwork
  simp only [h, hl.1, hl.2, decide_false, Bool.or_false, Bool.and_false, Bool.false_and, Bool.false_eq_true, if_false, List.append_nil]
  by_cases hm : mask = [] <;> simp [hm]

theorem v4_quad (a b c d : Nat) (ha : a ≤ 255) (hb : b ≤ 255) (hc : c ≤ 255) (hd : d ≤ 255) :
    v4? (join c!"." [decimal a, decimal b, decimal c, decimal d]) = some (fromBytes [a, b, c, d]) := by
  unfold v4?
  rw [splitChar_join '.' _ (by simp)]
  · simp [(decimal_facts ha).2.2.2, (decimal_facts hb).2.2.2, (decimal_facts hc).2.2.2, (decimal_facts hd).2.2.2, fromBytes]
  · intro w hw
    simp only [List.mem_cons, List.not_mem_nil, or_false] at hw
    rcases hw with rfl | rfl | rfl | rfl <;> exact decimal_not (by assumption) rfl

theorem masked_eq (w p n : Nat) : masked w p n = n / 2 ^ (w - p) * 2 ^ (w - p) := by
  simp [masked, Nat.shiftRight_eq_div_pow, Nat.shiftLeft_eq]

theorem masked_iff (w p n : Nat) : masked w p n = n ↔ 2 ^ (w - p) ∣ n := by
  rw [masked_eq]
  constructor
  · intro h; exact ⟨n / 2 ^ (w - p), by rw [Nat.mul_comm]; exact h.symm⟩
  · intro h; exact Nat.div_mul_cancel h

theorem masked_same (w p n q : Nat) (h : 2 ^ (w - p) ∣ n) : masked w p q = n ↔ SamePrefix w p q n := by
  obtain ⟨k, rfl⟩ := h
  have hp : 0 < 2 ^ (w - p) := Nat.pow_pos (by decide)
  rw [masked_eq, SamePrefix, Nat.mul_comm (2 ^ (w - p)) k, Nat.mul_div_cancel _ hp, Nat.mul_right_cancel_iff hp]

theorem network_text {v6 : Bool} {address? : Str → Option Nat} {w : Nat} {ip : Str} {n p : Nat} (hn : address? ip = some n)
    (hs : '/' ∉ ip) (hp : p ≤ w) (hp' : p ≤ 128) :
    network? v6 address? w (ip ++ c!"/" ++ decimal p) = some (if 2 ^ (w - p) ∣ n then some ⟨v6, n, p⟩ else none) := by
  have e : splitChar '/' (ip ++ c!"/" ++ decimal p) = [ip, decimal p] := by
    have := splitChar_join '/' [ip, decimal p] (by simp) (by
      intro u hu
      simp only [List.mem_cons, List.not_mem_nil, or_false] at hu
      rcases hu with rfl | rfl
      · exact hs
      · exact decimal_not (by omega) rfl)
    simpa [join] using this
  unfold network?
  rw [e]
  simp only [hn, prefix_decimal hp' w hp, Option.bind_some, Option.map_some]
  by_cases h : 2 ^ (w - p) ∣ n
  · simp [h, (masked_iff w p n).2 h]
  · simp [h, masked_iff]

theorem network_text_plain {v6 : Bool} {address? : Str → Option Nat} {w : Nat} {ip : Str} {n : Nat} (hn : address? ip = some n)
    (hs : '/' ∉ ip) : network? v6 address? w ip = some (some ⟨v6, n, w⟩) := by
  have e : splitChar '/' ip = [ip] := by
    have := splitChar_join '/' [ip] (by simp) (by simpa using hs)
    simpa [join] using this
  unfold network?
  rw [e]
  simp [hn, masked_eq]

/-- The text that `ip_network` is given for an IPv4 entry. -/
theorem ipNetwork_quad (a b c d p : Nat) (ha : a ≤ 255) (hb : b ≤ 255) (hc : c ≤ 255) (hd : d ≤ 255) (hp : p ≤ 32) :
    ipNetwork (join c!"." [decimal a, decimal b, decimal c, decimal d] ++ c!"/" ++ decimal p) =
      if 2 ^ (32 - p) ∣ fromBytes [a, b, c, d] then some ⟨false, fromBytes [a, b, c, d], p⟩ else none := by
  unfold ipNetwork
  rw [network_text (v4_quad a b c d ha hb hc hd) _ hp (by omega)]
  simp only [join, List.mem_append, not_or]
  refine ⟨⟨decimal_not ha rfl, by decide⟩, ⟨decimal_not hb rfl, by decide⟩, ⟨decimal_not hc rfl, by decide⟩, decimal_not hd rfl⟩

theorem ipNetwork_plain (a b c d : Nat) (ha : a ≤ 255) (hb : b ≤ 255) (hc : c ≤ 255) (hd : d ≤ 255) :
    ipNetwork (join c!"." [decimal a, decimal b, decimal c, decimal d]) = some ⟨false, fromBytes [a, b, c, d], 32⟩ := by
  unfold ipNetwork
  rw [network_text_plain (v4_quad a b c d ha hb hc hd)]
  simp only [join, List.mem_append, not_or]
  refine ⟨⟨decimal_not ha rfl, by decide⟩, ⟨decimal_not hb rfl, by decide⟩, ⟨decimal_not hc rfl, by decide⟩, decimal_not hd rfl⟩

theorem decimal_zero : decimal 0 = c!"0" := by decide

theorem count_decimal {n : Nat} (h : n ≤ 255) : (decimal n).count '.' = 0 := List.count_eq_zero.2 (decimal_not h rfl)

/-- The digits of the mask, if there is one. -/
def maskText (ml : Option Nat) : Str := (ml.map decimal).getD []

theorem maskText_facts (ml : Option Nat) (h : ∀ m, ml = some m → m ≤ 128) :
    (maskText ml).length ≤ 5 ∧ (∀ c ∈ maskText ml, c.isDigit = true) ∧ (maskText ml = [] ↔ ml = none) := by
  cases ml with
  | none => simp [maskText]
  | some m =>
    have := decimal_facts (n := m) (by have := h m rfl; omega)
    refine ⟨?_, this.2.1, ?_⟩
    · show (decimal m).length ≤ 5
      omega
    · simpa [maskText] using this.1

theorem around_eq (ex br : Bool) (ip : Str) (ml : Option Nat) (h : ∀ m, ml = some m → m ≤ 128) :
    around ex br ip ml = headText ex br ++ (ip ++ tailText br (maskText ml)) := by
  unfold around headText tailText
  cases ml with
  | none => cases ex <;> cases br <;> simp [maskText]
  | some m =>
    have hne : decimal m ≠ [] := (decimal_facts (n := m) (by have := h m rfl; omega)).1
    cases ex <;> cases br <;> simp [hne, maskText]

/-- What an IPv4 entry becomes. -/
theorem v4Entry_network (e : V4Entry) (h : e.Ok) :
    extract e.text = some (e.excluded, if 2 ^ (32 - e.len) ∣ e.address then some ⟨false, e.address, e.len⟩ else none) := by
  obtain ⟨ex, br, os, ml⟩ := e
  obtain ⟨h0, h4, hb, hm⟩ := h
  simp only at h0 h4 hb hm
  have hm' : ∀ m, ml = some m → m ≤ 128 := fun m e => by have := hm m e; omega
  obtain ⟨hl, hd, hn⟩ := maskText_facts ml hm'
  unfold V4Entry.text
  simp only [around_eq ex br _ ml hm']
  rw [extract_v4 ex br _ _ _ _ hl hd]
  · congr 2
    unfold V4Entry.len V4Entry.address
    simp only
    have dot : ∀ (ip : Str) (k : Nat) (zs : Str) (n : Nat), endsWith c!"." ip = true → ip.count '.' = k →
        join c!"." (List.replicate (4 - k) c!"0") = zs → 0 < k → k ≤ 3 →
        (∀ p, p ≤ 32 → ipNetwork (ip ++ zs ++ c!"/" ++ decimal p) =
          if 2 ^ (32 - p) ∣ n then some ⟨false, n, p⟩ else none) →
        ipNetwork (formatNetwork dec ip (maskText ml)) =
          if 2 ^ (32 - ml.getD (k * 8)) ∣ n then some ⟨false, n, ml.getD (k * 8)⟩ else none := by
      intro ip k zs n he hk hz k0 k3 hq
      rw [fmt_dot _ _ he, hk, hz]
      cases ml with
      | none => exact hq (k * 8) (by omega)
      | some m =>
        rw [if_neg (by simp [hn])]
        exact hq m (hm m rfl)
    match os, h0, h4, hb with
    | [a], _, _, hb =>
      have ha := hb a (by simp)
      refine dot (decimal a ++ c!".") 1 c!"0.0.0" _ (ends_dot _) (by simp [count_decimal ha]) rfl (by decide) (by decide) ?_
      intro p hp
      have := ipNetwork_quad a 0 0 0 p ha (by decide) (by decide) (by decide) hp
      rw [decimal_zero] at this
      simpa [join, List.replicate] using this
    | [a, b], _, _, hb =>
      have ha := hb a (by simp)
      have hb' := hb b (by simp)
      refine dot (decimal a ++ c!"." ++ decimal b ++ c!".") 2 c!"0.0" _ (ends_dot _) (by simp [count_decimal ha, count_decimal hb']) rfl
        (by decide) (by decide) ?_
      intro p hp
      have := ipNetwork_quad a b 0 0 p ha hb' (by decide) (by decide) hp
      rw [decimal_zero] at this
      simpa [join, List.replicate] using this
    | [a, b, c], _, _, hb =>
      have ha := hb a (by simp)
      have hb' := hb b (by simp)
      have hc := hb c (by simp)
      have e : join c!"." (List.map decimal [a, b, c]) ++ (if [a, b, c].length < 4 then c!"." else []) =
          decimal a ++ c!"." ++ decimal b ++ c!"." ++ decimal c ++ c!"." := by simp [join]
      rw [e]
      refine dot _ 3 c!"0" _ (ends_dot _) (by simp [count_decimal ha, count_decimal hb', count_decimal hc]) rfl
        (by decide) (by decide) ?_
      intro p hp
      have := ipNetwork_quad a b c 0 p ha hb' hc (by decide) hp
      rw [decimal_zero] at this
      simpa [join, List.replicate] using this
    | [a, b, c, d], _, _, hb =>
      have ha := hb a (by simp)
      have hb' := hb b (by simp)
      have hc := hb c (by simp)
      have hd' := hb d (by simp)
      simp only [List.length_cons, List.length_nil, Nat.zero_add, Nat.reduceAdd, Nat.lt_irrefl, if_false, List.append_nil, List.map_cons,
        List.map_nil, Nat.sub_self, List.replicate_zero]
      rw [fmt_plain]
      · cases ml with
        | none =>
          rw [if_pos (hn.2 rfl), ipNetwork_plain a b c d ha hb' hc hd']
          simp
        | some m =>
          rw [if_neg (by simp [hn])]
          exact ipNetwork_quad a b c d m ha hb' hc hd' (hm m rfl)
      · have := ends_not (decimal a ++ c!"." ++ decimal b ++ c!"." ++ decimal c ++ c!".") (decimal d) (decimal_facts hd').1 (decimal_not hd' rfl)
        simpa [join] using this
      · rw [splitChar_join '.' _ (by simp)]
        · simp
        · intro w hw
          simp only [List.mem_cons, List.not_mem_nil, or_false] at hw
          rcases hw with rfl | rfl | rfl | rfl <;> exact decimal_not (by assumption) rfl
  · intro he
    have h1 := (List.append_eq_nil_iff.1 he).1
    cases os with
    | nil => exact h0 rfl
    | cons a os =>
      have := (decimal_facts (hb a (by simp))).1
      cases os with
      | nil => exact this (by simpa [join] using h1)
      | cons b os => simp [join] at h1
  · intro c hc
    rcases List.mem_append.1 hc with hc | hc
    · have key : ∀ os : List Nat, (∀ n ∈ os, n ≤ 255) → ∀ c ∈ join c!"." (os.map decimal), v4Char c = true := by
        intro os
        induction os with
        | nil => intro _ c hc; simp [join] at hc
        | cons a os ih =>
          intro hb c hc
          have ha : ∀ c ∈ decimal a, v4Char c = true := fun c hc => by
            simp [v4Char, (decimal_facts (hb a (by simp))).2.1 c hc]
          cases os with
          | nil => exact ha c (by simpa [join] using hc)
          | cons b os =>
            simp only [List.map_cons, join, List.append_assoc] at hc
            rcases List.mem_append.1 hc with hc | hc
            · exact ha c hc
            rcases List.mem_append.1 hc with hc | hc
            · have : c = '.' := by simpa using hc
              subst this; decide
            · exact ih (fun n hn => hb n (List.mem_cons_of_mem _ hn)) c (by simpa [join] using hc)
      exact key os hb c hc
    · split at hc
      · have : c = '.' := by simpa using hc
        subst this; decide
      · cases hc

/-! ### Addresses with colons -/

theorem hexVal_eq (c : Char) (h : ('0' ≤ c ∧ c ≤ '9') ∨ ('a' ≤ c ∧ c ≤ 'f') ∨ ('A' ≤ c ∧ c ≤ 'F')) :
    hexVal c = hexDigit c ∧ (c.isDigit || ('a' ≤ c && c ≤ 'f') || ('A' ≤ c && c ≤ 'F')) = true ∧ v6Char c = true ∧ c ≠ ':' ∧ c ≠ '/' ∧
      c ≠ '.' := by
  have hn : c.toNat < 128 := by
    rcases h with h | h | h <;> exact Nat.lt_of_le_of_lt (UInt32.le_iff_toNat_le.1 (Char.le_def.1 h.2)) (by decide)
  have key : ∀ n : Fin 128, (fun c : Char => (('0' ≤ c ∧ c ≤ '9') ∨ ('a' ≤ c ∧ c ≤ 'f') ∨ ('A' ≤ c ∧ c ≤ 'F')) →
      hexVal c = hexDigit c ∧ (c.isDigit || ('a' ≤ c && c ≤ 'f') || ('A' ≤ c && c ≤ 'F')) = true ∧ v6Char c = true ∧ c ≠ ':' ∧ c ≠ '/' ∧
      c ≠ '.') (Char.ofNat n.val) := by decide +kernel
  have := key ⟨c.toNat, hn⟩
  simp only [Char.ofNat_toNat] at this
  exact this h

theorem hextet_number (s : Str) (h : Hextet s) : hextet? s = some (hexNumber s) := by
  obtain ⟨h0, h1, h2⟩ := h
  have hall : s.all (fun c => c.isDigit || ('a' ≤ c && c ≤ 'f') || ('A' ≤ c && c ≤ 'F')) = true := by
    rw [List.all_eq_true]
    exact fun c hc => (hexVal_eq c (h2 c hc)).2.1
  have hfold : ∀ (s : Str) (v : Nat), (∀ c ∈ s, ('0' ≤ c ∧ c ≤ '9') ∨ ('a' ≤ c ∧ c ≤ 'f') ∨ ('A' ≤ c ∧ c ≤ 'F')) →
      s.foldl (fun v c => v * 16 + hexVal c) v = s.foldl (fun v c => 16 * v + hexDigit c) v := by
    intro s
    induction s with
    | nil => intros; rfl
    | cons c s ih =>
      intro v hs
      rw [List.foldl_cons, List.foldl_cons, ih _ (fun d hd => hs d (List.mem_cons_of_mem _ hd)), (hexVal_eq c (hs c (by simp))).1,
        Nat.mul_comm]
  unfold hextet? hexNumber
  rw [if_neg, hfold s 0 h2]
  simp only [not_or, Decidable.not_not]
  exact ⟨h0, hall, by omega⟩

theorem hextets_numbers (l : List Str) (h : ∀ s ∈ l, Hextet s) :
    hextets? l = some ((l.map hexNumber).foldl (fun v n => v * 65536 + n) 0) := by
  have : l.mapM hextet? = some (l.map hexNumber) := by
    induction l with
    | nil => rfl
    | cons s l ih =>
      rw [List.mapM_cons, hextet_number s (h s (by simp)), ih (fun s hs => h s (List.mem_cons_of_mem _ hs))]
      rfl
  unfold hextets?
  rw [this]
  rfl

theorem foldl_base (l : List Nat) : ∀ v, l.foldl (fun v n => v * 65536 + n) v =
    v * 65536 ^ l.length + l.foldl (fun v n => v * 65536 + n) 0 := by
  induction l with
  | nil => intro v; simp
  | cons a l ih =>
    intro v
    rw [List.foldl_cons, List.foldl_cons, ih, ih (0 * 65536 + a), List.length_cons, Nat.pow_succ]
    simp only [Nat.add_mul, Nat.zero_mul, Nat.zero_add, Nat.add_assoc]
    congr 1
    rw [Nat.mul_assoc, Nat.mul_comm 65536]

theorem filter_range {p : Nat → Bool} {k : Nat} : ∀ n, k < n → p k = true → (∀ i, i < n → p i = true → i = k) →
    (List.range n).filter p = [k] := by
  have none : ∀ n, (∀ i, i < n → p i = true → False) → (List.range n).filter p = [] := by
    intro n h
    rw [List.filter_eq_nil_iff]
    intro a ha hp
    exact h a (List.mem_range.1 ha) hp
  intro n
  induction n with
  | zero => intro h; omega
  | succ n ih =>
    intro hk hp hu
    rw [List.range_succ, List.filter_append]
    by_cases e : k = n
    · subst e
      rw [none k (fun i hi hp => by have := hu i (by omega) hp; omega)]
      simp [hp]
    · rw [ih (by omega) hp (fun i hi hp => hu i (by omega) hp)]
      have : p n = false := by
        rw [Bool.eq_false_iff]
        intro hpn
        have := hu n (by omega) hpn
        omega
      simp [this]

theorem hextet_not {s : Str} (h : Hextet s) : ':' ∉ s ∧ '/' ∉ s ∧ '.' ∉ s ∧ ∀ c ∈ s, v6Char c = true := by
  refine ⟨fun hc => ?_, fun hc => ?_, fun hc => ?_, fun c hc => (hexVal_eq c (h.2.2 c hc)).2.2.1⟩
  · exact (hexVal_eq _ (h.2.2 _ hc)).2.2.2.1 rfl
  · exact (hexVal_eq _ (h.2.2 _ hc)).2.2.2.2.1 rfl
  · exact (hexVal_eq _ (h.2.2 _ hc)).2.2.2.2.2 rfl

theorem v6_full (parts : List Str) (h : (V6Form.full parts).Ok) : v6? (V6Form.full parts).text = some (V6Form.full parts).address := by
  obtain ⟨h8, hh⟩ := h
  unfold V6Form.text v6?
  have h0 : parts ≠ [] := by rintro rfl; simp at h8
  rw [splitChar_join ':' parts h0 (fun w hw => (hextet_not (hh w hw)).1)]
  have he : (List.range parts.length).filter (fun i => 0 < i && i + 1 < parts.length && parts[i]? == some []) = [] := by
    rw [List.filter_eq_nil_iff]
    intro i hi hp
    simp only [Bool.and_eq_true, beq_iff_eq] at hp
    have := List.mem_of_getElem? hp.2
    exact (hh _ this).1 rfl
  simp only [he]
  rw [if_neg (by omega), if_neg (by omega), hextets_numbers parts hh]
  rfl

/-- The parts of a shortened address, as the code splits it. -/
def shortParts (hi lo : List Str) : List Str :=
  (if hi = [] then [[]] else hi) ++ [] :: (if lo = [] then [[]] else lo)

theorem join_append (sep : Str) : ∀ (a b : List Str), a ≠ [] → b ≠ [] → join sep (a ++ b) = join sep a ++ sep ++ join sep b
  | [], _, h, _ => absurd rfl h
  | [x], y :: ys, _, _ => by simp [join]
  | [x], [], _, h => absurd rfl h
  | x :: x' :: xs, b, _, hb => by
    have := join_append sep (x' :: xs) b (by simp) hb
    simp only [List.cons_append] at this ⊢
    rw [join, this]
    simp [join]

theorem shortParts_text (hi lo : List Str) : join c!":" (shortParts hi lo) = (V6Form.short hi lo).text := by
  unfold shortParts V6Form.text
  rw [join_append]
  · have : join c!":" ([] :: if lo = [] then [[]] else lo) = c!":" ++ join c!":" lo := by
      by_cases h : lo = []
      · subst h; rfl
      · rw [if_neg h]
        obtain ⟨x, xs, rfl⟩ := List.exists_cons_of_ne_nil h
        rfl
    rw [this]
    by_cases h : hi = []
    · subst h; simp [join]
    · simp [h]
  · by_cases h : hi = [] <;> simp [h]
  · simp

theorem v6_short (hi lo : List Str) (h : (V6Form.short hi lo).Ok) : v6? (V6Form.short hi lo).text = some (V6Form.short hi lo).address := by
  obtain ⟨h7, hh, hl⟩ := h
  have hsplit : splitChar ':' (V6Form.short hi lo).text = shortParts hi lo := by
    rw [← shortParts_text]
    apply splitChar_join
    · unfold shortParts; simp
    · intro w hw
      unfold shortParts at hw
      simp only [List.mem_append, List.mem_cons] at hw
      rcases hw with hw | rfl | hw
      · by_cases e : hi = []
        · rw [if_pos e] at hw
          have : w = [] := by simpa using hw
          simp [this]
        · rw [if_neg e] at hw
          exact (hextet_not (hh w hw)).1
      · simp
      · by_cases e : lo = []
        · rw [if_pos e] at hw
          have : w = [] := by simpa using hw
          simp [this]
        · rw [if_neg e] at hw
          exact (hextet_not (hl w hw)).1
  obtain ⟨H, hH⟩ : ∃ H : List Str, H = if hi = [] then [[]] else hi := ⟨_, rfl⟩
  obtain ⟨L, hL⟩ : ∃ L : List Str, L = if lo = [] then [[]] else lo := ⟨_, rfl⟩
  have hparts : shortParts hi lo = H ++ [] :: L := by rw [hH, hL]; rfl
  have hlen : (H ++ [] :: L).length = H.length + 1 + L.length := by simp; omega
  have hH1 : H.length = if hi = [] then 1 else hi.length := by rw [hH]; split <;> rfl
  have hL1 : L.length = if lo = [] then 1 else lo.length := by rw [hL]; split <;> rfl
  have hHp : 0 < H.length := by
    rw [hH1]; split
    · decide
    · exact List.length_pos_iff.2 (by assumption)
  have hLp : 0 < L.length := by
    rw [hL1]; split
    · decide
    · exact List.length_pos_iff.2 (by assumption)
  have hmax : H.length + L.length ≤ 8 := by
    rw [hH1, hL1]
    by_cases e1 : hi = [] <;> by_cases e2 : lo = [] <;> simp [e1, e2] at h7 ⊢ <;> omega
  have hempty : (List.range (H ++ [] :: L).length).filter
      (fun i => 0 < i && i + 1 < (H ++ [] :: L).length && (H ++ [] :: L)[i]? == some []) = [H.length] := by
    apply filter_range
    · rw [hlen]; omega
    · simp; omega
    · intro i hi' hp
      simp only [Bool.and_eq_true, beq_iff_eq, decide_eq_true_eq] at hp
      obtain ⟨⟨p1, p2⟩, p3⟩ := hp
      rcases Nat.lt_trichotomy i H.length with c | c | c
      · exfalso
        rw [List.getElem?_append_left c] at p3
        have hm := List.mem_of_getElem? p3
        by_cases e : hi = []
        · rw [hH1, if_pos e] at c; omega
        · rw [hH, if_neg e] at hm
          exact (hh _ hm).1 rfl
      · exact c
      · exfalso
        rw [List.getElem?_append_right (by omega)] at p3
        obtain ⟨j, hj⟩ : ∃ j, i - H.length = j + 1 := ⟨i - H.length - 1, by omega⟩
        rw [hj, List.getElem?_cons_succ] at p3
        have hm := List.mem_of_getElem? p3
        by_cases e : lo = []
        · rw [hlen, hL1, if_pos e] at p2
          omega
        · rw [hL, if_neg e] at hm
          exact (hl _ hm).1 rfl
  have hhead : (H ++ [] :: L).head? = some [] ↔ hi = [] := by
    rw [hH]
    by_cases e : hi = []
    · simp [e]
    · obtain ⟨x, xs, rfl⟩ := List.exists_cons_of_ne_nil e
      have := (hh x (by simp)).1
      simp [this]
  have hlast : (H ++ [] :: L).getLast? = some [] ↔ lo = [] := by
    rw [hL]
    by_cases e : lo = []
    · simp [e]
    · rw [if_neg e, List.getLast?_append, List.getLast?_cons, List.getLast?_eq_some_getLast e]
      have := (hl _ (List.getLast_mem e)).1
      simp [this, e]
  have hhi : (if (H ++ [] :: L).head? = some [] then H.length - 1 else H.length) = hi.length := by
    by_cases e : hi = []
    · rw [if_pos (hhead.2 e), hH1, if_pos e, e]; rfl
    · rw [if_neg (fun x => e (hhead.1 x)), hH1, if_neg e]
  have hlo : (if (H ++ [] :: L).getLast? = some [] then H.length + 1 + L.length - H.length - 2 else H.length + 1 + L.length - H.length - 1) =
      lo.length := by
    by_cases e : lo = []
    · rw [if_pos (hlast.2 e), hL1, if_pos e, e]; simp; omega
    · rw [if_neg (fun x => e (hlast.1 x)), hL1, if_neg e]; omega
  unfold v6?
  rw [hsplit, hparts]
  rw [hlen] at hempty
  simp only [hlen, hempty]
  rw [if_neg (by omega)]
  simp only [hhi, hlo]
  rw [if_neg (fun x => x.2 (by rw [hhead.1 x.1]; rfl)), if_neg (fun x => x.2 (by rw [hlast.1 x.1]; rfl)), if_neg (by omega)]
  have htake : (H ++ [] :: L).take hi.length = hi := by
    by_cases e : hi = []
    · subst e; rfl
    · rw [hH, if_neg e, List.take_left']
      rfl
  have hdrop : (H ++ [] :: L).drop (H.length + 1 + L.length - lo.length) = lo := by
    by_cases e : lo = []
    · subst e
      apply List.drop_of_length_le
      simp; omega
    · have : H.length + 1 + L.length - lo.length = (H ++ [[]]).length := by
        rw [hL1, if_neg e]; simp
      rw [this, show H ++ [] :: L = (H ++ [[]]) ++ L from by simp, List.drop_left', hL, if_neg e]
      rfl
  rw [htake, hdrop, hextets_numbers hi hh, hextets_numbers lo hl]
  simp only [V6Form.address, V6Form.numbers, List.foldl_append]
  rw [foldl_base (List.replicate _ 0)]
  have hz : ∀ k, (List.replicate k 0).foldl (fun v n => v * 65536 + n) 0 = 0 := by
    intro k
    induction k with
    | zero => rfl
    | succ k ih => rw [List.replicate_succ, List.foldl_cons]; exact ih
  rw [hz]
  simp only [List.length_replicate, Nat.add_zero, Option.some.injEq]
  have := foldl_base (lo.map hexNumber)
    (List.foldl (fun v n => v * 65536 + n) 0 (List.map hexNumber hi) * 65536 ^ (8 - (hi.length + lo.length)))
  rw [List.length_map] at this
  exact this.symm

theorem v6_form (f : V6Form) (h : f.Ok) : v6? f.text = some f.address := by
  cases f with
  | full parts => exact v6_full parts h
  | short hi lo => exact v6_short hi lo h

theorem join_chars {P : Char → Prop} (sep : Str) (hs : ∀ c ∈ sep, P c) (l : List Str) (h : ∀ w ∈ l, ∀ c ∈ w, P c) :
    ∀ c ∈ join sep l, P c := by
  induction l with
  | nil => intro c hc; simp [join] at hc
  | cons w l ih =>
    cases l with
    | nil => exact h w (by simp)
    | cons w' l =>
      intro c hc
      simp only [join, List.mem_append] at hc
      rcases hc with (hc | hc) | hc
      · exact h w (by simp) c hc
      · exact hs c hc
      · exact ih (fun u hu => h u (List.mem_cons_of_mem _ hu)) c hc

theorem v6_text_chars (f : V6Form) (h : f.Ok) : ':' ∈ f.text ∧ '/' ∉ f.text ∧ '.' ∉ f.text ∧ ∀ c ∈ f.text, v6Char c = true := by
  have hc : ∀ (l : List Str), (∀ s ∈ l, Hextet s) → ∀ c ∈ join c!":" l, v6Char c = true := fun l hl =>
    join_chars _ (fun c hc => by rw [List.mem_singleton.1 hc]; decide) l
      (fun w hw c hc => (hextet_not (hl w hw)).2.2.2 c hc)
  have hall : ∀ c ∈ f.text, v6Char c = true := by
    cases f with
    | full parts => exact hc parts h.2
    | short hi lo =>
      intro c hm
      simp only [V6Form.text, List.mem_append] at hm
      rcases hm with (hm | hm) | hm
      · exact hc hi h.2.1 c hm
      · have : c = ':' := by simpa using hm
        subst this; decide
      · exact hc lo h.2.2 c hm
  refine ⟨?_, fun hm => absurd (hall _ hm) (by decide), fun hm => absurd (hall _ hm) (by decide), hall⟩
  cases f with
  | full parts =>
    obtain ⟨h8, _⟩ := h
    match parts, h8 with
    | a :: b :: l, _ => simp [V6Form.text, join]
    | [], h8 => simp at h8
    | [a], h8 => simp at h8
  | short hi lo => simp [V6Form.text]

theorem v4_no_dot (s : Str) (h : '.' ∉ s) : v4? s = none := by
  unfold v4?
  have : splitChar '.' s = [s] := by
    have := splitChar_join '.' [s] (by simp) (by simpa using h)
    simpa [join] using this
  rw [this]
  simp

/-- What an IPv6 entry becomes. -/
theorem v6Entry_network (e : V6Entry) (h : e.Ok) :
    extract e.text = some (e.excluded, if 2 ^ (128 - e.len) ∣ e.form.address then some ⟨true, e.form.address, e.len⟩ else none) := by
  obtain ⟨ex, br, f, ml⟩ := e
  obtain ⟨hf, hm⟩ := h
  simp only at hf hm
  obtain ⟨hl, hd, hn⟩ := maskText_facts ml hm
  obtain ⟨hc, hs, hp, hall⟩ := v6_text_chars f hf
  unfold V6Entry.text
  simp only [around_eq ex br _ ml hm]
  rw [extract_v6 ex br _ _ hc hall hl hd, fmt_plain]
  · congr 2
    have no4 : ∀ x p : Str, network? false v4? 32 (f.text ++ x) = none ∨ x ≠ [] := by
      intro x p
      by_cases hx : x = []
      · left; subst hx
        unfold network?
        have : splitChar '/' f.text = [f.text] := by
          have := splitChar_join '/' [f.text] (by simp) (by simpa using hs)
          simpa [join] using this
        simp [this, v4_no_dot _ hp]
      · exact .inr hx
    unfold V6Entry.len
    cases ml with
    | none =>
      rw [if_pos (hn.2 rfl)]
      unfold ipNetwork
      have := (no4 [] []).resolve_right (by simp)
      rw [List.append_nil] at this
      rw [this]
      simp only [network_text_plain (v6_form f hf) hs]
      simp
    | some m =>
      rw [if_neg (by simp [hn])]
      have hm' := hm m rfl
      show ipNetwork (f.text ++ c!"/" ++ decimal m) = _
      unfold ipNetwork
      have e : splitChar '/' (f.text ++ c!"/" ++ decimal m) = [f.text, decimal m] := by
        have := splitChar_join '/' [f.text, decimal m] (by simp) (by
          intro u hu
          simp only [List.mem_cons, List.not_mem_nil, or_false] at hu
          rcases hu with rfl | rfl
          · exact hs
          · exact decimal_not (by omega) rfl)
        simpa [join] using this
      have h4 : network? false v4? 32 (f.text ++ c!"/" ++ decimal m) = none := by
        unfold network?
        rw [e]
        simp [v4_no_dot _ hp]
      rw [h4]
      simp only [network_text (v6_form f hf) hs hm' hm']
      rfl
  · rw [Bool.eq_false_iff]
    intro he
    unfold endsWith at he
    rw [List.isSuffixOf_iff_suffix] at he
    obtain ⟨t, ht⟩ := he
    exact hp (by rw [← ht]; simp)
  · have : splitChar '.' f.text = [f.text] := by
      have := splitChar_join '.' [f.text] (by simp) (by simpa using hp)
      simpa [join] using this
    rw [this]
    simp

end Verif.Net
