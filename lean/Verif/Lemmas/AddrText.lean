import Verif.Model.AwlKey
import Verif.Lemmas.NetText
import Verif.Lemmas.Decimal

/-!
# Addresses are read as they were written
-/

namespace Verif.Awl
open Verif Py Net Spec

/-! ### Hexadecimal -/

theorem hexDigit_digitChar : ∀ d : Fin 16, hexDigit d.val.digitChar = d.val ∧
    (('0' ≤ d.val.digitChar ∧ d.val.digitChar ≤ '9') ∨ ('a' ≤ d.val.digitChar ∧ d.val.digitChar ≤ 'f')) := by decide

theorem hexText_facts (n : Nat) : hexNumber (hexText n) = n ∧
    (∀ c ∈ hexText n, ('0' ≤ c ∧ c ≤ '9') ∨ ('a' ≤ c ∧ c ≤ 'f')) := by
  unfold hexText
  induction n using Nat.strongRecOn with
  | _ n ih =>
    by_cases hn : n < 16
    · rw [Nat.toDigits_of_lt_base hn]
      have := hexDigit_digitChar ⟨n, hn⟩
      refine ⟨by simpa [hexNumber] using this.1, ?_⟩
      intro c hc
      rw [List.mem_singleton.1 hc]
      exact this.2
    · rw [Nat.toDigits_of_base_le (by decide) (by omega)]
      have h := ih (n / 16) (by omega)
      have hd := hexDigit_digitChar ⟨n % 16, by omega⟩
      constructor
      · unfold hexNumber at h ⊢
        rw [List.foldl_append, h.1, List.foldl_cons, List.foldl_nil, hd.1]
        show 16 * (n / 16) + n % 16 = n
        omega
      · intro c hc
        rcases List.mem_append.1 hc with hc | hc
        · exact h.2 c hc
        · rw [List.mem_singleton.1 hc]; exact hd.2

theorem hexText_hextet {n : Nat} (h : n < 65536) : Hextet (hexText n) := by
  refine ⟨Nat.toDigits_ne_nil, ?_, fun c hc => ?_⟩
  · unfold hexText
    exact (Nat.length_toDigits_le_iff (by decide) (by decide)).2 (by omega)
  · rcases (hexText_facts n).2 c hc with h | h
    · exact .inl h
    · exact .inr (.inl h)

/-! ### Rows of zeros -/

/-- What the loop has found in the parts it has seen. -/
structure ZInv (l : List Str) (z : Zeros) : Prop where
  index : z.index = l.length
  best : z.bestStart + z.bestLen ≤ l.length
  zeros : (l.drop z.bestStart).take z.bestLen = List.replicate z.bestLen c!"0"
  off : z.start = none → z.len = 0
  on : ∀ s, z.start = some s → s + z.len = l.length ∧ l.drop s = List.replicate z.len c!"0"

theorem zinv_step {l : List Str} {z : Zeros} (h : ZInv l z) (x : Str) : ZInv (l ++ [x]) (zeroStep z x) := by
  obtain ⟨h1, h2, h3, h4, h5⟩ := h
  have hbest : ((l ++ [x]).drop z.bestStart).take z.bestLen = List.replicate z.bestLen c!"0" := by
    rw [List.drop_append_of_le_length (by omega), List.take_append_of_le_length (by rw [List.length_drop]; omega), h3]
  have hcur : ∀ s, s = z.start.getD z.index → x = c!"0" →
      s + (z.len + 1) = (l ++ [x]).length ∧ (l ++ [x]).drop s = List.replicate (z.len + 1) c!"0" := by
    intro s hs hx
    subst hx
    cases hst : z.start with
    | none =>
      rw [hst] at hs
      simp only [Option.getD_none] at hs
      subst hs
      have := h4 hst
      rw [this, h1]
      simp
    | some t =>
      rw [hst] at hs
      simp only [Option.getD_some] at hs
      subst hs
      obtain ⟨a, b⟩ := h5 _ hst
      constructor
      · simp; omega
      · rw [List.drop_append_of_le_length (by omega), b, List.replicate_succ']
  unfold zeroStep
  by_cases hx : x = c!"0"
  · rw [if_pos hx]
    simp only
    have hc := hcur _ rfl hx
    generalize z.start.getD z.index = st at hc ⊢
    split
    · refine ⟨by simp [h1], Nat.le_of_eq hc.1, ?_, fun h => by simp at h, fun s hs => ?_⟩
      · show ((l ++ [x]).drop st).take (z.len + 1) = _
        rw [hc.2]; simp
      · simp only [Option.some.injEq] at hs
        rw [← hs]; exact hc
    · refine ⟨by simp [h1], by simp; omega, hbest, fun h => by simp at h, fun s hs => ?_⟩
      simp only [Option.some.injEq] at hs
      rw [← hs]; exact hc
  · rw [if_neg hx]
    exact ⟨by simp [h1], by simp; omega, hbest, fun _ => rfl, fun s hs => by simp at hs⟩

theorem zinv_fold (rest : List Str) : ∀ (l : List Str) (z : Zeros), ZInv l z → ZInv (l ++ rest) (rest.foldl zeroStep z) := by
  induction rest with
  | nil => intro l z h; simpa using h
  | cons x rest ih =>
    intro l z h
    have := ih (l ++ [x]) _ (zinv_step h x)
    simpa using this

theorem zinv (l : List Str) : ZInv l (l.foldl zeroStep ⟨0, 0, 0, none, 0⟩) := by
  have := zinv_fold l [] ⟨0, 0, 0, none, 0⟩ ⟨rfl, by simp, rfl, fun _ => rfl, fun s hs => by simp at hs⟩
  simpa using this

/-- The text is that of a form of the address, whole or shortened. -/
theorem compress_form (l : List Str) (hl : l.length = 8) (h : ∀ s ∈ l, Hextet s) :
    ∃ f : V6Form, f.Ok ∧ f.text = join c!":" (compress l) ∧ f.numbers = l.map hexNumber := by
  have hz := zinv l
  unfold compress
  generalize l.foldl zeroStep ⟨0, 0, 0, none, 0⟩ = z at hz
  obtain ⟨_, h2, h3, _, _⟩ := hz
  simp only
  by_cases hb : 1 < z.bestLen
  · rw [if_pos hb]
    refine ⟨.short (l.take z.bestStart) (l.drop (z.bestStart + z.bestLen)), ⟨?_, ?_, ?_⟩, ?_, ?_⟩
    · simp; omega
    · exact fun p hp => h p (List.mem_of_mem_take hp)
    · exact fun p hp => h p (List.mem_of_mem_drop hp)
    · rw [← shortParts_text]
      congr 1
      unfold shortParts
      by_cases hs : z.bestStart = 0
      · rw [if_pos hs, hs, List.take_zero, if_pos rfl]
        by_cases he : 0 + z.bestLen = l.length
        · rw [if_pos he, if_pos (by rw [List.drop_eq_nil_of_le (by omega)])]
          simp [← he]
        · rw [if_neg he, if_neg (by
            intro h0
            have := congrArg List.length h0
            rw [List.length_drop] at this
            simp at this
            omega)]
          simp
      · rw [if_neg hs]
        have hne : l.take z.bestStart ≠ [] := by
          intro h0
          have := congrArg List.length h0
          rw [List.length_take, List.length_nil] at this
          omega
        rw [if_neg hne]
        by_cases he : z.bestStart + z.bestLen = l.length
        · rw [if_pos he, if_pos (by rw [List.drop_eq_nil_of_le (by omega)])]
          rw [List.take_append_of_le_length (by omega), he]
          simp
        · rw [if_neg he, if_neg (by
            intro h0
            have := congrArg List.length h0
            rw [List.length_drop] at this
            simp at this
            omega)]
    · show (l.take z.bestStart).map hexNumber ++ List.replicate (8 - ((l.take z.bestStart).length + (l.drop (z.bestStart + z.bestLen)).length)) 0 ++
        (l.drop (z.bestStart + z.bestLen)).map hexNumber = _
      have hz : List.replicate (8 - ((l.take z.bestStart).length + (l.drop (z.bestStart + z.bestLen)).length)) 0 =
          ((l.drop z.bestStart).take z.bestLen).map hexNumber := by
        rw [h3, List.map_replicate, List.length_take, List.length_drop, Nat.min_eq_left (by omega)]
        rw [show 8 - (z.bestStart + (l.length - (z.bestStart + z.bestLen))) = z.bestLen by omega]
        rfl
      rw [hz, ← List.map_append, ← List.map_append]
      congr 1
      rw [← List.drop_drop, List.append_assoc, List.take_append_drop, List.take_append_drop]
  · rw [if_neg hb]
    exact ⟨.full l, ⟨hl, h⟩, rfl, rfl⟩

theorem hextets_back (n : Nat) (h : n < 2 ^ 128) : (hextetsOf n).foldl (fun v n => v * 65536 + n) 0 = n := by
  simp only [hextetsOf, List.foldl_cons, List.foldl_nil]
  omega

/-- An IPv6 address is read as it was written. -/
theorem v6_back (n : Nat) (h : n < 2 ^ 128) : v6? (v6Text n) = some n ∧ ':' ∈ v6Text n ∧ '.' ∉ v6Text n ∧
    ∀ c ∈ v6Text n, v6Char c = true := by
  have hh : ∀ s ∈ (hextetsOf n).map hexText, Hextet s := by
    intro s hs
    obtain ⟨k, hk, rfl⟩ := List.mem_map.1 hs
    apply hexText_hextet
    simp only [hextetsOf, List.mem_cons, List.not_mem_nil, or_false] at hk
    omega
  obtain ⟨f, hok, ht, hn⟩ := compress_form ((hextetsOf n).map hexText) (by simp [hextetsOf]) hh
  unfold v6Text
  rw [← ht]
  have hc := v6_text_chars f hok
  refine ⟨?_, hc.1, hc.2.2.1, hc.2.2.2⟩
  rw [v6_form f hok, V6Form.address, hn, List.map_map]
  have : (hextetsOf n).map (hexNumber ∘ hexText) = hextetsOf n := by
    rw [show (hexNumber ∘ hexText) = id from funext (fun k => (hexText_facts k).1)]
    simp
  rw [this, hextets_back n h]

/-- An IPv4 address is read as it was written. -/
theorem v4_back (n : Nat) (h : n < 2 ^ 32) : v4? (v4Text n) = some n ∧ (v4Text n).count '.' = 3 ∧
    ∀ c ∈ v4Text n, v4Char c = true := by
  unfold v4Text bytesOf
  have ha : n / 2 ^ 24 % 256 ≤ 255 := by omega
  have hb : n / 2 ^ 16 % 256 ≤ 255 := by omega
  have hc : n / 2 ^ 8 % 256 ≤ 255 := by omega
  have hd : n % 256 ≤ 255 := by omega
  refine ⟨?_, ?_, ?_⟩
  · have := v4_quad _ _ _ _ ha hb hc hd
    refine Eq.trans this ?_
    simp only [fromBytes, List.foldl_cons, List.foldl_nil, Option.some.injEq]
    omega
  · have h1 := count_decimal ha
    have h2 := count_decimal hb
    have h3 := count_decimal hc
    have h4 := count_decimal hd
    unfold decimal at h1 h2 h3 h4
    simp only [List.map_cons, List.map_nil, join, dec, List.count_append, h1, h2, h3, h4]
    decide
  · apply join_chars (P := fun c => v4Char c = true) c!"." (by decide)
    intro w hw c hc
    simp only [List.map_cons, List.map_nil, List.mem_cons, List.not_mem_nil, or_false] at hw
    have : c.isDigit = true := by
      rcases hw with rfl | rfl | rfl | rfl
      · exact (decimal_facts ha).2.1 c hc
      · exact (decimal_facts hb).2.1 c hc
      · exact (decimal_facts (by assumption)).2.1 c hc
      · exact (decimal_facts hd).2.1 c hc
    simp [v4Char, this]

end Verif.Awl
