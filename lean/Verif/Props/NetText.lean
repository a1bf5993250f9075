import Verif.Lemmas.NetText
import Verif.Lemmas.Tokens
import Verif.Props.Networks

/-!
# C123: what an entry of a network option stands for; C124: wrong entries; C125: lookups
-/

namespace Verif.Props
open Verif Py Net Spec

/-! ### C123 -/

/-- **C123** (partial).  An IPv4 entry written as documented stands for the addresses that agree with it in
the documented number of bits, and for no IPv6 address; it excludes them if it begins with `!`.  Missing:
entries with a bit set after the prefix (`C123_host_bits_violated`). -/
theorem C123_v4_partial (e : V4Entry) (h : e.Ok) (hb : e.NoHostBits) :
    ∃ n, ipNets.extract e.text = some (e.excluded, some n) ∧
      (∀ q, ipNets.mem n (.v4 q) = true ↔ SamePrefix 32 e.len q e.address) ∧
      ∀ q, ipNets.mem n (.v6 q) = false := by
  refine ⟨⟨false, e.address, e.len⟩, ?_, ?_, fun q => rfl⟩
  · show extract e.text = _
    unfold V4Entry.NoHostBits at hb
    rw [v4Entry_network e h, if_pos hb]
  · intro q
    show (!false && masked 32 e.len q == e.address) = true ↔ _
    rw [← masked_same 32 e.len e.address q hb]
    simp

/-- **C123** (partial).  The same for IPv6. -/
theorem C123_v6_partial (e : V6Entry) (h : e.Ok) (hb : e.NoHostBits) :
    ∃ n, ipNets.extract e.text = some (e.excluded, some n) ∧
      (∀ q, ipNets.mem n (.v6 q) = true ↔ SamePrefix 128 e.len q e.form.address) ∧
      ∀ q, ipNets.mem n (.v4 q) = false := by
  refine ⟨⟨true, e.form.address, e.len⟩, ?_, ?_, fun q => rfl⟩
  · show extract e.text = _
    unfold V6Entry.NoHostBits at hb
    rw [v6Entry_network e h, if_pos hb]
  · intro q
    show (true && masked 128 e.len q == e.form.address) = true ↔ _
    rw [← masked_same 128 e.len e.form.address q hb]
    simp

theorem fromBytes_foldl (l : List Nat) : ∀ v, l.foldl (fun v n => v * 256 + n) v = v * 256 ^ l.length + fromBytes l := by
  unfold fromBytes
  induction l with
  | nil => intro v; simp
  | cons a l ih =>
    intro v
    rw [List.foldl_cons, List.foldl_cons, ih, ih (0 * 256 + a), List.length_cons, Nat.pow_succ]
    simp only [Nat.add_mul, Nat.zero_mul, Nat.zero_add, Nat.add_assoc]
    congr 1
    rw [Nat.mul_assoc, Nat.mul_comm 256]

theorem fromBytes_append (a b : List Nat) : fromBytes (a ++ b) = fromBytes a * 256 ^ b.length + fromBytes b := by
  unfold fromBytes
  rw [List.foldl_append]
  exact fromBytes_foldl b _

theorem fromBytes_lt (l : List Nat) (h : ∀ n ∈ l, n ≤ 255) : fromBytes l < 256 ^ l.length := by
  induction l with
  | nil => decide
  | cons a l ih =>
    have h1 := ih (fun n hn => h n (List.mem_cons_of_mem _ hn))
    have h2 := h a (by simp)
    have : fromBytes (a :: l) = a * 256 ^ l.length + fromBytes l := fromBytes_append [a] l |>.trans (by simp [fromBytes])
    rw [this, List.length_cons, Nat.pow_succ]
    have := Nat.mul_le_mul_right (256 ^ l.length) h2
    omega

theorem fromBytes_inj : ∀ (a b : List Nat), a.length = b.length → (∀ n ∈ a, n ≤ 255) → (∀ n ∈ b, n ≤ 255) →
    fromBytes a = fromBytes b → a = b
  | [], [], _, _, _, _ => rfl
  | x :: a, y :: b, hl, ha, hb, e => by
    have hl' : a.length = b.length := by simpa using hl
    have e1 : fromBytes (x :: a) = x * 256 ^ a.length + fromBytes a := fromBytes_append [x] a |>.trans (by simp [fromBytes])
    have e2 : fromBytes (y :: b) = y * 256 ^ a.length + fromBytes b := fromBytes_append [y] b |>.trans (by simp [fromBytes, hl'])
    rw [e1, e2] at e
    have l1 := fromBytes_lt a (fun n hn => ha n (List.mem_cons_of_mem _ hn))
    have l2 := fromBytes_lt b (fun n hn => hb n (List.mem_cons_of_mem _ hn))
    rw [← hl'] at l2
    have p : 0 < 256 ^ a.length := Nat.pow_pos (by decide)
    have q1 : (x * 256 ^ a.length + fromBytes a) / 256 ^ a.length = x := by
      rw [Nat.add_comm, Nat.add_mul_div_right _ _ p, Nat.div_eq_of_lt l1, Nat.zero_add]
    have q2 : (y * 256 ^ a.length + fromBytes b) / 256 ^ a.length = y := by
      rw [Nat.add_comm, Nat.add_mul_div_right _ _ p, Nat.div_eq_of_lt l2, Nat.zero_add]
    rw [e, q2] at q1
    subst q1
    have : fromBytes a = fromBytes b := by omega
    rw [fromBytes_inj a b hl' (fun n hn => ha n (List.mem_cons_of_mem _ hn)) (fun n hn => hb n (List.mem_cons_of_mem _ hn)) this]
  | [], _ :: _, hl, _, _, _ => by simp at hl
  | _ :: _, [], hl, _, _, _ => by simp at hl

/-- **C123**.  Without a mask, an IPv4 entry stands for exactly the addresses that begin with its octets: one
address if there are four, all of `192.168.*.*` for `192.168.`; with no condition on bits. -/
theorem C123_octets (e : V4Entry) (h : e.Ok) (hm : e.maskLen = none) :
    ∃ n, ipNets.extract e.text = some (e.excluded, some n) ∧
      ∀ bytes : List Nat, bytes.length = 4 → (∀ b ∈ bytes, b ≤ 255) →
        (ipNets.mem n (.v4 (fromBytes bytes)) = true ↔ e.octets <+: bytes) := by
  have hl4 := h.at_most_four
  have hlen : e.len = e.octets.length * 8 := by simp [V4Entry.len, hm]
  have hpow : 2 ^ (32 - e.len) = 256 ^ (4 - e.octets.length) := by
    rw [hlen, show (256 : Nat) = 2 ^ 8 from rfl, ← Nat.pow_mul]
    congr 1
    omega
  have hz : fromBytes (List.replicate (4 - e.octets.length) 0) = 0 := by
    generalize 4 - e.octets.length = k
    induction k with
    | zero => rfl
    | succ k ih => rw [List.replicate_succ]; exact ih
  have haddr : e.address = fromBytes e.octets * 256 ^ (4 - e.octets.length) := by
    unfold V4Entry.address
    rw [fromBytes_append, hz, List.length_replicate, Nat.add_zero]
  have hb : e.NoHostBits := by
    unfold V4Entry.NoHostBits
    rw [hpow, haddr]
    exact Nat.dvd_mul_left _ _
  obtain ⟨n, h1, h2, _⟩ := C123_v4_partial e h hb
  refine ⟨n, h1, ?_⟩
  intro bytes hl hbs
  rw [h2, SamePrefix, hpow, haddr]
  have p : 0 < 256 ^ (4 - e.octets.length) := Nat.pow_pos (by decide)
  rw [Nat.mul_div_cancel _ p]
  have hsplit : bytes = bytes.take e.octets.length ++ bytes.drop e.octets.length := (List.take_append_drop _ _).symm
  have hdl : (bytes.drop e.octets.length).length = 4 - e.octets.length := by rw [List.length_drop, hl]
  have hdiv : fromBytes bytes / 256 ^ (4 - e.octets.length) = fromBytes (bytes.take e.octets.length) := by
    conv => lhs; rw [hsplit]
    rw [fromBytes_append, hdl, Nat.add_comm, Nat.add_mul_div_right _ _ p, Nat.div_eq_of_lt, Nat.zero_add]
    rw [← hdl]
    exact fromBytes_lt _ (fun b hb => hbs b (List.mem_of_mem_drop hb))
  rw [hdiv]
  constructor
  · intro e'
    have := fromBytes_inj _ _ (by rw [List.length_take, hl]; omega) (fun b hb => hbs b (List.mem_of_mem_take hb)) h.bytes e'
    rw [← this]
    exact List.take_prefix _ _
  · intro hp
    rw [List.prefix_iff_eq_take] at hp
    rw [← hp]

/-- Documented examples. -/
example : (⟨false, false, [192, 168], none⟩ : V4Entry).text = c!"192.168." ∧
    (⟨true, true, [192, 168, 1, 0], some 24⟩ : V4Entry).text = c!"![192.168.1.0]/24" ∧
    (⟨true, true, [192, 168, 1, 0], some 24⟩ : V4Entry).NoHostBits ∧
    (⟨false, false, .short [c!"2001", c!"db8"] [], some 32⟩ : V6Entry).text = c!"2001:db8::/32" := by
  refine ⟨by decide, by decide, ?_, by decide⟩
  unfold V4Entry.NoHostBits
  decide

example : (⟨false, false, .short [c!"2001", c!"db8"] [], some 32⟩ : V6Entry).Ok ∧
    (⟨false, false, .short [c!"2001", c!"db8"] [], some 32⟩ : V6Entry).NoHostBits := by
  refine ⟨⟨⟨by decide, ?_, by simp⟩, by simp⟩, ?_⟩
  · intro p hp
    simp only [List.mem_cons, List.not_mem_nil, or_false] at hp
    rcases hp with rfl | rfl <;> (unfold Hextet; decide)
  · unfold V6Entry.NoHostBits
    decide

/-- **C123 is violated** by every entry with a bit set after the prefix, such as `192.168.1.1/24`: it stands
for no network at all. -/
theorem C123_host_bits_violated (e : V4Entry) (h : e.Ok) (hb : ¬ e.NoHostBits) :
    ipNets.extract e.text = some (e.excluded, none) := by
  show extract e.text = _
  unfold V4Entry.NoHostBits at hb
  rw [v4Entry_network e h, if_neg hb]

theorem C123_host_bits_v6_violated (e : V6Entry) (h : e.Ok) (hb : ¬ e.NoHostBits) :
    ipNets.extract e.text = some (e.excluded, none) := by
  show extract e.text = _
  unfold V6Entry.NoHostBits at hb
  rw [v6Entry_network e h, if_neg hb]

example : (⟨false, false, [192, 168, 1, 1], some 24⟩ : V4Entry).text = c!"192.168.1.1/24" ∧
    ¬ (⟨false, false, [192, 168, 1, 1], some 24⟩ : V4Entry).NoHostBits := by
  refine ⟨by decide, ?_⟩
  unfold V4Entry.NoHostBits
  decide

/-! ### C124 -/

theorem loop_mem (q : Addr) : (ipNets.mem ipNets.loop4 q = true ∨ ipNets.mem ipNets.loop6 q = true) ↔ loopback q = true := by
  cases q with
  | v4 q =>
    show ((!false && masked 32 8 q == 127 * 2 ^ 24) = true ∨ false = true) ↔ _
    simp only [Bool.not_false, Bool.true_and, beq_iff_eq, Bool.false_eq_true, or_false, masked_eq, loopback, decide_eq_true_eq]
    omega
  | v6 q =>
    show (false = true ∨ (true && masked 128 128 q == 1) = true) ↔ _
    simp [masked_eq, loopback]

theorem contains_always (q : Addr) (l : List (Entry Network)) :
    contains ipNets q (alwaysAccepted ipNets ++ l) = if loopback q then some true else contains ipNets q l := by
  have h := loop_mem q
  simp only [alwaysAccepted, List.cons_append, List.nil_append, contains]
  cases h4 : ipNets.mem ipNets.loop4 q <;> cases h6 : ipNets.mem ipNets.loop6 q <;> simp [h4, h6] at h <;> simp [h]

/-- **C124 is violated**: an entry that stands for no network is neither reported nor ignored.  Every lookup in
the trusted and in the internal networks, for every address but loopback ones, then fails. -/
theorem C124_host_bits_violated (e : V4Entry) (h : e.Ok) (hb : ¬ e.NoHostBits) (more : List NetOp) (q : Addr)
    (hq : loopback q = false) :
    contains ipNets q (configure ipNets (.trusted e.text :: more)).trusted = none := by
  have hx := C123_host_bits_violated e h hb
  unfold configure
  rw [trusted_shape]
  show contains ipNets q (alwaysAccepted ipNets ++ _) = none
  rw [contains_always, if_neg (by simp [hq])]
  simp [trustedEntries, entryOf, hx, contains]

/-- One or two octets without a dot at the end, with or without a mask, such as `127/8` and `172.16`. -/
def shortText (e : V4Entry) : Str := around e.excluded e.bracketed (join c!"." (e.octets.map decimal)) e.maskLen

theorem ipNetwork_short (os : List Nat) (h0 : os ≠ []) (h3 : os.length < 3) (hb : ∀ n ∈ os, n ≤ 255) (tail : Str)
    (ht : tail = [] ∨ ∃ m, m ≤ 32 ∧ tail = c!"/" ++ decimal m) : ipNetwork (join c!"." (os.map decimal) ++ tail) = none := by
  have hdot : splitChar '.' (join c!"." (os.map decimal)) = os.map decimal := splitChar_join '.' _ (by simpa using h0) (by
    intro w hw
    obtain ⟨n, hn, rfl⟩ := List.mem_map.1 hw
    exact decimal_not (hb n hn) rfl)
  have h4 : v4? (join c!"." (os.map decimal)) = none := by
    unfold v4?
    rw [hdot]
    simp only [List.length_map]
    rw [if_pos (by omega)]
  have hch : ∀ c : Char, c.isDigit = false → c ≠ '.' → c ∉ join c!"." (os.map decimal) := by
    intro c hc hd hm
    refine join_chars (P := fun d => d ≠ c) c!"." ?_ _ ?_ c hm rfl
    · intro d hd'
      rw [List.mem_singleton.1 hd']
      exact fun e => hd e.symm
    · intro w hw d hd'
      obtain ⟨n, hn, rfl⟩ := List.mem_map.1 hw
      rintro rfl
      exact decimal_not (hb n hn) hc hd'
  have h6 : v6? (join c!"." (os.map decimal)) = none := by
    unfold v6?
    have : splitChar ':' (join c!"." (os.map decimal)) = [join c!"." (os.map decimal)] := by
      have := splitChar_join ':' [join c!"." (os.map decimal)] (by simp) (by simpa using hch ':' rfl (by decide))
      simpa [join] using this
    rw [this]
    simp
  have hsl := hch '/' rfl (by decide)
  unfold ipNetwork network?
  rcases ht with rfl | ⟨m, hm, rfl⟩
  · have : splitChar '/' (join c!"." (os.map decimal) ++ []) = [join c!"." (os.map decimal)] := by
      have := splitChar_join '/' [join c!"." (os.map decimal)] (by simp) (by simpa using hsl)
      simpa [join] using this
    rw [this]
    simp [h4, h6]
  · have : splitChar '/' (join c!"." (os.map decimal) ++ (c!"/" ++ decimal m)) = [join c!"." (os.map decimal), decimal m] := by
      have := splitChar_join '/' [join c!"." (os.map decimal), decimal m] (by simp) (by
        intro u hu
        simp only [List.mem_cons, List.not_mem_nil, or_false] at hu
        rcases hu with rfl | rfl
        · exact hsl
        · exact decimal_not (by omega) rfl)
      simpa [join] using this
    rw [this]
    simp [h4, h6]

/-- **C124 is violated** by entries of one or two octets without a dot at the end as well. -/
theorem C124_short_violated (e : V4Entry) (h : e.Ok) (h3 : e.octets.length < 3) (more : List NetOp) (q : Addr)
    (hq : loopback q = false) :
    ipNets.extract (shortText e) = some (e.excluded, none) ∧
    contains ipNets q (configure ipNets (.trusted (shortText e) :: more)).trusted = none := by
  have hx : ipNets.extract (shortText e) = some (e.excluded, none) := by
    show extract (shortText e) = _
    have hm' : ∀ m, e.maskLen = some m → m ≤ 128 := fun m hm => by have := h.mask m hm; omega
    obtain ⟨hl, hd, hn⟩ := maskText_facts e.maskLen hm'
    unfold shortText
    rw [around_eq _ _ _ _ hm']
    obtain ⟨l, b, hlb⟩ : ∃ l b, e.octets = l ++ [b] := ⟨_, _, (List.dropLast_concat_getLast h.some_octets).symm⟩
    have hb : b ≤ 255 := h.bytes b (by rw [hlb]; simp)
    have hend : ∃ s, join c!"." (e.octets.map decimal) = s ++ decimal b := by
      rw [hlb]
      by_cases e' : l = []
      · subst e'; exact ⟨[], rfl⟩
      · exact ⟨join c!"." (l.map decimal) ++ c!".", by rw [List.map_append, join_append _ _ _ (by simpa using e') (by simp)]; rfl⟩
    obtain ⟨s, hs⟩ := hend
    rw [extract_v4 _ _ _ _ _ _ hl hd, fmt_plain]
    · congr 2
      have := ipNetwork_short e.octets h.some_octets h3 h.bytes
      cases hml : e.maskLen with
      | none =>
        have t := this [] (.inl rfl)
        rw [List.append_nil] at t
        simpa [maskText] using t
      | some m =>
        have t := this (c!"/" ++ decimal m) (.inr ⟨m, h.mask m hml, rfl⟩)
        have hne : decimal m ≠ [] := (decimal_facts (n := m) (by have := h.mask m hml; omega)).1
        simpa [maskText, hne] using t
    · rw [hs]
      exact ends_not s (decimal b) (decimal_facts hb).1 (decimal_not hb rfl)
    · rw [splitChar_join '.' _ (by simpa using h.some_octets)]
      · simp only [List.length_map]; omega
      · intro w hw
        obtain ⟨n, hn, rfl⟩ := List.mem_map.1 hw
        exact decimal_not (h.bytes n hn) rfl
    · rw [hs]
      intro e'
      exact (decimal_facts hb).1 (List.append_eq_nil_iff.1 e').2
    · apply join_chars
      · intro c hc
        rw [List.mem_singleton.1 hc]; decide
      · intro w hw c hc
        obtain ⟨n, hn, rfl⟩ := List.mem_map.1 hw
        simp [v4Char, (decimal_facts (h.bytes n hn)).2.1 c hc]
  refine ⟨hx, ?_⟩
  unfold configure
  rw [trusted_shape]
  show contains ipNets q (alwaysAccepted ipNets ++ _) = none
  rw [contains_always, if_neg (by simp [hq])]
  simp [trustedEntries, entryOf, hx, contains]

example : shortText ⟨false, false, [127], some 8⟩ = c!"127/8" ∧ shortText ⟨true, false, [172, 16], none⟩ = c!"!172.16" := by decide

theorem octet_big {n : Nat} (h : 255 < n) (h9 : n ≤ 999) : octet? (decimal n) = none ∧ decimal n ≠ [] ∧
    ∀ c ∈ decimal n, c.isDigit = true := by
  have key : ∀ n : Fin 1000, 255 < n.val → octet? (decimal n.val) = none ∧ decimal n.val ≠ [] ∧
      ∀ c ∈ decimal n.val, c.isDigit = true := by decide +kernel
  exact key ⟨n, by omega⟩ h

/-- **C124 is violated** by an address with a number over 255 as well. -/
theorem C124_octet_violated (ex : Bool) (os : List Nat) (h4 : os.length = 4) (h9 : ∀ n ∈ os, n ≤ 999) (n : Nat) (hn : n ∈ os)
    (hbig : 255 < n) (more : List NetOp) (q : Addr) (hq : loopback q = false) :
    let text := (if ex then c!"!" else []) ++ join c!"." (os.map decimal)
    ipNets.extract text = some (ex, none) ∧ contains ipNets q (configure ipNets (.trusted text :: more)).trusted = none := by
  intro text
  have hdec : ∀ n ∈ os, decimal n ≠ [] ∧ ∀ c ∈ decimal n, c.isDigit = true := by
    intro n hn
    by_cases h : n ≤ 255
    · exact ⟨(decimal_facts h).1, (decimal_facts h).2.1⟩
    · exact (octet_big (by omega) (h9 n hn)).2
  have hnot : ∀ n ∈ os, ∀ c : Char, c.isDigit = false → c ∉ decimal n := by
    intro n hn c hc hm
    rw [(hdec n hn).2 c hm] at hc
    cases hc
  have h0 : os ≠ [] := by rintro rfl; simp at h4
  have hdot : splitChar '.' (join c!"." (os.map decimal)) = os.map decimal := splitChar_join '.' _ (by simpa using h0) (by
    intro w hw
    obtain ⟨k, hk, rfl⟩ := List.mem_map.1 hw
    exact hnot k hk '.' rfl)
  have hv4 : v4? (join c!"." (os.map decimal)) = none := by
    unfold v4?
    rw [hdot]
    simp only [List.length_map]
    rw [if_neg (by omega)]
    have : (os.map decimal).mapM octet? = none := by
      rw [Tokens.mapM_none]
      exact ⟨decimal n, List.mem_map.2 ⟨n, hn, rfl⟩, (octet_big hbig (h9 n hn)).1⟩
    rw [this]
    rfl
  have hch : ∀ c : Char, c.isDigit = false → c ≠ '.' → c ∉ join c!"." (os.map decimal) := by
    intro c hc hd hm
    refine join_chars (P := fun d => d ≠ c) c!"." ?_ _ ?_ c hm rfl
    · intro d hd'
      rw [List.mem_singleton.1 hd']
      exact fun e => hd e.symm
    · intro w hw d hd'
      obtain ⟨n, hn, rfl⟩ := List.mem_map.1 hw
      rintro rfl
      exact hnot n hn _ hc hd'
  have hv6 : v6? (join c!"." (os.map decimal)) = none := by
    unfold v6?
    have : splitChar ':' (join c!"." (os.map decimal)) = [join c!"." (os.map decimal)] := by
      have := splitChar_join ':' [join c!"." (os.map decimal)] (by simp) (by simpa using hch ':' rfl (by decide))
      simpa [join] using this
    rw [this]
    simp
  have hip : ipNetwork (join c!"." (os.map decimal)) = none := by
    unfold ipNetwork network?
    have : splitChar '/' (join c!"." (os.map decimal)) = [join c!"." (os.map decimal)] := by
      have := splitChar_join '/' [join c!"." (os.map decimal)] (by simp) (by simpa using hch '/' rfl (by decide))
      simpa [join] using this
    rw [this]
    simp [hv4, hv6]
  obtain ⟨l, b, hlb⟩ : ∃ l b, os = l ++ [b] := ⟨_, _, (List.dropLast_concat_getLast h0).symm⟩
  have hl0 : l ≠ [] := by rintro rfl; rw [hlb] at h4; simp at h4
  have hb : b ∈ os := by rw [hlb]; simp
  obtain ⟨s, hs⟩ : ∃ s, join c!"." (os.map decimal) = s ++ decimal b :=
    ⟨join c!"." (l.map decimal) ++ c!".", by rw [hlb, List.map_append, join_append _ _ _ (by simpa using hl0) (by simp)]; rfl⟩
  have hx : ipNets.extract text = some (ex, none) := by
    show extract text = _
    have e : text = headText ex false ++ (join c!"." (os.map decimal) ++ tailText false []) := by
      simp [text, headText, tailText]
    rw [e, extract_v4 ex false _ [] _ _ (by simp) (by simp), fmt_plain, if_pos rfl, hip]
    · rw [hs]
      exact ends_not s (decimal b) (hdec b hb).1 (hnot b hb '.' rfl)
    · rw [hdot]
      simp [h4]
    · rw [hs]
      intro e'
      exact (hdec b hb).1 (List.append_eq_nil_iff.1 e').2
    · apply join_chars
      · intro c hc
        rw [List.mem_singleton.1 hc]; decide
      · intro w hw c hc
        obtain ⟨n, hn, rfl⟩ := List.mem_map.1 hw
        simp [v4Char, (hdec n hn).2 c hc]
  refine ⟨hx, ?_⟩
  unfold configure
  rw [trusted_shape]
  show contains ipNets q (alwaysAccepted ipNets ++ _) = none
  rw [contains_always, if_neg (by simp [hq])]
  simp [trustedEntries, entryOf, hx, contains]

example : join c!"." ([192, 168, 1, 256].map decimal) = c!"192.168.1.256" := by decide

/-- **C124**.  Three octets without a dot at the end are read as if it were there. -/
theorem C124_three_octets (e : V4Entry) (h : e.Ok) (h3 : e.octets.length = 3) :
    ipNets.extract (shortText e) = ipNets.extract e.text := by
  show extract (shortText e) = extract e.text
  have hm' : ∀ m, e.maskLen = some m → m ≤ 128 := fun m hm => by have := h.mask m hm; omega
  obtain ⟨hl, hd, hn⟩ := maskText_facts e.maskLen hm'
  have hch : ∀ c ∈ join c!"." (e.octets.map decimal), v4Char c = true := by
    apply join_chars
    · intro c hc
      rw [List.mem_singleton.1 hc]; decide
    · intro w hw c hc
      obtain ⟨n, hn, rfl⟩ := List.mem_map.1 hw
      simp [v4Char, (decimal_facts (h.bytes n hn)).2.1 c hc]
  obtain ⟨a, b, c, hos⟩ : ∃ a b c, e.octets = [a, b, c] := by
    match e.octets, h3 with
    | [a, b, c], _ => exact ⟨a, b, c, rfl⟩
  have hb : ∀ n ∈ e.octets, '.' ∉ decimal n := fun n hn => decimal_not (h.bytes n hn) rfl
  have hc255 : c ≤ 255 := h.bytes c (by simp [hos])
  have hs : join c!"." (e.octets.map decimal) = (decimal a ++ c!"." ++ (decimal b ++ c!".")) ++ decimal c := by
    simp [hos, join]
  have hend : endsWith c!"." (join c!"." (e.octets.map decimal)) = false := by
    rw [hs]
    exact ends_not _ _ (decimal_facts hc255).1 (decimal_not hc255 rfl)
  have hlen : (splitChar '.' (join c!"." (e.octets.map decimal))).length = 3 := by
    rw [splitChar_join '.' _ (by simp [hos]) (by
      intro w hw
      obtain ⟨n, hn, rfl⟩ := List.mem_map.1 hw
      exact hb n hn)]
    simpa using h3
  have hsl : hasSub c!"/" (join c!"." (e.octets.map decimal)) = false := by
    rw [Bool.eq_false_iff]
    intro hx
    have : '/' ∈ join c!"." (e.octets.map decimal) := by
      obtain ⟨u, v, e'⟩ := (hasSub_iff _ _).1 hx
      rw [← e']; simp
    exact absurd (hch _ this) (by decide)
  have hfmt : ∀ mask, formatNetwork dec (join c!"." (e.octets.map decimal)) mask =
      formatNetwork dec (join c!"." (e.octets.map decimal) ++ c!".") mask := by
    intro mask
    unfold formatNetwork
    simp only [hend, hlen, hsl, ends_dot, Bool.not_false, Bool.not_true, Bool.true_and, Bool.false_and, decide_true, Bool.true_or,
      if_true, Bool.false_eq_true, if_false, Bool.and_true]
  unfold shortText V4Entry.text
  rw [around_eq _ _ _ _ hm', around_eq _ _ _ _ hm', if_pos (by omega), extract_v4 _ _ _ _ (by rw [hs]; simp) hch hl hd,
    extract_v4 _ _ _ _ (by simp) (by
      intro c hc
      rcases List.mem_append.1 hc with hc | hc
      · exact hch c hc
      · rw [List.mem_singleton.1 hc]; decide) hl hd, hfmt]

/-! ### C125 -/

theorem netEntry_lookup (e : NetEntry) (h : e.Ok) :
    ∃ n, ipNets.extract e.text = some (e.excluded, some n) ∧ ∀ q, ipNets.mem n q = e.covers q := by
  cases e with
  | v4 e =>
    obtain ⟨n, h1, h2, h3⟩ := C123_v4_partial e h.1 h.2
    refine ⟨n, h1, ?_⟩
    intro q
    cases q with
    | v4 q => rw [Bool.eq_iff_iff, h2]; simp [NetEntry.covers]
    | v6 q => rw [h3]; rfl
  | v6 e =>
    obtain ⟨n, h1, h2, h3⟩ := C123_v6_partial e h.1 h.2
    refine ⟨n, h1, ?_⟩
    intro q
    cases q with
    | v6 q => rw [Bool.eq_iff_iff, h2]; simp [NetEntry.covers]
    | v4 q => rw [h3]; rfl

theorem contains_entries (es : List NetEntry) (h : ∀ e ∈ es, e.Ok) (q : Addr) :
    contains ipNets q (es.flatMap fun e => entryOf ipNets e.text) = some (listed es q) := by
  induction es with
  | nil => rfl
  | cons e es ih =>
    obtain ⟨n, h1, h2⟩ := netEntry_lookup e (h e (by simp))
    have := ih (fun e he => h e (List.mem_cons_of_mem _ he))
    simp only [List.flatMap_cons, entryOf, h1, List.cons_append, List.nil_append, contains, h2, listed, List.find?_cons]
    cases hc : e.covers q with
    | true => simp
    | false =>
      simp only [Bool.false_eq_true, if_false]
      simpa [entryOf, listed] using this

/-- **C125** (partial).  With the networks of `trusted_networks` written as documented, a lookup in the trusted
networks never fails; it says yes for loopback addresses, and for other addresses it says what the first entry
about the address says, no if there is none.  The same list serves for internal networks as long as none are
configured.  Missing: entries with a bit set after the prefix. -/
theorem C125_trusted_partial (es : List NetEntry) (h : ∀ e ∈ es, e.Ok) (q : Addr) :
    contains ipNets q (configure ipNets (es.map fun e => .trusted e.text)).trusted = some (loopback q || listed es q) ∧
    contains ipNets q (configure ipNets (es.map fun e => .trusted e.text)).internal = some (loopback q || listed es q) := by
  have ht : contains ipNets q (configure ipNets (es.map fun e => .trusted e.text)).trusted = some (loopback q || listed es q) := by
    unfold configure
    rw [trusted_shape]
    show contains ipNets q (alwaysAccepted ipNets ++ _) = _
    rw [contains_always]
    have := contains_entries es h q
    simp only [trustedEntries, List.flatMap_map]
    rw [this]
    cases loopback q <;> simp
  refine ⟨ht, ?_⟩
  rw [C27_coincide]
  · exact ht
  · intro op hop
    obtain ⟨e, _, rfl⟩ := List.mem_map.1 hop
    rfl

/-- **C125** (partial).  With internal networks as well, an address is internal exactly if it is a loopback one or
listed as internal, and trusted exactly if it is a loopback one or listed among both. -/
theorem C125_internal_partial (ts is : List NetEntry) (ht : ∀ e ∈ ts, e.Ok) (hi : ∀ e ∈ is, e.Ok) (h0 : is ≠ []) (q : Addr) :
    let ops : List NetOp := ts.map (fun e => .trusted e.text) ++ is.map (fun e => .internal e.text)
    contains ipNets q (configure ipNets ops).internal = some (loopback q || listed is q) ∧
    contains ipNets q (configure ipNets ops).trusted = some (loopback q || listed (ts ++ is) q) := by
  obtain ⟨e, is', rfl⟩ := List.exists_cons_of_ne_nil h0
  intro ops
  have hops : ops = ts.map (fun e => .trusted e.text) ++ .internal e.text :: is'.map (fun e => .internal e.text) := rfl
  obtain ⟨n, hn, _⟩ := netEntry_lookup e (hi e (by simp))
  have hsh := C27_internal_partial ipNets (ts.map (fun e => .trusted e.text)) (is'.map (fun e => .internal e.text)) e.text
    (by
      intro op hop
      obtain ⟨e, _, rfl⟩ := List.mem_map.1 hop
      rfl) (by rw [hn]; rfl)
  rw [← hops] at hsh
  obtain ⟨s1, s2⟩ := hsh
  constructor
  · rw [s1, contains_always]
    have := contains_entries (e :: is') hi q
    have e1 : internalEntries ipNets ops = (e :: is').flatMap fun e => entryOf ipNets e.text := by
      have e0 : ∀ ts : List NetEntry, (ts.flatMap fun _ => ([] : List (Entry Network))) = [] := by
        intro ts; induction ts <;> simp_all
      rw [hops]
      simp only [internalEntries, List.flatMap_append, List.flatMap_cons, List.flatMap_map, e0, List.nil_append]
    rw [e1, this]
    cases loopback q <;> simp
  · rw [s2, contains_always]
    have := contains_entries (ts ++ e :: is') (by
      intro x hx
      rcases List.mem_append.1 hx with hx | hx
      · exact ht x hx
      · exact hi x hx) q
    have e1 : trustedEntries ipNets ops = (ts ++ e :: is').flatMap fun e => entryOf ipNets e.text := by
      rw [hops]
      simp only [trustedEntries, List.flatMap_append, List.flatMap_cons, List.flatMap_map]
    rw [e1, this]
    cases loopback q <;> simp

/-- The entry is written as documented; the address may have bits set after the prefix. -/
def WellFormed : NetEntry → Prop
  | .v4 e => e.Ok
  | .v6 e => e.Ok

theorem ok_wellFormed {e : NetEntry} (h : e.Ok) : WellFormed e := by
  cases e <;> exact h.1

theorem netEntry_bad (e : NetEntry) (h : WellFormed e) (hb : ¬ e.Ok) : ipNets.extract e.text = some (e.excluded, none) := by
  cases e with
  | v4 e => exact C123_host_bits_violated e h (fun hn => hb ⟨h, hn⟩)
  | v6 e => exact C123_host_bits_v6_violated e h (fun hn => hb ⟨h, hn⟩)

/-- **C125 is violated** by networks written as documented, one of which, `bad`, has a bit set after its prefix: for an address
that no entry before `bad` is about, the lookup fails, whatever follows.  Only for the other addresses the answer is the one
expected. -/
theorem C125_host_bits_violated (good : List NetEntry) (bad : NetEntry) (more : List NetEntry) (h : ∀ e ∈ good, e.Ok)
    (hw : WellFormed bad) (hb : ¬ bad.Ok) (q : Addr) :
    let lookup := contains ipNets q (configure ipNets ((good ++ bad :: more).map fun e => .trusted e.text)).trusted
    (loopback q = false → (∀ e ∈ good, e.covers q = false) → lookup = none) ∧
    (loopback q = true ∨ (∃ e ∈ good, e.covers q = true) →
      lookup = some (loopback q || listed (good ++ bad :: more) q)) := by
  intro lookup
  have key : ∀ good : List NetEntry, (∀ e ∈ good, e.Ok) →
      contains ipNets q ((good ++ bad :: more).flatMap fun e => entryOf ipNets e.text) =
        if good.any (fun e => e.covers q) then some (listed (good ++ bad :: more) q) else none := by
    intro good
    induction good with
    | nil =>
      intro _
      simp [entryOf, netEntry_bad bad hw hb, contains]
    | cons e es ih =>
      intro h
      obtain ⟨n, h1, h2⟩ := netEntry_lookup e (h e (by simp))
      have := ih (fun e he => h e (List.mem_cons_of_mem _ he))
      have hlist : listed (e :: (es ++ bad :: more)) q = if e.covers q then !e.excluded else listed (es ++ bad :: more) q := by
        unfold listed
        rw [List.find?_cons]
        cases hc : e.covers q <;> rfl
      simp only [List.cons_append, List.flatMap_cons, hlist, List.any_cons]
      simp only [entryOf, h1, List.cons_append, List.nil_append, contains, h2]
      cases hc : e.covers q with
      | true => simp
      | false =>
        simp only [Bool.false_eq_true, if_false, Bool.false_or]
        exact this
  have hl : lookup = if loopback q then some true else
      if good.any (fun e => e.covers q) then some (listed (good ++ bad :: more) q) else none := by
    show contains ipNets q (configure _ _).trusted = _
    unfold configure
    rw [trusted_shape]
    show contains ipNets q (alwaysAccepted ipNets ++ _) = _
    rw [contains_always]
    simp only [trustedEntries, List.flatMap_map]
    rw [key good h]
  rw [hl]
  constructor
  · intro h1 h2
    rw [h1, if_neg (by simp), if_neg]
    intro ha
    obtain ⟨e, he, hc⟩ := List.any_eq_true.1 ha
    rw [h2 e he] at hc
    cases hc
  · rintro (h1 | ⟨e, he, hc⟩)
    · simp [h1]
    · cases h1 : loopback q with
      | true => simp
      | false =>
        rw [if_neg (by simp), if_pos (List.any_eq_true.2 ⟨e, he, hc⟩)]
        simp

/-- `trusted_networks 10.0.0.0/8 192.168.1.1/24`: the second entry spoils the lookup of 192.168.1.7, not that of 10.1.2.3. -/
example : (NetEntry.v4 ⟨false, false, [10, 0, 0, 0], some 8⟩).Ok ∧ WellFormed (.v4 ⟨false, false, [192, 168, 1, 1], some 24⟩) ∧
    ¬ (NetEntry.v4 ⟨false, false, [192, 168, 1, 1], some 24⟩).Ok ∧
    (NetEntry.v4 ⟨false, false, [10, 0, 0, 0], some 8⟩).covers (.v4 (fromBytes [10, 1, 2, 3])) = true ∧
    (NetEntry.v4 ⟨false, false, [10, 0, 0, 0], some 8⟩).covers (.v4 (fromBytes [192, 168, 1, 7])) = false := by
  refine ⟨⟨⟨by decide, by decide, by decide, by decide⟩, ?_⟩, ⟨by decide, by decide, by decide, by decide⟩, ?_, by decide, by decide⟩
  · unfold V4Entry.NoHostBits; decide
  · rintro ⟨_, h⟩
    revert h
    unfold V4Entry.NoHostBits; decide

end Verif.Props
