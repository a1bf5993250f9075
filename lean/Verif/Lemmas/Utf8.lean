import Verif.Model.Utf8

namespace Verif.Utf8

theorem charOf_toNat {low n : Nat} {c : Char} (h : charOf low n = some c) : c.toNat = n ∧ low ≤ n := by
  unfold charOf at h
  split at h
  · rename_i hv
    split at h
    · rename_i hl
      cases h
      refine ⟨?_, hl⟩
      simp [Char.toNat, Char.ofNatAux]
    · cases h
  · cases h

theorem charOf_self (c : Char) {low : Nat} (h : low ≤ c.toNat) : charOf low c.toNat = some c := by
  unfold charOf
  have hv : c.toNat.isValidChar := c.valid
  rw [dif_pos hv, if_pos h]
  congr 1

theorem toNat_lt (c : Char) : c.toNat < 0x110000 := by
  have := c.valid
  simp only [UInt32.isValidChar, Nat.isValidChar] at this
  show c.val.toNat < _
  omega

theorem isCont_mk (n : Nat) : isCont (128 + n % 64) = true := by
  simp only [isCont, Bool.and_eq_true, decide_eq_true_eq]; omega

theorem next_encChar (c : Char) (rest : Bytes) : next (encChar c ++ rest) = some (c, rest) := by
  have hlt := toNat_lt c
  unfold encChar
  generalize hn : c.toNat = n at *
  have self : ∀ {low}, low ≤ n → charOf low n = some c := by
    intro low h; rw [← hn]; exact charOf_self c (hn ▸ h)
  simp only
  split
  · rename_i h
    simp only [List.cons_append, List.nil_append, next]
    rw [if_pos h, self (Nat.zero_le _)]; rfl
  · rename_i h1
    split
    · rename_i h2
      have e : (192 + n / 64 - 192) * 64 + (128 + n % 64 - 128) = n := by omega
      simp only [List.cons_append, List.nil_append, next]
      rw [if_neg (by omega), if_neg (by omega), if_pos (by omega), if_pos (isCont_mk _), e, self (by omega)]; rfl
    · rename_i h2
      split
      · rename_i h3
        have e : (224 + n / 4096 - 224) * 4096 + (128 + n / 64 % 64 - 128) * 64 + (128 + n % 64 - 128) = n := by omega
        simp only [List.cons_append, List.nil_append, next]
        rw [if_neg (by omega), if_neg (by omega), if_neg (by omega), if_pos (by omega),
          if_pos (by rw [isCont_mk, isCont_mk]; rfl), e, self (by omega)]; rfl
      · rename_i h3
        have e : (240 + n / 262144 - 240) * 262144 + (128 + n / 4096 % 64 - 128) * 4096 +
            (128 + n / 64 % 64 - 128) * 64 + (128 + n % 64 - 128) = n := by omega
        simp only [List.cons_append, List.nil_append, next]
        rw [if_neg (by omega), if_neg (by omega), if_neg (by omega), if_neg (by omega), if_pos (by omega),
          if_pos (by rw [isCont_mk, isCont_mk, isCont_mk]; rfl), e, self (by omega)]; rfl

theorem next_some {b rest : Bytes} {c : Char} (h : next b = some (c, rest)) : b = encChar c ++ rest := by
  cases b with
  | nil => simp [next] at h
  | cons a r =>
    simp only [next] at h
    split at h
    · rename_i ha
      cases hc : charOf 0 a with
      | none => rw [hc] at h; cases h
      | some x =>
        rw [hc] at h; cases h
        have := (charOf_toNat hc).1
        simp only [encChar, this]; rw [if_pos ha]; rfl
    · rename_i ha
      split at h
      · cases h
      · rename_i ha2
        split at h
        · rename_i ha3
          split at h
          · rename_i b rest'
            split at h
            · rename_i hb
              cases hc : charOf 128 ((a - 192) * 64 + (b - 128)) with
              | none => rw [hc] at h; cases h
              | some x =>
                rw [hc] at h; cases h
                obtain ⟨e, l⟩ := charOf_toNat hc
                simp [isCont] at hb
                simp only [encChar, e]
                rw [if_neg (by omega), if_pos (by omega)]
                simp only [List.cons_append, List.nil_append, List.cons.injEq, and_true]
                omega
            · cases h
          · cases h
        · rename_i ha3
          split at h
          · rename_i ha4
            split at h
            · rename_i b c' rest'
              split at h
              · rename_i hb
                cases hc : charOf 2048 ((a - 224) * 4096 + (b - 128) * 64 + (c' - 128)) with
                | none => rw [hc] at h; cases h
                | some x =>
                  rw [hc] at h; cases h
                  obtain ⟨e, l⟩ := charOf_toNat hc
                  simp [isCont] at hb
                  simp only [encChar, e]
                  rw [if_neg (by omega), if_neg (by omega), if_pos (by omega)]
                  simp only [List.cons_append, List.nil_append, List.cons.injEq, and_true]
                  omega
              · cases h
            · cases h
          · rename_i ha4
            split at h
            · rename_i ha5
              split at h
              · rename_i b c' d rest'
                split at h
                · rename_i hb
                  cases hc : charOf 65536 ((a - 240) * 262144 + (b - 128) * 4096 + (c' - 128) * 64 + (d - 128)) with
                  | none => rw [hc] at h; cases h
                  | some x =>
                    rw [hc] at h; cases h
                    obtain ⟨e, l⟩ := charOf_toNat hc
                    simp [isCont] at hb
                    simp only [encChar, e]
                    rw [if_neg (by omega), if_neg (by omega), if_neg (by omega)]
                    simp only [List.cons_append, List.nil_append, List.cons.injEq, and_true]
                    omega
                · cases h
              · cases h
            · cases h

theorem encChar_length_pos (c : Char) : 0 < (encChar c).length := by
  unfold encChar; simp only
  split
  · simp
  · split
    · simp
    · split <;> simp

theorem decodeN_encode (s : Str) : ∀ (k : Nat), (encode s).length ≤ k → decodeN k (encode s) = some s := by
  induction s with
  | nil => intro k _; cases k <;> rfl
  | cons c s ih =>
    intro k hk
    have hp := encChar_length_pos c
    have e : encode (c :: s) = encChar c ++ encode s := rfl
    rw [e] at hk ⊢
    rw [List.length_append] at hk
    cases k with
    | zero => omega
    | succ k =>
      have hne : encChar c ++ encode s ≠ [] := by
        intro h
        rw [(List.append_eq_nil_iff.1 h).1] at hp
        simp at hp
      rw [decodeN, next_encChar]
      · simp only [ih k (by omega), Option.map_some]
      · exact hne

/-- Decoding undoes encoding. -/
theorem decode_encode (s : Str) : decode (encode s) = some s := decodeN_encode s _ (Nat.le_refl _)

theorem encode_of_decodeN (k : Nat) : ∀ {b : Bytes} {s : Str}, decodeN k b = some s → encode s = b := by
  induction k with
  | zero =>
    intro b s h
    cases b with
    | nil => cases h; rfl
    | cons a b => simp [decodeN] at h
  | succ k ih =>
    intro b s h
    cases b with
    | nil => cases h; rfl
    | cons a b =>
      simp only [decodeN] at h
      split at h
      · rename_i c rest hn
        cases hd : decodeN k rest with
        | none => rw [hd] at h; cases h
        | some s' =>
          rw [hd] at h; cases h
          show encChar c ++ encode s' = _
          rw [ih hd, next_some hn]
      · cases h

/-- Only encodings are decoded. -/
theorem encode_of_decode {b : Bytes} {s : Str} (h : decode b = some s) : encode s = b := encode_of_decodeN _ h

theorem decode_iff (b : Bytes) (s : Str) : decode b = some s ↔ encode s = b :=
  ⟨encode_of_decode, fun h => h ▸ decode_encode s⟩

theorem encode_append (a b : Str) : encode (a ++ b) = encode a ++ encode b := by
  simp [encode]

theorem encode_injective {a b : Str} (h : encode a = encode b) : a = b := by
  have := decode_encode a
  rw [h, decode_encode] at this
  exact (Option.some.inj this).symm

/-- ASCII text is encoded byte by byte. -/
theorem encode_ascii (s : Str) (h : ∀ c ∈ s, c.toNat < 128) : encode s = s.map Char.toNat := by
  induction s with
  | nil => rfl
  | cons c s ih =>
    show encChar c ++ encode s = _
    rw [ih (fun x hx => h x (List.mem_cons_of_mem _ hx))]
    simp [encChar, h c (List.mem_cons_self ..)]

/-- ASCII bytes always decode. -/
theorem decode_ascii (b : Bytes) (h : ∀ x ∈ b, x < 128) : ∃ s, decode b = some s := by
  suffices ∃ s, encode s = b from by
    obtain ⟨s, hs⟩ := this
    exact ⟨s, (decode_iff b s).2 hs⟩
  induction b with
  | nil => exact ⟨[], rfl⟩
  | cons x b ih =>
    obtain ⟨s, hs⟩ := ih (fun y hy => h y (List.mem_cons_of_mem _ hy))
    have hx := h x (List.mem_cons_self ..)
    have hv : x.isValidChar := by simp only [Nat.isValidChar]; omega
    have e : (Char.ofNatAux x hv).toNat = x := by simp [Char.toNat, Char.ofNatAux]
    refine ⟨Char.ofNatAux x hv :: s, ?_⟩
    show encChar _ ++ encode s = _
    rw [hs]
    simp only [encChar, e]
    rw [if_pos hx]; rfl

theorem decode_append {a b : Bytes} {s t : Str} (ha : decode a = some s) (hb : decode b = some t) :
    decode (a ++ b) = some (s ++ t) := by
  rw [decode_iff] at *
  rw [← ha, ← hb]; simp [encode]

/-- The last byte of a text is never the first byte of a longer encoding. -/
theorem last_encChar (c : Char) : ∃ l b, encChar c = l ++ [b] ∧ b < 0xC0 := by
  unfold encChar
  simp only
  split
  · exact ⟨[], _, rfl, by omega⟩
  · split
    · exact ⟨[_], _, rfl, by omega⟩
    · split
      · exact ⟨[_, _], _, rfl, by omega⟩
      · exact ⟨[_, _, _], _, rfl, by omega⟩

theorem decode_concat_none (b : Bytes) (x : Nat) (hx : 0xC0 ≤ x) : decode (b ++ [x]) = none := by
  cases h : decode (b ++ [x]) with
  | none => rfl
  | some s =>
    exfalso
    have e := encode_of_decode h
    rcases List.eq_nil_or_concat s with rfl | ⟨s', c, rfl⟩
    · simp [encode] at e
    · rw [List.concat_eq_append, encode_append] at e
      obtain ⟨l, y, hl, hy⟩ := last_encChar c
      have : encode [c] = l ++ [y] := by simp [encode, hl]
      rw [this, ← List.append_assoc] at e
      have := List.append_inj_right' e rfl
      simp at this
      omega

end Verif.Utf8
