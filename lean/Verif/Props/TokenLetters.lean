import Verif.Props.Tokens

/-!
# Words with accented letters

They are cut at these letters, and what is left is often too short to be kept.
-/

namespace Verif.Props
open Verif Py Re Tokens Spec

/-- What is split into words comes from one match of the expression. -/
theorem clean_piece {line w : Str} (h : w ∈ splitWs (clean line)) : ∃ x b a, Reads runsRe b x a ∧ w <:+: x := by
  obtain ⟨h1, hw⟩ := split_infix h
  have hb := blank_notin hw
  have h1 := (separator_infix _ _ [] (Nat.le_refl _) w hb).2 h1
  have h1 := (separator_infix _ _ [] (Nat.le_refl _) w hb).2 h1
  obtain ⟨x, hx, h2⟩ := infix_join hb hw.1 _ h1
  have hfind : ∀ (a : Str) (n : Nat) (b : Str), x ∈ findGo runsRe n b a → ∃ b' a', Reads runsRe b' x a' := by
    intro a
    induction a with
    | nil => intro n b h; cases n <;> · rw [findGo] at h; cases h
    | cons c cs ih =>
      intro n b h
      cases n with
      | succ n => rw [findGo] at h; exact ih _ _ h
      | zero =>
        rw [findGo] at h
        cases hmm : m runsRe ⟨b, c :: cs, []⟩ some with
        | none => rw [hmm] at h; exact ih _ _ h
        | some t =>
          rw [hmm] at h
          obtain ⟨v, h1, h2, h3⟩ := m_some_takes hmm
          rcases List.mem_cons.1 h with h | h
          · rw [h2] at h
            exact ⟨b, _, h ▸ h3⟩
          · exact ih _ _ h
  obtain ⟨b', a', hr⟩ := hfind _ _ _ hx
  exact ⟨x, b', a', hr, h2⟩

/-- What one match is: a run of ASCII, at most two characters, or bytes of UTF-8. -/
theorem runs_shape {b x a : Str} (h : Reads runsRe b x a) : (∀ c ∈ x, runChar c = true) ∨ x.length ≤ 2 ∨ Utf8Bytes x := by
  unfold runsRe at h
  simp only [alts] at h
  have hb : ∀ {lo hi : Nat} {c : Char}, between lo hi c = true → lo ≤ c.toNat ∧ c.toNat ≤ hi := by
    intro lo hi c hc
    simpa only [between, Bool.and_eq_true, decide_eq_true_eq] using hc
  rcases h with h | h | h | h | h
  · exact .inl (Reads.plus.1 h).2
  · obtain ⟨u, v, rfl, ⟨c, rfl, _⟩, ⟨d, rfl, _⟩⟩ := h
    exact .inr (.inl (by simp))
  · obtain ⟨u, v, rfl, ⟨c, rfl, hc⟩, hv⟩ := h
    obtain ⟨hl, hv⟩ := reads_times hv
    exact .inr (.inr ⟨c, v, rfl, fun c hc => hb (hv c hc), .inl ⟨(hb hc).1, (hb hc).2, hl⟩⟩)
  · obtain ⟨u, v, rfl, ⟨c, rfl, hc⟩, hv⟩ := h
    obtain ⟨hl, hv⟩ := reads_times hv
    exact .inr (.inr ⟨c, v, rfl, fun c hc => hb (hv c hc), .inr ⟨(hb hc).1, (hb hc).2, hl⟩⟩)
  · obtain ⟨c, rfl, _⟩ := h
    exact .inr (.inl (by simp))

/-- Every token of a message without headers comes from a word in ASCII, or from the bytes of one character in UTF-8 that was read as
Latin-1. -/
theorem C127_origin (C : Chew) (ui : List Str) (fuel : Nat) (msg : Mail) (l : List Str) (h : tokenise C ui fuel msg = .tokens l)
    (hh : msg.headers = []) (t : Str) (ht : t ∈ l) :
    ∃ w, Derived w t ∧ 3 ≤ w.length ∧ ((∀ c ∈ w, wordMark c) ∨ ∃ x, Utf8Bytes x ∧ w <:+: x) := by
  obtain ⟨_, word, pre, region, ts, hw, e, hts⟩ := (tokenise_tokens h).2 t ht
  have hr : region ≠ 0 := by
    obtain ⟨src, hsrc, e, _⟩ := hw
    unfold sources at hsrc
    rw [hh, tokeniseHeaders_nil, List.map_nil, List.append_nil] at hsrc
    rcases List.mem_append.1 hsrc with hsrc | hsrc
    all_goals
      obtain ⟨line, _, rfl⟩ := List.mem_map.1 hsrc
      simp at e
      omega
  obtain ⟨rfl, rfl, hW, -⟩ := body_word hw hr
  obtain ⟨src, hsrc, e', hsp⟩ := hw
  obtain ⟨x, b, a, hx, hi⟩ := clean_piece hsp
  have hin : trim word <:+: x := (trim_infix word).trans hi
  rcases wordTokens_some e with ⟨rfl, _⟩ | ⟨h3, hs, hk⟩
  · cases hts
  · refine ⟨trim word, keep_derived ?_, h3, ?_⟩
    · rcases hk with ⟨rfl, _⟩ | ⟨rfl, _⟩
      · rcases List.mem_cons.1 hts with h | h
        · cases h
        · exact h
      · exact hts
    · rcases runs_shape hx with hr | hr | hr
      · left
        intro c hc
        have h1 := hr c (hin.subset hc)
        have h2 := hW.2 c ((trim_infix word).subset hc)
        simp only [runChar, Bool.or_eq_true] at h1
        rcases h1 with (h1 | h1) | h1
        · exact .inl h1
        · exact .inr (List.contains_iff_mem.1 h1)
        · rw [h2] at h1; cases h1
      · have := hin.length_le
        omega
      · exact .inr ⟨x, hr, hin⟩

theorem toLower_ascii (c : Char) : c.toLower.toNat < 128 ↔ c.toNat < 128 := by
  unfold Char.toLower
  split
  · rename_i h
    have h1 : 65 ≤ c.toNat := h.1
    have h2 : c.toNat ≤ 90 := h.2
    constructor
    · intro _; omega
    · intro _
      have : (c.val + ('a'.val - 'A'.val)).toNat = c.toNat + 32 := by
        rw [UInt32.toNat_add]
        show (c.toNat + 32) % 4294967296 = c.toNat + 32
        omega
      show (c.val + ('a'.val - 'A'.val)).toNat < 128
      omega
  · exact Iff.rfl

/-- No token of such a message has both a letter of ASCII and an accented one: a word like "für" is not a token. -/
theorem C127_accents_violated (C : Chew) (ui : List Str) (fuel : Nat) (msg : Mail) (l : List Str) (h : tokenise C ui fuel msg = .tokens l)
    (hh : msg.headers = []) (t : Str) (ht : t ∈ l) :
    (∀ c ∈ t, c.toNat < 128) ∨ ∀ c ∈ t, 128 ≤ c.toNat := by
  obtain ⟨w, hd, h3, hw⟩ := C127_origin C ui fuel msg l h hh t ht
  rcases hw with hw | ⟨x, ⟨a, rest, rfl, hr, ha⟩, hx⟩
  · left
    have hw : ∀ c ∈ w, c.toNat < 128 := fun c hc => (mark_facts (hw c hc)).2.1
    have hp : ∀ s, s ∈ [c!"sk:", c!"8:"] → ∀ c ∈ s, c.toNat < 128 := by decide
    clear h3 ht
    induction hd with
    | same => exact hw
    | lower _ ih =>
      intro c hc
      obtain ⟨d, hd, rfl⟩ := List.mem_map.1 hc
      exact (toLower_ascii d).2 (ih d hd)
    | letters _ ih => exact fun c hc => ih c (List.mem_filter.1 hc).1
    | short _ =>
      intro c hc
      rcases List.mem_append.1 hc with hc | hc
      · exact hp _ (by simp) c hc
      · exact hw c (List.mem_of_mem_take hc)
    | tail n _ =>
      intro c hc
      rcases List.mem_append.1 hc with hc | hc
      · exact hp _ (by simp) c hc
      · exact hw c (List.mem_of_mem_drop hc)
  · right
    have hlen : w.length ≤ 4 := by
      have := hx.length_le
      simp only [List.length_cons] at this
      omega
    have hw : ∀ c ∈ w, 128 ≤ c.toNat := by
      intro c hc
      rcases List.mem_cons.1 (hx.subset hc) with rfl | hc
      · omega
      · exact (hr c hc).1
    clear h3 ht
    induction hd with
    | same => exact hw
    | lower _ ih =>
      intro c hc
      obtain ⟨d, hd, rfl⟩ := List.mem_map.1 hc
      have h1 := ih d hd
      have h2 := toLower_ascii d
      omega
    | letters _ ih => exact fun c hc => ih c (List.mem_filter.1 hc).1
    | short h => omega
    | tail n h => omega

-- A word in ASCII and bytes of UTF-8 are tokens; accented letters cut words apart.
set_option maxRecDepth 8000 in
example : tokenise plainChew [] 3 ⟨some ['f', 'ü', 'r', ' ', 'ï', '¿', '¿', ' ', 'C', 'h', 'e', 'a', 'p'], [], []⟩ =
    .tokens [c!"ï", ['ï', '¿', '¿'], c!"Cheap", c!"cheap"] := by decide +kernel

end Verif.Props
