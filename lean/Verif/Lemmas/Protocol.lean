import Verif.Model.Protocol
import Verif.Lemmas.Utf8
import Verif.Lemmas.ParserLines
import Verif.Lemmas.Py

namespace Verif.Protocol
open Verif Py Utf8

theorem encChar_byte_ge (c : Char) (h : 128 ≤ c.toNat) : ∀ b ∈ encChar c, 128 ≤ b := by
  intro b hb
  unfold encChar at hb
  simp only at hb
  split at hb
  · omega
  split at hb
  · simp at hb; omega
  split at hb
  · simp at hb; omega
  · simp at hb; omega

theorem encChar_small {c : Char} {b : Nat} (hb : b ∈ encChar c) (h : b < 128) : b = c.toNat := by
  by_cases hc : 128 ≤ c.toNat
  · have := encChar_byte_ge c hc b hb
    omega
  · unfold encChar at hb
    simp only at hb
    rw [if_pos (by omega)] at hb
    simpa using hb

theorem lf_not_mem_encode {s : Str} (h : '\n' ∉ s) : 10 ∉ encode s := by
  intro hm
  obtain ⟨c, hc, hb⟩ := List.mem_flatMap.1 hm
  have := encChar_small hb (by omega)
  apply h
  have e : c = '\n' := by
    apply Char.ext
    apply UInt32.toNat.inj
    exact this.symm
  rwa [e] at hc

theorem cutLine_lf (a rest : Bytes) (h : 10 ∉ a) : cutLine (a ++ 10 :: rest) = (a ++ [10], rest) := by
  induction a with
  | nil => simp [cutLine]
  | cons b a ih =>
    simp only [List.mem_cons, not_or] at h
    simp only [List.cons_append, cutLine, if_neg (Ne.symm h.1), ih h.2]

theorem cutLine_end (a : Bytes) (h : 10 ∉ a) : cutLine a = (a, []) := by
  induction a with
  | nil => rfl
  | cons b a ih =>
    simp only [List.mem_cons, not_or] at h
    simp only [cutLine, if_neg (Ne.symm h.1), ih h.2]

theorem encode_lf : encode ['\n'] = [10] := by decide

theorem decode_line (s : Str) : decode (encode s ++ [10]) = some (s ++ ['\n']) := by
  have : encode s ++ [10] = encode (s ++ ['\n']) := by rw [encode_append, encode_lf]
  rw [this, decode_encode]

theorem strip_lf (s : Str) : strip (s ++ ['\n']) = strip s :=
  Verif.Parser.strip_append_ws s ['\n'] (by decide)

/-- Reading a line that is text. -/
theorem readline_text (s : Str) (h : '\n' ∉ s) (rest : Bytes) (g : List Nat) :
    Conn.readline ⟨encode s ++ 10 :: rest, g⟩ = (encode s ++ [10], ⟨rest, g⟩) := by
  simp [Conn.readline, cutLine_lf _ _ (lf_not_mem_encode h)]

theorem readline_closed (g : List Nat) : Conn.readline ⟨[], g⟩ = ([], ⟨[], g⟩) := rfl

/-! ### Options -/

theorem optionLoop_blank (k : Nat) (d : Dict Str Str) (w : Str) (hw : '\n' ∉ w) (hb : strip w = []) (rest : Bytes)
    (g : List Nat) : optionLoop (k + 1) d ⟨encode w ++ 10 :: rest, g⟩ = (.ok d, ⟨rest, g⟩) := by
  simp only [optionLoop, readline_text w hw, decode_line, strip_lf, hb, if_true]

theorem optionLoop_closed (k : Nat) (d : Dict Str Str) (g : List Nat) :
    optionLoop (k + 1) d ⟨[], g⟩ = (.ok d, ⟨[], g⟩) := by
  have h1 : decode [] = some [] := rfl
  have h2 : strip [] = [] := rfl
  simp only [optionLoop, readline_closed, h1, h2, if_true]

theorem optionLoop_bad (k : Nat) (d : Dict Str Str) (s : Str) (hs : '\n' ∉ s) (hb : strip s ≠ []) (hc : ':' ∉ strip s)
    (rest : Bytes) (g : List Nat) :
    optionLoop (k + 1) d ⟨encode s ++ 10 :: rest, g⟩ = (.error (.invalidOption badHeader), ⟨rest, g⟩) := by
  have : split1 c!":" (strip s) = none := by
    rw [split1_none_iff]
    rintro ⟨a, b, e⟩
    exact hc (by rw [← e]; simp)
  simp only [optionLoop, readline_text s hs, decode_line, strip_lf, if_neg hb, this]

theorem optionLoop_option (k : Nat) (d : Dict Str Str) (s n v : Str) (hs : '\n' ∉ s) (he : strip s = n ++ ':' :: v)
    (hn : ':' ∉ n) (rest : Bytes) (g : List Nat) :
    optionLoop (k + 1) d ⟨encode s ++ 10 :: rest, g⟩ =
      optionLoop k (Dict.set d (lower n) (strip v)) ⟨rest, g⟩ := by
  have h1 : strip s ≠ [] := by rw [he]; simp
  have h2 : split1 c!":" (strip s) = some (n, v) := by rw [he]; exact split1_char_append v hn
  conv => lhs; unfold optionLoop
  simp only [readline_text s hs, decode_line, strip_lf, if_neg h1, h2]

theorem optionLoop_undecodable (k : Nat) (d : Dict Str Str) (c : Conn) (h : decode c.readline.1 = none) :
    optionLoop (k + 1) d c = (.error .other, c.readline.2) := by
  simp only [optionLoop, h]

/-! ### The message -/

/-- The bytes of the message. -/
def want (left : Option Nat) (data : Bytes) : Bytes :=
  match left with
  | none => data
  | some n => data.take n

/-- The bytes after it. -/
def after (left : Option Nat) (data : Bytes) : Bytes :=
  match left with
  | none => []
  | some n => data.drop n

theorem want_append_after (left : Option Nat) (data : Bytes) : want left data ++ after left data = data := by
  cases left <;> simp [want, after]

theorem messageLoop_spec (k : Nat) : ∀ (left : Option Nat) (acc : Str) (c : Conn), c.data.length < k →
    (∃ m, (messageLoop k left acc c).1 = .ok (acc ++ m) ∧ encode m = want left c.data ∧
      (messageLoop k left acc c).2.data = after left c.data) ∨
    ((messageLoop k left acc c).1 = .error .other ∧ (∃ b ∈ want left c.data, 128 ≤ b) ∧
      ∃ p, p ++ (messageLoop k left acc c).2.data = c.data ∧ p <+: want left c.data) := by
  induction k with
  | zero => intro left acc c h; omega
  | succ k ih =>
    intro left acc c hk
    by_cases h0 : left = some 0
    · left
      subst h0
      refine ⟨[], ?_, ?_, ?_⟩ <;> simp [messageLoop, want, after, encode]
    · have hasked : 1 ≤ min (left.getD chunkSize) chunkSize := by
        cases left with
        | none => simp [chunkSize]
        | some n =>
          have : n ≠ 0 := fun e => h0 (by rw [e])
          simp [chunkSize]; omega
      have hread : ∃ j, 1 ≤ j ∧ j ≤ min (left.getD chunkSize) chunkSize ∧
          c.read (min (left.getD chunkSize) chunkSize) = (c.data.take j, ⟨c.data.drop j, c.gives.tail⟩) := by
        unfold Conn.read
        cases hg : c.gives with
        | nil => exact ⟨_, hasked, Nat.le_refl _, rfl⟩
        | cons g gs => exact ⟨min (min (left.getD chunkSize) chunkSize) (max 1 g), by omega, by omega, rfl⟩
      obtain ⟨j, hj1, hj2, hr⟩ := hread
      by_cases he : c.data = []
      · left
        refine ⟨[], ?_, ?_, ?_⟩
        · simp only [messageLoop, if_neg h0, hr, he]; simp
        · cases left <;> simp [want, he, encode]
        · simp only [messageLoop, if_neg h0, hr, he]
          cases left <;> simp [after]
      · have hne : c.data.take j ≠ [] := by
          cases hd : c.data with
          | nil => exact absurd hd he
          | cons x xs =>
            cases j with
            | zero => omega
            | succ j => simp
        have hlen : (c.data.take j).length = min j c.data.length := List.length_take
        have hpos : 0 < c.data.length := List.length_pos_iff.2 he
        have hwant : ∀ n, left = some n → j ≤ n := by
          intro n e; subst e; simp at hj2; omega
        have hpre : c.data.take j <+: want left c.data := by
          cases left with
          | none => exact List.take_prefix _ _
          | some n => exact List.take_prefix_take_left (hwant n rfl)
        cases hd : decode (c.data.take j) with
        | none =>
          right
          refine ⟨by simp only [messageLoop, if_neg h0, hr, if_neg hne, hd], ?_, c.data.take j, ?_, hpre⟩
          · apply Classical.byContradiction
            intro hcon
            have hsm : ∀ x ∈ c.data.take j, x < 128 := by
              intro x hx
              apply Classical.byContradiction
              intro hge
              obtain ⟨t, ht⟩ := hpre
              exact hcon ⟨x, by rw [← ht]; exact List.mem_append_left _ hx, by omega⟩
            obtain ⟨s, hs⟩ := decode_ascii _ hsm
            rw [hd] at hs; cases hs
          · simp only [messageLoop, if_neg h0, hr, if_neg hne, hd]
            exact List.take_append_drop _ _
        | some s =>
          have hstep : messageLoop (k + 1) left acc c =
              messageLoop k (left.map (· - (c.data.take j).length)) (acc ++ s) ⟨c.data.drop j, c.gives.tail⟩ := by
            conv => lhs; unfold messageLoop
            simp only [if_neg h0, hr, if_neg hne, hd]
          have hw : c.data.take j ++ want (left.map (· - (c.data.take j).length)) (c.data.drop j) = want left c.data := by
            cases left with
            | none => simp [want]
            | some n =>
              have := hwant n rfl
              simp only [want, Option.map_some, hlen]
              by_cases hjl : j ≤ c.data.length
              · rw [Nat.min_eq_left hjl]
                have e : n = j + (n - j) := by omega
                conv => rhs; rw [e]
                rw [List.take_add]
              · rw [List.drop_eq_nil_of_le (by omega)]
                simp [List.take_of_length_le, show c.data.length ≤ j from by omega, show c.data.length ≤ n from by omega]
          have ha : after (left.map (· - (c.data.take j).length)) (c.data.drop j) = after left c.data := by
            cases left with
            | none => simp [after]
            | some n =>
              have := hwant n rfl
              simp only [after, Option.map_some, hlen, List.drop_drop]
              by_cases hjl : j ≤ c.data.length
              · rw [Nat.min_eq_left hjl]; congr 1; omega
              · rw [List.drop_eq_nil_of_le (by omega), List.drop_eq_nil_of_le (by omega)]
          rw [hstep]
          rcases ih (left.map (· - (c.data.take j).length)) (acc ++ s) ⟨c.data.drop j, c.gives.tail⟩
              (by simp only [List.length_drop]; omega) with ⟨m, h1, h2, h3⟩ | ⟨h1, ⟨b, hb, hb'⟩, p, hp, hp'⟩
          · left
            refine ⟨s ++ m, by rw [h1, List.append_assoc], ?_, by rw [h3]; exact ha⟩
            rw [encode_append, h2, encode_of_decode hd, hw]
          · right
            refine ⟨h1, ⟨b, by rw [← hw]; exact List.mem_append_right _ hb, hb'⟩, c.data.take j ++ p, ?_, ?_⟩
            · rw [List.append_assoc, hp]; exact List.take_append_drop _ _
            · rw [← hw]; exact (List.prefix_append_right_inj _).2 hp'

end Verif.Protocol
