import Verif.Lemmas.Skip
import Verif.Lemmas.Gets
import Verif.Spec.Fields

/-!
# What the expression for addresses reads between delimiters
-/

namespace Verif.ReceivedRe
open Verif Py Re Spec Received
open Verif.Spec.Fields (Octet Quad SmallPart Address Port)

/-- A digit by its number. -/
def dig (k : Fin 10) : Char := Char.ofNat (48 + k.val)

theorem dig_of {c : Char} (h : c.isDigit = true) : ∃ k, c = dig k := by
  simp only [Char.isDigit, Bool.and_eq_true, decide_eq_true_eq] at h
  have h1 : 48 ≤ c.toNat := h.1
  have h2 : c.toNat ≤ 57 := h.2
  refine ⟨⟨c.toNat - 48, by omega⟩, ?_⟩
  unfold dig
  have : 48 + (c.toNat - 48) = c.toNat := by omega
  simp only [this]
  exact (Char.ofNat_toNat c).symm

theorem octet_text {b w a : Str} (h : Reads octet b w a) : octetText w = true := by
  have dg : ∀ {x : Char}, digit x = true → digit x = true := id
  rcases h with h | h | h | h | h
  · obtain ⟨_, _, rfl, h1, _, _, rfl, ⟨y, rfl, hy⟩, z, rfl, hz⟩ := h
    rw [Reads.lit.1 h1]; simp [octetText, hy, hz]
  · obtain ⟨_, _, rfl, h1, _, _, rfl, ⟨y, rfl, hy⟩, z, rfl, hz⟩ := h
    rw [Reads.lit.1 h1]; simp [octetText, hy, hz]
  · obtain ⟨_, _, rfl, h1, z, rfl, hz⟩ := h
    rw [Reads.lit.1 h1]; simp [octetText, hz]
  · obtain ⟨_, _, rfl, ⟨y, rfl, hy⟩, z, rfl, hz⟩ := h
    simp [octetText, hy, hz]
  · obtain ⟨z, rfl, hz⟩ := h
    simp [octetText, hz]

set_option maxRecDepth 8000 in
theorem three_digits : ∀ i j k : Fin 10, octetText [dig i, dig j, dig k] = true →
    100 * i.val + 10 * j.val + k.val ≤ 255 ∧ [dig i, dig j, dig k] = decimal (100 * i.val + 10 * j.val + k.val) := by decide +kernel

theorem two_digits : ∀ i j : Fin 10, (10 * i.val + j.val ≤ 255 ∧ [dig i, dig j] = decimal (10 * i.val + j.val)) ∨
    (j.val < 10 ∧ [dig i, dig j] = '0' :: decimal j.val) := by decide +kernel

theorem one_digit : ∀ i : Fin 10, i.val ≤ 255 ∧ [dig i] = decimal i.val := by decide +kernel

theorem octetText_zero : ∀ i : Fin 10, octetText ('0' :: decimal i.val) = true := by decide +kernel

theorem octet_iff {b w a : Str} : Reads octet b w a ↔ Octet w := by
  constructor
  · intro h
    have ht := octet_text h
    obtain ⟨_, hd⟩ := octet_reads h
    match w, ht, hd with
    | [x], ht, hd =>
      obtain ⟨i, rfl⟩ := dig_of (hd x (by simp))
      exact ⟨i.val, (one_digit i).1, .inl (one_digit i).2⟩
    | [x, y], ht, hd =>
      obtain ⟨i, rfl⟩ := dig_of (hd x (by simp))
      obtain ⟨j, rfl⟩ := dig_of (hd y (by simp))
      rcases two_digits i j with h | h
      · exact ⟨_, h.1, .inl h.2⟩
      · exact ⟨_, by omega, .inr h⟩
    | [x, y, z], ht, hd =>
      obtain ⟨i, rfl⟩ := dig_of (hd x (by simp))
      obtain ⟨j, rfl⟩ := dig_of (hd y (by simp))
      obtain ⟨k, rfl⟩ := dig_of (hd z (by simp))
      have := three_digits i j k ht
      exact ⟨_, this.1, .inl this.2⟩
    | [], ht, _ => simp [octetText] at ht
    | _ :: _ :: _ :: _ :: _, ht, _ => simp [octetText] at ht
  · rintro ⟨n, hn, rfl | ⟨h, rfl⟩⟩
    · exact octet_of_text (decimal_octet hn)
    · exact octet_of_text (octetText_zero ⟨n, h⟩)

theorem quad_iff {b w a : Str} : Reads quad b w a ↔ Quad w := by
  constructor
  · rintro ⟨p, _, rfl, hp, _, _, rfl, h1, q, _, rfl, hq, _, _, rfl, h2, r, _, rfl, hr, _, s, rfl, h3, hs⟩
    rw [Reads.lit] at h1 h2 h3
    subst h1 h2 h3
    exact ⟨p, q, r, s, octet_iff.1 hp, octet_iff.1 hq, octet_iff.1 hr, octet_iff.1 hs, by simp⟩
  · rintro ⟨p, q, r, s, hp, hq, hr, hs, rfl⟩
    exact ⟨p, _, by simp only [List.append_assoc], octet_iff.2 hp, c!".", _, rfl, Reads.lit.2 rfl, q, _, rfl, octet_iff.2 hq, c!".", _, rfl,
      Reads.lit.2 rfl, r, _, rfl, octet_iff.2 hr, c!".", s, rfl, Reads.lit.2 rfl, octet_iff.2 hs⟩

theorem small_iff {s : Str} : SmallPart s ↔ LowHex s := by
  constructor
  · rintro ⟨h1, h2⟩; exact lowHex_of_hextet h1 h2
  · intro h
    refine ⟨hextet_of_lowHex h, fun c hc => ?_⟩
    have := h.2.2 c hc
    cases hu : c.isUpper with
    | false => rfl
    | true =>
      exfalso
      simp only [hex, Bool.or_eq_true, Bool.and_eq_true, decide_eq_true_eq, Char.isDigit] at this
      simp only [Char.isUpper, Bool.and_eq_true, decide_eq_true_eq] at hu
      have h1 : 65 ≤ c.toNat := hu.1
      have h2 : c.toNat ≤ 90 := hu.2
      rcases this with h | h
      · have : c.toNat ≤ 57 := h.2
        omega
      · have : 97 ≤ c.toNat := h.1
        omega

theorem low_iff {f : V6Form} : f.Ok ∧ f.LowerCase ↔ Low f := by
  constructor
  · rintro ⟨h1, h2⟩
    have up : ∀ p ∈ parts f, ∀ c ∈ p, c ∈ f.text := by
      have mj : ∀ l : List Str, ∀ p ∈ l, ∀ c ∈ p, c ∈ join c!":" l := by
        intro l
        induction l with
        | nil => intro p hp; simp at hp
        | cons x l ih =>
          intro p hp c hc
          cases l with
          | nil => simp at hp; subst hp; simpa [join] using hc
          | cons y l =>
            rw [join]
            rcases List.mem_cons.1 hp with rfl | hp
            · simp [hc]
            · exact List.mem_append_right _ (ih p hp c hc)
      cases f with
      | full ps => exact mj ps
      | short hi lo =>
        intro p hp c hc
        show c ∈ join c!":" hi ++ c!"::" ++ join c!":" lo
        rcases List.mem_append.1 hp with hp | hp
        · exact List.mem_append_left _ (List.mem_append_left _ (mj hi p hp c hc))
        · exact List.mem_append_right _ (mj lo p hp c hc)
    refine ⟨h1, fun p hp => ?_⟩
    have hx : Hextet p := by
      cases f with
      | full ps => exact h1.2 p hp
      | short hi lo =>
        rcases List.mem_append.1 hp with hp | hp
        · exact h1.2.1 p hp
        · exact h1.2.2 p hp
    exact lowHex_of_hextet hx (fun c hc => h2 c (up p hp c hc))
  · intro h
    refine ⟨h.1, fun c hc => ?_⟩
    have := low_chars h c hc
    cases hu : c.isUpper with
    | false => rfl
    | true =>
      exfalso
      simp only [hexColon, hex, Bool.or_eq_true, Bool.and_eq_true, decide_eq_true_eq, Char.isDigit] at this
      simp only [Char.isUpper, Bool.and_eq_true, decide_eq_true_eq] at hu
      have h1 : 65 ≤ c.toNat := hu.1
      have h2 : c.toNat ≤ 90 := hu.2
      rcases this with (h | h) | h
      · have : c.toNat ≤ 57 := h.2
        omega
      · have : 97 ≤ c.toNat := h.1
        omega
      · simp at h; subst h; exact absurd h1 (by decide)

/-- The texts before the four numbers. -/
inductive Head : Str → Prop
  | full {l : List Str} (h6 : l.length = 6) (h : ∀ x ∈ l, LowHex x) : Head (after l)
  | short {hi lo : List Str} (h5 : hi.length + lo.length ≤ 5) (h1 : ∀ x ∈ hi, LowHex x) (h2 : ∀ x ∈ lo, LowHex x) :
      Head ((if hi = [] then c!":" else after hi) ++ c!":" ++ after lo)

theorem head_iff {b w a : Str} : Reads v6head b w a ↔ Head w := by
  unfold v6head
  rw [reads_alts (by simp)]
  have tv := fun {n b w a} => @reads_timesVia h4c LowHex (· ++ c!":") reads_h4c n b w a
  have rv := fun {lo hi b w a} (h : lo ≤ hi) => @reads_repVia h4c LowHex (· ++ c!":") reads_h4c lo hi h b w a
  constructor
  · rintro ⟨r, hr, h⟩
    simp only [List.mem_cons, List.not_mem_nil, or_false] at hr
    rcases hr with rfl | rfl | rfl | rfl | rfl | rfl | rfl
    · obtain ⟨l, h1, h2, rfl⟩ := tv.1 h
      exact .full h1 h2
    · obtain ⟨u, v, rfl, hu, hv⟩ := h
      obtain ⟨l, _, h1, h2, rfl⟩ := (rv (by omega)).1 hv
      rw [Reads.lit.1 hu]
      exact Head.short (hi := []) (lo := l) (by simpa using h1) (by simp) h2
    · obtain ⟨u, v, rfl, hu, hv⟩ := h
      obtain ⟨l, h0, h1, h2, rfl⟩ := (rv (by omega)).1 hu
      rw [Reads.lit.1 hv]
      have := Head.short (hi := l) (lo := []) (by simpa using h1) h2 (by simp)
      rw [if_neg (by rintro rfl; simp at h0)] at this
      simpa [after] using this
    · obtain ⟨u, _, rfl, hu, v, w, rfl, hv, hw⟩ := h
      obtain ⟨l, h0, h1, h2, rfl⟩ := (rv (by omega)).1 hw
      rw [Reads.lit.1 hv]
      have := Head.short (hi := [u]) (lo := l) (by simp; omega) (by simpa using (reads_h4 _ _ _).1 hu) h2
      simpa [after] using this
    · obtain ⟨u, _, rfl, hu, v, w, rfl, hv, hw⟩ := h
      obtain ⟨l, h0, h1, h2, rfl⟩ := (rv (by omega)).1 hw
      obtain ⟨l', h1', h2', rfl⟩ := tv.1 hu
      rw [Reads.lit.1 hv]
      have := Head.short (hi := l') (lo := l) (by omega) h2' h2
      rw [if_neg (by rintro rfl; simp at h1')] at this
      simpa [after] using this
    · obtain ⟨u, _, rfl, hu, v, w, rfl, hv, hw⟩ := h
      obtain ⟨l, h0, h1, h2, rfl⟩ := (rv (by omega)).1 hw
      obtain ⟨l', h1', h2', rfl⟩ := tv.1 hu
      rw [Reads.lit.1 hv]
      have := Head.short (hi := l') (lo := l) (by omega) h2' h2
      rw [if_neg (by rintro rfl; simp at h1')] at this
      simpa [after] using this
    · obtain ⟨u, _, rfl, hu, v, w, rfl, hv, hw⟩ := h
      obtain ⟨x, hx, rfl⟩ := (reads_h4c _ _ _).1 hw
      obtain ⟨l', h1', h2', rfl⟩ := tv.1 hu
      rw [Reads.lit.1 hv]
      have := Head.short (hi := l') (lo := [x]) (by simp; omega) h2' (by simpa using hx)
      rw [if_neg (by rintro rfl; simp at h1')] at this
      simpa [after] using this
  · intro h
    cases h with
    | @full l h6 h => exact ⟨times h4c 6, by simp, tv.2 ⟨l, h6, h, rfl⟩⟩
    | @short hi lo h5 h1 h2 =>
      by_cases e1 : hi = []
      · subst e1
        refine ⟨.seq (lit c!"::") (rep h4c 0 5), by simp, c!"::", after lo, by simp, Reads.lit.2 rfl, ?_⟩
        exact (rv (by omega)).2 ⟨lo, by simp, by simpa using h5, h2, rfl⟩
      · rw [if_neg e1]
        have p1 := List.length_pos_iff.2 e1
        by_cases e2 : lo = []
        · subst e2
          refine ⟨.seq (rep h4c 1 5) (lit c!":"), by simp, after hi, c!":", by simp [after], ?_, Reads.lit.2 rfl⟩
          exact (rv (by omega)).2 ⟨hi, p1, by simpa using h5, h1, rfl⟩
        · have p2 := List.length_pos_iff.2 e2
          have : hi.length = 1 ∨ hi.length = 2 ∨ hi.length = 3 ∨ hi.length = 4 := by omega
          rcases this with hn | hn | hn | hn
          · obtain ⟨x, rfl⟩ := List.length_eq_one_iff.1 hn
            refine ⟨seqs [h4, lit c!"::", rep h4c 1 4], by simp, x, c!"::" ++ after lo, by simp [after], (reads_h4 _ _ _).2 (h1 x (by simp)),
              c!"::", after lo, rfl, Reads.lit.2 rfl, ?_⟩
            exact (rv (by omega)).2 ⟨lo, p2, by simp at h5; omega, h2, rfl⟩
          · refine ⟨seqs [times h4c 2, lit c!":", rep h4c 1 3], by simp, after hi, c!":" ++ after lo, by simp, tv.2 ⟨hi, hn, h1, rfl⟩,
              c!":", after lo, rfl, Reads.lit.2 rfl, ?_⟩
            exact (rv (by omega)).2 ⟨lo, p2, by omega, h2, rfl⟩
          · refine ⟨seqs [times h4c 3, lit c!":", rep h4c 1 2], by simp, after hi, c!":" ++ after lo, by simp, tv.2 ⟨hi, hn, h1, rfl⟩,
              c!":", after lo, rfl, Reads.lit.2 rfl, ?_⟩
            exact (rv (by omega)).2 ⟨lo, p2, by omega, h2, rfl⟩
          · obtain ⟨y, rfl⟩ := List.length_eq_one_iff.1 (show lo.length = 1 by omega)
            refine ⟨seqs [times h4c 4, lit c!":", h4c], by simp, after hi, c!":" ++ after [y], by simp, tv.2 ⟨hi, hn, h1, rfl⟩,
              c!":", after [y], rfl, Reads.lit.2 rfl, ?_⟩
            exact (reads_h4c _ _ _).2 ⟨y, h2 y (by simp), by simp [after]⟩

/-- An IPv6 address, perhaps with an IPv4 address at its end. -/
inductive Six : Str → Prop
  | plain {f : V6Form} (h : Low f) : Six f.text
  | mixed {w q : Str} (h : Head w) (hq : Quad q) : Six (w ++ q)

theorem quad_hasDot {q : Str} (h : Quad q) : '.' ∈ q := by
  obtain ⟨p, q, r, s, _, _, _, _, rfl⟩ := h
  simp

theorem ipv6_iff {b w a : Str} : Reads ipv6 b w a ↔ Six w := by
  constructor
  · intro h
    by_cases hd : '.' ∈ w
    · have h' : Reads (.alt (.seq v6head quad) (alts [.seq (times h4c 7) h4, .seq (lit c!":") (rep ch4 1 7), .seq (rep h4c 1 7) (lit c!":"),
          seqs [h4, lit c!":", rep ch4 1 6], .seq (times h4c 2) (rep ch4 1 5), .seq (times h4c 3) (rep ch4 1 4), .seq (times h4c 4) (rep ch4 1 3),
          .seq (times h4c 5) (rep ch4 1 2), seqs [times h4c 6, lit c!":", h4], lit c!"::"])) b w a := h
      rcases h' with ⟨u, v, rfl, hu, hv⟩ | h'
      · exact .mixed (head_iff.1 hu) (quad_iff.1 hv)
      · exfalso
        have h0 : Only (fun c => c ≠ '.') (.chr hex) := fun c hc e => by rw [e] at hc; revert hc; decide
        have h1 : Only (fun c => c ≠ '.') h4 := Only.rep h0 1 4
        have h2 : Only (fun c => c ≠ '.') (lit c!":") := Only.lit (by decide)
        have h3 : Only (fun c => c ≠ '.') h4c := ⟨h1, h2⟩
        have h5 : Only (fun c => c ≠ '.') ch4 := ⟨h2, h1⟩
        refine (fun ho : Only (fun c => c ≠ '.') (alts [.seq (times h4c 7) h4, .seq (lit c!":") (rep ch4 1 7), .seq (rep h4c 1 7) (lit c!":"),
          seqs [h4, lit c!":", rep ch4 1 6], .seq (times h4c 2) (rep ch4 1 5), .seq (times h4c 3) (rep ch4 1 4), .seq (times h4c 4) (rep ch4 1 3),
          .seq (times h4c 5) (rep ch4 1 2), seqs [times h4c 6, lit c!":", h4], lit c!"::"]) => h'.only ho '.' hd rfl) ?_
        apply Only.alts
        intro r hr
        simp only [List.mem_cons, List.not_mem_nil, or_false] at hr
        rcases hr with rfl | rfl | rfl | rfl | rfl | rfl | rfl | rfl | rfl | rfl
        · exact ⟨Only.times h3 _, h1⟩
        · exact ⟨h2, Only.rep h5 _ _⟩
        · exact ⟨Only.rep h3 _ _, h2⟩
        · exact ⟨h1, h2, Only.rep h5 _ _⟩
        · exact ⟨Only.times h3 _, Only.rep h5 _ _⟩
        · exact ⟨Only.times h3 _, Only.rep h5 _ _⟩
        · exact ⟨Only.times h3 _, Only.rep h5 _ _⟩
        · exact ⟨Only.times h3 _, Only.rep h5 _ _⟩
        · exact ⟨Only.times h3 _, h2, h1⟩
        · exact Only.lit (by decide)
    · obtain ⟨f, hf, rfl⟩ := ipv6_sound h hd
      exact .plain hf
  · intro h
    cases h with
    | plain h => exact ipv6_reads h _ _
    | @mixed w q h hq => exact .inl ⟨w, q, rfl, head_iff.2 h, quad_iff.2 hq⟩

theorem address_iff {w : Str} : Address w ↔ Quad w ∨ ∃ p x, V6Tag p ∧ Six x ∧ w = p ++ x := by
  constructor
  · intro h
    cases h with
    | v4 h => exact .inl h
    | @v6 p f hp hf hl => exact .inr ⟨p, f.text, hp, .plain (low_iff.1 ⟨hf, hl⟩), rfl⟩
    | @mixed p q ps hp h6 hs hq =>
      refine .inr ⟨p, _, hp, .mixed (Head.full h6 fun x hx => small_iff.1 (hs x hx)) hq, ?_⟩
      rw [join_snoc]
    | @mixedShort p q hi lo hp h5 hh hl hq =>
      refine .inr ⟨p, _, hp, .mixed (Head.short h5 (fun x hx => small_iff.1 (hh x hx)) (fun x hx => small_iff.1 (hl x hx))) hq, ?_⟩
      rw [join_snoc]
      by_cases e : hi = []
      · subst e; simp [join]
      · rw [if_neg e, ← join_after hi e]; simp
  · rintro (h | ⟨p, x, hp, hx, rfl⟩)
    · exact .v4 h
    · cases hx with
      | plain h =>
        have := low_iff.2 h
        exact .v6 hp this.1 this.2
      | mixed h hq =>
        cases h with
        | full h6 h =>
          have := Address.mixed hp h6 (fun x hx => small_iff.2 (h x hx)) hq
          rwa [join_snoc] at this
        | @short hi lo h5 h1 h2 =>
          have := Address.mixedShort hp h5 (fun x hx => small_iff.2 (h1 x hx)) (fun x hx => small_iff.2 (h2 x hx)) hq
          rw [join_snoc] at this
          by_cases e : hi = []
          · subst e; simpa [join] using this
          · rw [if_neg e, ← join_after hi e]; simpa using this

/-- Nothing of an address can end or go on here. -/
def Clear (s : Str) : Prop := wordAt s = false ∧ headIn hexColon s = false

theorem octet_ends {s : Str} (h : Octet s) : ∃ x c, s = x ++ [c] ∧ c.isDigit = true := by
  have := octet_reads ((octet_iff (b := []) (a := [])).2 h)
  refine ⟨s.dropLast, s.getLast this.1, (List.dropLast_concat_getLast this.1).symm, this.2 _ (List.getLast_mem this.1)⟩

theorem octet_starts {s : Str} (h : Octet s) : ∃ c x, s = c :: x ∧ c.isDigit = true := by
  have := octet_reads ((octet_iff (b := []) (a := [])).2 h)
  cases s with
  | nil => exact absurd rfl this.1
  | cons c x => exact ⟨c, x, rfl, this.2 c (by simp)⟩

theorem digit_word {c : Char} (h : c.isDigit = true) : isWord c = true := by
  simp [isWord, Char.isAlphanum, h]

theorem hexColon_colon : hexColon ':' = true := by decide

theorem quad_starts {q : Str} (h : Quad q) : ∃ c x, q = c :: x ∧ c.isDigit = true := by
  obtain ⟨p, q, r, s, hp, _, _, _, rfl⟩ := h
  obtain ⟨c, x, rfl, hc⟩ := octet_starts hp
  exact ⟨c, x ++ c!"." ++ q ++ c!"." ++ r ++ c!"." ++ s, by simp, hc⟩

theorem quad_ends {q : Str} (h : Quad q) : ∃ x c, q = x ++ [c] ∧ c.isDigit = true := by
  obtain ⟨p, q, r, s, _, _, _, hs, rfl⟩ := h
  obtain ⟨x, c, rfl, hc⟩ := octet_ends hs
  exact ⟨p ++ c!"." ++ q ++ c!"." ++ r ++ c!"." ++ x, c, by simp, hc⟩

theorem ipv4_iff {b w a : Str} (hb : Clear b) (ha : wordAt a = false) : Reads ipv4 b w a ↔ Quad w := by
  constructor
  · rintro ⟨_, _, rfl, ⟨rfl, _⟩, _, _, rfl, ⟨rfl, _⟩, q, _, rfl, hq, rfl, _⟩
    simpa using quad_iff.1 hq
  · intro h
    obtain ⟨c, x, e, hc⟩ := quad_starts h
    obtain ⟨x', c', e', hc'⟩ := quad_ends h
    refine ⟨[], w, rfl, ⟨rfl, ?_⟩, [], w, rfl, ⟨rfl, ?_⟩, w, [], by simp, quad_iff.2 h, rfl, ?_⟩
    · rw [hb.1, e]; simp [wordAt, digit_word hc]
    · have := hb.2
      simp only [List.reverse_nil, List.nil_append]
      cases b with
      | nil => rfl
      | cons d b =>
        simp only [headIn] at this ⊢
        cases hd : (d == ':') with
        | false => rfl
        | true =>
          simp at hd; subst hd
          rw [hexColon_colon] at this; cases this
    · rw [e']
      simp only [List.reverse_append, List.reverse_cons, List.reverse_nil, List.nil_append, List.cons_append]
      show wordAt (c' :: _) ≠ wordAt a
      rw [ha]
      simp [wordAt, digit_word hc']

theorem ip_iff {b w a : Str} (hb : Clear b) (ha : Clear a) : Reads ip b w a ↔ Address w := by
  rw [address_iff]
  show Reads ipv4 b w a ∨ Reads (seqs [.alt (lit c!"IPv6:") (.nbehind hexColon), ipv6, .nahead hexColon]) b w a ↔ _
  rw [ipv4_iff hb ha.1, reads_v6]
  constructor
  · rintro (h | ⟨p, x, rfl, hp, hx, _⟩)
    · exact .inl h
    · refine .inr ⟨p, x, ?_, ipv6_iff.1 hx, rfl⟩
      rcases hp with rfl | ⟨rfl, _⟩
      · exact .inr rfl
      · exact .inl rfl
  · rintro (h | ⟨p, x, hp, hx, rfl⟩)
    · exact .inl h
    · refine .inr ⟨p, x, rfl, ?_, ipv6_iff.2 hx, ha.2⟩
      rcases hp with rfl | rfl
      · exact .inr ⟨rfl, hb.2⟩
      · exact .inl rfl

theorem not_ipChar_space {c : Char} (h : isSpace c = true) : ¬ ipChar c := by
  intro hi
  have hn : c.isDigit = true ∨ c.isAlpha = true ∨ c = ':' ∨ c = '.' := hi
  rcases hn with hn | hn | rfl | rfl
  · exact absurd h (by rw [isSpace_alnum (by simp [Char.isAlphanum, hn])]; simp)
  · exact absurd h (by rw [isSpace_alnum (by simp [Char.isAlphanum, hn])]; simp)
  · exact absurd h (by decide)
  · exact absurd h (by decide)

theorem address_only {w : Str} (h : Address w) : ∀ c ∈ w, ipChar c := by
  have := (ip_iff (b := []) (a := []) ⟨rfl, rfl⟩ ⟨rfl, rfl⟩).2 h
  exact this.only only_ip

theorem address_solid {w : Str} (h : Address w) : Skip.Word w := by
  have hr := (ip_iff (b := []) (a := []) ⟨rfl, rfl⟩ ⟨rfl, rfl⟩).2 h
  refine ⟨?_, fun c hc => ?_⟩
  · rintro rfl
    obtain ⟨c, hc, _⟩ := hr.must must_ip
    simp at hc
  · have hi := address_only h c hc
    cases hs : isSpace c with
    | false => rfl
    | true => exact absurd hi (not_ipChar_space hs)

end Verif.ReceivedRe
