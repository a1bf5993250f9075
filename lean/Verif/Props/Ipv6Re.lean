import Verif.Spec.Ipv6Re
import Verif.Lemmas.Ipv6Re
import Verif.Props.ReceivedRe
import Verif.Props.TokenHeaders
import Verif.Props.Report

/-!
# C149: IPv6 addresses in `Received` headers
-/

namespace Verif.Props
open Verif Py Spec Received ReceivedRe

theorem low_of {f : V6Form} (h : f.Ok) (hl : f.LowerCase) : Low f := by
  refine ⟨h, fun p hp => ?_⟩
  have inj : ∀ {l : List Str} {x : Str}, x ∈ l → ∀ c ∈ x, c ∈ join c!":" l := by
    intro l
    induction l with
    | nil => intro x hx; simp at hx
    | cons y l ih =>
      intro x hx c hc
      cases l with
      | nil => rw [List.mem_singleton.1 hx] at hc; exact hc
      | cons z l =>
        simp only [join, List.mem_append]
        rcases List.mem_cons.1 hx with rfl | hx
        · exact .inl (.inl hc)
        · exact .inr (ih hx c hc)
  cases f with
  | full ps => exact lowHex_of_hextet (h.2 p hp) (fun c hc => hl c (inj hp c hc))
  | short hi lo =>
    rcases List.mem_append.1 hp with hp | hp
    · exact lowHex_of_hextet (h.2.1 p hp) (fun c hc => hl c (by simp [V6Form.text, inj hp c hc]))
    · exact lowHex_of_hextet (h.2.2 p hp) (fun c hc => hl c (by simp [V6Form.text, inj hp c hc]))

theorem lower_hexColon {t : Str} (h : ∀ c ∈ t, hexColon c = true) : lower t = t := by
  unfold lower
  exact (List.map_congr_left fun c hc => hexColon_lower (h c hc)).trans (List.map_id t)

/-- What is left of an address after `get_ip` has cleaned it. -/
theorem clean6 {p t : Str} (hp : V6Tag p) (ht0 : t ≠ []) (ht : ∀ c ∈ t, c = '.' ∨ hexColon c = true) :
    cleanIp (p ++ t) = replace c!"::ffff:" [] t := by
  have hlow : ∀ c ∈ t, c.toLower = c := by
    intro c hc
    rcases ht c hc with rfl | h
    · rfl
    · exact hexColon_lower h
  have elow : lower t = t := by
    unfold lower
    exact (List.map_congr_left hlow).trans (List.map_id t)
  have hset : ∀ c ∈ t, (c!"[ ]();\n").contains c = false := by
    intro c hc
    cases hh : (c!"[ ]();\n").contains c with
    | false => rfl
    | true =>
      exfalso
      have hm := List.contains_iff_mem.1 hh
      simp only [List.mem_cons, List.not_mem_nil, or_false] at hm
      rcases ht c hc with h | h
      · subst h; revert hm; decide
      · rcases hm with rfl | rfl | rfl | rfl | rfl | rfl | rfl <;> revert h <;> decide
  have hi : 'i' ∉ t := fun h => by rcases ht _ h with h | h <;> revert h <;> decide
  have r1 : replace c!"ipv6:" [] t = t := by
    have := replace_pass 'i' c!"pv6:" [] t [] hi
    simpa using this
  have e1 : stripChars c!"[ ]();\n" (p ++ t) = p ++ t := by
    obtain ⟨c, cs, e⟩ : ∃ c cs, t = c :: cs := by
      cases t with
      | nil => exact absurd rfl ht0
      | cons c cs => exact ⟨c, cs, rfl⟩
    have := stripChars_around (q := c!"[ ]();\n") (q1 := []) (q2 := []) (core := p ++ t) (by simp) (by simp) (.inr ⟨?_, ?_⟩)
    · simpa using this
    · rcases hp with rfl | rfl
      · exact ⟨c, cs, by simpa using e, hset c (by simp [e])⟩
      · exact ⟨'I', c!"Pv6:" ++ t, rfl, by decide⟩
    · refine ⟨p ++ t.dropLast, t.getLast ht0, ?_, hset _ (List.getLast_mem ht0)⟩
      rw [List.append_assoc, List.dropLast_concat_getLast]
  unfold cleanIp
  rw [e1]
  rcases hp with rfl | rfl
  · rw [List.nil_append, elow, r1, elow]
  · have : lower (c!"IPv6:" ++ t) = c!"ipv6:" ++ t := by
      show (c!"IPv6:" ++ t).map Char.toLower = _
      rw [List.map_append, show t.map Char.toLower = t from elow, show c!"IPv6:".map Char.toLower = c!"ipv6:" from by decide]
    rw [this]
    have r2 : replace c!"ipv6:" [] (c!"ipv6:" ++ t) = t := by
      show replace c!"ipv6:" [] ('i' :: (c!"pv6:" ++ t)) = t
      rw [replace_cons _ _ (by simp)]
      rw [if_pos (by simp [List.isPrefixOf])]
      exact r1
    rw [r2, elow]

theorem clean_form {p : Str} {f : V6Form} (hp : V6Tag p) (hf : Low f) : cleanIp (p ++ f.text) = replace c!"::ffff:" [] f.text :=
  clean6 hp (text_ne hf) (fun c hc => .inr (low_chars hf c hc))

theorem not_private4 {t : Str} (h : '.' ∉ t) : isPrivate rx t = rx.private6 t := by
  unfold isPrivate
  have : privatePrefixes.any (fun p => startsWith p t) = false := by
    rw [List.any_eq_false]
    intro p hp hs
    have hd : '.' ∈ p := by
      have : privatePrefixes.all (fun p => p.contains '.') = true := by decide +kernel
      exact List.contains_iff_mem.1 (List.all_eq_true.1 this p hp)
    obtain ⟨x, rfl⟩ := List.isPrefixOf_iff_prefix.1 hs
    exact h (by simp [hd])
  rw [this]; rfl

/-- **C149**.  Of the IPv6 addresses in small letters, those that count as private are `::1` and those of `fe80::/10`, however they are
written. -/
theorem C149_private (f : V6Form) (h : f.Ok) (hl : f.LowerCase) :
    isPrivate rx f.text = true ↔ LoopbackV6 f.address ∨ LinkLocalV6 f.address := by
  have hf := low_of h hl
  rw [not_private4 (fun hd => (hexColon_dot (low_chars hf _ hd)).1 rfl)]
  exact private6_low hf

theorem found6 (pre z rest : Str) {p : Str} {f : V6Form} (hf : Low f) (hp : V6Tag p) (hz : NoAddress z)
    (hby : ¬ c!" by " <:+: pre ++ c!"[" ++ p ++ f.text ++ c!"]" ++ z ++ c!" by") :
    ∃ l, getIp rx (pre ++ c!"[" ++ p ++ f.text ++ c!"]" ++ z ++ c!" by " ++ rest) = getIp rx (pre ++ c!"[" ++ p ++ f.text ++ c!"]" ++ z) ∧
      rx.ips (beforeBy (pre ++ c!"[" ++ p ++ f.text ++ c!"]" ++ z)) = l ++ [p ++ f.text] ∧ (NoAddress pre → l = []) := by
  obtain ⟨e1, e2⟩ := C76_by_partial rx _ rest hby
  obtain ⟨l, hl, h0⟩ := findAll_brackets6 pre z hf hp hz
  refine ⟨l, e1, ?_, h0⟩
  rw [e2]
  simpa [rx] using hl

/-- **C149** (partial).  If the server writes the IPv6 address from which the connection came in brackets, in small letters, with or
without `IPv6:` before it, in whatever of its forms, and no other address between it and ` by `, then this is the address of the
relay, whatever stands before it.  This needs an address that is not private and in whose text `::ffff:` does not stand. -/
theorem C149_found_partial (pre p z rest : Str) (f : V6Form) (h : f.Ok) (hl : f.LowerCase) (hp : V6Tag p) (hz : NoAddress z)
    (h1 : ¬ LoopbackV6 f.address) (h2 : ¬ LinkLocalV6 f.address) (hm : ¬ c!"::ffff:" <:+: f.text)
    (hby : ¬ c!" by " <:+: pre ++ c!"[" ++ p ++ f.text ++ c!"]" ++ z ++ c!" by") :
    getIp rx (pre ++ c!"[" ++ p ++ f.text ++ c!"]" ++ z ++ c!" by " ++ rest) = f.text := by
  have hf := low_of h hl
  obtain ⟨l, e1, e2, _⟩ := found6 pre z rest hf hp hz hby
  have ec : cleanIp (p ++ f.text) = f.text := by rw [clean_form hp hf, replace_none (by simp) hm]
  rw [e1, C76_helo_violated rx _ l _ e2, ec]
  rw [ec]
  cases hq : isPrivate rx f.text with
  | false => rfl
  | true => rcases (C149_private f h hl).1 hq with h | h <;> contradiction

theorem getIp_one {h w : Str} (hi : rx.ips (beforeBy h) = [w]) : getIp rx h = cleanIp w := by
  rw [C76_address_partial]
  unfold chosenAddress senderAddresses
  rw [hi]
  cases hq : isPrivate rx (cleanIp w) <;> simp [hq]

/-- **C149** (partial).  If it is the only address before ` by `, it is the address of the relay even if it is private. -/
theorem C149_alone_partial (pre p z rest : Str) (f : V6Form) (h : f.Ok) (hl : f.LowerCase) (hp : V6Tag p) (hpre : NoAddress pre) (hz : NoAddress z)
    (hm : ¬ c!"::ffff:" <:+: f.text) (hby : ¬ c!" by " <:+: pre ++ c!"[" ++ p ++ f.text ++ c!"]" ++ z ++ c!" by") :
    getIp rx (pre ++ c!"[" ++ p ++ f.text ++ c!"]" ++ z ++ c!" by " ++ rest) = f.text := by
  have hf := low_of h hl
  obtain ⟨l, e1, e2, e3⟩ := found6 pre z rest hf hp hz hby
  rw [e3 hpre, List.nil_append] at e2
  rw [e1, getIp_one e2, clean_form hp hf, replace_none (by simp) hm]

/-- **C149** (partial).  An IPv4 address that a server with sockets for IPv6 writes as `::ffff:` and the address is the IPv4 address of the
relay.  This needs a public address and small letters. -/
theorem C149_mapped_partial (pre p z rest : Str) {a b c d : Nat} (h : PublicAddress a b c d) (hp : V6Tag p) (hz : NoAddress z)
    (hby : ¬ c!" by " <:+: pre ++ c!"[" ++ p ++ (c!"::ffff:" ++ dotted a b c d) ++ c!"]" ++ z ++ c!" by") :
    getIp rx (pre ++ c!"[" ++ p ++ (c!"::ffff:" ++ dotted a b c d) ++ c!"]" ++ z ++ c!" by " ++ rest) = dotted a b c d := by
  obtain ⟨e1, e2⟩ := C76_by_partial rx _ rest hby
  obtain ⟨l, hl, _⟩ := findAll_at pre z (p ++ (c!"::ffff:" ++ dotted a b c d)) (by simp [dotted])
    (fun b' => m_mapped hp (b := '[' :: b') rfl h.a255 h.b255 h.c255 h.d255) hz
  have ec : cleanIp (p ++ (c!"::ffff:" ++ dotted a b c d)) = dotted a b c d := by
    have hd := dotted_chars h.a255 h.b255 h.c255 h.d255
    rw [clean6 hp (by simp)]
    · show replace c!"::ffff:" [] (':' :: (c!":ffff:" ++ dotted a b c d)) = _
      rw [replace_cons _ _ (by simp), if_pos (by simp [List.isPrefixOf])]
      have := replace_pass ':' c!":ffff:" [] (dotted a b c d) [] (fun hc => by rcases hd _ hc with h | h <;> revert h <;> decide)
      simpa using this
    · intro x hx
      rcases List.mem_append.1 hx with hx | hx
      · right
        have : ∀ x ∈ c!"::ffff:", hexColon x = true := by decide
        exact this x hx
      · rcases hd x hx with h | h
        · right; simp [hexColon, hex, h]
        · exact .inl h
  rw [e1, C76_helo_violated rx _ l (p ++ (c!"::ffff:" ++ dotted a b c d)) (by rw [e2]; simpa [rx] using hl), ec]
  rw [ec]
  exact public_not_private h

/-! ## Addresses with `::ffff:` inside -/

theorem replace_join (l : List Str) (hl : ∀ x ∈ l, LowHex x) (r : Str) (hr : r = [] ∨ ∃ s, r = c!"::ffff:" ++ s) :
    replace c!"::ffff:" [] (join c!":" l ++ r) = join c!":" l ++ replace c!"::ffff:" [] r := by
  have no : ∀ {x : Str}, LowHex x → ':' ∉ x := by
    intro x hx h
    have := hx.2.2 _ h
    revert this; decide
  induction l with
  | nil => rfl
  | cons x l ih =>
    cases l with
    | nil => exact replace_pass ':' c!":ffff:" [] x r (no (hl x (by simp)))
    | cons y l =>
      have ih := ih (fun z hz => hl z (List.mem_cons_of_mem _ hz))
      simp only [join, List.append_assoc, List.singleton_append] at ih ⊢
      rw [replace_pass ':' c!":ffff:" [] x _ (no (hl x (by simp)))]
      have hy := hl y (by simp)
      have hneg : ¬ (c!"::ffff:").isPrefixOf (':' :: (join c!":" (y :: l) ++ r)) = true := by
        cases y with
        | nil => exact absurd rfl hy.1
        | cons c y =>
          have hc : c ≠ ':' := by
            rintro rfl
            exact no hy (by simp)
          cases l <;> simp [join, List.isPrefixOf, hc.symm]
      congr 1
      rw [List.cons_append, replace_cons _ _ (by simp), if_neg hneg, ih]
      rfl

theorem v_none {l : List Str} (hn : l.length ≤ 7) (hl : ∀ x ∈ l, x ≠ [] ∧ ':' ∉ x ∧ '.' ∉ x) (h0 : l ≠ []) :
    Net.v6? (join c!":" l) = none ∧ Net.v4? (join c!":" l) = none := by
  have hs : splitChar ':' (join c!":" l) = l := splitChar_join ':' l h0 (fun w hw => (hl w hw).2.1)
  constructor
  · unfold Net.v6?
    rw [hs]
    simp only
    by_cases h : l.length < 3 ∨ 9 < l.length
    · rw [if_pos h]
    · rw [if_neg h]
      have : (List.range l.length).filter (fun i => 0 < i && i + 1 < l.length && l[i]? == some []) = [] := by
        rw [List.filter_eq_nil_iff]
        intro i _ hi
        simp only [Bool.and_eq_true, beq_iff_eq] at hi
        exact (hl _ (List.mem_of_getElem? hi.2)).1 rfl
      rw [this]
      simp only
      rw [if_pos (by omega)]
  · unfold Net.v4?
    have : splitChar '.' (join c!":" l) = [join c!":" l] := by
      have := Net.join_chars (P := fun c => c ≠ '.') c!":" (by decide) l (fun w hw c hc e => (hl w hw).2.2 (e ▸ hc))
      exact splitChar_join '.' [join c!":" l] (by simp) (fun w hw h => by
        rw [List.mem_singleton.1 hw] at h
        exact this _ h rfl)
    rw [this]
    rfl

/-- **C149** is violated: in `1::ffff:2` the part `::ffff:` is removed as if an IPv4 address followed.  What is left is no address, so the
message cannot be read (`C76_bad_address_violated`).  This is so for every address with `::ffff:` inside. -/
theorem C149_ffff_violated (pre p z rest : Str) (hi lo : List Str) (h : (V6Form.short hi (c!"ffff" :: lo)).Ok) (hlo : lo ≠ [])
    (hl : (V6Form.short hi (c!"ffff" :: lo)).LowerCase) (hp : V6Tag p) (hpre : NoAddress pre) (hz : NoAddress z)
    (hby : ¬ c!" by " <:+: pre ++ c!"[" ++ p ++ (V6Form.short hi (c!"ffff" :: lo)).text ++ c!"]" ++ z ++ c!" by") :
    ∃ x, getIp rx (pre ++ c!"[" ++ p ++ (V6Form.short hi (c!"ffff" :: lo)).text ++ c!"]" ++ z ++ c!" by " ++ rest) = x ∧ x ≠ [] ∧
      Net.v6? x = none ∧ Net.v4? x = none := by
  have hf := low_of h hl
  obtain ⟨l, e1, e2, e3⟩ := found6 pre z rest hf hp hz hby
  rw [e3 hpre, List.nil_append] at e2
  rw [e1, getIp_one e2, clean_form hp hf]
  have h7 := h.1
  have lh : ∀ x ∈ hi, LowHex x := fun x hx => hf.2 x (List.mem_append_left _ hx)
  have ll : ∀ x ∈ lo, LowHex x := fun x hx => hf.2 x (List.mem_append_right _ (List.mem_cons_of_mem _ hx))
  have facts : ∀ {x : Str}, LowHex x → x ≠ [] ∧ ':' ∉ x ∧ '.' ∉ x := by
    intro x hx
    refine ⟨hx.1, fun h => ?_, fun h => ?_⟩ <;> (have := hx.2.2 _ h; revert this; decide)
  have et : (V6Form.short hi (c!"ffff" :: lo)).text = join c!":" hi ++ (c!"::ffff:" ++ join c!":" lo) := by
    cases lo with
    | nil => exact absurd rfl hlo
    | cons y lo => simp [V6Form.text, join]
  have er : replace c!"::ffff:" [] (c!"::ffff:" ++ join c!":" lo) = join c!":" lo := by
    show replace c!"::ffff:" [] (':' :: (c!":ffff:" ++ join c!":" lo)) = _
    rw [replace_cons _ _ (by simp), if_pos (by simp [List.isPrefixOf])]
    have := replace_join lo ll [] (.inl rfl)
    simpa using this
  rw [et, replace_join hi lh _ (.inr ⟨_, rfl⟩), er]
  simp only [List.length_cons] at h7
  by_cases h0 : hi = []
  · subst h0
    refine ⟨_, rfl, ?_, v_none (by simp at h7 ⊢; omega) (fun x hx => facts (ll x hx)) hlo⟩
    cases lo with
    | nil => exact absurd rfl hlo
    | cons y lo =>
      have := (ll y (by simp)).1
      cases lo <;> simp [join, this]
  · obtain ⟨hi', x, rfl⟩ : ∃ l x, hi = l ++ [x] := ⟨_, _, (List.dropLast_concat_getLast h0).symm⟩
    cases lo with
    | nil => exact absurd rfl hlo
    | cons y lo =>
      have ej : join c!":" (hi' ++ [x]) ++ join c!":" (y :: lo) = join c!":" (hi' ++ (x ++ y) :: lo) := by
        have key : ∀ l : List Str, join c!":" (l ++ [x]) ++ join c!":" (y :: lo) = join c!":" (l ++ (x ++ y) :: lo) := by
          intro l
          induction l with
          | nil => cases lo <;> simp [join]
          | cons a l ih =>
            cases l with
            | nil => simp only [List.nil_append, List.cons_append, join, List.append_assoc] at ih ⊢; rw [ih]
            | cons b l => simp only [List.cons_append, join, List.append_assoc] at ih ⊢; rw [ih]
        exact key hi'
      rw [ej]
      have fx := facts (lh x (by simp))
      have fy := facts (ll y (by simp))
      refine ⟨_, rfl, ?_, v_none ?_ ?_ (by simp)⟩
      · intro e
        have : ∀ l : List Str, (∃ w ∈ l, w ≠ []) → join c!":" l ≠ [] := by
          intro l
          induction l with
          | nil => rintro ⟨w, hw, _⟩; simp at hw
          | cons a l ih =>
            rintro ⟨w, hw, hne⟩
            cases l with
            | nil => rw [List.mem_singleton.1 hw] at hne; exact hne
            | cons b l => simp [join]
        exact this _ ⟨x ++ y, by simp, by simp [fx.1]⟩ e
      · simp only [List.length_append, List.length_cons, List.length_nil] at h7 ⊢
        omega
      · intro w hw
        rcases List.mem_append.1 hw with hw | hw
        · exact facts (lh w (by simp [hw]))
        · rcases List.mem_cons.1 hw with rfl | hw
          · exact ⟨by simp [fx.1], by simp [fx.2.1, fy.2.1], by simp [fx.2.2, fy.2.2]⟩
          · exact facts (ll w (by simp [hw]))

/-! ## What is read is an address -/

theorem replace_length (old : Str) (h : old ≠ []) : ∀ (n : Nat) (s : Str), s.length ≤ n → (replace old [] s).length ≤ s.length := by
  intro n
  induction n with
  | zero => intro s hs; rw [List.length_eq_zero_iff.1 (Nat.le_zero.1 hs)]; simp
  | succ n ih =>
    intro s hs
    cases s with
    | nil => simp
    | cons c cs =>
      rw [replace_cons old [] h]
      have hl : 0 < old.length := List.length_pos_iff.2 h
      simp only [List.length_cons] at hs
      split
      · have h1 : ((c :: cs).drop old.length).length ≤ cs.length := by simp only [List.length_drop, List.length_cons]; omega
        have := ih _ (Nat.le_trans h1 (by omega))
        simp only [List.nil_append, List.length_cons]
        omega
      · have := ih cs (by omega)
        simp only [List.length_cons]
        omega

theorem replace_keeps (old : Str) (h : old ≠ []) (d : Char) (hd : d ∉ old) : ∀ (n : Nat) (s : Str), s.length ≤ n → d ∈ s → d ∈ replace old [] s := by
  intro n
  induction n with
  | zero => intro s hs hm; rw [List.length_eq_zero_iff.1 (Nat.le_zero.1 hs)] at hm; simp at hm
  | succ n ih =>
    intro s hs hm
    cases s with
    | nil => simp at hm
    | cons c cs =>
      rw [replace_cons old [] h]
      have hl : 0 < old.length := List.length_pos_iff.2 h
      simp only [List.length_cons] at hs
      split
      · rename_i hp
        obtain ⟨x, hx⟩ := List.isPrefixOf_iff_prefix.1 hp
        have h1 : ((c :: cs).drop old.length).length ≤ cs.length := by simp only [List.length_drop, List.length_cons]; omega
        refine ih _ (Nat.le_trans h1 (by omega)) ?_
        rw [← hx] at hm ⊢
        rw [List.drop_left]
        exact (List.mem_append.1 hm).resolve_left hd
      · rcases List.mem_cons.1 hm with rfl | hm
        · simp
        · exact List.mem_cons_of_mem _ (ih cs (by omega) hm)

theorem getIp_from (h : Str) : getIp rx h = [] ∨ ∃ w ∈ rx.ips (beforeBy h), getIp rx h = cleanIp w := by
  rw [C76_address_partial]
  unfold chosenAddress
  have key : ∀ x ∈ senderAddresses rx h, ∃ w ∈ rx.ips (beforeBy h), x = cleanIp w := by
    intro x hx
    obtain ⟨w, hw, rfl⟩ := List.mem_map.1 hx
    exact ⟨w, hw, rfl⟩
  cases hg : ((senderAddresses rx h).filter (fun a => !isPrivate rx a)).getLast? with
  | some a => exact .inr (key a (List.mem_filter.1 (List.mem_of_getLast? hg)).1)
  | none =>
    cases hs : senderAddresses rx h with
    | nil => exact .inl rfl
    | cons a l => exact .inr (key a (by rw [hs]; simp))

theorem quad_dot {b w a : Str} (h : Re.Reads ipv4 b w a) : '.' ∈ w := by
  obtain ⟨u1, v1, rfl, _, u2, v2, rfl, _, u3, v3, rfl, hq, _⟩ := h
  obtain ⟨p, q, r, s, rfl, _⟩ := quad_reads hq
  simp

/-- What is found without a dot. -/
theorem found_form {t w : Str} (hw : w ∈ Re.findAll ipAddress t) (hd : '.' ∉ w) :
    w <:+: t ∧ ∃ p f, V6Tag p ∧ Low f ∧ w = p ++ f.text := by
  obtain ⟨u, a, rfl, hr⟩ := findGo_mem _ _ _ hw
  refine ⟨⟨u, a, rfl⟩, ?_⟩
  rcases hr with hr | hr
  · exact absurd (quad_dot hr) hd
  · obtain ⟨p, x, rfl, hp, hx, _⟩ := reads_v6.1 hr
    obtain ⟨f, hf, rfl⟩ := ipv6_sound hx (fun h => hd (List.mem_append_right _ h))
    exact ⟨p, f, hp.elim .inr (fun h => .inl h.1), hf, rfl⟩

theorem clean_keeps {w : Str} (h : '.' ∈ w) : '.' ∈ cleanIp w := by
  have hl : ∀ {s : Str}, '.' ∈ s → '.' ∈ lower s := fun h => List.mem_map.2 ⟨'.', h, rfl⟩
  have hs : '.' ∈ stripChars c!"[ ]();\n" w := by
    have key : ∀ (s : Str), '.' ∈ s → '.' ∈ s.dropWhile (fun c => (c!"[ ]();\n").contains c) := by
      intro s
      induction s with
      | nil => exact id
      | cons c s ih =>
        intro h
        rw [List.dropWhile_cons]
        split
        · rename_i hc
          rcases List.mem_cons.1 h with rfl | h
          · exact absurd hc (by decide)
          · exact ih h
        · exact h
    unfold stripChars stripBy lstripBy rstripBy
    have h1 := key _ h
    have h2 := key (List.dropWhile (fun c => (c!"[ ]();\n").contains c) w).reverse (by simpa using h1)
    simpa using h2
  unfold cleanIp
  exact replace_keeps _ (by simp) _ (by decide) _ _ (Nat.le_refl _) (hl (replace_keeps _ (by simp) _ (by decide) _ _ (Nat.le_refl _) (hl hs)))

theorem beforeBy_prefix (h : Str) : beforeBy h <+: h := by
  unfold beforeBy
  cases hs : split1 c!" by " h with
  | none => exact List.prefix_refl _
  | some ab =>
    have := split1_spec hs
    exact ⟨c!" by " ++ ab.2, by rw [this]; simp⟩

/-- **C149** (partial).  Whatever the line, an address without dots that is taken from it is an IPv6 address that stands in it.  This
needs a line without `::ffff:`. -/
theorem C149_valid_partial (h : Str) (hd : '.' ∉ getIp rx h) (h0 : getIp rx h ≠ []) (hm : ¬ c!"::ffff:" <:+: h) :
    ∃ f : V6Form, f.Ok ∧ f.LowerCase ∧ getIp rx h = f.text ∧ f.text <:+: h := by
  rcases getIp_from h with he | ⟨w, hw, he⟩
  · exact absurd he h0
  · have hwd : '.' ∉ w := fun hc => hd (by rw [he]; exact clean_keeps hc)
    obtain ⟨hi, p, f, hp, hf, rfl⟩ := found_form hw hwd
    have hin : f.text <:+: h := ((List.suffix_append p f.text).isInfix.trans hi).trans (beforeBy_prefix h).isInfix
    refine ⟨f, hf.1, ?_, ?_, hin⟩
    · intro c hc
      have := low_chars hf c hc
      cases hu : c.isUpper with
      | false => rfl
      | true =>
        exfalso
        simp only [Char.isUpper, Bool.and_eq_true, decide_eq_true_eq, ge_iff_le] at hu
        have h1 : 65 ≤ c.toNat := hu.1
        have h2 : c.toNat ≤ 90 := hu.2
        simp only [hexColon, hex, Bool.or_eq_true, Bool.and_eq_true, decide_eq_true_eq, Char.isDigit, beq_iff_eq] at this
        rcases this with (⟨_, h⟩ | ⟨h, _⟩) | h
        · have h : c.toNat ≤ 57 := h
          omega
        · have h : 97 ≤ c.toNat := h
          omega
        · subst h; revert h1; decide
    · rw [he, clean_form hp hf, replace_none (by simp)]
      exact fun hx => hm (hx.trans hin)

theorem infix_split {x y w : Str} {c : Char} (h : w <:+: x ++ c :: y) (hc : c ∉ w) : w <:+: x ∨ w <:+: y := by
  obtain ⟨u, a, e⟩ := h
  rw [List.append_assoc] at e
  rcases List.append_eq_append_iff.1 e.symm with ⟨v, rfl, ev⟩ | ⟨v, rfl, ev⟩
  · cases v with
    | nil =>
      left
      cases w with
      | nil => exact ⟨[], x, by simp⟩
      | cons d w =>
        rw [List.nil_append, List.cons_append] at ev
        injection ev with ev _
        exact absurd (by rw [ev]; simp) hc
    | cons d v =>
      rw [List.cons_append] at ev
      injection ev with _ ev
      exact .inr ⟨v, a, by rw [ev]; simp⟩
  · exact .inl ((prefix_of_noChar ev.symm hc).isInfix.trans (List.suffix_append u v).isInfix)

theorem infix_between {pre t z w : Str} (h : w <:+: pre ++ '[' :: (t ++ ']' :: z)) (h1 : '[' ∉ w) (h2 : ']' ∉ w)
    (hpre : NoAddress pre) (hz : NoAddress z) (hc : ∃ c ∈ w, c = '.' ∨ c = ':') : w <:+: t := by
  obtain ⟨c, hcw, hc⟩ := hc
  have no : ∀ {s : Str}, NoAddress s → ¬ w <:+: s := by
    intro s hs hi
    have := hs c (hi.subset hcw)
    rcases hc with rfl | rfl
    · exact this.1 rfl
    · exact this.2 rfl
  rcases infix_split h h1 with h | h
  · exact absurd h (no hpre)
  · rcases infix_split h h2 with h | h
    · exact h
    · exact absurd h (no hz)

/-- **C149** is violated: an address with a capital letter is never read as it is.  Either nothing is read, or a piece of it that happens
to look like an address. -/
theorem C149_upper_violated (pre z rest : Str) (f : V6Form) (h : f.Ok) (hu : ∃ c ∈ f.text, c.isUpper = true) (hpre : NoAddress pre) (hz : NoAddress z)
    (hby : ¬ c!" by " <:+: pre ++ c!"[" ++ f.text ++ c!"]" ++ z ++ c!" by") :
    (getIp rx (pre ++ c!"[" ++ f.text ++ c!"]" ++ z ++ c!" by " ++ rest)).length < f.text.length := by
  obtain ⟨e1, e2⟩ := C76_by_partial rx _ rest hby
  rw [e1]
  obtain ⟨_, _, hdot, hch⟩ := Net.v6_text_chars f h
  have hI : 'I' ∉ f.text := fun hi => absurd (hch _ hi) (by decide)
  have h0 : 0 < f.text.length := by
    obtain ⟨c, hc, _⟩ := hu
    exact List.length_pos_of_mem hc
  rcases getIp_from (pre ++ c!"[" ++ f.text ++ c!"]" ++ z) with he | ⟨w, hw, he⟩
  · rw [he]; exact h0
  · rw [e2] at hw
    have hw' : w ∈ Re.findAll ipAddress (pre ++ '[' :: (f.text ++ ']' :: z)) := by simpa [rx] using hw
    obtain ⟨u, a, e, hr⟩ := findGo_mem _ _ _ hw'
    have hin : w <:+: f.text := infix_between (z := z) ⟨u, a, e.symm⟩ (fun hc => ipChar_bracket.2 (hr.only only_ip _ hc))
      (fun hc => ipChar_bracket.1 (hr.only only_ip _ hc)) hpre hz (by
        obtain ⟨c, hc, hq⟩ := hr.must must_ip
        exact ⟨c, hc, hq⟩)
    obtain ⟨_, p, f', hp, hf', rfl⟩ := found_form hw' (fun hc => hdot (hin.subset hc))
    have hp0 : p = [] := by
      rcases hp with rfl | rfl
      · rfl
      · exact absurd (hin.subset (by simp)) hI
    subst hp0
    rw [List.nil_append] at hin
    rw [he, clean_form (.inl rfl) hf']
    have h1 := replace_length c!"::ffff:" (by simp) _ f'.text (Nat.le_refl _)
    have h2 : f'.text.length ≤ f.text.length := hin.length_le
    have h3 : f'.text ≠ f.text := by
      intro e
      obtain ⟨c, hc, hcu⟩ := hu
      rw [← e] at hc
      have := hexColon_lower (low_chars hf' c hc)
      have hcl : c.toLower ≠ c := by
        simp only [Char.isUpper, Bool.and_eq_true, decide_eq_true_eq] at hcu
        unfold Char.toLower
        rw [dif_pos hcu]
        intro e
        have := congrArg Char.toNat e
        have h1 : 65 ≤ c.toNat := hcu.1
        have h2 : c.toNat ≤ 90 := hcu.2
        have e3 : (c.val + 32).toNat = c.val.toNat := congrArg (fun d : Char => d.val.toNat) e
        have h2 : c.val.toNat ≤ 90 := h2
        rw [UInt32.toNat_add] at e3
        have : (32 : UInt32).toNat = 32 := rfl
        omega
      exact hcl this
    have h4 : f'.text.length ≠ f.text.length := fun e => h3 (hin.eq_of_length e)
    omega

/-! ## Private IPv4 addresses in IPv6 ones -/

theorem zero_of {s : Str} (h : ZeroPart s) : Zero s :=
  ⟨s.length, List.length_pos_iff.2 h.1, h.2.1, List.eq_replicate_iff.2 ⟨rfl, h.2.2⟩⟩

theorem after_zc {l : List Str} (h : ∀ z ∈ l, ZeroPart z) : ∀ c ∈ after l, zc c := by
  intro c hc
  obtain ⟨x, hx, hcx⟩ := List.mem_flatten.1 hc
  obtain ⟨y, hy, rfl⟩ := List.mem_map.1 hx
  rcases List.mem_append.1 hcx with h1 | h1
  · exact .inl ((h y hy).2.2 c h1)
  · exact .inr (by simpa using h1)

theorem not_private4' {t : Str} (h : ∃ c r, t = c :: r ∧ c ≠ '1') : isPrivate rx t = rx.private6 t := by
  obtain ⟨c, r, rfl, hc⟩ := h
  unfold isPrivate
  have : privatePrefixes.any (fun p => startsWith p (c :: r)) = false := by
    rw [List.any_eq_false]
    intro p hp hs
    have hd : p.head? = some '1' := by
      have : privatePrefixes.all (fun p => p.head? == some '1') = true := by decide +kernel
      exact beq_iff_eq.1 (List.all_eq_true.1 this p hp)
    obtain ⟨x, hx⟩ := List.isPrefixOf_iff_prefix.1 hs
    cases p with
    | nil => simp at hd
    | cons d p =>
      simp only [List.head?_cons, Option.some.injEq] at hd
      simp only [List.cons_append] at hx
      injection hx with hx _
      exact hc (by rw [← hx, hd])
  rw [this]; rfl

theorem private_head {P : Str} (hP : ∀ c ∈ P, zc c) (hP0 : P ≠ []) {a b c d : Nat} (ha : a ≤ 255) (hb : b ≤ 255) (hc : c ≤ 255) (hd : d ≤ 255) :
    isPrivate rx (P ++ c!"ffff:" ++ dotted a b c d) = true ↔ Re.Reads zeroHead [] P (c!"ffff:" ++ dotted a b c d) ∧ PrivateNet a b := by
  rw [not_private4', ← private6_mapped hP hP0 ha hb hc hd]
  · rfl
  · cases P with
    | nil => exact absurd rfl hP0
    | cons x P =>
      refine ⟨x, _, rfl, ?_⟩
      rcases hP x (by simp) with rfl | rfl <;> decide

/-- **C149** (partial).  A private IPv4 address inside an IPv6 address counts as private, and no other one does.  Missing: heads with two
or three zeros before the gap and zeros after it (`C149_mapped_gap_violated`). -/
theorem C149_mapped_private_partial (m : Str) (hm : MappedHead m) {a b c d : Nat} (ha : a ≤ 255) (hb : b ≤ 255) (hc : c ≤ 255) (hd : d ≤ 255) :
    isPrivate rx (m ++ dotted a b c d) = true ↔ PrivateNet a b := by
  have reduce : ∀ P : Str, m = P ++ c!"ffff:" → (∀ c ∈ P, zc c) → P ≠ [] → (∀ a, Re.Reads zeroHead [] P a) →
      (isPrivate rx (m ++ dotted a b c d) = true ↔ PrivateNet a b) := by
    rintro P rfl h1 h2 h3
    rw [private_head h1 h2 ha hb hc hd]
    exact ⟨fun h => h.2, fun h => ⟨h3 _, h⟩⟩
  have colon : ∀ {l : List Str}, l ≠ [] → join c!":" l ++ c!":" = after l := fun h => join_after _ h
  cases hm with
  | full zs h5 hz =>
    have h0 : zs ≠ [] := by rintro rfl; simp at h5
    refine reduce (after zs) ?_ (after_zc hz) ?_ ?_
    · rw [← colon h0]; simp
    · rw [← colon h0]; simp
    · intro a
      unfold zeroHead
      rw [reads_alts (by simp)]
      exact ⟨_, List.mem_cons_self .., (reads_timesVia reads_z4c _ _ _ _).2 ⟨zs, h5, fun x hx => zero_of (hz x hx), rfl⟩⟩
  | leading lo h4 hz =>
    refine reduce (c!"::" ++ after lo) ?_ ?_ (by simp) ?_
    · rw [join_snoc]; simp
    · intro c hc
      rcases List.mem_append.1 hc with h | h
      · exact .inr (by simpa using h)
      · exact after_zc hz c h
    · intro a
      unfold zeroHead
      rw [reads_alts (by simp)]
      exact ⟨_, List.mem_cons_of_mem _ (List.mem_cons_self ..), _, _, rfl, Re.Reads.lit.2 rfl,
        (reads_repVia reads_z4c (by omega) _ _ _).2 ⟨lo, by omega, h4, fun x hx => zero_of (hz x hx), rfl⟩⟩
  | trailing hi h0 h4 hz =>
    refine reduce (after hi ++ c!":") ?_ ?_ (by simp) ?_
    · rw [← colon h0]; simp
    · intro c hc
      rcases List.mem_append.1 hc with h | h
      · exact after_zc hz c h
      · exact .inr (by simpa using h)
    · intro a
      unfold zeroHead
      rw [reads_alts (by simp)]
      exact ⟨_, List.mem_cons_of_mem _ (List.mem_cons_of_mem _ (List.mem_cons_self ..)), _, _, rfl,
        (reads_repVia reads_z4c (by omega) _ _ _).2 ⟨hi, List.length_pos_iff.2 h0, h4, fun x hx => zero_of (hz x hx), rfl⟩, Re.Reads.lit.2 rfl⟩
  | second z lo h0 h3 hz =>
    have hzl : ∀ x ∈ lo, ZeroPart x := fun x hx => hz x (List.mem_cons_of_mem _ hx)
    refine reduce (z ++ c!"::" ++ after lo) ?_ ?_ (by simp) ?_
    · rw [join_snoc]; simp
    · intro c hc
      simp only [List.mem_append] at hc
      rcases hc with (h | h) | h
      · exact .inl ((hz z (by simp)).2.2 c h)
      · exact .inr (by simpa using h)
      · exact after_zc hzl c h
    · intro a
      unfold zeroHead
      rw [reads_alts (by simp)]
      refine ⟨_, List.mem_cons_of_mem _ (List.mem_cons_of_mem _ (List.mem_cons_of_mem _ (List.mem_cons_self ..))), reads_seqs3.2 ⟨z, c!"::", after lo, rfl, ?_,
        Re.Reads.lit.2 rfl, ?_⟩⟩
      · exact (reads_z4 _ _ _).2 (zero_of (hz z (by simp)))
      · exact (reads_repVia reads_z4c (by omega) _ _ _).2 ⟨lo, List.length_pos_iff.2 h0, h3, fun x hx => zero_of (hzl x hx), rfl⟩

theorem after_join (l : List Str) : after l = join c!":" (l ++ [[]]) := by rw [join_snoc]; simp

theorem join_inj {l l' : List Str} (h0 : l ≠ []) (h0' : l' ≠ []) (h : ∀ w ∈ l, ':' ∉ w) (h' : ∀ w ∈ l', ':' ∉ w) (e : join c!":" l = join c!":" l') :
    l = l' := by
  have h1 := splitChar_join ':' l h0 h
  have h2 := splitChar_join ':' l' h0' h'
  rw [← h1, ← h2, e]

/-- **C149** is violated: with two zeros before the gap and two after it, a private address counts as a public one. -/
theorem C149_mapped_gap_violated (z1 z2 z3 z4 : Str) (h : ∀ z ∈ [z1, z2, z3, z4], ZeroPart z) {a b c d : Nat}
    (ha : a ≤ 255) (hb : b ≤ 255) (hc : c ≤ 255) (hd : d ≤ 255) :
    isPrivate rx (z1 ++ c!":" ++ z2 ++ c!"::" ++ z3 ++ c!":" ++ z4 ++ c!":ffff:" ++ dotted a b c d) = false := by
  have hz : ∀ z ∈ [z1, z2, z3, z4], Zero z := fun z hz => zero_of (h z hz)
  have nc : ∀ {z : Str}, Zero z → ':' ∉ z ∧ z ≠ [] := by
    rintro z ⟨n, h1, _, rfl⟩
    exact ⟨fun hm => absurd (List.eq_of_mem_replicate hm) (by decide), by intro e; simp at e; omega⟩
  let P := after [z1, z2] ++ c!":" ++ after [z3, z4]
  have eP : P = join c!":" [z1, z2, [], z3, z4, []] := by simp [P, after, join]
  have e : z1 ++ c!":" ++ z2 ++ c!"::" ++ z3 ++ c!":" ++ z4 ++ c!":ffff:" ++ dotted a b c d = P ++ c!"ffff:" ++ dotted a b c d := by simp [P, after]
  rw [e, Bool.eq_false_iff]
  have hP : ∀ c ∈ P, zc c := by
    intro c hc
    simp only [P, List.mem_append] at hc
    rcases hc with (hc | hc) | hc
    · exact after_zc (fun z hz => h z (by simp at hz ⊢; rcases hz with hz | hz <;> simp [hz])) c hc
    · exact .inr (by simpa using hc)
    · exact after_zc (fun z hz => h z (by simp at hz ⊢; rcases hz with hz | hz <;> simp [hz])) c hc
  intro hp
  have hr := ((private_head hP (by simp [P]) ha hb hc hd).1 hp).1
  have n1 := nc (hz z1 (by simp))
  have n2 := nc (hz z2 (by simp))
  have n3 := nc (hz z3 (by simp))
  have n4 := nc (hz z4 (by simp))
  have same : ∀ {l : List Str}, l ≠ [] → (∀ w ∈ l, ':' ∉ w) → P = join c!":" l → [z1, z2, [], z3, z4, []] = l := by
    intro l h0 hl e
    refine join_inj (by simp) h0 ?_ hl (eP.symm.trans e)
    intro w hw
    simp only [List.mem_cons, List.not_mem_nil, or_false] at hw
    rcases hw with rfl | rfl | rfl | rfl | rfl | rfl
    · exact n1.1
    · exact n2.1
    · simp
    · exact n3.1
    · exact n4.1
    · simp
  have ncl : ∀ {l : List Str} {r : List Str}, (∀ z ∈ l, Zero z) → (∀ w ∈ r, ':' ∉ w) → ∀ w ∈ l ++ r, ':' ∉ w := by
    intro l r hl hr w hw
    rcases List.mem_append.1 hw with hw | hw
    · exact (nc (hl w hw)).1
    · exact hr w hw
  have gap : ∀ {l r : List Str}, (∀ z ∈ l, Zero z) → (∀ z ∈ r, Zero z) → l.length ≠ 2 ∨ r.length ≠ 2 → l ≠ [] →
      P = after l ++ c!":" ++ after r → False := by
    intro l r hl hr h2 h0 e
    have h := same (l := l ++ ([] :: (r ++ [[]]))) (by simp) (ncl hl (by
      intro w hw
      rcases List.mem_cons.1 hw with rfl | hw
      · simp
      · exact ncl hr (by simp) w hw)) (by
      have : l ++ ([] :: (r ++ [[]])) = (l ++ [[]] ++ r) ++ [[]] := by simp
      rw [e, this, join_snoc]
      simp [after])
    match l, h0, r with
    | [x1], _, _ => simp at h; exact n2.2 h.2.1
    | [x1, x2], _, [] => simp at h
    | [x1, x2], _, [y] => simp at h
    | [x1, x2], _, [y, y'] => simp at h2
    | [x1, x2], _, y :: y' :: y'' :: r => simp at h
    | x1 :: x2 :: x3 :: l, _, _ => simp at h; exact (nc (hl x3 (by simp))).2 h.2.2.1
  unfold zeroHead at hr
  rw [reads_alts (by simp)] at hr
  obtain ⟨r, hm, hr⟩ := hr
  simp only [List.mem_cons, List.not_mem_nil, or_false] at hm
  rcases hm with rfl | rfl | rfl | rfl | rfl | rfl | rfl
  · obtain ⟨l, h1, h2, e⟩ := (reads_timesVia reads_z4c _ _ _ _).1 hr
    have := same (by simp) (ncl h2 (by simp)) (e.trans (after_join l))
    match l, h1 with
    | [x1, x2, x3, x4, x5], _ =>
      simp at this
      exact (nc (h2 x3 (by simp))).2 this.2.2.1
  · obtain ⟨u, v, e, hu, hv⟩ := hr
    obtain ⟨l, h1, h1', h2, rfl⟩ := (reads_repVia reads_z4c (by omega) _ _ _).1 hv
    rw [Re.Reads.lit.1 hu] at e
    cases z1 with
    | nil => exact n1.2 rfl
    | cons x z =>
      have : x = ':' := by
        have := congrArg List.head? e
        simpa [P, after] using this
      exact n1.1 (by simp [this])
  · obtain ⟨u, v, e, hu, hv⟩ := hr
    obtain ⟨l, h1, h1', h2, rfl⟩ := (reads_repVia reads_z4c (by omega) _ _ _).1 hu
    rw [Re.Reads.lit.1 hv] at e
    exact gap (l := l) (r := []) h2 (by simp) (.inr (by simp)) (List.length_pos_iff.1 h1) (by rw [e]; simp [after])
  · obtain ⟨u, v, t, e, hu, hv, ht⟩ := reads_seqs3.1 hr
    obtain ⟨l, h1, h1', h2, rfl⟩ := (reads_repVia reads_z4c (by omega) _ _ _).1 ht
    rw [Re.Reads.lit.1 hv] at e
    exact gap (l := [u]) (r := l) (by simpa using (reads_z4 _ _ _).1 hu) h2 (.inl (by simp)) (by simp) (by rw [e]; simp [after])
  · obtain ⟨u, vts, e, hu, hvts⟩ := reads_seqs4.1 hr
    obtain ⟨v, t, s, rfl, hv, ht, hs⟩ := reads_seqs3.1 hvts
    obtain ⟨l, h1, h2, rfl⟩ := (reads_timesVia reads_z4c _ _ _ _).1 hu
    rw [Re.Reads.lit.1 hv, Re.Reads.lit.1 hs] at e
    obtain ⟨n, n1, n2, rfl⟩ := (reads_zeros (by omega) _ _ _).1 ht
    exact gap (l := l) (r := [List.replicate n '0']) h2 (by simpa using ⟨n, n1, by omega, rfl⟩) (.inr (by simp)) (by rintro rfl; simp at h1) (by rw [e]; simp [after])
  · obtain ⟨u, v, e, hu, hv⟩ := reads_seqs2.1 hr
    obtain ⟨l, h1, h2, rfl⟩ := (reads_timesVia reads_z4c _ _ _ _).1 hu
    rw [Re.Reads.lit.1 hv] at e
    exact gap (l := l) (r := [c!"0"]) h2 (by simpa using ⟨1, by omega, by omega, rfl⟩) (.inr (by simp)) (by rintro rfl; simp at h1) (by rw [e]; simp [after])
  · obtain ⟨u, v, e, hu, hv⟩ := hr
    obtain ⟨l, h1, h2, rfl⟩ := (reads_timesVia reads_z4c _ _ _ _).1 hu
    rw [Re.Reads.lit.1 hv] at e
    exact gap (l := l) (r := []) h2 (by simp) (.inr (by simp)) (by rintro rfl; simp at h1) (by rw [e]; simp [after])

/-! ### Examples -/

instance (s : Str) : Decidable (Hextet s) := by unfold Hextet; infer_instance

instance (f : V6Form) : Decidable f.Ok := by
  cases f <;> (unfold V6Form.Ok; infer_instance)

instance (f : V6Form) : Decidable f.LowerCase := by unfold V6Form.LowerCase; infer_instance

instance (s : Str) : Decidable (NoAddress s) := by unfold NoAddress; infer_instance

instance (n : Nat) : Decidable (LoopbackV6 n) := by unfold LoopbackV6; infer_instance

instance (n : Nat) : Decidable (LinkLocalV6 n) := by unfold LinkLocalV6; infer_instance

/-- A line of a server with the name of a client and its address. -/
example : getIp rx c!"mail.example.com (mx.example.com [IPv6:2001:db8::1]) by mx.example.org with ESMTP" = c!"2001:db8::1" :=
  C149_found_partial c!"mail.example.com (mx.example.com " c!"IPv6:" c!")" c!"mx.example.org with ESMTP" (.short [c!"2001", c!"db8"] [c!"1"])
    (by decide +kernel) (by decide +kernel) (.inr rfl) (by decide +kernel) (by decide +kernel) (by decide +kernel)
    (by decide +kernel) (by decide +kernel)

example : getIp rx c!"localhost ([::1]) by mx with ESMTP" = c!"::1" :=
  C149_alone_partial c!"localhost (" [] c!")" c!"mx with ESMTP" (.short [] [c!"1"])
    (by decide +kernel) (by decide +kernel) (.inl rfl) (by decide +kernel) (by decide +kernel) (by decide +kernel) (by decide +kernel)

example : isPrivate rx c!"0:0::0001" = true ∧ isPrivate rx c!"fe9a::1:2" = true ∧ isPrivate rx c!"fec0::1" = false :=
  ⟨(C149_private (.short [c!"0", c!"0"] [c!"0001"]) (by decide +kernel) (by decide +kernel)).2 (.inl (by decide +kernel)),
   (C149_private (.short [c!"fe9a"] [c!"1", c!"2"]) (by decide +kernel) (by decide +kernel)).2 (.inr (by decide +kernel)),
   Bool.eq_false_iff.2 (fun h => absurd ((C149_private (.short [c!"fec0"] [c!"1"]) (by decide +kernel) (by decide +kernel)).1 h) (by decide +kernel))⟩

example : getIp rx c!"a.example ([::ffff:203.0.113.9]) by mx with ESMTP" = c!"203.0.113.9" :=
  C149_mapped_partial c!"a.example (" [] c!")" c!"mx with ESMTP" (a := 203) (b := 0) (c := 113) (d := 9)
    ⟨by decide, by decide, by decide, by decide, by decide, by decide, by decide, by decide, by decide⟩ (.inl rfl) (by decide +kernel) (by decide +kernel)

/-- An address that the library accepts is turned into `12`. -/
example : ∃ x, getIp rx c!"a ([1::ffff:2]) by mx with ESMTP" = x ∧ x ≠ [] ∧ Net.v6? x = none ∧ Net.v4? x = none :=
  C149_ffff_violated c!"a (" [] c!")" c!"mx with ESMTP" [c!"1"] [c!"2"] (by decide +kernel) (by decide) (by decide +kernel) (.inl rfl)
    (by decide +kernel) (by decide +kernel) (by decide +kernel)

/-- Of `2001:DB8::1` the address `8::1` is left. -/
example : (getIp rx c!"a ([2001:DB8::1]) by mx with ESMTP").length < 11 :=
  C149_upper_violated c!"a (" c!")" c!"mx with ESMTP" (.short [c!"2001", c!"DB8"] [c!"1"]) (by decide +kernel) (by decide +kernel)
    (by decide +kernel) (by decide +kernel) (by decide +kernel)

set_option maxRecDepth 8000 in
example : getIp rx c!"a ([2001:DB8::1]) by mx with ESMTP" = c!"8::1" := by decide +kernel

set_option maxRecDepth 8000 in
/-- Two addresses in a line; the second one is taken. -/
example : ∃ f : V6Form, f.Ok ∧ f.LowerCase ∧ getIp rx c!"a ([fe80::1] [2001:db8::2]) by mx" = f.text ∧ f.text <:+: c!"a ([fe80::1] [2001:db8::2]) by mx" :=
  C149_valid_partial _ (by decide +kernel) (by decide +kernel) (by decide +kernel)

instance (s : Str) : Decidable (ZeroPart s) := by unfold ZeroPart; infer_instance

instance (a b : Nat) : Decidable (PrivateNet a b) := by unfold PrivateNet; infer_instance

example : isPrivate rx c!"0::0:00:ffff:172.16.0.9" = true ∧ isPrivate rx c!"::ffff:172.32.0.9" = false :=
  ⟨(C149_mapped_private_partial _ (.second c!"0" [c!"0", c!"00"] (by decide) (by decide) (by decide +kernel)) (a := 172) (b := 16) (c := 0) (d := 9)
      (by decide) (by decide) (by decide) (by decide)).2 (by decide),
   Bool.eq_false_iff.2 (fun h => absurd ((C149_mapped_private_partial _ (.leading [] (by decide) (by decide +kernel)) (a := 172) (b := 32) (c := 0) (d := 9)
      (by decide) (by decide) (by decide) (by decide)).1 h) (by decide))⟩

example : isPrivate rx c!"0:0::0:0:ffff:10.1.2.3" = false :=
  C149_mapped_gap_violated c!"0" c!"0" c!"0" c!"0" (by decide +kernel) (a := 10) (b := 1) (c := 2) (d := 3) (by decide) (by decide) (by decide) (by decide)

end Verif.Props
