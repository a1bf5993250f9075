import Verif.Model.AwlKey
import Verif.Spec.AwlKey
import Verif.Lemmas.AddrText
import Verif.Props.Awl
import Verif.Props.Report
import Verif.Props.Dkim

/-!
# C148: which entry of the auto-whitelist a message uses
-/

namespace Verif.Props
open Verif Py Net Awl Spec Spec.AwlKey

/-! ### Networks -/

theorem dropZeros_text : ∀ t : Str, ∃ k, t = dropZeros t ++ (List.replicate k c!".0").flatten := by
  intro t
  induction t with
  | nil => exact ⟨0, rfl⟩
  | cons c cs ih =>
    rw [dropZeros]
    split
    · rename_i h
      rcases h with h | h | h <;> rw [h]
      · exact ⟨1, rfl⟩
      · exact ⟨2, rfl⟩
      · exact ⟨3, rfl⟩
    · obtain ⟨k, hk⟩ := ih
      exact ⟨k, by rw [List.cons_append, ← hk]⟩

theorem dropZeros_inj {s t : Str} (hc : s.count '.' = t.count '.') (h : dropZeros s = dropZeros t) : s = t := by
  obtain ⟨i, hi⟩ := dropZeros_text s
  obtain ⟨j, hj⟩ := dropZeros_text t
  have cnt : ∀ k, ((List.replicate k c!".0").flatten).count '.' = k := by
    intro k
    induction k with
    | zero => rfl
    | succ k ih =>
      rw [List.replicate_succ, List.flatten_cons, List.count_append, ih]
      show 1 + k = k + 1
      omega
  have e1 := congrArg (List.count '.') hi
  have e2 := congrArg (List.count '.') hj
  rw [List.count_append, cnt] at e1 e2
  rw [h] at e1
  have : i = j := by omega
  rw [hi, hj, h, this]

theorem dropZeros_id {t : Str} (h : '.' ∉ t) : dropZeros t = t := by
  obtain ⟨k, hk⟩ := dropZeros_text t
  cases k with
  | zero => simpa using hk.symm
  | succ k =>
    exact absurd (by rw [hk]; simp [List.replicate_succ]) h

theorem masked_lt {w p n : Nat} (h : n < 2 ^ w) : masked w p n < 2 ^ w := by
  rw [masked_eq]
  exact Nat.lt_of_le_of_lt (Nat.div_mul_le_self _ _) h

theorem masked_inj (w p a b : Nat) : masked w p a = masked w p b ↔ SamePrefix w p a b := by
  rw [masked_eq, masked_eq, SamePrefix]
  exact ⟨fun h => Nat.mul_right_cancel (Nat.pow_pos (by decide)) h, fun h => by rw [h]⟩

/-- The key of an origin, with `none` for messages without. -/
def originKey (mask4 mask6 : Int) : Option Addr → Option Str
  | some a => ipToKey mask4 mask6 a
  | none => some c!"none"

theorem key_v4 {mask4 n : Nat} (mask6 : Int) (hm : mask4 ≤ 32) :
    ipToKey mask4 mask6 (.v4 n) = some (dropZeros (v4Text (masked 32 mask4 n))) := by
  show (if (0 : Int) ≤ mask4 ∧ (mask4 : Int) ≤ 32 then _ else none) = _
  rw [if_pos ⟨by omega, by omega⟩]
  rfl

theorem key_v6 {mask6 n : Nat} (mask4 : Int) (hm : mask6 ≤ 128) (hn : n < 2 ^ 128) :
    ipToKey mask4 mask6 (.v6 n) = some (v6Text (masked 128 mask6 n)) := by
  show (if (0 : Int) ≤ mask6 ∧ (mask6 : Int) ≤ 128 then some (dropZeros (v6Text (masked 128 mask6 n))) else none) = _
  rw [if_pos ⟨by omega, by omega⟩, dropZeros_id (v6_back _ (masked_lt hn)).2.2.1]

theorem key_v4_chars {m n : Nat} (hn : n < 2 ^ 32) : ∀ c ∈ dropZeros (v4Text (masked 32 m n)), v4Char c = true := by
  intro c hc
  obtain ⟨k, hk⟩ := dropZeros_text (v4Text (masked 32 m n))
  apply (v4_back _ (masked_lt hn)).2.2 c
  rw [hk]
  exact List.mem_append_left _ hc

theorem key_v4_v6 {m m' a b : Nat} (ha : a < 2 ^ 32) (hb : b < 2 ^ 128) :
    dropZeros (v4Text (masked 32 m a)) ≠ v6Text (masked 128 m' b) := by
  intro h
  have h1 := (v6_back _ (masked_lt (p := m') hb)).2.1
  rw [← h] at h1
  exact absurd (key_v4_chars ha _ h1) (by decide)

theorem originKey_same {mask4 mask6 : Nat} (h4 : mask4 ≤ 32) (h6 : mask6 ≤ 128) (a b : Option Addr)
    (ha : ∀ x, a = some x → Valid x) (hb : ∀ x, b = some x → Valid x) :
    originKey mask4 mask6 a = originKey mask4 mask6 b ↔ SameNet mask4 mask6 a b := by
  have noneV4 : ∀ n, n < 2 ^ 32 → c!"none" ≠ dropZeros (v4Text (masked 32 mask4 n)) := by
    intro n hn h
    exact absurd (key_v4_chars hn 'n' (by rw [← h]; simp)) (by decide)
  have noneV6 : ∀ n, n < 2 ^ 128 → c!"none" ≠ v6Text (masked 128 mask6 n) := by
    intro n hn h
    exact absurd ((v6_back _ (masked_lt hn)).2.2.2 'n' (by rw [← h]; simp)) (by decide)
  cases a with
  | none =>
    cases b with
    | none => simp [SameNet]
    | some b =>
      have hv := hb b rfl
      cases b with
      | v4 n => simp only [originKey, key_v4 _ h4, Option.some.injEq, SameNet, iff_false]; exact noneV4 n hv
      | v6 n => simp only [originKey, key_v6 _ h6 hv, Option.some.injEq, SameNet, iff_false]; exact noneV6 n hv
  | some a =>
    have hv := ha a rfl
    cases a with
    | v4 n =>
      cases b with
      | none => simp only [originKey, key_v4 _ h4, Option.some.injEq, SameNet, iff_false]; exact fun e => noneV4 n hv e.symm
      | some b =>
        have hw := hb b rfl
        cases b with
        | v4 m =>
          simp only [originKey, key_v4 _ h4, Option.some.injEq, SameNet]
          rw [← masked_inj]
          constructor
          · intro e
            have e1 := v4_back _ (masked_lt (p := mask4) hv)
            have e2 := v4_back _ (masked_lt (p := mask4) hw)
            have := dropZeros_inj (by rw [e1.2.1, e2.2.1]) e
            rw [this, e2.1] at e1
            simpa using e1.1.symm
          · intro e; rw [e]
        | v6 m =>
          simp only [originKey, key_v4 _ h4, key_v6 _ h6 hw, Option.some.injEq, SameNet, iff_false]
          exact key_v4_v6 hv hw
    | v6 n =>
      cases b with
      | none => simp only [originKey, key_v6 _ h6 hv, Option.some.injEq, SameNet, iff_false]; exact fun e => noneV6 n hv e.symm
      | some b =>
        have hw := hb b rfl
        cases b with
        | v4 m =>
          simp only [originKey, key_v4 _ h4, key_v6 _ h6 hv, Option.some.injEq, SameNet, iff_false]
          exact fun e => key_v4_v6 hw hv e.symm
        | v6 m =>
          simp only [originKey, key_v6 _ h6 hv, key_v6 _ h6 hw, Option.some.injEq, SameNet]
          rw [← masked_inj]
          constructor
          · intro e
            have e1 := (v6_back _ (masked_lt (p := mask6) hv)).1
            have e2 := (v6_back _ (masked_lt (p := mask6) hw)).1
            rw [e, e2] at e1
            simpa using e1.symm
          · intro e; rw [e]

/-! ### Origins and signatures -/

theorem origin_iff (isPrivate : Addr → Bool) (trusted untrusted : List Addr) (o : Option Addr)
    (h : Origin isPrivate (trusted ++ untrusted) o) : originIp isPrivate trusted untrusted = o := by
  unfold originIp
  cases h with
  | unknown h =>
    rw [List.find?_eq_none]
    intro x hx
    simp [h x (List.mem_reverse.1 hx)]
  | known near a far e h1 h2 =>
    rw [e, List.reverse_append, List.reverse_cons, List.append_assoc, List.find?_append]
    have : far.reverse.find? (fun ip => !isPrivate ip) = none := by
      rw [List.find?_eq_none]
      intro x hx
      simp [h2 x (List.mem_reverse.1 hx)]
    rw [this]
    simp [h1]

theorem namesDomain_iff (t : Str) : startsWith c!"d=" (strip t) = true ↔ NamesDomain t := by
  constructor
  · intro h
    obtain ⟨r, hr⟩ := List.isPrefixOf_iff_prefix.1 h
    have e1 : t = t.takeWhile isSpace ++ t.dropWhile isSpace := (List.takeWhile_append_dropWhile).symm
    have e2 : t.dropWhile isSpace = strip t ++ ((t.dropWhile isSpace).reverse.takeWhile isSpace).reverse := by
      have := congrArg List.reverse (List.takeWhile_append_dropWhile (p := isSpace) (l := (t.dropWhile isSpace).reverse))
      rw [List.reverse_append, List.reverse_reverse] at this
      exact this.symm
    refine ⟨t.takeWhile isSpace, r ++ ((t.dropWhile isSpace).reverse.takeWhile isSpace).reverse, ?_, ?_⟩
    · intro c hc
      exact List.all_eq_true.1 (List.all_takeWhile (p := isSpace) (l := t)) c hc
    · have : t = t.takeWhile isSpace ++ (c!"d=" ++ r ++ ((t.dropWhile isSpace).reverse.takeWhile isSpace).reverse) := by
        rw [hr, ← e2]; exact e1
      simpa using this
  · rintro ⟨w, v, hw, rfl⟩
    unfold strip stripBy lstripBy
    rw [List.append_assoc, dropWhile_all _ hw]
    have : (c!"d=" ++ v).dropWhile isSpace = c!"d=" ++ v := dropWhile_head _ (by decide)
    rw [this]
    unfold rstripBy
    rw [List.reverse_append, List.dropWhile_append]
    apply List.isPrefixOf_iff_prefix.2
    split
    · exact ⟨[], by simp [show isSpace '=' = false by decide]⟩
    · rw [List.reverse_append]
      exact ⟨_, rfl⟩

theorem signed_eq {header : Option Str} {dom : Str} (h : Signed header dom) : signedBy header = dom := by
  unfold signedBy
  cases h with
  | unsigned => rfl
  | domain before after w v dom w' h1 h2 h3 hv h4 h5 h6 =>
    have blank : ∀ c, (c = ' ' ∨ c = '\r' ∨ c = '\n') → c ≠ ';' ∧ (c!" ;\r\n").contains c = true := by
      rintro c (rfl | rfl | rfl) <;> decide
    have hs : ∀ c, isSpace c = true → c ≠ ';' ∧ c ≠ '=' := by
      intro c hc
      constructor <;> (rintro rfl; exact absurd hc (by decide))
    have tag : ';' ∉ w ++ c!"d=" ++ v ++ dom ++ w' := by
      intro hm
      simp only [List.mem_append] at hm
      rcases hm with (((hm | hm) | hm) | hm) | hm
      · exact (hs _ (h3 _ hm)).1 rfl
      · exact absurd hm (by decide)
      · exact (blank _ (hv _ hm)).1 rfl
      · exact (h6 _ hm).2 rfl
      · exact (blank _ (h4 _ hm)).1 rfl
    rw [Option.getD_some, Py.splitChar_join ';' _ (by simp) (by
      intro t ht
      rcases List.mem_append.1 ht with ht | ht
      · exact (h1 t ht).1
      · rcases List.mem_cons.1 ht with rfl | ht
        · exact tag
        · exact h2 t ht)]
    have hb : before.find? (fun param => startsWith c!"d=" (strip param)) = none := by
      rw [List.find?_eq_none]
      intro t ht hn
      exact (h1 t ht).2 ((namesDomain_iff t).1 hn)
    have hd : startsWith c!"d=" (strip (w ++ c!"d=" ++ v ++ dom ++ w')) = true :=
      (namesDomain_iff _).2 ⟨w, v ++ dom ++ w', h3, by simp⟩
    rw [List.find?_append, hb, List.find?_cons, hd]
    have e : w ++ c!"d=" ++ v ++ dom ++ w' = (w ++ ['d']) ++ '=' :: (v ++ dom ++ w') := by simp
    have hne : '=' ∉ w ++ ['d'] := by
      intro hm
      rcases List.mem_append.1 hm with hm | hm
      · exact (hs _ (h3 _ hm)).2 rfl
      · exact absurd hm (by decide)
    show (match split1 c!"=" (w ++ c!"d=" ++ v ++ dom ++ w') with
      | some (_, v) => stripChars c!" ;\r\n" v
      | none => []) = dom
    rw [e, split1_char_append _ hne]
    apply stripChars_around (fun c hc => (blank c (hv c hc)).2) (fun c hc => (blank c (h4 c hc)).2)
    have hno : ∀ c ∈ dom, (c!" ;\r\n").contains c = false := by
      intro c hc
      have := h6 c hc
      cases hcon : (c!" ;\r\n").contains c with
      | false => rfl
      | true =>
        exfalso
        simp only [List.contains_eq_mem, List.mem_cons, List.not_mem_nil, or_false, decide_eq_true_eq] at hcon
        rcases hcon with rfl | rfl | rfl | rfl
        · exact absurd this.1 (by decide)
        · exact this.2 rfl
        · exact absurd this.1 (by decide)
        · exact absurd this.1 (by decide)
    right
    constructor
    · cases dom with
      | nil => exact absurd rfl h5
      | cons c cs => exact ⟨c, cs, rfl, hno c (by simp)⟩
    · refine ⟨dom.dropLast, dom.getLast h5, (List.dropLast_append_getLast h5).symm, hno _ (List.getLast_mem h5)⟩

/-! ### C148 -/

theorem toMail_some (isPrivate : Addr → Bool) (mask4 mask6 : Int) (m : Msg) (o : Option Addr) (d k : Str)
    (ho : Origin isPrivate (m.trusted ++ m.untrusted) o) (hd : Signed m.dkim d) (hk : originKey mask4 mask6 o = some k) :
    toMail isPrivate mask4 mask6 m = some ⟨m.froms.headD [], d, k, m.score⟩ := by
  unfold toMail
  rw [origin_iff _ _ _ _ ho, signed_eq hd]
  cases o with
  | none =>
    simp only [originKey, Option.some.injEq] at hk
    subst hk; rfl
  | some a =>
    simp only [originKey] at hk
    simp [hk]

theorem originKey_some {mask4 mask6 : Nat} (h4 : mask4 ≤ 32) (h6 : mask6 ≤ 128) (o : Option Addr)
    (ho : ∀ x, o = some x → Valid x) : ∃ k, originKey mask4 mask6 o = some k := by
  cases o with
  | none => exact ⟨_, rfl⟩
  | some a =>
    cases a with
    | v4 n => exact ⟨_, key_v4 (mask6 : Int) h4⟩
    | v6 n => exact ⟨_, key_v6 (mask4 : Int) h6 (ho _ rfl)⟩

theorem origin_mem {isPrivate : Addr → Bool} {l : List Addr} {o : Option Addr} (h : Origin isPrivate l o) :
    ∀ x, o = some x → x ∈ l := by
  cases h with
  | unknown _ => intro x hx; simp at hx
  | known near a far e _ _ =>
    intro x hx
    simp only [Option.some.injEq] at hx
    subst hx
    rw [e]; simp

/-- **C148** (partial).  Two messages use the same entry of the auto-whitelist exactly if they have the same first `From`
address, the same signing domain and origins in the same network.  Missing: signatures written otherwise
(`C148_equals_violated`, `C148_tab_violated`), and addresses that differ in letter case (`C148_case_violated`). -/
theorem C148_same_entry_partial (isPrivate : Addr → Bool) (mask4 mask6 : Nat) (h4 : mask4 ≤ 32) (h6 : mask6 ≤ 128)
    (user : Str) (m m' : Msg) (hv : ∀ a ∈ m.trusted ++ m.untrusted, Valid a) (hv' : ∀ a ∈ m'.trusted ++ m'.untrusted, Valid a)
    (o o' : Option Addr) (ho : Origin isPrivate (m.trusted ++ m.untrusted) o)
    (ho' : Origin isPrivate (m'.trusted ++ m'.untrusted) o') (d d' : Str) (hd : Signed m.dkim d) (hd' : Signed m'.dkim d') :
    ∃ x x', toMail isPrivate mask4 mask6 m = some x ∧ toMail isPrivate mask4 mask6 m' = some x' ∧
      x.score = m.score ∧ x'.score = m'.score ∧
      (x.key user = x'.key user ↔ m.froms.headD [] = m'.froms.headD [] ∧ d = d' ∧ SameNet mask4 mask6 o o') := by
  have va : ∀ x, o = some x → Valid x := fun x hx => hv x (origin_mem ho x hx)
  have vb : ∀ x, o' = some x → Valid x := fun x hx => hv' x (origin_mem ho' x hx)
  obtain ⟨k, hk⟩ := originKey_some h4 h6 o va
  obtain ⟨k', hk'⟩ := originKey_some h4 h6 o' vb
  refine ⟨_, _, toMail_some _ _ _ _ _ _ _ ho hd hk, toMail_some _ _ _ _ _ _ _ ho' hd' hk', rfl, rfl, ?_⟩
  rw [← originKey_same h4 h6 o o' va vb, hk, hk']
  simp [Mail.key]

/-- A mask that does not fit the kind of address: no message from such an address can be checked. -/
theorem C148_bad_mask (isPrivate : Addr → Bool) (mask4 mask6 : Int) (m : Msg) (a : Addr)
    (ho : Origin isPrivate (m.trusted ++ m.untrusted) (some a))
    (h : match a with | .v4 _ => mask4 < 0 ∨ 32 < mask4 | .v6 _ => mask6 < 0 ∨ 128 < mask6) :
    toMail isPrivate mask4 mask6 m = none := by
  unfold toMail
  rw [origin_iff _ _ _ _ ho]
  cases a with
  | v4 n =>
    have : ipToKey mask4 mask6 (.v4 n) = none := if_neg (by simp only at h; omega)
    simp [this]
  | v6 n =>
    have : ipToKey mask4 mask6 (.v6 n) = none := if_neg (by simp only at h; omega)
    simp [this]

/-- A signature none of whose tags begins with `d=` counts as none. -/
theorem C148_unsigned (tags : List Str) (h0 : tags ≠ []) (h : ∀ t ∈ tags, ';' ∉ t ∧ ¬ NamesDomain t) :
    signedBy (some (join c!";" tags)) = [] := by
  unfold signedBy
  rw [Option.getD_some, Py.splitChar_join ';' _ h0 (fun t ht => (h t ht).1)]
  have hb : tags.find? (fun param => startsWith c!"d=" (strip param)) = none := by
    rw [List.find?_eq_none]
    intro t ht hn
    exact (h t ht).2 ((namesDomain_iff t).1 hn)
  rw [hb]

/-- With blanks before the `=`, which RFC 6376 allows, the domain is not found. -/
theorem C148_equals_violated (lead w dom : Str) (hl : AwlKey.Blank lead) (hw : AwlKey.Blank w) (h0 : w ≠ []) (hd : ';' ∉ dom) :
    signedBy (some (lead ++ c!"d" ++ w ++ c!"=" ++ dom)) = [] := by
  have hs : ∀ c, isSpace c = true → c ≠ ';' ∧ c ≠ '=' ∧ c ≠ 'd' := by
    intro c hc
    refine ⟨?_, ?_, ?_⟩ <;> (rintro rfl; exact absurd hc (by decide))
  have := C148_unsigned [lead ++ c!"d" ++ w ++ c!"=" ++ dom] (by simp) (by
    intro t ht
    rw [List.mem_singleton.1 ht]
    constructor
    · intro hm
      simp only [List.mem_append] at hm
      rcases hm with (((hm | hm) | hm) | hm) | hm
      · exact (hs _ (hl _ hm)).1 rfl
      · exact absurd hm (by decide)
      · exact (hs _ (hw _ hm)).1 rfl
      · exact absurd hm (by decide)
      · exact hd hm
    · rintro ⟨u, v, hu, e⟩
      have e1 := congrArg (List.dropWhile isSpace) e
      simp only [List.append_assoc] at e1
      rw [dropWhile_all _ hl, dropWhile_all _ hu] at e1
      cases w with
      | nil => exact h0 rfl
      | cons c cs =>
        have : isSpace 'd' = false := by decide
        simp only [List.cons_append, List.nil_append, List.dropWhile_cons, this, Bool.false_eq_true, if_false,
          List.cons.injEq, true_and] at e1
        exact (hs c (hw c (by simp))).2.1 e1.1)
  simpa [join] using this

/-- A tab after the domain, as in a header folded with one, stays part of it: the messages of one sender signed by one domain
use different entries. -/
theorem C148_tab_violated (dom rest : Str) (h5 : dom ≠ []) (h6 : ∀ c ∈ dom, isSpace c = false ∧ c ≠ ';') :
    signedBy (some (c!"d=" ++ dom ++ c!"\t;" ++ rest)) = dom ++ c!"\t" := by
  have hsemi : ';' ∉ c!"d=" ++ dom ++ c!"\t" := by
    intro hm
    simp only [List.mem_append] at hm
    rcases hm with (hm | hm) | hm
    · exact absurd hm (by decide)
    · exact (h6 _ hm).2 rfl
    · exact absurd hm (by decide)
  have e : c!"d=" ++ dom ++ c!"\t;" ++ rest = (c!"d=" ++ dom ++ c!"\t") ++ ';' :: rest := by simp
  have hd : startsWith c!"d=" (strip (c!"d=" ++ dom ++ c!"\t")) = true :=
    (namesDomain_iff _).2 ⟨[], dom ++ c!"\t", by simp [AwlKey.Blank], by simp⟩
  unfold signedBy
  rw [Option.getD_some, e, splitChar_append_any]
  have one : splitChar ';' (c!"d=" ++ dom ++ c!"\t") = [c!"d=" ++ dom ++ c!"\t"] := by
    have := Py.splitChar_join ';' [c!"d=" ++ dom ++ c!"\t"] (by simp) (by simpa using hsemi)
    simpa [join] using this
  rw [one, List.singleton_append, List.find?_cons, hd]
  show (match split1 c!"=" (c!"d" ++ '=' :: (dom ++ c!"\t")) with
    | some (_, v) => stripChars c!" ;\r\n" v
    | none => []) = dom ++ c!"\t"
  rw [split1_char_append _ (by decide)]
  have := stripChars_around (q := c!" ;\r\n") (core := dom ++ c!"\t") (q1 := []) (q2 := []) (by simp) (by simp) (Or.inr ⟨by
    cases dom with
    | nil => exact absurd rfl h5
    | cons c cs =>
      refine ⟨c, cs ++ c!"\t", rfl, ?_⟩
      have hc := h6 c (by simp)
      cases hcon : (c!" ;\r\n").contains c with
      | false => rfl
      | true =>
        exfalso
        simp only [List.contains_eq_mem, List.mem_cons, List.not_mem_nil, or_false, decide_eq_true_eq] at hcon
        rcases hcon with rfl | rfl | rfl | rfl
        · exact absurd hc.1 (by decide)
        · exact hc.2 rfl
        · exact absurd hc.1 (by decide)
        · exact absurd hc.1 (by decide), ⟨dom, '\t', rfl, by decide⟩⟩)
  simpa using this

/-- Messages from an address do nothing for the same address in other letters: after any history of messages from `a` only, a
message from `b`, say `Bob@example.com` after `bob@example.com`, keeps its score.  (The database compares letters exactly, as
SQLite does.) -/
theorem C148_case_violated (user : Str) (factor : Rat) (a : Str) (ms : List Mail) (h : ∀ x ∈ ms, x.email = a) (m : Mail)
    (hb : lower m.email = lower a) (hne : m.email ≠ a) :
    (Awl.check user factor (Awl.run user factor [] ms) m).2 = m.score := by
  have key : ∀ (k : Key), k.email ≠ a → Dict.get? (Awl.run user factor [] ms) k = none := by
    intro k hk
    rw [← List.reverse_reverse ms] at h ⊢
    generalize ms.reverse = l at h ⊢
    induction l with
    | nil => rfl
    | cons x l ih =>
      rw [List.reverse_cons] at h ⊢
      rw [run_snoc, C50_others_untouched _ _ _ _ _ (Or.inr (Or.inl (by rw [h x (by simp)]; exact hk)))]
      exact ih (fun y hy => h y (by simp at hy ⊢; exact Or.inl hy))
  exact C51_unknown _ _ _ _ (key _ hne) (key _ hne)

/-! ### The hypotheses can be met -/

/-- A message that came through a public relay and then a private one. -/
def exampleMsg (a : Nat) (s : Rat) : Msg :=
  ⟨[c!"bob@example.com"], some c!"v=1; a=rsa-sha256; d=example.com;\n s=k; bh=x=", [.v4 (10 * 2 ^ 24 + 1)], [.v4 a], s⟩

def examplePrivate : Addr → Bool
  | .v4 n => n / 2 ^ 24 == 10
  | .v6 _ => false

example : toMail examplePrivate 16 48 (exampleMsg (93 * 2 ^ 24 + 184 * 2 ^ 16 + 216 * 256 + 34) 3) =
    some ⟨c!"bob@example.com", c!"example.com", c!"93.184", 3⟩ := by decide +kernel

example : Origin examplePrivate ([.v4 (10 * 2 ^ 24 + 1)] ++ [.v4 (93 * 2 ^ 24)]) (some (.v4 (93 * 2 ^ 24))) :=
  .known [.v4 (10 * 2 ^ 24 + 1)] _ [] rfl (by decide +kernel) (by simp)

example : Signed (some c!"v=1; d=example.com;\n s=k") c!"example.com" :=
  .domain [c!"v=1"] [c!"\n s=k"] c!" " [] c!"example.com" [] (by
    intro t ht
    rw [List.mem_singleton.1 ht]
    refine ⟨by decide, fun h => ?_⟩
    exact absurd ((namesDomain_iff _).2 h) (by decide +kernel)) (by decide) (by unfold AwlKey.Blank; decide) (by simp) (by simp) (by simp)
    (by decide)

example : SameNet 16 48 (some (.v4 (93 * 2 ^ 24 + 184 * 2 ^ 16 + 1))) (some (.v4 (93 * 2 ^ 24 + 184 * 2 ^ 16 + 77))) := by
  show SamePrefix _ _ _ _
  decide +kernel

example : ¬ SameNet 16 48 (some (.v4 (93 * 2 ^ 24 + 184 * 2 ^ 16 + 1))) (some (.v4 (93 * 2 ^ 24 + 185 * 2 ^ 16 + 1))) := by
  show ¬ SamePrefix _ _ _ _
  decide +kernel

example : ipToKey 16 48 (.v6 (0x20010db8000a000b000000000000 * 65536 + 1)) = some c!"2001:db8:a::" := by decide +kernel

example : ipToKey 40 48 (.v4 7) = none := by decide +kernel

end Verif.Props
