import Verif.Props.Ipv6Re
import Verif.Props.Skip
import Verif.Lemmas.Headers

/-!
# C149: private addresses in letters of any kind
-/

namespace Verif.Props
open Verif Py Spec Received ReceivedRe Verif.Re

/-- The expression does not tell capital letters from small ones. -/
def Blind : Re → Prop
  | .chr p => ∀ c, p c.toLower = p c
  | .star _ p => ∀ c, p c.toLower = p c
  | .nbehind p => ∀ c, p c.toLower = p c
  | .nahead p => ∀ c, p c.toLower = p c
  | .seq a b => Blind a ∧ Blind b
  | .alt a b => Blind a ∧ Blind b
  | .group _ r => Blind r
  | .eps => True
  | .bol => True
  | .eol => False
  | .wordb => False

theorem headIn_lower {p : Char → Bool} (h : ∀ c, p c.toLower = p c) (s : Str) : headIn p (s.map Char.toLower) = headIn p s := by
  cases s <;> simp [headIn, h]

theorem blind_reads : ∀ {r : Re} {b w a : Str}, Blind r →
    (Re.Reads r (b.map Char.toLower) (w.map Char.toLower) (a.map Char.toLower) ↔ Re.Reads r b w a) := by
  intro r
  induction r with
  | eps => intro b w a _; simp [Re.Reads]
  | chr p =>
    intro b w a h
    simp only [Re.Reads]
    constructor
    · rintro ⟨c, hw, hc⟩
      obtain ⟨d, rfl, rfl⟩ := List.map_eq_singleton_iff.1 hw
      exact ⟨d, rfl, by rw [← h]; exact hc⟩
    · rintro ⟨c, rfl, hc⟩
      exact ⟨c.toLower, rfl, by rw [h]; exact hc⟩
  | seq x y ihx ihy =>
    intro b w a h
    simp only [Re.Reads]
    constructor
    · rintro ⟨u, v, hw, h1, h2⟩
      obtain ⟨u, v, rfl, rfl, rfl⟩ := List.map_eq_append_iff.1 hw
      rw [← List.map_append, ihx h.1] at h1
      rw [← List.map_reverse, ← List.map_append, ihy h.2] at h2
      exact ⟨u, v, rfl, h1, h2⟩
    · rintro ⟨u, v, rfl, h1, h2⟩
      refine ⟨u.map Char.toLower, v.map Char.toLower, by simp, ?_, ?_⟩
      · rw [← List.map_append, ihx h.1]; exact h1
      · rw [← List.map_reverse, ← List.map_append, ihy h.2]; exact h2
  | alt x y ihx ihy => intro b w a h; simp only [Re.Reads, ihx h.1, ihy h.2]
  | star g p =>
    intro b w a h
    have h : ∀ c, p c.toLower = p c := h
    simp [Re.Reads, h]
  | group n r ih => intro b w a h; simp only [Re.Reads]; exact ih h
  | bol => intro b w a _; simp [Re.Reads]
  | eol => intro b w a h; exact h.elim
  | wordb => intro b w a h; exact h.elim
  | nbehind p => intro b w a h; simp [Re.Reads, headIn_lower h]
  | nahead p => intro b w a h; simp [Re.Reads, headIn_lower h]

theorem blind_search {r : Re} (h : Blind r) (text : Str) : (search r (lower text)).isSome = (search r text).isSome := by
  rw [Bool.eq_iff_iff, search_isSome, search_isSome]
  constructor
  · rintro ⟨u, w, z, e, hr⟩
    have e : text.map Char.toLower = (u ++ w) ++ z := e
    obtain ⟨x, z, e1, e2, rfl⟩ := List.map_eq_append_iff.1 e
    obtain ⟨u, w, rfl, rfl, rfl⟩ := List.map_eq_append_iff.1 e2
    subst e1
    rw [← List.map_reverse, blind_reads h] at hr
    exact ⟨u, w, z, rfl, hr⟩
  · rintro ⟨u, w, z, rfl, hr⟩
    refine ⟨lower u, lower w, lower z, by simp [lower], ?_⟩
    unfold lower
    rw [← List.map_reverse, blind_reads h]
    exact hr

theorem blind_alts : ∀ {l : List Re}, (∀ r ∈ l, Blind r) → Blind (alts l) := by
  intro l
  induction l with
  | nil => intro _ c; rfl
  | cons r l ih =>
    intro h
    cases l with
    | nil => exact h r (by simp)
    | cons x l => exact ⟨h r (by simp), ih (fun r hr => h r (List.mem_cons_of_mem _ hr))⟩

theorem blind_seqs : ∀ {l : List Re}, (∀ r ∈ l, Blind r) → Blind (seqs l) := by
  intro l
  induction l with
  | nil => intro _; trivial
  | cons r l ih =>
    intro h
    cases l with
    | nil => exact h r (by simp)
    | cons x l => exact ⟨h r (by simp), ih (fun r hr => h r (List.mem_cons_of_mem _ hr))⟩

theorem blind_times {r : Re} (h : Blind r) : ∀ n, Blind (times r n)
  | 0 => trivial
  | n + 1 => ⟨h, blind_times h n⟩

theorem blind_upTo {r : Re} (h : Blind r) : ∀ n, Blind (upTo r n)
  | 0 => trivial
  | n + 1 => ⟨⟨h, blind_upTo h n⟩, trivial⟩

theorem blind_rep {r : Re} (h : Blind r) (lo hi : Nat) : Blind (rep r lo hi) := ⟨blind_times h lo, blind_upTo h _⟩

theorem blind_ilit : ∀ s, Blind (ilit s)
  | [] => trivial
  | c :: s => ⟨fun d => by simp [Mail.toLower_idem], blind_ilit s⟩

theorem blind_class {p : Char → Bool} (h : ∀ c : Char, p c = true → c.toLower = c ∧ c.isLower = false) : ∀ c, p c.toLower = p c := by
  intro c
  rw [Bool.eq_iff_iff]
  constructor
  · intro hc
    rw [lower_same (d := c.toLower) rfl (h _ hc).2]
    exact hc
  · intro hc
    rw [(h _ hc).1]; exact hc

/-- Characters between a space and `@` are no letters. -/
theorem sign_lower {c : Char} (h : c.toNat < 65) : c.toLower = c ∧ c.isLower = false := by
  constructor
  · unfold Char.toLower
    rw [dif_neg]
    rintro ⟨h1, _⟩
    have h1 : 65 ≤ c.toNat := h1
    omega
  · simp only [Char.isLower, Bool.and_eq_false_iff, decide_eq_false_iff_not]
    refine .inl fun h1 => ?_
    have h1 : 97 ≤ c.toNat := h1
    omega

theorem blind_lit : ∀ {s : Str}, (∀ c ∈ s, c.toNat < 65) → Blind (lit s)
  | [], _ => trivial
  | c :: s, h => ⟨blind_class (p := fun d => d == c) (fun d hd => by
      have hd : d = c := beq_iff_eq.1 hd
      subst hd; exact sign_lower (h d (by simp))),
      blind_lit (fun d hd => h d (List.mem_cons_of_mem _ hd))⟩

theorem blind_private6 : Blind private6 := by
  have btw : ∀ a b : Char, b.toNat < 65 → Blind (.chr (between a b)) := by
    intro a b hb
    refine blind_class fun c hc => sign_lower ?_
    simp only [between, Bool.and_eq_true, decide_eq_true_eq] at hc
    have : c.toNat ≤ b.toNat := hc.2
    omega
  have l : ∀ {s : Str}, (∀ c ∈ s, c.toNat < 65) → Blind (lit s) := blind_lit
  have hih : ∀ c : Char, ihexColon c.toLower = ihexColon c := by intro c; simp only [ihexColon, Mail.toLower_idem]
  have hz4 : Blind z4 := blind_rep (l (by decide)) 1 4
  have hz4c : Blind z4c := ⟨hz4, l (by decide)⟩
  have hcz4 : Blind cz4 := ⟨l (by decide), hz4⟩
  have hone : Blind one := ⟨blind_rep (l (by decide)) 0 3, l (by decide)⟩
  have hloop : Blind loop6 := by
    refine blind_alts fun r hr => ?_
    simp only [List.mem_cons, List.not_mem_nil, or_false] at hr
    rcases hr with rfl | rfl | rfl | rfl | rfl | rfl | rfl | rfl
    · exact ⟨blind_times hz4c 7, hone⟩
    all_goals
      refine blind_seqs fun r hr => ?_
      simp only [List.mem_cons, List.not_mem_nil, or_false] at hr
      first
      | (rcases hr with rfl | rfl | rfl | rfl | rfl)
      | (rcases hr with rfl | rfl | rfl | rfl)
      | (rcases hr with rfl | rfl | rfl)
    all_goals
      first
      | exact hz4
      | exact hone
      | exact l (by decide)
      | exact blind_rep hcz4 _ _
      | exact blind_times hz4c _
  have hmapped : Blind mapped := by
    refine ⟨blind_alts fun r hr => ?_, blind_ilit _⟩
    simp only [List.mem_cons, List.not_mem_nil, or_false] at hr
    rcases hr with rfl | rfl | rfl | rfl | rfl | rfl | rfl
    · exact blind_times hz4c 5
    · exact ⟨l (by decide), blind_rep hz4c _ _⟩
    · exact ⟨blind_rep hz4c _ _, l (by decide)⟩
    · exact ⟨hz4, l (by decide), blind_rep hz4c _ _⟩
    · exact ⟨blind_times hz4c 2, l (by decide), blind_rep (l (by decide)) _ _, l (by decide)⟩
    · exact ⟨blind_times hz4c 3, l (by decide)⟩
    · exact ⟨blind_times hz4c 4, l (by decide)⟩
  have hnet : Blind privateNet := by
    refine ⟨l (by decide), l (by decide), l (by decide), ⟨l (by decide), ?_⟩, l (by decide), ⟨l (by decide), ?_⟩⟩
    · exact ⟨⟨l (by decide), btw _ _ (by decide)⟩, ⟨l (by decide), btw _ _ (by decide)⟩, ⟨l (by decide), btw _ _ (by decide)⟩⟩
    · exact ⟨⟨l (by decide), btw _ _ (by decide)⟩, ⟨btw _ _ (by decide), btw _ _ (by decide)⟩,
        ⟨l (by decide), btw _ _ (by decide), btw _ _ (by decide)⟩, ⟨l (by decide), btw _ _ (by decide)⟩⟩
  have hdot : Blind (.star true dot) := by
    intro c
    show (c.toLower != '\n') = (c != '\n')
    rw [Bool.eq_iff_iff, bne_iff_ne, bne_iff_ne]
    apply not_congr
    constructor
    · intro h; exact lower_same h (by decide)
    · rintro rfl; decide
  refine ⟨trivial, ⟨blind_ilit _, hih⟩, ⟨⟨hmapped, hnet, l (by decide), hdot⟩, ⟨blind_ilit _, ?_, ?_, l (by decide), hdot⟩, hloop⟩, hih⟩
  · intro c
    simp only [Mail.toLower_idem]
    have h : ∀ d : Char, d.toNat < 65 → ((c.toLower == d) = (c == d)) := fun d hd => by
      rw [Bool.eq_iff_iff, beq_iff_eq, beq_iff_eq]
      constructor
      · intro h; exact lower_same h (sign_lower hd).2
      · rintro rfl; exact (sign_lower hd).1
    rw [h '8' (by decide), h '9' (by decide)]
  · intro c
    simp only [Mail.toLower_idem]

/-- The same address in small letters. -/
def lowerForm : V6Form → V6Form
  | .full ps => .full (ps.map lower)
  | .short hi lo => .short (hi.map lower) (lo.map lower)

theorem hex_lower {c : Char} (h : ('0' ≤ c ∧ c ≤ '9') ∨ ('a' ≤ c ∧ c ≤ 'f') ∨ ('A' ≤ c ∧ c ≤ 'F')) :
    (('0' ≤ c.toLower ∧ c.toLower ≤ '9') ∨ ('a' ≤ c.toLower ∧ c.toLower ≤ 'f') ∨ ('A' ≤ c.toLower ∧ c.toLower ≤ 'F')) ∧
      hexDigit c.toLower = hexDigit c ∧ c.toLower.isUpper = false := by
  have e : c = Char.ofNat c.toNat := (Char.ofNat_toNat c).symm
  have hn : c.toNat < 128 := by
    rcases h with h | h | h
    · have : c.toNat ≤ 57 := h.2; omega
    · have : c.toNat ≤ 102 := h.2; omega
    · have : c.toNat ≤ 70 := h.2; omega
  have all : ∀ n < 128, (('0' ≤ Char.ofNat n ∧ Char.ofNat n ≤ '9') ∨ ('a' ≤ Char.ofNat n ∧ Char.ofNat n ≤ 'f') ∨
      ('A' ≤ Char.ofNat n ∧ Char.ofNat n ≤ 'F')) →
    (('0' ≤ (Char.ofNat n).toLower ∧ (Char.ofNat n).toLower ≤ '9') ∨ ('a' ≤ (Char.ofNat n).toLower ∧ (Char.ofNat n).toLower ≤ 'f') ∨
      ('A' ≤ (Char.ofNat n).toLower ∧ (Char.ofNat n).toLower ≤ 'F')) ∧
      hexDigit (Char.ofNat n).toLower = hexDigit (Char.ofNat n) ∧ (Char.ofNat n).toLower.isUpper = false := by decide +kernel
  rw [e] at h ⊢
  exact all _ hn h

theorem hextet_lower {s : Str} (h : Hextet s) : Hextet (lower s) ∧ hexNumber (lower s) = hexNumber s ∧ ∀ c ∈ lower s, c.isUpper = false := by
  refine ⟨⟨by simpa [lower] using h.1, by simpa [lower] using h.2.1, ?_⟩, ?_, ?_⟩
  · intro c hc
    obtain ⟨d, hd, rfl⟩ := List.mem_map.1 hc
    exact (hex_lower (h.2.2 d hd)).1
  · have : ∀ (s : Str) (v : Nat), (∀ c ∈ s, ('0' ≤ c ∧ c ≤ '9') ∨ ('a' ≤ c ∧ c ≤ 'f') ∨ ('A' ≤ c ∧ c ≤ 'F')) →
        (lower s).foldl (fun v c => 16 * v + hexDigit c) v = s.foldl (fun v c => 16 * v + hexDigit c) v := by
      intro s
      induction s with
      | nil => intro v _; rfl
      | cons c s ih =>
        intro v hs
        show (lower s).foldl _ (16 * v + hexDigit c.toLower) = _
        rw [(hex_lower (hs c (by simp))).2.1]
        exact ih _ (fun d hd => hs d (List.mem_cons_of_mem _ hd))
    exact this s 0 h.2.2
  · intro c hc
    obtain ⟨d, hd, rfl⟩ := List.mem_map.1 hc
    exact (hex_lower (h.2.2 d hd)).2.2

theorem join_lower (l : List Str) : join c!":" (l.map lower) = lower (join c!":" l) := by
  induction l with
  | nil => rfl
  | cons x l ih =>
    cases l with
    | nil => rfl
    | cons y l =>
      simp only [List.map_cons, join] at ih ⊢
      rw [ih]
      simp [lower]

theorem lowerForm_facts {f : V6Form} (h : f.Ok) : (lowerForm f).Ok ∧ (lowerForm f).text = lower f.text ∧
    (lowerForm f).address = f.address ∧ (lowerForm f).LowerCase := by
  have num : ∀ l : List Str, (∀ p ∈ l, Hextet p) → (l.map lower).map hexNumber = l.map hexNumber := by
    intro l hl
    rw [List.map_map]
    exact List.map_congr_left fun p hp => (hextet_lower (hl p hp)).2.1
  have up : ∀ l : List Str, (∀ p ∈ l, Hextet p) → ∀ c ∈ join c!":" (l.map lower), c.isUpper = false := by
    intro l
    induction l with
    | nil => intro _ c hc; simp [join] at hc
    | cons x l ih =>
      intro hl c hc
      cases l with
      | nil => exact (hextet_lower (hl x (by simp))).2.2 c hc
      | cons y l =>
        simp only [List.map_cons, join, List.mem_append, List.mem_cons, List.not_mem_nil, or_false] at hc
        rcases hc with (hc | rfl) | hc
        · exact (hextet_lower (hl x (by simp))).2.2 c hc
        · decide
        · exact ih (fun p hp => hl p (List.mem_cons_of_mem _ hp)) c hc
  cases f with
  | full ps =>
    refine ⟨⟨by simpa using h.1, ?_⟩, join_lower ps, ?_, up ps h.2⟩
    · intro p hp
      obtain ⟨q, hq, rfl⟩ := List.mem_map.1 hp
      exact (hextet_lower (h.2 q hq)).1
    · show ((ps.map lower).map hexNumber).foldl _ 0 = _
      rw [num ps h.2]; rfl
  | short hi lo =>
    refine ⟨⟨by simpa using h.1, ?_, ?_⟩, ?_, ?_, ?_⟩
    · intro p hp
      obtain ⟨q, hq, rfl⟩ := List.mem_map.1 hp
      exact (hextet_lower (h.2.1 q hq)).1
    · intro p hp
      obtain ⟨q, hq, rfl⟩ := List.mem_map.1 hp
      exact (hextet_lower (h.2.2 q hq)).1
    · show join _ (hi.map lower) ++ c!"::" ++ join _ (lo.map lower) = lower (join c!":" hi ++ c!"::" ++ join c!":" lo)
      rw [join_lower, join_lower]
      simp [lower]
    · show ((hi.map lower).map hexNumber ++ List.replicate (8 - ((hi.map lower).length + (lo.map lower).length)) 0 ++
        (lo.map lower).map hexNumber).foldl _ 0 = _
      rw [num hi h.2.1, num lo h.2.2, List.length_map, List.length_map]; rfl
    · intro c hc
      have hc : c ∈ join c!":" (hi.map lower) ++ c!"::" ++ join c!":" (lo.map lower) := hc
      simp only [List.mem_append, List.mem_cons, List.not_mem_nil, or_false, or_self] at hc
      rcases hc with (hc | rfl) | hc
      · exact up hi h.2.1 c hc
      · decide
      · exact up lo h.2.2 c hc

/-- **C149**.  Of the IPv6 addresses in letters of any kind, those that count as private are `::1` and those of `fe80::/10`, however
they are written. -/
theorem C149_private_case (f : V6Form) (h : f.Ok) : isPrivate rx f.text = true ↔ LoopbackV6 f.address ∨ LinkLocalV6 f.address := by
  obtain ⟨h1, h2, h3, h4⟩ := lowerForm_facts h
  rw [← h3, ← C149_private (lowerForm f) h1 h4]
  have hl := low_of h1 h4
  have hd : '.' ∉ lower f.text := by
    rw [← h2]
    exact fun hd => (hexColon_dot (low_chars hl _ hd)).1 rfl
  have hd' : '.' ∉ f.text := fun hx => hd (List.mem_map.2 ⟨'.', hx, by decide⟩)
  rw [h2, not_private4 hd, not_private4 hd']
  have : rx.private6 (lower f.text) = rx.private6 f.text := blind_search blind_private6 f.text
  rw [this]

example : isPrivate rx c!"FE80::1A" = true ∧ isPrivate rx c!"::1F" = false ∧ isPrivate rx c!"feBf::" = true := by
  refine ⟨(C149_private_case (.short [c!"FE80"] [c!"1A"]) ?_).2 ?_, ?_, (C149_private_case (.short [c!"feBf"] []) ?_).2 ?_⟩
  · unfold V6Form.Ok Hextet; decide
  · unfold LoopbackV6 LinkLocalV6; decide
  · rw [Bool.eq_false_iff, Ne, show c!"::1F" = (V6Form.short [] [c!"1F"]).text from rfl, C149_private_case]
    · unfold LoopbackV6 LinkLocalV6; decide
    · unfold V6Form.Ok Hextet; decide
  · unfold V6Form.Ok Hextet; decide
  · unfold LoopbackV6 LinkLocalV6; decide

end Verif.Props
