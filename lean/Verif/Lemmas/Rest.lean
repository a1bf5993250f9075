import Verif.Lemmas.Rdns

/-!
# The other fields of a `Received` header
-/

namespace Verif.ReceivedRe
open Verif Py Re Spec Received
open Verif.Spec.Skip (Reading)
open Verif.Spec.Fields

/-! ### The server -/

/-- Two texts without a character, each followed by it. -/
theorem until_unique {c : Char} : ∀ {x x' a a' : Str}, c ∉ x → c ∉ x' → x ++ c :: a = x' ++ c :: a' → x = x' ∧ a = a' := by
  intro x
  induction x with
  | nil =>
    intro x' a a' _ h' e
    cases x' with
    | nil => simpa using e
    | cons d x' => simp at e; exact absurd (by simp [e.1]) h'
  | cons d x ih =>
    intro x' a a' h h' e
    cases x' with
    | nil => simp at e; exact absurd (by simp [e.1]) h
    | cons d' x' =>
      simp at e
      obtain ⟨h1, h2⟩ := ih (fun hc => h (List.mem_cons_of_mem _ hc)) (fun hc => h' (List.mem_cons_of_mem _ hc)) e.2
      exact ⟨by rw [e.1, h1], h2⟩

theorem address_close {x : Str} (h : Address x) : ']' ∉ x := fun hc => by
  have := address_only h _ hc
  have hn : (']').isDigit = true ∨ (']').isAlpha = true ∨ ']' = ':' ∨ ']' = '.' := this
  revert hn
  decide

theorem serverAddress_unique {h b b' : Str} (h1 : ServerAddress h b) (h2 : ServerAddress h b') : b = b' := by
  obtain ⟨w, a, s, rest, hw, ha, hs, hb, e⟩ := h1
  obtain ⟨w', a', s', rest', hw', ha', hs', hb', e'⟩ := h2
  rw [e] at e'
  obtain ⟨_, e1⟩ := word_unique (a := c!" [" ++ a ++ c!"] by " ++ s ++ c!" [" ++ b ++ c!"]" ++ rest)
    (a' := c!" [" ++ a' ++ c!"] by " ++ s' ++ c!" [" ++ b' ++ c!"]" ++ rest') hw hw' ⟨_, rfl⟩ ⟨_, rfl⟩ (by simpa using e')
  obtain ⟨_, e2⟩ := until_unique (c := ']') (x := a) (x' := a') (a := c!" by " ++ s ++ c!" [" ++ b ++ c!"]" ++ rest)
    (a' := c!" by " ++ s' ++ c!" [" ++ b' ++ c!"]" ++ rest') (address_close ha) (address_close ha') (by simpa using e1)
  obtain ⟨_, e3⟩ := word_unique (v := s) (v' := s') (a := c!" [" ++ b ++ c!"]" ++ rest) (a' := c!" [" ++ b' ++ c!"]" ++ rest') hs hs' ⟨_, rfl⟩ ⟨_, rfl⟩
    (by simpa using e2)
  exact (until_unique (c := ']') (x := b) (x' := b') (a := rest) (a' := rest') (address_close hb) (address_close hb') (by simpa using e3)).1

theorem rdns3_field {h v : Str} (hb : Blanks h) : field rdnsRe3 3 h = some v ↔ ServerAddress h v := by
  have sound : ∀ {v}, field rdnsRe3 3 h = some v → ServerAddress h v := by
    intro v hv
    obtain ⟨t, ht, hg⟩ := field_some.1 hv
    obtain ⟨w, gs, e, hG, hgs⟩ := m_gets ht
    unfold rdnsRe3 at hG
    simp only [seqs] at hG
    rw [gets_bolSeq, word, gets_groupSeq (show NoGroup (plus nonSpace) from ⟨trivial, trivial⟩)] at hG
    obtain ⟨_, x, _, g1, rfl, hx, hG, rfl⟩ := hG
    rw [gets_seqN (show NoGroup sp from trivial)] at hG
    obtain ⟨_, _, rfl, ⟨c1, rfl, hc1⟩, hG⟩ := hG
    rw [gets_seqN (NoGroup.lit _)] at hG
    obtain ⟨_, _, rfl, hl, hG⟩ := hG
    cases Reads.lit.1 hl
    rw [gets_groupSeq noGroup_ip] at hG
    obtain ⟨a, _, g2, rfl, ha, hG, rfl⟩ := hG
    rw [gets_seqN (NoGroup.lit _)] at hG
    obtain ⟨_, _, rfl, hl, hG⟩ := hG
    cases Reads.lit.1 hl
    rw [gets_seqN (show NoGroup sp from trivial)] at hG
    obtain ⟨_, _, rfl, ⟨c2, rfl, hc2⟩, hG⟩ := hG
    rw [gets_seqN (NoGroup.lit _)] at hG
    obtain ⟨_, _, rfl, hl, hG⟩ := hG
    cases Reads.lit.1 hl
    rw [gets_seqN (show NoGroup sp from trivial)] at hG
    obtain ⟨_, _, rfl, ⟨c3, rfl, hc3⟩, hG⟩ := hG
    rw [word, gets_groupSeq (show NoGroup (plus nonSpace) from ⟨trivial, trivial⟩)] at hG
    obtain ⟨s, _, g3, rfl, hs, hG, rfl⟩ := hG
    rw [gets_seqN (show NoGroup sp from trivial)] at hG
    obtain ⟨_, _, rfl, ⟨c4, rfl, hc4⟩, hG⟩ := hG
    rw [gets_seqN (NoGroup.lit _)] at hG
    obtain ⟨_, _, rfl, hl, hG⟩ := hG
    cases Reads.lit.1 hl
    rw [gets_groupSeq noGroup_ip] at hG
    obtain ⟨b, _, g4, rfl, hb', hG, rfl⟩ := hG
    obtain ⟨hlast, rfl⟩ := (gets_noGroup (NoGroup.lit _)).1 hG
    cases Reads.lit.1 hlast
    rw [St.get, hgs] at hg
    have hg : some b = some v := hg
    simp at hg
    subst hg
    rw [e] at hb
    have : c1 = ' ' := hb c1 (by simp) hc1
    subst this
    have : c2 = ' ' := hb c2 (by simp) hc2
    subst this
    have : c3 = ' ' := hb c3 (by simp) hc3
    subst this
    have : c4 = ' ' := hb c4 (by simp) hc4
    subst this
    exact ⟨x, a, s, t.after, reads_words.1 hx, (ip_iff clear_open clear_close).1 ha, reads_words.1 hs, (ip_iff clear_open clear_close).1 hb', by rw [e]; simp⟩
  constructor
  · exact sound
  · intro hs
    obtain ⟨v', hv'⟩ := (isMatch_iff (n := 3) (by simp [rdnsRe3, seqs, Sets, word])).1 ((rdns3_match hb).2 ⟨v, hs⟩)
    rw [hv', serverAddress_unique (sound hv') hs]

theorem by_name {h v : Str} (hb : Blanks h) : field byRe 0 h = some v ↔ ServerName h v := by
  unfold byRe
  simp only [seqs]
  have f1 : Finds 0 (.seq (word 0) (.seq (lit c!" ") dots)) (fun a v => Skip.Word v ∧ ∃ a', a = v ++ a' ∧ ∃ y, a' = c!" " ++ y) := by
    refine finds_word (E := fun _ a => ∃ y, a = c!" " ++ y) ?_ ⟨⟨trivial, trivial⟩, trivial⟩
    intro b v a _ _
    rw [dots]
    constructor
    · rintro ⟨_, y, rfl, _, z, rfl, hl, _⟩
      cases Reads.lit.1 hl
      exact ⟨z ++ y, by simp⟩
    · rintro ⟨y, rfl⟩
      exact ⟨c!" ", y, rfl, c!" ", [], rfl, Reads.lit.2 rfl, by intro c hc; simp at hc⟩
  rw [lazy_field (f1.lit c!" by ") hb]
  apply leftmost_congr
  intro pre v
  constructor
  · rintro ⟨_, rfl, _, rfl, hv, _, rfl, y, rfl⟩
    exact ⟨y, hv, by simp⟩
  · rintro ⟨y, hv, rfl⟩
    exact ⟨c!" by " ++ (v ++ (c!" " ++ y)), by simp, _, rfl, hv, _, rfl, y, rfl⟩

/-! ### The user and the number -/

theorem ident_field {h v : Str} (hb : Blanks h) : field identRe 0 h = some v ↔ IdentIs h v := by
  unfold identRe
  simp only [seqs]
  have f1 : Finds 0 (.seq (word 0) (lit c!")")) (fun a v => Skip.Word v ∧ ∃ a', a = v ++ a' ∧ ∃ y, a' = c!")" ++ y) :=
    finds_word (E := fun _ a => ∃ y, a = c!")" ++ y) (fun b v a _ _ => lit_begins) ⟨trivial, trivial⟩
  rw [greedy_field (f1.lit c!"ident=") hb]
  apply rightmost_congr
  intro pre v
  constructor
  · rintro ⟨_, rfl, _, rfl, hv, _, rfl, y, rfl⟩
    exact ⟨y, hv, by simp⟩
  · rintro ⟨y, hv, rfl⟩
    exact ⟨c!"ident=" ++ (v ++ (c!")" ++ y)), by simp, _, rfl, hv, _, rfl, y, rfl⟩

theorem ident2_field {h v : Str} (hb : Blanks h) : field identRe2 0 h = some v ↔ UserAt h v := by
  unfold identRe2
  simp only [seqs]
  have f1 : Finds 0 (.seq (word 0) (lit c!"@")) (fun a v => Skip.Word v ∧ ∃ a', a = v ++ a' ∧ ∃ y, a' = c!"@" ++ y) :=
    finds_word (E := fun _ a => ∃ y, a = c!"@" ++ y) (fun b v a _ _ => lit_begins) ⟨trivial, trivial⟩
  rw [greedy_field (f1.lit c!"(") hb]
  apply rightmost_congr
  intro pre v
  constructor
  · rintro ⟨_, rfl, _, rfl, hv, _, rfl, y, rfl⟩
    exact ⟨y, hv, by simp⟩
  · rintro ⟨y, hv, rfl⟩
    exact ⟨c!"(" ++ (v ++ (c!"@" ++ y)), by simp, _, rfl, hv, _, rfl, y, rfl⟩

theorem m_seqEps (x : Re) (s : St) : m (.seq x .eps) s some = m x s some := by
  rw [m_seq]
  rfl

theorem Finds.dropEps {n : Nat} {x : Re} {Q : Str → Str → Prop} (h : Finds n (.seq x .eps) Q) : Finds n x Q := by
  constructor
  · intro b a g t hb hm
    exact h.sound hb ((m_seqEps x _).trans hm)
  · intro b a g v hb hq
    have := h.complete (b := b) (g := g) hb hq
    rwa [m_seqEps] at this
  · exact h.inj

theorem finds_last {n : Nat} : Finds n (word n) (fun a v => Skip.Word v ∧ ∃ a', a = v ++ a') := by
  have f1 : Finds n (.seq (word n) .eps) (fun a v => Skip.Word v ∧ ∃ a', a = v ++ a' ∧ True) := by
    refine finds_word (E := fun _ _ => True) ?_ trivial
    intro b v a _ _
    simp only [iff_true]
    exact ⟨[], a, rfl, rfl⟩
  exact (f1.congr fun a v => by simp).dropEps

theorem id_number {h v : Str} (hb : Blanks h) : field idRe 0 h = some v ↔
    Rightmost (fun pre v => ∃ rest, Skip.Word v ∧ h = pre ++ c!"id " ++ v ++ rest) v := by
  unfold idRe
  simp only [seqs]
  rw [greedy_field (finds_last.lit c!"id ") hb]
  apply rightmost_congr
  intro pre v
  constructor
  · rintro ⟨_, rfl, _, rfl, hv, y, rfl⟩
    exact ⟨y, hv, by simp⟩
  · rintro ⟨y, hv, rfl⟩
    exact ⟨c!"id " ++ (v ++ y), by simp, _, rfl, hv, y, rfl⟩

/-! ### The sender -/

theorem wordAt_iff {s : Str} : wordAt s = true ↔ ∃ c, s.head? = some c ∧ WordChar c := by
  cases s with
  | nil => simp [wordAt]
  | cons c s => simp [wordAt, isWord, WordChar]

theorem turn_iff {v a b : Str} (h0 : v ≠ []) : wordAt (v.reverse ++ b) ≠ wordAt a ↔ Turn v a := by
  have e : wordAt (v.reverse ++ b) = true ↔ ∃ c, v.getLast? = some c ∧ WordChar c := by
    rw [wordAt_iff]
    have : (v.reverse ++ b).head? = v.getLast? := by
      cases hv : v.reverse with
      | nil => exact absurd (by simpa using hv) h0
      | cons c x => rw [← List.head?_reverse, hv]; rfl
    rw [this]
  unfold Turn
  rw [← e, ← wordAt_iff]
  cases wordAt (v.reverse ++ b) <;> cases wordAt a <;> simp

theorem key_reads {b u v : Str} (hb : Blanks (u ++ v)) :
    Reads (.alt (.seq (lit c!"return-path") (.seq (opt (lit c!":")) sp))
      (.seq (lit c!"envelope-") (.seq (.alt (lit c!"sender") (lit c!"from")) (.chr (fun c => isSpace c || c == '='))))) b u v ↔ u ∈ senderKeys := by
  rw [Reads.alt]
  simp only [reads_litSeq]
  constructor
  · rintro (⟨_, rfl, o, _, rfl, ho, c, rfl, hc⟩ | ⟨_, rfl, k, _, rfl, hk, c, rfl, hc⟩)
    · have : c = ' ' := hb c (by simp) hc
      subst this
      rcases ho with ho | rfl
      · cases Reads.lit.1 ho; decide
      · decide
    · have hc' : c = ' ' ∨ c = '=' := by
        rcases Bool.or_eq_true _ _ ▸ hc with h | h
        · exact .inl (hb c (by simp) h)
        · exact .inr (by simpa using h)
      rcases hk with hk | hk <;> cases Reads.lit.1 hk <;> rcases hc' with rfl | rfl <;> decide
  · intro hk
    simp only [senderKeys, List.mem_cons, List.not_mem_nil, or_false] at hk
    rcases hk with rfl | rfl | rfl | rfl | rfl | rfl
    · exact .inl ⟨c!" ", rfl, [], c!" ", rfl, .inr rfl, ' ', rfl, by decide⟩
    · exact .inl ⟨c!": ", rfl, c!":", c!" ", rfl, .inl (Reads.lit.2 rfl), ' ', rfl, by decide⟩
    · exact .inr ⟨c!"sender ", rfl, c!"sender", c!" ", rfl, .inl (Reads.lit.2 rfl), ' ', rfl, by decide⟩
    · exact .inr ⟨c!"sender=", rfl, c!"sender", c!"=", rfl, .inl (Reads.lit.2 rfl), '=', rfl, by decide⟩
    · exact .inr ⟨c!"from ", rfl, c!"from", c!" ", rfl, .inr (Reads.lit.2 rfl), ' ', rfl, by decide⟩
    · exact .inr ⟨c!"from=", rfl, c!"from", c!"=", rfl, .inr (Reads.lit.2 rfl), '=', rfl, by decide⟩

/-- None of these texts begins with another one. -/
theorem key_unique {L : List Str} (hL : ∀ u ∈ L, ∀ u' ∈ L, u <+: u' → u = u') {u v u' v' : Str} (e : u ++ v = u' ++ v') (h1 : u ∈ L) (h2 : u' ∈ L) : u = u' := by
  by_cases hl : u.length ≤ u'.length
  · exact hL u h1 u' h2 (List.prefix_of_prefix_length_le (List.prefix_append _ v) (by rw [e]; exact List.prefix_append _ _) hl)
  · exact (hL u' h2 u h1 (List.prefix_of_prefix_length_le (List.prefix_append _ v') (by rw [← e]; exact List.prefix_append _ _) (by omega))).symm

theorem envfrom_field {h v : Str} (hb : Blanks h) : field envfromRe 0 h = some v ↔
    Leftmost (fun pre v => ∃ k rest, k ∈ senderKeys ∧ Skip.Word v ∧ Turn v rest ∧ h = pre ++ k ++ v ++ rest) v := by
  unfold envfromRe
  simp only [seqs]
  have f1 : Finds 0 (.seq (word 0) .wordb) (fun a v => Skip.Word v ∧ ∃ a', a = v ++ a' ∧ Turn v a') := by
    refine finds_word (E := Turn) ?_ trivial
    intro b v a hv _
    rw [← turn_iff (b := b) hv.1]
    constructor
    · rintro ⟨_, y, rfl, rfl, hh⟩
      exact hh
    · intro hh
      exact ⟨[], a, rfl, rfl, hh⟩
  have f2 := f1.step (X := .alt (.seq (lit c!"return-path") (.seq (opt (lit c!":")) sp))
      (.seq (lit c!"envelope-") (.seq (.alt (lit c!"sender") (lit c!"from")) (.chr (fun c => isSpace c || c == '='))))) (D := fun u => u ∈ senderKeys)
    ⟨⟨NoGroup.lit _, ⟨NoGroup.lit _, trivial⟩, trivial⟩, NoGroup.lit _, ⟨NoGroup.lit _, NoGroup.lit _⟩, trivial⟩ (fun b u v hb => key_reads hb)
    (fun u v u' v' e _ h1 h2 => key_unique (by decide) e h1 h2)
  rw [lazy_field f2 hb]
  apply leftmost_congr
  intro pre v
  constructor
  · rintro ⟨_, rfl, k, _, rfl, hk, hv, y, rfl, ht⟩
    exact ⟨k, y, hk, hv, ht, by simp⟩
  · rintro ⟨k, y, hk, hv, ht, rfl⟩
    exact ⟨k ++ (v ++ y), by simp, k, _, rfl, hk, hv, y, rfl, ht⟩

/-! ### How the client has proved who it is -/

/-- A group that can be read in one way only, and then something without groups. -/
theorem finds_unique {n : Nat} {X T : Re} {D E : Str → Prop} (hX : NoGroup X) (hT : NoGroup T)
    (hD : ∀ b u v, Blanks (u ++ v) → (Reads X b u v ↔ D u)) (hE : ∀ b a, Blanks a → ((∃ u y, a = u ++ y ∧ Reads T b u y) ↔ E a))
    (hu : ∀ u v u' v', u ++ v = u' ++ v' → D u → D u' → E v → E v' → u = u') :
    Finds n (.seq (.group n X) T) (fun a v => D v ∧ ∃ a', a = v ++ a' ∧ E a') := by
  have uniq : ∀ {a v v'}, (D v ∧ ∃ a', a = v ++ a' ∧ E a') → (D v' ∧ ∃ a', a = v' ++ a' ∧ E a') → v = v' := by
    rintro a v v' ⟨h1, a1, rfl, h2⟩ ⟨h1', a2, e, h2'⟩
    exact hu _ _ _ _ e h1 h1' h2 h2'
  constructor
  · intro b a g t hb hm
    obtain ⟨w, gs, e, hG, hgs⟩ := m_gets hm
    rw [gets_groupSeq hX] at hG
    obtain ⟨u, v, g1, rfl, hx, hG, rfl⟩ := hG
    obtain ⟨ht, rfl⟩ := (gets_noGroup hT).1 hG
    have e' : a = u ++ (v ++ t.after) := by rw [e]; simp
    have hq : D u ∧ ∃ a', a = u ++ a' ∧ E a' :=
      ⟨(hD _ _ _ (e' ▸ hb)).1 hx, v ++ t.after, e', (hE _ _ (blanks_append.1 (e' ▸ hb)).2).1 ⟨v, t.after, rfl, ht⟩⟩
    refine ⟨u, ?_, hq, fun v' hv' => by rw [uniq hv' hq]; exact Nat.le_refl _⟩
    rw [St.get, hgs]
    simp [Dict.get?]
  · rintro b a g v hb ⟨h1, a', rfl, h2⟩
    rw [m_isSome]
    obtain ⟨u, y, rfl, hr⟩ := (hE (v.reverse ++ b) _ (blanks_append.1 hb).2).2 h2
    exact ⟨v ++ u, y, by simp, v, u, rfl, (hD _ _ _ hb).2 h1, hr⟩
  · intro a v v' _ h1 h2 _
    exact uniq h1 h2

theorem protocol_reads {b u v : Str} :
    Reads (alts [seqs [alts [ilit c!"ES", ilit c!"L", ilit c!"UTF8S", ilit c!"UTF8L"], ilit c!"MTP", opt (ilit c!"S"), ilit c!"A"],
      ilit c!"ASMTP", .seq (ilit c!"HTTP") (opt (ilit c!"U"))]) b u v ↔ ∃ p ∈ protocols, Reading p u := by
  constructor
  · intro h
    have h1 := auth_names h
    refine ⟨u.map Char.toLower, ?_, rfl⟩
    have : ∀ x ∈ authNames, x ∈ protocols := by decide
    exact this _ h1
  · simp only [alts, seqs]
    rintro ⟨p, hp, hr⟩
    have key : ∀ s t, (∀ b x y, Reading s x → Reads (.alt (ilit c!"ES") (.alt (ilit c!"L") (.alt (ilit c!"UTF8S") (ilit c!"UTF8L")))) b x y) →
        (∀ b x y, Reading t x → Reads (opt (ilit c!"S")) b x y) → Reading (s ++ (c!"mtp" ++ (t ++ c!"a"))) u →
        Reads (.seq (.alt (ilit c!"ES") (.alt (ilit c!"L") (.alt (ilit c!"UTF8S") (ilit c!"UTF8L")))) (.seq (ilit c!"MTP") (.seq (opt (ilit c!"S")) (ilit c!"A")))) b u v := by
      intro s t hs ht hr
      obtain ⟨x, _, rfl, h1, hr⟩ := reading_split hr
      obtain ⟨y, _, rfl, h2, hr⟩ := reading_split hr
      obtain ⟨z, a, rfl, h3, h4'⟩ := reading_split hr
      exact ⟨x, _, rfl, hs _ _ _ h1, y, _, rfl, Reads.ilit.2 h2, z, a, rfl, ht _ _ _ h3, Reads.ilit.2 h4'⟩
    have e1 : ∀ b x y, Reading c!"es" x → Reads (.alt (ilit c!"ES") (.alt (ilit c!"L") (.alt (ilit c!"UTF8S") (ilit c!"UTF8L")))) b x y :=
      fun b x y h => .inl (Reads.ilit.2 h)
    have e2 : ∀ b x y, Reading c!"l" x → Reads (.alt (ilit c!"ES") (.alt (ilit c!"L") (.alt (ilit c!"UTF8S") (ilit c!"UTF8L")))) b x y :=
      fun b x y h => .inr (.inl (Reads.ilit.2 h))
    have e3 : ∀ b x y, Reading c!"utf8s" x → Reads (.alt (ilit c!"ES") (.alt (ilit c!"L") (.alt (ilit c!"UTF8S") (ilit c!"UTF8L")))) b x y :=
      fun b x y h => .inr (.inr (.inl (Reads.ilit.2 h)))
    have e4 : ∀ b x y, Reading c!"utf8l" x → Reads (.alt (ilit c!"ES") (.alt (ilit c!"L") (.alt (ilit c!"UTF8S") (ilit c!"UTF8L")))) b x y :=
      fun b x y h => .inr (.inr (.inr (Reads.ilit.2 h)))
    have o1 : ∀ b x y, Reading c!"s" x → Reads (opt (ilit c!"S")) b x y := fun b x y h => .inl (Reads.ilit.2 h)
    have o2 : ∀ b x y, Reading [] x → Reads (opt (ilit c!"S")) b x y := fun b x y h => .inr (by
      have h : x.map Char.toLower = [] := h
      show x = []
      simpa using h)
    simp only [protocols, List.mem_cons, List.not_mem_nil, or_false] at hp
    rcases hp with rfl | rfl | rfl | rfl | rfl | rfl | rfl | rfl | rfl | rfl | rfl
    · exact .inl (key _ _ e1 o2 hr)
    · exact .inl (key _ _ e1 o1 hr)
    · exact .inl (key _ _ e2 o2 hr)
    · exact .inl (key _ _ e2 o1 hr)
    · exact .inl (key _ _ e3 o2 hr)
    · exact .inl (key _ _ e3 o1 hr)
    · exact .inl (key _ _ e4 o2 hr)
    · exact .inl (key _ _ e4 o1 hr)
    · exact .inr (.inl (Reads.ilit.2 hr))
    · exact .inr (.inr ⟨u, [], by simp, Reads.ilit.2 hr, .inr rfl⟩)
    · obtain ⟨x, y, rfl, h1, h2⟩ := reading_split (s := c!"http") (t := c!"u") hr
      exact .inr (.inr ⟨x, y, rfl, Reads.ilit.2 h1, .inl (Reads.ilit.2 h2)⟩)

/-- What ends the name of a protocol. -/
def Ended (a : Str) : Prop := a = [] ∨ ∃ y, a = ' ' :: y ∨ a = ';' :: y

theorem protocol_chars {u : Str} (h : ∃ p ∈ protocols, Reading p u) : ∀ c ∈ u, c ≠ ' ' ∧ c ≠ ';' := by
  obtain ⟨p, hp, hr⟩ := h
  intro c hc
  have hm : c.toLower ∈ p := by
    rw [← show u.map Char.toLower = p from hr]
    exact List.mem_map_of_mem hc
  have key : ∀ p ∈ protocols, ∀ c ∈ p, c ≠ ' ' ∧ c ≠ ';' := by decide
  have := key p hp _ hm
  constructor
  · rintro rfl; exact this.1 rfl
  · rintro rfl; exact this.2 rfl

theorem ended_unique : ∀ {u v u' v' : Str}, u ++ v = u' ++ v' → (∀ c ∈ u, c ≠ ' ' ∧ c ≠ ';') → (∀ c ∈ u', c ≠ ' ' ∧ c ≠ ';') → Ended v → Ended v' → u = u' := by
  intro u
  induction u with
  | nil =>
    intro v u' v' e _ h' hv _
    cases u' with
    | nil => rfl
    | cons c u' =>
      have hc := h' c (by simp)
      rw [List.nil_append] at e
      rcases hv with rfl | ⟨y, rfl | rfl⟩
      · simp at e
      · simp at e; exact absurd e.1.symm hc.1
      · simp at e; exact absurd e.1.symm hc.2
  | cons c u ih =>
    intro v u' v' e h h' hv hv'
    cases u' with
    | nil =>
      have hc := h c (by simp)
      rw [List.nil_append] at e
      rcases hv' with rfl | ⟨y, rfl | rfl⟩
      · simp at e
      · simp at e; exact absurd e.1 hc.1
      · simp at e; exact absurd e.1 hc.2
    | cons d u' =>
      simp at e
      rw [e.1, ih e.2 (fun c hc => h c (List.mem_cons_of_mem _ hc)) (fun c hc => h' c (List.mem_cons_of_mem _ hc)) hv hv']

theorem auth_name {h v : Str} (hb : Blanks h) : field authRe 0 h = some v ↔
    Leftmost (fun pre v => ∃ k p rest, Reading c!"with" k ∧ p ∈ protocols ∧ Reading p v ∧ h = pre ++ c!" " ++ k ++ c!" " ++ v ++ rest ∧ Ended rest) v := by
  unfold authRe
  rw [show seqs [dotsLazy, sp, ilit c!"with", sp,
    .group 0 (alts [seqs [alts [ilit c!"ES", ilit c!"L", ilit c!"UTF8S", ilit c!"UTF8L"], ilit c!"MTP", opt (ilit c!"S"), ilit c!"A"],
      ilit c!"ASMTP", .seq (ilit c!"HTTP") (opt (ilit c!"U"))]),
    alts [sp, lit c!";", .eol]] = .seq dotsLazy (.seq sp (.seq (ilit c!"with") (.seq sp (.seq
    (.group 0 (alts [seqs [alts [ilit c!"ES", ilit c!"L", ilit c!"UTF8S", ilit c!"UTF8L"], ilit c!"MTP", opt (ilit c!"S"), ilit c!"A"],
      ilit c!"ASMTP", .seq (ilit c!"HTTP") (opt (ilit c!"U"))])) (alts [sp, lit c!";", .eol]))))) from rfl]
  have f1 := finds_unique (n := 0) (X := alts [seqs [alts [ilit c!"ES", ilit c!"L", ilit c!"UTF8S", ilit c!"UTF8L"], ilit c!"MTP", opt (ilit c!"S"), ilit c!"A"],
      ilit c!"ASMTP", .seq (ilit c!"HTTP") (opt (ilit c!"U"))]) (T := alts [sp, lit c!";", .eol]) (D := fun u => ∃ p ∈ protocols, Reading p u) (E := Ended)
    ⟨⟨⟨NoGroup.ilit _, NoGroup.ilit _, NoGroup.ilit _, NoGroup.ilit _⟩, NoGroup.ilit _, ⟨NoGroup.ilit _, trivial⟩, NoGroup.ilit _⟩, NoGroup.ilit _, NoGroup.ilit _, NoGroup.ilit _, trivial⟩
    ⟨trivial, NoGroup.lit _, trivial⟩ (fun b u v _ => protocol_reads) ?_
    (fun u v u' v' e h1 h2 h3 h4' => ended_unique e (protocol_chars h1) (protocol_chars h2) h3 h4')
  · have f2 := (f1.sp.step (X := ilit c!"with") (D := Reading c!"with") (NoGroup.ilit _) (fun b u v _ => Reads.ilit)
      (same_length_prefix (k := 4) (fun u hu => by simpa using congrArg List.length hu))).sp
    rw [lazy_field f2 hb]
    apply leftmost_congr
    intro pre v
    constructor
    · rintro ⟨_, rfl, _, rfl, k, _, rfl, hk, _, rfl, ⟨p, hp, hv⟩, rest, rfl, he⟩
      exact ⟨k, p, rest, hk, hp, hv, by simp, he⟩
    · rintro ⟨k, p, rest, hk, hp, hv, rfl, he⟩
      exact ⟨c!" " ++ (k ++ (c!" " ++ (v ++ rest))), by simp, _, rfl, k, _, rfl, hk, _, rfl, ⟨p, hp, hv⟩, rest, rfl, he⟩
  · intro b a ha
    simp only [alts]
    constructor
    · rintro ⟨_, y, rfl, ⟨c, rfl, hc⟩ | h | ⟨rfl, h⟩⟩
      · rw [ha c (by simp) hc]; exact .inr ⟨y, .inl rfl⟩
      · cases Reads.lit.1 h; exact .inr ⟨y, .inr rfl⟩
      · rcases h with rfl | rfl
        · exact .inl rfl
        · exact absurd (ha '\n' (by simp) (by decide)) (by decide)
    · rintro (rfl | ⟨y, rfl | rfl⟩)
      · exact ⟨[], [], rfl, .inr (.inr ⟨rfl, .inl rfl⟩)⟩
      · exact ⟨c!" ", y, rfl, .inl ⟨' ', rfl, by decide⟩⟩
      · exact ⟨c!";", y, rfl, .inr (.inl (Reads.lit.2 rfl))⟩

theorem auth3_match {h : Str} (hb : Blanks h) : (search authRe3 h).isSome = true ↔
    ∃ pre u s rest, Skip.Word u ∧ Skip.Word s ∧ h = pre ++ c!") (Authenticated sender: " ++ u ++ c!") by " ++ s ++ c!" (Postfix) with " ++ rest := by
  unfold authRe3
  simp only [seqs]
  rw [search_isSome]
  simp only [reads_litSeq, reads_spSeq, reads_wordSeq]
  constructor
  · rintro ⟨pre, _, z, rfl, _, rfl, c1, _, rfl, h1, _, rfl, c2, _, rfl, h2, _, rfl, c3, _, rfl, h3, u, _, rfl, hu, _, rfl, c4, _, rfl, h4', _, rfl, c5, _, rfl, h5,
      s, _, rfl, hs, c6, _, rfl, h6, _, rfl, c7, _, rfl, h7, _, rfl, c8, rfl, h8⟩
    have : c1 = ' ' := hb c1 (by simp) h1
    subst this
    have : c2 = ' ' := hb c2 (by simp) h2
    subst this
    have : c3 = ' ' := hb c3 (by simp) h3
    subst this
    have : c4 = ' ' := hb c4 (by simp) h4'
    subst this
    have : c5 = ' ' := hb c5 (by simp) h5
    subst this
    have : c6 = ' ' := hb c6 (by simp) h6
    subst this
    have : c7 = ' ' := hb c7 (by simp) h7
    subst this
    have : c8 = ' ' := hb c8 (by simp) h8
    subst this
    exact ⟨pre, u, s, z, hu, hs, by simp⟩
  · rintro ⟨pre, u, s, z, hu, hs, rfl⟩
    exact ⟨pre, c!")" ++ (' ' :: (c!"(Authenticated" ++ (' ' :: (c!"sender:" ++ (' ' :: (u ++ (c!")" ++ (' ' :: (c!"by" ++ (' ' :: (s ++ (' ' :: (c!"(Postfix)" ++
      (' ' :: (c!"with" ++ c!" "))))))))))))))), z, by simp, _, rfl, ' ', _, rfl, by decide, _, rfl, ' ', _, rfl, by decide, _, rfl, ' ', _, rfl, by decide, u, _, rfl, hu,
      _, rfl, ' ', _, rfl, by decide, _, rfl, ' ', _, rfl, by decide, s, _, rfl, hs, ' ', _, rfl, by decide, _, rfl, ' ', _, rfl, by decide, _, rfl, ' ', rfl, by decide⟩

theorem auth2_match {h : Str} (hb : Blanks h) : (search authRe2 h).isSome = true ↔
    ∃ pre u rest, Skip.Word u ∧ h = pre ++ c!" (authenticated as " ++ u ++ c!")" ++ rest := by
  unfold authRe2
  simp only [seqs, dotsLazy]
  rw [search_isSome]
  simp only [reads_dotsSeq, reads_litSeq, reads_groupSeq, Reads.lit]
  constructor
  · rintro ⟨pre, _, z, rfl, p, _, rfl, _, _, rfl, u, _, rfl, hu, rfl⟩
    exact ⟨pre ++ p, u, z, hu, by simp⟩
  · rintro ⟨pre, u, z, hu, rfl⟩
    exact ⟨[], pre ++ (c!" (authenticated as " ++ (u ++ c!")")), z, by simp, pre, _, rfl, blanks_dot (fun c hc => hb c (by simp [hc])), _, rfl, u, _, rfl, hu, rfl⟩

theorem auth5_match {h : Str} (hb : Blanks h) : (search authRe5 h).isSome = true ↔
    ∃ pre x y p rest, (p = c!"HTTP" ∨ p = c!"SMTP") ∧ h = pre ++ c!" (account " ++ x ++ c!" by " ++ y ++ c!" (CommuniGate Pro " ++ p ++ rest := by
  unfold authRe5
  simp only [seqs, dots]
  rw [search_isSome]
  have hg : ∀ {b w a}, Reads (.group 0 (.alt (lit c!"HTTP") (lit c!"SMTP"))) b w a ↔ w = c!"HTTP" ∨ w = c!"SMTP" := by
    intro b w a
    exact or_congr Reads.lit Reads.lit
  simp only [reads_dotsSeq, reads_litSeq, hg]
  constructor
  · rintro ⟨pre, _, z, rfl, q, _, rfl, _, _, rfl, x, _, rfl, _, _, rfl, y, _, rfl, _, p, rfl, hp⟩
    exact ⟨pre ++ q, x, y, p, z, hp, by simp⟩
  · rintro ⟨pre, x, y, p, z, hp, rfl⟩
    exact ⟨[], pre ++ (c!" (account " ++ (x ++ (c!" by " ++ (y ++ (c!" (CommuniGate Pro " ++ p))))), z, by simp, pre, _, rfl,
      blanks_dot (fun c hc => hb c (by simp [hc])), _, rfl, x, _, rfl, blanks_dot (fun c hc => hb c (by simp [hc])), _, rfl, y, _, rfl,
      blanks_dot (fun c hc => hb c (by simp [hc])), p, rfl, hp⟩

theorem two_some {t : Option St} {i j : Nat} {x y : Str} (hi : ∀ s, t = some s → (s.get i).isSome = true) (hj : ∀ s, t = some s → (s.get j).isSome = true) :
    two t i j = some (x, y) ↔ ∃ s, t = some s ∧ s.get i = some x ∧ s.get j = some y := by
  cases t with
  | none => simp [two]
  | some s =>
    have h1 := hi s rfl
    have h2 := hj s rfl
    simp only [two]
    cases e1 : s.get i with
    | none => rw [e1] at h1; simp at h1
    | some u =>
      cases e2 : s.get j with
      | none => rw [e2] at h2; simp at h2
      | some w => simp [e1, e2]

theorem two_none {t : Option St} {i j : Nat} : two t i j = none ↔ t = none := by
  cases t <;> simp [two]

/-! ### The encryption -/

theorem encrypted_unique {h pre x y x' y' : Str} (h1 : Encrypted h pre x y) (h2 : Encrypted h pre x' y') : x = x' ∧ y = y' := by
  obtain ⟨rest, _, hx, _, hy, e⟩ := h1
  obtain ⟨rest', _, hx', _, hy', e'⟩ := h2
  rw [e] at e'
  simp only [List.append_assoc] at e'
  have e1 := List.append_cancel_left (List.append_cancel_left e')
  obtain ⟨h1, e2⟩ := until_unique (c := ' ') (x := x) (x' := x') (a := c!"cipher=" ++ (y ++ (c!")" ++ rest))) (a' := c!"cipher=" ++ (y' ++ (c!")" ++ rest'))) hx hx'
    (by simpa using e1)
  exact ⟨h1, (until_unique (c := ')') (a := rest) (a' := rest') hy hy' (by simpa using e2)).1⟩

theorem notChar {c : Char} {x : Str} : (∀ d ∈ x, (d != c) = true) ↔ c ∉ x := by
  constructor
  · intro h hc; have := h c hc; simp at this
  · intro h d hd
    simp
    rintro rfl
    exact h hd

/-- The first place from which the rest matches, where it can match in one way only. -/
theorem lazy_any {α : Type} {R : Re} {Q : Str → α → Prop} {G : St → α → Prop}
    (sound : ∀ {b a t}, Blanks a → m R ⟨b, a, []⟩ some = some t → ∃ v, G t v ∧ Q a v)
    (complete : ∀ {b a v}, Blanks a → Q a v → (m R ⟨b, a, []⟩ some).isSome = true)
    (hQ : ∀ {a v v'}, Q a v → Q a v' → v = v') (hG : ∀ {t v v'}, G t v → G t v' → v = v') {h : Str} (hb : Blanks h) {v : α} :
    (∃ t, matchRe (.seq dotsLazy R) h = some t ∧ G t v) ↔
      ∃ pre a, h = pre ++ a ∧ Q a v ∧ ∀ pre' a' v', h = pre' ++ a' → Q a' v' → pre.length ≤ pre'.length := by
  have key : ∀ {t}, matchRe (.seq dotsLazy R) h = some t → ∃ v, G t v ∧
      ∃ pre a, h = pre ++ a ∧ Q a v ∧ ∀ pre' a' v', h = pre' ++ a' → Q a' v' → pre.length ≤ pre'.length := by
    intro t ht
    unfold matchRe at ht
    rw [m_seq, dotsLazy, m] at ht
    obtain ⟨pre, a, e, _, hk, hl⟩ := (star_lazy_some _ _ _ _ _ _).1 ht
    simp only at e
    obtain ⟨v, hv, hq⟩ := sound (blanks_append.1 (e ▸ hb)).2 hk
    refine ⟨v, hv, pre, a, e, hq, ?_⟩
    intro pre' a' v' e' hq'
    apply Classical.byContradiction
    intro hlt
    obtain ⟨z, rfl⟩ : pre' <+: pre :=
      List.prefix_of_prefix_length_le (by rw [← e, e']; exact List.prefix_append _ _) (List.prefix_append _ a) (by omega)
    have hz : z ≠ [] := by rintro rfl; simp at hlt
    have e2 : a' = z ++ a := by
      rw [e', List.append_assoc] at e
      exact List.append_cancel_left e
    have hn := hl pre' z rfl hz
    have := complete (b := pre'.reverse ++ []) (blanks_append.1 (e' ▸ hb)).2 hq'
    rw [e2, hn] at this
    simp at this
  constructor
  · rintro ⟨t, ht, hg⟩
    obtain ⟨v', hv', hp⟩ := key ht
    rw [hG hg hv']
    exact hp
  · rintro ⟨pre, a, e, hq, hmin⟩
    have hc := complete (b := pre.reverse ++ []) (blanks_append.1 (e ▸ hb)).2 hq
    obtain ⟨w, z, e1, hr⟩ := (m_isSome _ _).1 hc
    simp only at e1 hr
    have hs' : (matchRe (.seq dotsLazy R) h).isSome = true := by
      rw [matchRe_isSome]
      refine ⟨pre ++ w, z, by rw [e, e1]; simp, pre, w, rfl, blanks_dot (blanks_append.1 (e ▸ hb)).1, ?_⟩
      simpa using hr
    cases ht : matchRe (.seq dotsLazy R) h with
    | none => rw [ht] at hs'; simp at hs'
    | some t =>
      refine ⟨t, rfl, ?_⟩
      obtain ⟨v', hv', pre', a', e2, hq', hmin'⟩ := key ht
      have h1 := hmin pre' a' v' e2 hq'
      have h2 := hmin' pre a v e hq
      rw [e] at e2
      obtain ⟨_, rfl⟩ := List.append_inj e2 (by omega)
      rw [hQ hq hq']
      exact hv'

/-- The last place from which the rest matches, where it can match in one way only. -/
theorem greedy_any {α : Type} {R : Re} {Q : Str → α → Prop} {G : St → α → Prop}
    (sound : ∀ {b a t}, Blanks a → m R ⟨b, a, []⟩ some = some t → ∃ v, G t v ∧ Q a v)
    (complete : ∀ {b a v}, Blanks a → Q a v → (m R ⟨b, a, []⟩ some).isSome = true)
    (hQ : ∀ {a v v'}, Q a v → Q a v' → v = v') (hG : ∀ {t v v'}, G t v → G t v' → v = v') {h : Str} (hb : Blanks h) {v : α} :
    (∃ t, matchRe (.seq dots R) h = some t ∧ G t v) ↔
      ∃ pre a, h = pre ++ a ∧ Q a v ∧ ∀ pre' a' v', h = pre' ++ a' → Q a' v' → pre'.length ≤ pre.length := by
  have key : ∀ {t}, matchRe (.seq dots R) h = some t → ∃ v, G t v ∧
      ∃ pre a, h = pre ++ a ∧ Q a v ∧ ∀ pre' a' v', h = pre' ++ a' → Q a' v' → pre'.length ≤ pre.length := by
    intro t ht
    unfold matchRe at ht
    rw [m_seq, dots, m] at ht
    obtain ⟨pre, a, e, _, hk, hl⟩ := (star_greedy_some _ _ _ _ _ _).1 ht
    simp only at e
    obtain ⟨v, hv, hq⟩ := sound (blanks_append.1 (e ▸ hb)).2 hk
    refine ⟨v, hv, pre, a, e, hq, ?_⟩
    intro pre' a' v' e' hq'
    apply Classical.byContradiction
    intro hlt
    obtain ⟨z, rfl⟩ : pre <+: pre' :=
      List.prefix_of_prefix_length_le (List.prefix_append _ a) (by rw [← e, e']; exact List.prefix_append _ _) (by omega)
    have hz : z ≠ [] := by rintro rfl; simp at hlt
    have e2 : a = z ++ a' := by
      rw [e', List.append_assoc] at e
      exact (List.append_cancel_left e).symm
    have hba := (blanks_append.1 (e ▸ hb)).2
    rw [e2, blanks_append] at hba
    have hn := hl z a' e2 hz (blanks_dot hba.1)
    have := complete (b := z.reverse ++ (pre.reverse ++ [])) hba.2 hq'
    rw [hn] at this
    simp at this
  constructor
  · rintro ⟨t, ht, hg⟩
    obtain ⟨v', hv', hp⟩ := key ht
    rw [hG hg hv']
    exact hp
  · rintro ⟨pre, a, e, hq, hmin⟩
    have hc := complete (b := pre.reverse ++ []) (blanks_append.1 (e ▸ hb)).2 hq
    obtain ⟨w, z, e1, hr⟩ := (m_isSome _ _).1 hc
    simp only at e1 hr
    have hs' : (matchRe (.seq dots R) h).isSome = true := by
      rw [matchRe_isSome]
      refine ⟨pre ++ w, z, by rw [e, e1]; simp, pre, w, rfl, blanks_dot (blanks_append.1 (e ▸ hb)).1, ?_⟩
      simpa using hr
    cases ht : matchRe (.seq dots R) h with
    | none => rw [ht] at hs'; simp at hs'
    | some t =>
      refine ⟨t, rfl, ?_⟩
      obtain ⟨v', hv', pre', a', e2, hq', hmin'⟩ := key ht
      have h1 := hmin pre' a' v' e2 hq'
      have h2 := hmin' pre a v e hq
      rw [e] at e2
      obtain ⟨_, rfl⟩ := List.append_inj e2 (by omega)
      rw [hQ hq hq']
      exact hv'

theorem vc_fields {h : Str} (hb : Blanks h) {x y : Str} : two (matchRe authVc h) 0 1 = some (x, y) ↔
    ∃ pre, Encrypted h pre x y ∧ ∀ pre' x' y', Encrypted h pre' x' y' → pre.length ≤ pre'.length := by
  have e1 : two (matchRe authVc h) 0 1 = some (x, y) ↔ ∃ t, matchRe authVc h = some t ∧ ((t.get 0).getD [], (t.get 1).getD []) = (x, y) := by
    cases matchRe authVc h with
    | none => simp [two]
    | some t => simp [two]
  rw [e1]
  unfold authVc
  simp only [seqs]
  have enc : ∀ {pre x y}, Encrypted h pre x y ↔ ∃ a, h = pre ++ a ∧ ∃ rest, x ≠ [] ∧ ' ' ∉ x ∧ y ≠ [] ∧ ')' ∉ y ∧
      a = c!" (version=" ++ x ++ c!" cipher=" ++ y ++ c!")" ++ rest := by
    intro pre x y
    constructor
    · rintro ⟨rest, h1, h2, h3, h4', rfl⟩
      exact ⟨c!" (version=" ++ x ++ c!" cipher=" ++ y ++ c!")" ++ rest, by simp, rest, h1, h2, h3, h4', rfl⟩
    · rintro ⟨_, rfl, rest, h1, h2, h3, h4', rfl⟩
      exact ⟨rest, h1, h2, h3, h4', by simp⟩
  rw [lazy_any (Q := fun a (v : Str × Str) => ∃ rest, v.1 ≠ [] ∧ ' ' ∉ v.1 ∧ v.2 ≠ [] ∧ ')' ∉ v.2 ∧
      a = c!" (version=" ++ v.1 ++ c!" cipher=" ++ v.2 ++ c!")" ++ rest) (G := fun t v => ((t.get 0).getD [], (t.get 1).getD []) = v) ?_ ?_ ?_ ?_ hb]
  · constructor
    · rintro ⟨pre, a, e, hq, hmin⟩
      refine ⟨pre, enc.2 ⟨a, e, hq⟩, ?_⟩
      intro pre' x' y' h'
      obtain ⟨a', e', hq'⟩ := enc.1 h'
      exact hmin pre' a' (x', y') e' hq'
    · rintro ⟨pre, he, hmin⟩
      obtain ⟨a, e, hq⟩ := enc.1 he
      refine ⟨pre, a, e, hq, ?_⟩
      intro pre' a' v' e' hq'
      exact hmin pre' v'.1 v'.2 (enc.2 ⟨a', e', hq'⟩)
  · intro b a t _ hm
    obtain ⟨w, gs, e, hG, hgs⟩ := m_gets hm
    rw [gets_seqN (NoGroup.lit _)] at hG
    obtain ⟨_, _, rfl, hl, hG⟩ := hG
    cases Reads.lit.1 hl
    rw [gets_groupSeq (show NoGroup (plus _) from ⟨trivial, trivial⟩)] at hG
    obtain ⟨x, _, g1, rfl, hx, hG, rfl⟩ := hG
    rw [gets_seqN (NoGroup.lit _)] at hG
    obtain ⟨_, _, rfl, hl, hG⟩ := hG
    cases Reads.lit.1 hl
    rw [gets_groupSeq (show NoGroup (plus _) from ⟨trivial, trivial⟩)] at hG
    obtain ⟨y, _, g2, rfl, hy, hG, rfl⟩ := hG
    obtain ⟨hlast, rfl⟩ := (gets_noGroup (NoGroup.lit _)).1 hG
    cases Reads.lit.1 hlast
    rw [Reads.plus] at hx hy
    refine ⟨(x, y), ?_, t.after, hx.1, notChar.1 hx.2, hy.1, notChar.1 hy.2, by rw [e]; simp⟩
    simp only [St.get, hgs]
    rfl
  · rintro b a ⟨x, y⟩ _ ⟨rest, h1, h2, h3, h4', rfl⟩
    rw [m_isSome]
    exact ⟨c!" (version=" ++ (x ++ (c!" cipher=" ++ (y ++ c!")"))), rest, by simp, _, _, rfl, Reads.lit.2 rfl, x, _, rfl, Reads.plus.2 ⟨h1, notChar.2 h2⟩,
      _, _, rfl, Reads.lit.2 rfl, y, _, rfl, Reads.plus.2 ⟨h3, notChar.2 h4'⟩, Reads.lit.2 rfl⟩
  · rintro a ⟨x, y⟩ ⟨x', y'⟩ ⟨r, h1, h2, h3, h4', e⟩ ⟨r', h1', h2', h3', h4'', e'⟩
    obtain ⟨e1, e2⟩ := encrypted_unique (h := a) (pre := []) (x := x) (y := y) (x' := x') (y' := y') ⟨r, h1, h2, h3, h4', e⟩ ⟨r', h1', h2', h3', h4'', e'⟩
    rw [e1, e2]
  · intro t v v' h1 h2
    exact h1.symm.trans h2

theorem vc_none {h : Str} (hb : Blanks h) : two (matchRe authVc h) 0 1 = none ↔ ∀ pre x y, ¬ Encrypted h pre x y := by
  constructor
  · rintro hn pre x y ⟨rest, h1, h2, h3, h4', e⟩
    rw [two_none] at hn
    have : (matchRe authVc h).isSome = true := by
      rw [matchRe_isSome]
      unfold authVc
      simp only [seqs]
      exact ⟨pre ++ (c!" (version=" ++ (x ++ (c!" cipher=" ++ (y ++ c!")")))), rest, by rw [e]; simp, pre, _, rfl,
        blanks_dot (fun c hc => hb c (by rw [e]; simp [hc])), _, _, rfl, Reads.lit.2 rfl, x, _, rfl, Reads.plus.2 ⟨h1, notChar.2 h2⟩,
        _, _, rfl, Reads.lit.2 rfl, y, _, rfl, Reads.plus.2 ⟨h3, notChar.2 h4'⟩, Reads.lit.2 rfl⟩
    rw [hn] at this
    simp at this
  · intro hn
    cases hv : two (matchRe authVc h) 0 1 with
    | none => rfl
    | some p =>
      obtain ⟨x, y⟩ := p
      obtain ⟨pre, he, _⟩ := (vc_fields hb).1 hv
      exact absurd he (hn pre x y)

/-! ### GMX -/

theorem searchFrom_dots {R : Re} : ∀ {a b : Str}, Blanks a → (∀ t, m (.seq dots R) ⟨b, a, []⟩ some = some t → searchFrom (.seq dots R) b a = some t) ∧
    (m (.seq dots R) ⟨b, a, []⟩ some = none → searchFrom (.seq dots R) b a = none) := by
  intro a
  induction a with
  | nil => intro b _; simp [searchFrom]
  | cons c cs ih =>
    intro b hb
    constructor
    · intro t ht
      unfold searchFrom
      rw [ht]
    · intro hn
      unfold searchFrom
      rw [hn]
      apply (ih (b := c :: b) (blanks_cons.1 hb).2).2
      cases hm : m (.seq dots R) ⟨c :: b, cs, []⟩ some with
      | none => rfl
      | some t =>
        exfalso
        obtain ⟨w, z, e, u, v, rfl, hu, hv⟩ := (m_isSome (.seq dots R) ⟨c :: b, cs, []⟩).1 (by rw [hm]; rfl)
        simp only at e
        subst e
        have : (m (.seq dots R) ⟨b, c :: (u ++ v ++ z), []⟩ some).isSome = true := by
          rw [m_isSome]
          refine ⟨(c :: u) ++ v, z, by simp, c :: u, v, rfl, ?_, by simpa using hv⟩
          exact blanks_dot (fun d hd => hb d (by simp at hd ⊢; rcases hd with h | h <;> simp [h]))
        rw [hn] at this
        simp at this

theorem search_dots {R : Re} {h : Str} (hb : Blanks h) : search (.seq dots R) h = matchRe (.seq dots R) h := by
  unfold search matchRe
  cases hm : m (.seq dots R) ⟨[], h, []⟩ some with
  | none => exact (searchFrom_dots hb).2 hm
  | some t => exact (searchFrom_dots hb).1 t hm

/-- What follows ` by `. -/
def GmxRest (a : Str) (v : Str × Str) : Prop :=
  ∃ d q rest, v.1 = c!"mail.gmx." ++ d ∧ (d = c!"net" ∨ d = c!"com") ∧ q ≠ [] ∧ ')' ∉ q ∧ (v.2 = c!"ESMTP" ∨ v.2 = c!"SMTP") ∧
    a = c!" by mail.gmx." ++ d ++ c!" (" ++ q ++ c!") with " ++ v.2 ++ rest

theorem gmxRest_unique {a : Str} {v v' : Str × Str} (h1 : GmxRest a v) (h2 : GmxRest a v') : v = v' := by
  obtain ⟨x, p⟩ := v
  obtain ⟨x', p'⟩ := v'
  obtain ⟨d, q, r, rfl, hd, _, hq, hp, e⟩ := h1
  obtain ⟨d', q', r', rfl, hd', _, hq', hp', e'⟩ := h2
  rw [e] at e'
  simp only [List.append_assoc] at e'
  have e1 := List.append_cancel_left e'
  have hl : ∀ {d : Str}, d = c!"net" ∨ d = c!"com" → d.length = 3 := by rintro d (rfl | rfl) <;> rfl
  obtain ⟨rfl, e2⟩ := List.append_inj e1 (by rw [hl hd, hl hd'])
  obtain ⟨_, e3⟩ := until_unique (c := ')') (x := q) (x' := q') (a := c!" with " ++ (p ++ r)) (a' := c!" with " ++ (p' ++ r')) hq hq' (by simpa using e2)
  have e4 := List.append_cancel_left e3
  have : p = p' := by
    simp only at hp hp'
    rcases hp with rfl | rfl <;> rcases hp' with rfl | rfl
    · rfl
    · simp at e4
    · simp at e4
    · rfl
  rw [this]

theorem gmx_rest {h pre d p : Str} : (∃ q, Gmx h pre d q p) ↔ (d = c!"net" ∨ d = c!"com") ∧ ∃ a, h = pre ++ a ∧ GmxRest a (c!"mail.gmx." ++ d, p) := by
  constructor
  · rintro ⟨q, rest, h1, h2, h3, h4', rfl⟩
    exact ⟨h1, c!" by mail.gmx." ++ d ++ c!" (" ++ q ++ c!") with " ++ p ++ rest, by simp, d, q, rest, rfl, h1, h2, h3, h4', rfl⟩
  · rintro ⟨_, _, rfl, d', q, rest, e, h1, h2, h3, h4', rfl⟩
    have := List.append_cancel_left e
    subst this
    exact ⟨q, rest, h1, h2, h3, h4', by simp⟩

theorem auth4_fields {h : Str} (hb : Blanks h) {x p : Str} : two (search authRe4 h) 0 3 = some (x, p) ↔
    ∃ pre d q, x = c!"mail.gmx." ++ d ∧ Gmx h pre d q p ∧ ∀ pre' d' q' p', Gmx h pre' d' q' p' → pre'.length ≤ pre.length := by
  have e1 : two (search authRe4 h) 0 3 = some (x, p) ↔ ∃ t, search authRe4 h = some t ∧ ((t.get 0).getD [], (t.get 3).getD []) = (x, p) := by
    cases search authRe4 h with
    | none => simp [two]
    | some t => simp [two]
  rw [e1]
  unfold authRe4
  simp only [seqs]
  rw [search_dots hb]
  rw [greedy_any (Q := GmxRest) (G := fun t v => ((t.get 0).getD [], (t.get 3).getD []) = v) ?_ ?_ gmxRest_unique ?_ hb]
  · constructor
    · rintro ⟨pre, a, e, hq, hmax⟩
      obtain ⟨d, q, rest, e1, h1, h2, h3, h4', e2⟩ := hq
      refine ⟨pre, d, q, e1, ⟨rest, h1, h2, h3, h4', by rw [e, e2]; simp⟩, ?_⟩
      intro pre' d' q' p' h'
      obtain ⟨_, a', e', hq'⟩ := gmx_rest.1 ⟨q', h'⟩
      exact hmax pre' a' _ e' hq'
    · rintro ⟨pre, d, q, rfl, hg, hmax⟩
      obtain ⟨_, a, e, hq⟩ := gmx_rest.1 ⟨q, hg⟩
      refine ⟨pre, a, e, hq, ?_⟩
      rintro pre' a' ⟨x', p'⟩ e' hq'
      obtain ⟨d', q', rest', e1, h1, h2, h3, h4', e2⟩ := hq'
      exact hmax pre' d' q' p' ⟨rest', h1, h2, h3, h4', by rw [e', e2]; simp⟩
  · intro b a t _ hm
    obtain ⟨w, gs, e, hG, hgs⟩ := m_gets hm
    rw [gets_seqN (NoGroup.lit _)] at hG
    obtain ⟨_, _, rfl, hl, hG⟩ := hG
    cases Reads.lit.1 hl
    obtain ⟨x, _, gu, gv, rfl, ⟨g, hx, rfl⟩, hG, rfl⟩ := hG
    rw [gets_seqN (NoGroup.lit _)] at hx
    obtain ⟨_, d, rfl, hl, hx⟩ := hx
    cases Reads.lit.1 hl
    obtain ⟨g1, hd, rfl⟩ := hx
    obtain ⟨hd', rfl⟩ := (gets_noGroup (show NoGroup (.alt (lit c!"net") (lit c!"com")) from ⟨NoGroup.lit _, NoGroup.lit _⟩)).1 hd
    rw [gets_seqN (NoGroup.lit _)] at hG
    obtain ⟨_, _, rfl, hl, hG⟩ := hG
    cases Reads.lit.1 hl
    rw [gets_seqN (show NoGroup (plus _) from ⟨trivial, trivial⟩)] at hG
    obtain ⟨q, _, rfl, hq, hG⟩ := hG
    rw [gets_seqN (NoGroup.lit _)] at hG
    obtain ⟨_, p, rfl, hl, hG⟩ := hG
    cases Reads.lit.1 hl
    obtain ⟨g2, ⟨g3, hp, rfl⟩, rfl⟩ := hG
    obtain ⟨hp', rfl⟩ := (gets_noGroup (show NoGroup (.alt (lit c!"ESMTP") (lit c!"SMTP")) from ⟨NoGroup.lit _, NoGroup.lit _⟩)).1 hp
    rw [Reads.plus] at hq
    refine ⟨(c!"mail.gmx." ++ d, p), ?_, d, q, t.after, rfl, ?_, hq.1, notChar.1 hq.2, ?_, by rw [e]; simp⟩
    · simp only [St.get, hgs]
      rfl
    · rcases hd' with h | h
      · exact .inl (Reads.lit.1 h)
      · exact .inr (Reads.lit.1 h)
    · rcases hp' with h | h
      · exact .inl (Reads.lit.1 h)
      · exact .inr (Reads.lit.1 h)
  · rintro b a ⟨x, p⟩ _ ⟨d, q, rest, rfl, h1, h2, h3, h4', rfl⟩
    rw [m_isSome]
    refine ⟨c!" by " ++ ((c!"mail.gmx." ++ d) ++ (c!" (" ++ (q ++ (c!") with " ++ p)))), rest, by simp, _, _, rfl, Reads.lit.2 rfl, _, _, rfl,
      ⟨_, d, rfl, Reads.lit.2 rfl, ?_⟩, _, _, rfl, Reads.lit.2 rfl, q, _, rfl, Reads.plus.2 ⟨h2, notChar.2 h3⟩, _, p, rfl, Reads.lit.2 rfl, ?_⟩
    · rcases h1 with rfl | rfl
      · exact .inl (Reads.lit.2 rfl)
      · exact .inr (Reads.lit.2 rfl)
    · simp only at h4'
      rcases h4' with rfl | rfl
      · exact .inl (Reads.lit.2 rfl)
      · exact .inr (Reads.lit.2 rfl)
  · intro t v v' h1 h2
    exact h1.symm.trans h2

theorem auth4_none {h : Str} (hb : Blanks h) : two (search authRe4 h) 0 3 = none ↔ ∀ pre d q p, ¬ Gmx h pre d q p := by
  constructor
  · rintro hn pre d q p hg
    rw [two_none] at hn
    have : (search authRe4 h).isSome = true := by
      unfold authRe4
      simp only [seqs]
      rw [search_dots hb, matchRe_isSome]
      obtain ⟨rest, h1, h2, h3, h4', e⟩ := hg
      refine ⟨pre ++ (c!" by " ++ ((c!"mail.gmx." ++ d) ++ (c!" (" ++ (q ++ (c!") with " ++ p))))), rest, by rw [e]; simp, pre, _, rfl,
        blanks_dot (fun c hc => hb c (by rw [e]; simp [hc])), _, _, rfl, Reads.lit.2 rfl, _, _, rfl,
        ⟨_, d, rfl, Reads.lit.2 rfl, ?_⟩, _, _, rfl, Reads.lit.2 rfl, q, _, rfl, Reads.plus.2 ⟨h2, notChar.2 h3⟩, _, p, rfl, Reads.lit.2 rfl, ?_⟩
      · rcases h1 with rfl | rfl
        · exact .inl (Reads.lit.2 rfl)
        · exact .inr (Reads.lit.2 rfl)
      · rcases h4' with rfl | rfl
        · exact .inl (Reads.lit.2 rfl)
        · exact .inr (Reads.lit.2 rfl)
    rw [hn] at this
    simp at this
  · intro hn
    cases hv : two (search authRe4 h) 0 3 with
    | none => rfl
    | some y =>
      obtain ⟨x, p⟩ := y
      obtain ⟨pre, d, q, _, hg, _⟩ := (auth4_fields hb).1 hv
      exact absurd hg (hn pre d q p)

end Verif.ReceivedRe
