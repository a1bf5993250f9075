import Verif.Lemmas.Helo

/-!
# The shapes of lines in which the name of the host is looked for
-/

namespace Verif.ReceivedRe
open Verif Py Re Spec Received
open Verif.Spec.Skip (Reading)
open Verif.Spec.Fields

/-- A word before, as a group of its own, that ends at a blank. -/
theorem Finds.wordStep {n k : Nat} {R : Re} {Q : Str → Str → Prop} (h : Finds n R Q) (hq : ∀ a v, Q a v → ∃ z, a = ' ' :: z) :
    Finds n (.seq (word k) R) (fun a v => ∃ u a', a = u ++ a' ∧ Skip.Word u ∧ Q a' v) := by
  have hw : ∀ v, (v ≠ [] ∧ ∀ c ∈ v, nonSpace c = true) ↔ Skip.Word v := by simp [Skip.Word, nonSpace]
  constructor
  · intro b a g t hb hm
    rw [m_seq, word, m, plus_some] at hm
    obtain ⟨u, a', rfl, h1, h2, hk, _⟩ := hm
    obtain ⟨v, hv, hq1, hl⟩ := h.sound (blanks_append.1 hb).2 hk
    refine ⟨v, hv, ⟨u, a', rfl, (hw u).1 ⟨h1, h2⟩, hq1⟩, ?_⟩
    rintro v' ⟨u', a'', e, hu', hq'⟩
    obtain ⟨rfl, rfl⟩ := word_unique ((hw u).1 ⟨h1, h2⟩) hu' (hq _ _ hq1) (hq _ _ hq') e
    exact hl v' hq'
  · rintro b a g v hb ⟨u, a', rfl, hu, hq1⟩
    have hc := h.complete (b := u.reverse ++ b) (g := g) (blanks_append.1 hb).2 hq1
    rw [m_isSome] at hc ⊢
    obtain ⟨w, z, e, hr⟩ := hc
    simp only at e
    subst e
    exact ⟨u ++ w, z, by simp, u, w, rfl, reads_words.2 hu, hr⟩
  · rintro a v v' hb ⟨u, a', rfl, hu, hq1⟩ ⟨u', a'', e, hu', hq'⟩ hl
    obtain ⟨rfl, rfl⟩ := word_unique hu hu' (hq _ _ hq1) (hq _ _ hq') e
    exact h.inj (blanks_append.1 hb).2 hq1 hq' hl

/-- White space before. -/
theorem Finds.sp {n : Nat} {R : Re} {Q : Str → Str → Prop} (h : Finds n R Q) : Finds n (.seq sp R) (fun a v => ∃ a', a = c!" " ++ a' ∧ Q a' v) := by
  refine (h.step (X := Re.sp) (D := fun u => u = c!" ") trivial ?_ (fun u v u' v' _ _ h1 h2 => h1.trans h2.symm)).congr ?_
  · intro b u v hb
    constructor
    · rintro ⟨c, rfl, hc⟩
      rw [hb c (by simp) hc]
    · rintro rfl
      exact ⟨' ', rfl, by decide⟩
  · intro a v
    constructor
    · rintro ⟨_, a', rfl, rfl, hq⟩; exact ⟨a', rfl, hq⟩
    · rintro ⟨a', rfl, hq⟩; exact ⟨_, a', rfl, rfl, hq⟩

/-- Where the match has to begin at the beginning, and what is found is the longest possibility. -/
theorem bol_longest {n : Nat} {R : Re} {Q : Str → Str → Prop} (h : Finds n R Q) {s v : Str} (hs : Blanks s) :
    field (.seq .bol R) n s = some v ↔ Q s v ∧ ∀ v', Q s v' → v'.length ≤ v.length := by
  have e : ∀ t, matchRe (.seq .bol R) s = some t ↔ m R ⟨[], s, []⟩ some = some t := by
    intro t; unfold matchRe; rw [m_seq, m_bol]
  rw [field_some]
  constructor
  · rintro ⟨t, ht, hv⟩
    obtain ⟨v', hv', hq, hl⟩ := h.sound hs ((e t).1 ht)
    rw [hv] at hv'
    simp at hv'
    subst hv'
    exact ⟨hq, hl⟩
  · rintro ⟨hq, hl⟩
    have := h.complete (b := []) (g := []) hs hq
    cases hm : m R ⟨[], s, []⟩ some with
    | none => rw [hm] at this; simp at this
    | some t =>
      obtain ⟨v', hv', hq', hl'⟩ := h.sound hs hm
      have h1 := hl v' hq'
      have h2 := hl' v hq
      exact ⟨t, (e t).2 hm, by rw [hv', h.inj hs hq hq' (by omega)]⟩

theorem hostShape_unique {h v v' x x' : Str} (h1 : HostShape h v x) (h2 : HostShape h v' x') : v = v' := by
  obtain ⟨s, a, mid, rest, hv, _, _, _, e⟩ := h1
  obtain ⟨s', a', mid', rest', hv', _, _, _, e'⟩ := h2
  exact (word_unique (a := c!" (" ++ x ++ s ++ c!"[" ++ a ++ c!"]" ++ mid ++ c!")" ++ rest)
    (a' := c!" (" ++ x' ++ s' ++ c!"[" ++ a' ++ c!"]" ++ mid' ++ c!")" ++ rest') hv hv' ⟨_, rfl⟩ ⟨_, rfl⟩ (by rw [e] at e'; simpa using e')).1

theorem helo7_host {h x : Str} (hb : Blanks h) : field heloRe7 1 h = some x ↔ ∃ w, HostShape h w x ∧ ∀ x', HostShape h w x' → x'.length ≤ x.length := by
  unfold heloRe7
  simp only [seqs]
  have f1 : Finds 1 (.seq (word 1) (.seq (opt sp) (.seq (lit c!"[") (.seq ip (.seq (lit c!"]") (.seq dots (lit c!")")))))))
      (fun a v => Skip.Word v ∧ ∃ a', a = v ++ a' ∧ ∃ s x mid y, Perhaps c!" " s ∧ Address x ∧ a' = s ++ c!"[" ++ x ++ c!"]" ++ mid ++ c!")" ++ y) := by
    refine finds_word (E := fun _ a' => ∃ s x mid y, Perhaps c!" " s ∧ Address x ∧ a' = s ++ c!"[" ++ x ++ c!"]" ++ mid ++ c!")" ++ y) ?_
      ⟨⟨trivial, trivial⟩, ⟨trivial, trivial⟩, avoid_noGroup noGroup_ip, ⟨trivial, trivial⟩, trivial, ⟨trivial, trivial⟩⟩
    intro b v a _ ha
    have ha := (blanks_append.1 ha).2
    simp only [dots, reads_optSp, reads_litSeq, reads_ipSeq, reads_dotsSeq, Reads.lit]
    constructor
    · rintro ⟨_, y, rfl, s, _, rfl, hs, _, rfl, x, _, rfl, hx, _, rfl, mid, _, rfl, hm, rfl⟩
      exact ⟨s, x, mid, y, (maySp_iff (fun c hc => ha c (by simp [hc]))).1 hs, (ip_iff clear_open clear_close).1 hx, by simp⟩
    · rintro ⟨s, x, mid, y, hs, hx, rfl⟩
      exact ⟨s ++ (c!"[" ++ (x ++ (c!"]" ++ (mid ++ c!")")))), y, by simp, s, _, rfl, (maySp_iff (fun c hc => ha c (by simp [hc]))).2 hs, _, rfl, x, _, rfl,
        (ip_iff clear_open clear_close).2 hx, _, rfl, mid, _, rfl, blanks_dot (fun c hc => ha c (by simp [hc])), rfl⟩
  have f2 := ((f1.lit c!"(").sp).wordStep (k := 0) (by rintro _ v ⟨a', rfl, _⟩; exact ⟨_, rfl⟩)
  have e : ∀ x, (∃ u a', h = u ++ a' ∧ Skip.Word u ∧ ∃ a'', a' = c!" " ++ a'' ∧ ∃ a3, a'' = c!"(" ++ a3 ∧
      (Skip.Word x ∧ ∃ a', a3 = x ++ a' ∧ ∃ s i mid y, Perhaps c!" " s ∧ Address i ∧ a' = s ++ c!"[" ++ i ++ c!"]" ++ mid ++ c!")" ++ y)) ↔ ∃ w, HostShape h w x := by
    intro x
    constructor
    · rintro ⟨u, _, rfl, hu, _, rfl, _, rfl, hx, _, rfl, s, i, mid, y, hs, hi, rfl⟩
      exact ⟨u, s, i, mid, y, hu, hx, hs, hi, by simp⟩
    · rintro ⟨u, s, i, mid, y, hu, hx, hs, hi, rfl⟩
      exact ⟨u, c!" " ++ (c!"(" ++ (x ++ (s ++ c!"[" ++ i ++ c!"]" ++ mid ++ c!")" ++ y))), by simp, hu, _, rfl, _, rfl, hx, _, rfl, s, i, mid, y, hs, hi, rfl⟩
  rw [bol_longest f2 hb, e]
  constructor
  · rintro ⟨⟨w, hw⟩, hl⟩
    exact ⟨w, hw, fun x' hx' => hl x' ((e x').2 ⟨w, hx'⟩)⟩
  · rintro ⟨w, hw, hl⟩
    refine ⟨⟨w, hw⟩, fun x' hx' => ?_⟩
    obtain ⟨w', hw'⟩ := (e x').1 hx'
    exact hl x' (hostShape_unique hw' hw ▸ hw')

theorem rdns2_field {h v : Str} (hb : Blanks h) : field rdnsRe2 0 h = some v ↔ Glued h v := by
  unfold rdnsRe2
  simp only [seqs]
  have f1 : Finds 0 (.seq (word 0) (lit c!"(")) (fun a v => Skip.Word v ∧ ∃ a', a = v ++ a' ∧ ∃ y, a' = c!"(" ++ y) :=
    finds_word (E := fun _ a => ∃ y, a = c!"(" ++ y) (fun b v a _ _ => lit_begins) ⟨trivial, trivial⟩
  have f2 : Finds 0 (.seq (word 0) (lit c!"(")) (fun a v => Skip.Word v ∧ ∃ rest, a = v ++ c!"(" ++ rest) := by
    refine f1.congr fun a v => ?_
    constructor
    · rintro ⟨hv, _, rfl, y, rfl⟩; exact ⟨hv, y, by simp⟩
    · rintro ⟨hv, y, rfl⟩; exact ⟨hv, _, List.append_assoc _ _ _, y, rfl⟩
  rw [bol_longest f2 hb]
  exact Iff.rfl

theorem rdns_field {h v : Str} (hb : Blanks h) : field rdnsRe 0 h = some v ↔ FirstWord h v := by
  unfold rdnsRe
  simp only [seqs]
  rw [first_field (T := lit c!" ") (E := fun a => ∃ y, a = c!" " ++ y) ⟨trivial, trivial⟩ (by rintro _ ⟨y, rfl⟩; exact ⟨_, rfl⟩) (fun b a _ => lit_begins) hb]
  constructor
  · rintro ⟨hv, _, rfl, y, rfl⟩; exact ⟨hv, y, by simp⟩
  · rintro ⟨hv, y, rfl⟩; exact ⟨hv, _, List.append_assoc _ _ _, y, rfl⟩

theorem isMatch_reads {r : Re} {h : Str} : isMatch r h = true ↔ ∃ w z, h = w ++ z ∧ Reads r [] w z := matchRe_isSome r h

theorem isMatch_bol {r : Re} {h : Str} : isMatch (.seq .bol r) h = true ↔ ∃ w z, h = w ++ z ∧ Reads r [] w z := by
  rw [isMatch_reads]
  constructor
  · rintro ⟨_, z, e, _, v, rfl, ⟨rfl, _⟩, hr⟩
    exact ⟨v, z, by simpa using e, hr⟩
  · rintro ⟨w, z, e, hr⟩
    exact ⟨w, z, e, [], w, rfl, ⟨rfl, rfl⟩, hr⟩

theorem reads_ipGroup {n : Nat} {r : Re} {b w a : Str} :
    Reads (.seq (.group n ip) r) b w a ↔ ∃ u v, w = u ++ v ∧ Reads ip b u (v ++ a) ∧ Reads r (u.reverse ++ b) v a := Iff.rfl

theorem header_match {h : Str} (hb : Blanks h) : isMatch headerRe h = true ↔ OnlyAddress h [] := by
  unfold headerRe
  simp only [seqs]
  rw [isMatch_bol]
  simp only [reads_optLit, reads_ipGroup, reads_spSeq, Reads.lit]
  have clearB : ∀ {o s : Str}, Perhaps c!"(" o → Perhaps c!"[" s → Clear (s.reverse ++ (o.reverse ++ [])) := by
    rintro o s (rfl | rfl) (rfl | rfl)
    · exact ⟨rfl, rfl⟩
    · exact ⟨rfl, rfl⟩
    · exact ⟨rfl, rfl⟩
    · exact ⟨rfl, rfl⟩
  have clearA : ∀ {s o z : Str}, Perhaps c!"]" s → Perhaps c!")" o → Clear (s ++ (o ++ ' ' :: z)) := by
    rintro s o z (rfl | rfl) (rfl | rfl)
    · exact ⟨rfl, rfl⟩
    · exact ⟨rfl, rfl⟩
    · exact ⟨rfl, rfl⟩
    · exact ⟨rfl, rfl⟩
  constructor
  · rintro ⟨_, y, rfl, o, _, rfl, ho, s, _, rfl, hs, x, _, rfl, hx, s', _, rfl, hs', o', _, rfl, ho', c, _, rfl, hc, rfl⟩
    have : c = ' ' := hb c (by simp) hc
    subst this
    refine ⟨o, s, x, s', o', y, ho, hs, (ip_iff (clearB ho hs) ?_).1 hx, hs', ho', by simp, rfl⟩
    simp only [List.append_assoc]
    exact clearA hs' ho'
  · rintro ⟨o, s, x, s', o', y, ho, hs, hx, hs', ho', rfl, _⟩
    refine ⟨o ++ (s ++ (x ++ (s' ++ (o' ++ c!" by")))), y, by simp, o, _, rfl, ho, s, _, rfl, hs, x, _, rfl, (ip_iff (clearB ho hs) ?_).2 hx, s', _, rfl, hs',
      o', _, rfl, ho', ' ', _, rfl, by decide, rfl⟩
    simp only [List.append_assoc]
    exact clearA hs' ho'

theorem rdns3_match {h : Str} (hb : Blanks h) : isMatch rdnsRe3 h = true ↔ ∃ b, ServerAddress h b := by
  unfold rdnsRe3
  simp only [seqs]
  rw [isMatch_bol]
  simp only [reads_groupSeq, reads_ipGroup, reads_spSeq, reads_litSeq, Reads.lit]
  constructor
  · rintro ⟨_, y, rfl, w, _, rfl, hw, c, _, rfl, hc, _, rfl, a, _, rfl, ha, _, rfl, c', _, rfl, hc', _, rfl, c2, _, rfl, hc2, s, _, rfl, hs, c3, _, rfl, hc3,
      _, rfl, x, _, rfl, hx, rfl⟩
    have : c = ' ' := hb c (by simp) hc
    subst this
    have : c' = ' ' := hb c' (by simp) hc'
    subst this
    have : c2 = ' ' := hb c2 (by simp) hc2
    subst this
    have : c3 = ' ' := hb c3 (by simp) hc3
    subst this
    exact ⟨x, w, a, s, y, hw, (ip_iff clear_open clear_close).1 ha, hs, (ip_iff clear_open clear_close).1 hx, by simp⟩
  · rintro ⟨x, w, a, s, y, hw, ha, hs, hx, rfl⟩
    exact ⟨w ++ (' ' :: (c!"[" ++ (a ++ (c!"]" ++ (' ' :: (c!"by" ++ (' ' :: (s ++ (' ' :: (c!"[" ++ (x ++ c!"]"))))))))))), y, by simp, w, _, rfl, hw, ' ', _, rfl,
      by decide, _, rfl, a, _, rfl, (ip_iff clear_open clear_close).2 ha, _, rfl, ' ', _, rfl, by decide, _, rfl, ' ', _, rfl, by decide, s, _, rfl, hs,
      ' ', _, rfl, by decide, _, rfl, x, _, rfl, (ip_iff clear_open clear_close).2 hx, rfl⟩

theorem rdnsIp_match {u : Str} : isMatch rdnsIp u = true ↔ ∃ a rest, Address a ∧ u = c!"[" ++ a ++ c!"]" ++ rest := by
  unfold rdnsIp
  simp only [seqs]
  rw [isMatch_bol]
  simp only [reads_ipGroup, reads_litSeq, Reads.lit]
  constructor
  · rintro ⟨_, y, rfl, _, rfl, a, _, rfl, ha, rfl⟩
    exact ⟨a, y, (ip_iff clear_open clear_close).1 ha, by simp⟩
  · rintro ⟨a, y, ha, rfl⟩
    exact ⟨c!"[" ++ (a ++ c!"]"), y, by simp, _, rfl, a, _, rfl, (ip_iff clear_open clear_close).2 ha, rfl⟩

theorem unknown_field {h : Str} (hm : isMatch unknownRdns h = true) : field unknownRdns 1 h = some c!"unknown" := by
  obtain ⟨v, hv⟩ := (isMatch_iff (n := 1) (by simp [unknownRdns, seqs, Sets, word])).1 hm
  rw [hv]
  obtain ⟨t, ht, hg⟩ := field_some.1 hv
  obtain ⟨w, gs, e, hG, hgs⟩ := m_gets ht
  unfold unknownRdns at hG
  simp only [seqs] at hG
  rw [gets_bolSeq, word, gets_groupSeq (show NoGroup (plus nonSpace) from ⟨trivial, trivial⟩)] at hG
  obtain ⟨_, x, _, g1, rfl, _, hG, rfl⟩ := hG
  rw [gets_seqN (show NoGroup sp from trivial)] at hG
  obtain ⟨_, _, rfl, _, hG⟩ := hG
  rw [gets_seqN (NoGroup.lit _)] at hG
  obtain ⟨_, _, rfl, _, hG⟩ := hG
  rw [gets_groupSeq (NoGroup.lit _)] at hG
  obtain ⟨k, _, g2, rfl, hk, hG, rfl⟩ := hG
  cases Reads.lit.1 hk
  rw [gets_seqN (show NoGroup sp from trivial)] at hG
  obtain ⟨_, _, rfl, _, hG⟩ := hG
  rw [gets_seqN (NoGroup.lit _)] at hG
  obtain ⟨_, _, rfl, _, hG⟩ := hG
  rw [gets_groupSeq noGroup_ip] at hG
  obtain ⟨i, _, g3, rfl, _, hG, rfl⟩ := hG
  obtain ⟨_, rfl⟩ := (gets_noGroup (show NoGroup (.seq (lit c!"])") (.seq sp (lit c!"("))) from ⟨NoGroup.lit _, trivial, NoGroup.lit _⟩)).1 hG
  rw [St.get, hgs] at hg
  exact hg.symm

theorem unknown_match {h : Str} (hb : Blanks h) : isMatch unknownRdns h = true ↔ ∃ w a rest, Skip.Word w ∧ Address a ∧ h = w ++ c!" (unknown [" ++ a ++ c!"]) (" ++ rest := by
  unfold unknownRdns
  simp only [seqs]
  rw [isMatch_bol]
  have hu : ∀ {r b w a}, Reads (.seq (.group 1 (lit c!"unknown")) r) b w a ↔ ∃ v, w = c!"unknown" ++ v ∧ Reads r (c!"unknown".reverse ++ b) v a := by
    intro r b w a
    exact reads_litSeq
  simp only [reads_groupSeq, reads_ipGroup, reads_spSeq, reads_litSeq, Reads.lit, hu]
  constructor
  · rintro ⟨_, y, rfl, w, _, rfl, hw, c, _, rfl, hc, _, rfl, _, rfl, c', _, rfl, hc', _, rfl, a, _, rfl, ha, _, rfl, c2, _, rfl, hc2, rfl⟩
    have : c = ' ' := hb c (by simp) hc
    subst this
    have : c' = ' ' := hb c' (by simp) hc'
    subst this
    have : c2 = ' ' := hb c2 (by simp) hc2
    subst this
    exact ⟨w, a, y, hw, (ip_iff clear_open clear_close).1 ha, by simp⟩
  · rintro ⟨w, a, y, hw, ha, rfl⟩
    exact ⟨w ++ (' ' :: (c!"(" ++ (c!"unknown" ++ (' ' :: (c!"[" ++ (a ++ (c!"])" ++ (' ' :: c!"(")))))))), y, by simp, w, _, rfl, hw, ' ', _, rfl,
      by decide, _, rfl, _, rfl, ' ', _, rfl, by decide, _, rfl, a, _, rfl, (ip_iff clear_open clear_close).2 ha, _, rfl, ' ', _, rfl, by decide, rfl⟩

/-! ### Expressions that can no longer match -/

theorem smtp_dead {h : Str} (hm : isMatch rdnsSmtp h = true) : isMatch heloRe5 h = true := by
  unfold rdnsSmtp at hm
  unfold heloRe5
  simp only [seqs] at hm ⊢
  rw [isMatch_bol] at hm ⊢
  obtain ⟨_, y, e, w, _, rfl, hw, s1, _, rfl, h1, l1, _, rfl, h2, s2, _, rfl, h3, a, _, rfl, h4', l2, z, rfl, h5, _⟩ := hm
  refine ⟨w ++ (s1 ++ (l1 ++ (s2 ++ (a ++ l2)))), z ++ y, by rw [e]; simp, w, _, rfl, hw, s1, _, rfl, h1, l1, _, rfl, ?_, s2, _, rfl, h3, a, _, rfl, ?_, ?_⟩
  · exact Reads.lit.2 (Reads.lit.1 h2)
  · simpa using h4'
  · exact Reads.lit.2 (Reads.lit.1 h5)

theorem smtp1_dead {h : Str} (hm : isMatch rdnsSmtp1 h = true) : ∃ w s a rest, Skip.Word w ∧ MaySp s ∧ Address a ∧ ∃ c, isSpace c = true ∧
    h = w ++ [c] ++ c!"(" ++ s ++ c!"[" ++ a ++ c!"])" ++ rest := by
  unfold rdnsSmtp1 at hm
  simp only [seqs] at hm
  rw [isMatch_bol] at hm
  obtain ⟨_, y, e, hm⟩ := hm
  rw [reads_groupSeq] at hm
  obtain ⟨w, _, rfl, hw, hm⟩ := hm
  rw [reads_spSeq] at hm
  obtain ⟨c, _, rfl, hc, hm⟩ := hm
  rw [reads_litSeq] at hm
  obtain ⟨_, rfl, hm⟩ := hm
  rw [reads_optSp] at hm
  obtain ⟨s, _, rfl, hs, hm⟩ := hm
  rw [reads_litSeq] at hm
  obtain ⟨_, rfl, hm⟩ := hm
  rw [reads_ipSeq] at hm
  obtain ⟨a, _, rfl, ha, hm⟩ := hm
  rw [reads_litSeq] at hm
  obtain ⟨z, rfl, _⟩ := hm
  exact ⟨w, s, a, z ++ y, hw, hs, (ip_iff clear_open clear_close).1 ha, c, hc, by rw [e]; simp⟩

theorem rdns1_dead {h : Str} (hb : Blanks h) (hm : isMatch rdnsRe1 h = true) : isMatch headerRe h = true := by
  rw [header_match hb]
  unfold rdnsRe1 at hm
  simp only [seqs] at hm
  rw [isMatch_bol] at hm
  obtain ⟨_, y, rfl, hm⟩ := hm
  simp only [reads_litSeq, reads_ipGroup, reads_spSeq] at hm
  obtain ⟨_, rfl, a, _, rfl, ha, _, rfl, c, _, rfl, hc, z, rfl, _⟩ := hm
  have : c = ' ' := hb c (by simp) hc
  subst this
  exact ⟨c!"(", c!"[", a, c!"]", c!")", z ++ y, .inr rfl, .inr rfl, (ip_iff clear_open clear_close).1 ha, .inr rfl, .inr rfl, by simp, rfl⟩

end Verif.ReceivedRe
