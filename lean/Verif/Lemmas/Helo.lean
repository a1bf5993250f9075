import Verif.Lemmas.Finds

/-!
# The shapes of lines in which the name of the greeting is looked for
-/

namespace Verif.ReceivedRe
open Verif Py Re Spec Received
open Verif.Spec.Skip (Reading)
open Verif.Spec.Fields

theorem reads_optLit {s : Str} {r : Re} {b w a : Str} :
    Reads (.seq (opt (lit s)) r) b w a ↔ ∃ o v, w = o ++ v ∧ Perhaps s o ∧ Reads r (o.reverse ++ b) v a := by
  constructor
  · rintro ⟨o, v, rfl, ho, hv⟩
    refine ⟨o, v, rfl, ?_, hv⟩
    rcases ho with ho | ho
    · exact .inr (Reads.lit.1 ho)
    · exact .inl ho
  · rintro ⟨o, v, rfl, ho, hv⟩
    refine ⟨o, v, rfl, ?_, hv⟩
    rcases ho with ho | ho
    · exact .inr ho
    · exact .inl (Reads.lit.2 ho)

/-- Perhaps a white space. -/
def MaySp (o : Str) : Prop := o = [] ∨ ∃ c, o = [c] ∧ isSpace c = true

theorem reads_optSp {r : Re} {b w a : Str} :
    Reads (.seq (opt sp) r) b w a ↔ ∃ o v, w = o ++ v ∧ MaySp o ∧ Reads r (o.reverse ++ b) v a := by
  constructor
  · rintro ⟨o, v, rfl, ho, hv⟩
    refine ⟨o, v, rfl, ?_, hv⟩
    rcases ho with ho | ho
    · exact .inr ho
    · exact .inl ho
  · rintro ⟨o, v, rfl, ho, hv⟩
    refine ⟨o, v, rfl, ?_, hv⟩
    rcases ho with ho | ho
    · exact .inr ho
    · exact .inl ho

theorem reads_ipSeq {r : Re} {b w a : Str} :
    Reads (.seq ip r) b w a ↔ ∃ u v, w = u ++ v ∧ Reads ip b u (v ++ a) ∧ Reads r (u.reverse ++ b) v a := Iff.rfl

theorem reads_dotsSeq {g : Bool} {r : Re} {b w a : Str} :
    Reads (.seq (.star g dot) r) b w a ↔ ∃ u v, w = u ++ v ∧ (∀ c ∈ u, dot c = true) ∧ Reads r (u.reverse ++ b) v a := Iff.rfl

theorem maySp_iff {o : Str} (h : Blanks o) : MaySp o ↔ Perhaps c!" " o := by
  constructor
  · rintro (rfl | ⟨c, rfl, hc⟩)
    · exact .inl rfl
    · rw [h c (by simp) hc]; exact .inr rfl
  · rintro (rfl | rfl)
    · exact .inl rfl
    · exact .inr ⟨' ', rfl, by decide⟩

theorem clear_open {x : Str} : Clear ('[' :: x) := ⟨rfl, rfl⟩
theorem clear_close {x : Str} : Clear (']' :: x) := ⟨rfl, rfl⟩
theorem clear_paren {x : Str} : Clear ('(' :: x) := ⟨rfl, rfl⟩
theorem clear_parenEnd {x : Str} : Clear (')' :: x) := ⟨rfl, rfl⟩
theorem clear_sp {x : Str} : Clear (' ' :: x) := ⟨rfl, rfl⟩
theorem clear_nil : Clear [] := ⟨rfl, rfl⟩

/-- Two words followed by blanks. -/
theorem word_unique {v v' a a' : Str} (h : Skip.Word v) (h' : Skip.Word v') (ha : ∃ z, a = ' ' :: z) (ha' : ∃ z, a' = ' ' :: z)
    (e : v ++ a = v' ++ a') : v = v' ∧ a = a' := by
  obtain ⟨z, rfl⟩ := ha
  obtain ⟨z', rfl⟩ := ha'
  have key : ∀ (v v' : Str), (∀ c ∈ v, isSpace c = false) → (∀ c ∈ v', isSpace c = false) → v ++ ' ' :: z = v' ++ ' ' :: z' → v = v' := by
    intro v
    induction v with
    | nil =>
      intro v' _ h' e
      cases v' with
      | nil => rfl
      | cons c v' =>
        simp at e
        have := h' c (by simp)
        rw [← e.1] at this
        exact absurd this (by decide)
    | cons c v ih =>
      intro v' h h' e
      cases v' with
      | nil =>
        simp at e
        have := h c (by simp)
        rw [e.1] at this
        exact absurd this (by decide)
      | cons d v' =>
        simp at e
        rw [e.1, ih v' (fun c hc => h c (List.mem_cons_of_mem _ hc)) (fun c hc => h' c (List.mem_cons_of_mem _ hc)) e.2]
  have := key v v' h.2 h'.2 e
  subst this
  exact ⟨rfl, List.append_cancel_left e⟩

/-- `^(\S+)` and then something that begins with a blank. -/
theorem first_field {n : Nat} {T : Re} {E : Str → Prop} (hn : Avoid n T) (hE : ∀ a, E a → ∃ z, a = ' ' :: z)
    (hT : ∀ b a, Blanks a → ((∃ u y, a = u ++ y ∧ Reads T b u y) ↔ E a)) {s v : Str} (hs : Blanks s) :
    field (.seq .bol (.seq (word n) T)) n s = some v ↔ Skip.Word v ∧ ∃ a, s = v ++ a ∧ E a := by
  rw [bol_field (finds_word (E := fun _ a => E a) (fun b v a _ hb => hT _ a (blanks_append.1 hb).2) hn) hs]
  rintro v v' ⟨h1, a, e, he⟩ ⟨h1', a', e', he'⟩
  exact (word_unique h1 h1' (hE a he) (hE a' he') (e ▸ e')).1

/-- `^\(?(\S+)` and then something that begins with a blank. -/
theorem opened_field {n : Nat} {T : Re} {E : Str → Prop} (hn : Avoid n T) (hE : ∀ a, E a → ∃ z, a = ' ' :: z)
    (hT : ∀ b a, Blanks a → ((∃ u y, a = u ++ y ∧ Reads T b u y) ↔ E a)) {s v : Str} (hs : Blanks s) :
    field (.seq .bol (.seq (opt (lit c!"(")) (.seq (word n) T))) n s = some v ↔ ∃ w a, Skip.Word w ∧ s = w ++ a ∧ E a ∧ Unopened w v := by
  rw [open_field (finds_word (E := fun _ a => E a) (fun b v a _ hb => hT _ a (blanks_append.1 hb).2) hn) hs]
  · constructor
    · rintro (⟨_, e, h1, a, rfl, he⟩ | ⟨hx, h1, a, e, he⟩)
      · refine ⟨'(' :: v, a, ⟨by simp, ?_⟩, by simpa using e, he, .inl ⟨rfl, h1.1⟩⟩
        intro c hc
        rcases List.mem_cons.1 hc with rfl | hc
        · decide
        · exact h1.2 c hc
      · refine ⟨v, a, h1, e, he, .inr ⟨rfl, ?_⟩⟩
        intro u hu
        apply Classical.byContradiction
        intro h0
        refine hx (u ++ a) (by rw [e, hu]; simp) u ⟨⟨h0, fun c hc => h1.2 c (by rw [hu]; exact List.mem_cons_of_mem _ hc)⟩, a, rfl, he⟩
    · rintro ⟨w, a, hw, e, he, ⟨rfl, h0⟩ | ⟨rfl, h0⟩⟩
      · exact .inl ⟨v ++ a, by rw [e]; simp, ⟨h0, fun c hc => hw.2 c (List.mem_cons_of_mem _ hc)⟩, a, rfl, he⟩
      · refine .inr ⟨?_, hw, a, e, he⟩
        rintro _ e' u ⟨hu, a', rfl, he'⟩
        have hu' : Skip.Word ('(' :: u) := ⟨by simp, by
          intro c hc
          rcases List.mem_cons.1 hc with rfl | hc
          · decide
          · exact hu.2 c hc⟩
        have := (word_unique hw hu' (hE a he) (hE a' he') (by rw [← e, e']; simp)).1
        exact hu.1 (h0 u this)
  · rintro s v v' ⟨h1, a, e, he⟩ ⟨h1', a', e', he'⟩
    exact (word_unique h1 h1' (hE a he) (hE a' he') (e ▸ e')).1

/-! ### The shapes with the name at the beginning -/

/-- What `Blanks` says about parts. -/
macro "blanks" : tactic => `(tactic| (simp only [blanks_append, blanks_cons] at *; simp_all))

theorem sp_blank {c : Char} {x : Str} (h : Blanks (c :: x)) (hc : isSpace c = true) : c = ' ' := h c (by simp) hc

theorem helo4_field {h v : Str} (hb : Blanks h) : field heloRe4 0 h = some v ↔ Bracketed h v := by
  unfold heloRe4
  simp only [seqs]
  rw [opened_field (E := fun a => ∃ o s x y, Perhaps c!"(" o ∧ Perhaps c!" " s ∧ Address x ∧ a = c!" " ++ o ++ s ++ c!"[" ++ x ++ c!"])" ++ y)
    ?_ ?_ ?_ hb]
  · constructor
    · rintro ⟨w, _, hw, rfl, ⟨o, s, x, y, ho, hs, hx, rfl⟩, hu⟩
      exact ⟨w, o, s, x, y, hw, ho, hs, hx, by simp, hu⟩
    · rintro ⟨w, o, s, x, y, hw, ho, hs, hx, rfl, hu⟩
      exact ⟨w, c!" " ++ o ++ s ++ c!"[" ++ x ++ c!"])" ++ y, hw, by simp, ⟨o, s, x, y, ho, hs, hx, rfl⟩, hu⟩
  · exact avoid_noGroup ⟨trivial, ⟨⟨trivial, trivial⟩, trivial⟩, ⟨trivial, trivial⟩, NoGroup.lit _, noGroup_ip, NoGroup.lit _⟩
  · rintro _ ⟨o, s, x, y, _, _, _, rfl⟩
    exact ⟨_, by simp only [List.append_assoc]; rfl⟩
  · intro b a ha
    simp only [reads_spSeq, reads_optLit, reads_optSp, reads_litSeq, reads_ipSeq, Reads.lit]
    constructor
    · rintro ⟨_, y, rfl, c, _, rfl, hc, o, _, rfl, ho, s, _, rfl, hs, _, rfl, x, _, rfl, hx, rfl⟩
      have := sp_blank ha hc
      subst this
      refine ⟨o, s, x, y, ho, (maySp_iff (fun c hc => ha c (by simp [hc]))).1 hs, (ip_iff clear_open clear_close).1 hx, by simp⟩
    · rintro ⟨o, s, x, y, ho, hs, hx, rfl⟩
      exact ⟨_, y, rfl, ' ', o ++ (s ++ (c!"[" ++ (x ++ c!"])"))), by simp, by decide, o, _, rfl, ho, s, _, rfl,
        (maySp_iff (fun c hc => ha c (by simp [hc]))).2 hs, _, rfl, x, _, rfl, (ip_iff clear_open clear_close).2 hx, rfl⟩

theorem helo5_field {h v : Str} (hb : Blanks h) : field heloRe5 0 h = some v ↔ Parenthesised h v := by
  unfold heloRe5
  simp only [seqs]
  rw [first_field (E := fun a => ∃ s x y, Perhaps c!" " s ∧ Address x ∧ a = c!" (" ++ s ++ x ++ c!")" ++ y) ?_ ?_ ?_ hb]
  · constructor
    · rintro ⟨hw, _, rfl, s, x, y, hs, hx, rfl⟩
      exact ⟨s, x, y, hw, hs, hx, by simp⟩
    · rintro ⟨s, x, y, hw, hs, hx, rfl⟩
      exact ⟨hw, c!" (" ++ s ++ x ++ c!")" ++ y, by simp, s, x, y, hs, hx, rfl⟩
  · exact avoid_noGroup ⟨trivial, NoGroup.lit _, ⟨trivial, trivial⟩, noGroup_ip, NoGroup.lit _⟩
  · rintro _ ⟨s, x, y, _, _, rfl⟩
    exact ⟨_, by simp only [List.append_assoc]; rfl⟩
  · intro b a ha
    simp only [reads_spSeq, reads_optSp, reads_litSeq, reads_ipSeq, Reads.lit]
    constructor
    · rintro ⟨_, y, rfl, c, _, rfl, hc, _, rfl, s, _, rfl, hs, x, _, rfl, hx, rfl⟩
      have := sp_blank ha hc
      subst this
      have hs := (maySp_iff (fun c hc => ha c (by simp [hc]))).1 hs
      refine ⟨s, x, y, hs, ?_, by simp⟩
      rcases hs with rfl | rfl
      · exact (ip_iff clear_paren clear_parenEnd).1 hx
      · exact (ip_iff clear_sp clear_parenEnd).1 hx
    · rintro ⟨s, x, y, hs, hx, rfl⟩
      refine ⟨c!" (" ++ s ++ x ++ c!")", y, rfl, ' ', c!"(" ++ s ++ x ++ c!")", rfl, by decide, s ++ x ++ c!")", by simp, s, x ++ c!")", by simp,
        (maySp_iff (fun c hc => ha c (by simp [hc]))).2 hs, x, _, rfl, ?_, rfl⟩
      rcases hs with rfl | rfl
      · exact (ip_iff clear_paren clear_parenEnd).2 hx
      · exact (ip_iff clear_sp clear_parenEnd).2 hx

theorem helo6_field {h v : Str} (hb : Blanks h) : field heloRe6 0 h = some v ↔ TwoAddresses h v := by
  unfold heloRe6
  simp only [seqs]
  rw [first_field (E := fun a => ∃ x x' y, Address x ∧ Address x' ∧ a = c!" ([" ++ x ++ c!"] [" ++ x' ++ c!"])" ++ y) ?_ ?_ ?_ hb]
  · constructor
    · rintro ⟨hw, _, rfl, x, x', y, hx, hx', rfl⟩
      exact ⟨x, x', y, hw, hx, hx', by simp⟩
    · rintro ⟨x, x', y, hw, hx, hx', rfl⟩
      exact ⟨hw, c!" ([" ++ x ++ c!"] [" ++ x' ++ c!"])" ++ y, by simp, x, x', y, hx, hx', rfl⟩
  · exact avoid_noGroup ⟨trivial, NoGroup.lit _, noGroup_ip, NoGroup.lit _, trivial, NoGroup.lit _, noGroup_ip, NoGroup.lit _⟩
  · rintro _ ⟨x, x', y, _, _, rfl⟩
    exact ⟨_, by simp only [List.append_assoc]; rfl⟩
  · intro b a ha
    simp only [reads_spSeq, reads_litSeq, reads_ipSeq, Reads.lit]
    constructor
    · rintro ⟨_, y, rfl, c, _, rfl, hc, _, rfl, x, _, rfl, hx, _, rfl, c', _, rfl, hc', _, rfl, x', _, rfl, hx', rfl⟩
      have := sp_blank ha hc
      subst this
      have : c' = ' ' := ha c' (by simp) hc'
      subst this
      exact ⟨x, x', y, (ip_iff clear_open clear_close).1 hx, (ip_iff clear_open clear_close).1 hx', by simp⟩
    · rintro ⟨x, x', y, hx, hx', rfl⟩
      exact ⟨_, y, rfl, ' ', c!"([" ++ x ++ c!"] [" ++ x' ++ c!"])", by simp, by decide, x ++ c!"] [" ++ x' ++ c!"])", by simp, x, c!"] [" ++ x' ++ c!"])", by simp,
        (ip_iff clear_open clear_close).2 hx, _, rfl, ' ', _, rfl, by decide, _, rfl, x', _, rfl, (ip_iff clear_open clear_close).2 hx', rfl⟩

theorem helo8_field {h v : Str} (hb : Blanks h) : field heloRe8 0 h = some v ↔ Bare h v := by
  unfold heloRe8
  simp only [seqs]
  rw [opened_field (E := fun a => ∃ s x y, Perhaps c!" " s ∧ Address x ∧ a = c!" [" ++ s ++ x ++ c!"]" ++ y) ?_ ?_ ?_ hb]
  · constructor
    · rintro ⟨w, _, hw, rfl, ⟨s, x, y, hs, hx, rfl⟩, hu⟩
      exact ⟨w, s, x, y, hw, hs, hx, by simp, hu⟩
    · rintro ⟨w, s, x, y, hw, hs, hx, rfl, hu⟩
      exact ⟨w, c!" [" ++ s ++ x ++ c!"]" ++ y, hw, by simp, ⟨s, x, y, hs, hx, rfl⟩, hu⟩
  · exact avoid_noGroup ⟨trivial, NoGroup.lit _, ⟨trivial, trivial⟩, noGroup_ip, NoGroup.lit _⟩
  · rintro _ ⟨s, x, y, _, _, rfl⟩
    exact ⟨_, by simp only [List.append_assoc]; rfl⟩
  · intro b a ha
    simp only [reads_spSeq, reads_optSp, reads_litSeq, reads_ipSeq, Reads.lit]
    constructor
    · rintro ⟨_, y, rfl, c, _, rfl, hc, _, rfl, s, _, rfl, hs, x, _, rfl, hx, rfl⟩
      have := sp_blank ha hc
      subst this
      have hs := (maySp_iff (fun c hc => ha c (by simp [hc]))).1 hs
      refine ⟨s, x, y, hs, ?_, by simp⟩
      rcases hs with rfl | rfl
      · exact (ip_iff clear_open clear_close).1 hx
      · exact (ip_iff clear_sp clear_close).1 hx
    · rintro ⟨s, x, y, hs, hx, rfl⟩
      refine ⟨c!" [" ++ s ++ x ++ c!"]", y, rfl, ' ', c!"[" ++ s ++ x ++ c!"]", rfl, by decide, s ++ x ++ c!"]", by simp, s, x ++ c!"]", by simp,
        (maySp_iff (fun c hc => ha c (by simp [hc]))).2 hs, x, _, rfl, ?_, rfl⟩
      rcases hs with rfl | rfl
      · exact (ip_iff clear_open clear_close).2 hx
      · exact (ip_iff clear_sp clear_close).2 hx

theorem helo9_field {h v : Str} (hb : Blanks h) : field heloRe9 0 h = some v ↔ Followed h v := by
  unfold heloRe9
  simp only [seqs]
  rw [opened_field (E := fun a => ∃ o s x s' w y, Perhaps c!"(" o ∧ Perhaps c!" " s ∧ Address x ∧ Perhaps c!" " s' ∧ Skip.Word w ∧
    a = c!" " ++ o ++ s ++ c!"[" ++ x ++ c!"]" ++ s' ++ w ++ c!")" ++ y) ?_ ?_ ?_ hb]
  · constructor
    · rintro ⟨w, _, hw, rfl, ⟨o, s, x, s', w', y, ho, hs, hx, hs', hw', rfl⟩, hu⟩
      exact ⟨w, o, s, x, s', w', y, hw, ho, hs, hx, hs', hw', by simp, hu⟩
    · rintro ⟨w, o, s, x, s', w', y, hw, ho, hs, hx, hs', hw', rfl, hu⟩
      exact ⟨w, c!" " ++ o ++ s ++ c!"[" ++ x ++ c!"]" ++ s' ++ w' ++ c!")" ++ y, hw, by simp, ⟨o, s, x, s', w', y, ho, hs, hx, hs', hw', rfl⟩, hu⟩
  · exact ⟨trivial, ⟨⟨trivial, trivial⟩, trivial⟩, ⟨trivial, trivial⟩, ⟨trivial, trivial⟩, avoid_noGroup noGroup_ip, ⟨trivial, trivial⟩,
      ⟨trivial, trivial⟩, ⟨by decide, trivial, trivial⟩, ⟨trivial, trivial⟩⟩
  · rintro _ ⟨o, s, x, s', w, y, _, _, _, _, _, rfl⟩
    exact ⟨_, by simp only [List.append_assoc]; rfl⟩
  · intro b a ha
    simp only [reads_spSeq, reads_optLit, reads_optSp, reads_litSeq, reads_ipSeq, reads_groupSeq, Reads.lit]
    constructor
    · rintro ⟨_, y, rfl, c, _, rfl, hc, o, _, rfl, ho, s, _, rfl, hs, _, rfl, x, _, rfl, hx, _, rfl, s', _, rfl, hs', w, _, rfl, hw, rfl⟩
      have := sp_blank ha hc
      subst this
      exact ⟨o, s, x, s', w, y, ho, (maySp_iff (fun c hc => ha c (by simp [hc]))).1 hs, (ip_iff clear_open clear_close).1 hx,
        (maySp_iff (fun c hc => ha c (by simp [hc]))).1 hs', hw, by simp⟩
    · rintro ⟨o, s, x, s', w, y, ho, hs, hx, hs', hw, rfl⟩
      exact ⟨_, y, rfl, ' ', o ++ (s ++ (c!"[" ++ (x ++ (c!"]" ++ (s' ++ (w ++ c!")")))))), by simp, by decide, o, _, rfl, ho, s, _, rfl,
        (maySp_iff (fun c hc => ha c (by simp [hc]))).2 hs, _, rfl, x, _, rfl, (ip_iff clear_open clear_close).2 hx, _, rfl, s', _, rfl,
        (maySp_iff (fun c hc => ha c (by simp [hc]))).2 hs', w, _, rfl, hw, rfl⟩

theorem helo7_field {h v : Str} (hb : Blanks h) : field heloRe7 0 h = some v ↔ BeforeHost h v := by
  unfold heloRe7
  simp only [seqs]
  rw [first_field (E := fun a => ∃ w s x mid y, Skip.Word w ∧ Perhaps c!" " s ∧ Address x ∧
    a = c!" (" ++ w ++ s ++ c!"[" ++ x ++ c!"]" ++ mid ++ c!")" ++ y) ?_ ?_ ?_ hb]
  · constructor
    · rintro ⟨hv, _, rfl, w, s, x, mid, y, hw, hs, hx, rfl⟩
      exact ⟨w, s, x, mid, y, hv, hw, hs, hx, by simp⟩
    · rintro ⟨w, s, x, mid, y, hv, hw, hs, hx, rfl⟩
      exact ⟨hv, c!" (" ++ w ++ s ++ c!"[" ++ x ++ c!"]" ++ mid ++ c!")" ++ y, by simp, w, s, x, mid, y, hw, hs, hx, rfl⟩
  · exact ⟨trivial, ⟨trivial, trivial⟩, ⟨by decide, trivial, trivial⟩, ⟨trivial, trivial⟩, ⟨trivial, trivial⟩, avoid_noGroup noGroup_ip, ⟨trivial, trivial⟩,
      trivial, ⟨trivial, trivial⟩⟩
  · rintro _ ⟨w, s, x, mid, y, _, _, _, rfl⟩
    exact ⟨_, by simp only [List.append_assoc]; rfl⟩
  · intro b a ha
    simp only [dots, reads_spSeq, reads_optSp, reads_litSeq, reads_ipSeq, reads_groupSeq, reads_dotsSeq, Reads.lit]
    constructor
    · rintro ⟨_, y, rfl, c, _, rfl, hc, _, rfl, w, _, rfl, hw, s, _, rfl, hs, _, rfl, x, _, rfl, hx, _, rfl, mid, _, rfl, hm, rfl⟩
      have := sp_blank ha hc
      subst this
      exact ⟨w, s, x, mid, y, hw, (maySp_iff (fun c hc => ha c (by simp [hc]))).1 hs, (ip_iff clear_open clear_close).1 hx, by simp⟩
    · rintro ⟨w, s, x, mid, y, hw, hs, hx, rfl⟩
      exact ⟨_, y, rfl, ' ', c!"(" ++ (w ++ (s ++ (c!"[" ++ (x ++ (c!"]" ++ (mid ++ c!")")))))), by simp, by decide, _, rfl, w, _, rfl, hw, s, _, rfl,
        (maySp_iff (fun c hc => ha c (by simp [hc]))).2 hs, _, rfl, x, _, rfl, (ip_iff clear_open clear_close).2 hx, _, rfl, mid, _, rfl,
        blanks_dot (fun c hc => ha c (by simp [hc])), rfl⟩

/-! ### The shapes with the name somewhere in the line -/

theorem leftmost_congr {P Q : Str → Str → Prop} (h : ∀ x v, P x v ↔ Q x v) (v : Str) : Leftmost P v ↔ Leftmost Q v := by
  have : P = Q := funext fun x => funext fun v => propext (h x v)
  rw [this]

theorem rightmost_congr {P Q : Str → Str → Prop} (h : ∀ x v, P x v ↔ Q x v) (v : Str) : Rightmost P v ↔ Rightmost Q v := by
  have : P = Q := funext fun x => funext fun v => propext (h x v)
  rw [this]

theorem lit_begins {s : Str} {b a : Str} : (∃ u y, a = u ++ y ∧ Reads (lit s) b u y) ↔ ∃ y, a = s ++ y := by
  constructor
  · rintro ⟨u, y, rfl, hu⟩; exact ⟨y, by rw [Reads.lit.1 hu]⟩
  · rintro ⟨y, rfl⟩; exact ⟨s, y, rfl, Reads.lit.2 rfl⟩

theorem reads_greeting {b u v : Str} : Reads (.alt (ilit c!"HELO") (ilit c!"EHLO")) b u v ↔ Greeting u := by
  rw [Reads.alt, Reads.ilit, Reads.ilit]
  exact Iff.rfl

theorem greeting_length {k : Str} (h : Greeting k) : k.length = 4 := by
  rcases h with h | h <;> simpa using congrArg List.length h

theorem helo_field {h v : Str} (hb : Blanks h) : field heloRe 0 h = some v ↔ Greeted h v := by
  unfold heloRe
  simp only [seqs]
  have f1 : Finds 0 (.seq (.group 0 (.star true nonSpace)) (lit c!")")) (fun a v => (∀ c ∈ v, isSpace c = false) ∧ ∃ a', a = v ++ a' ∧ ∃ y, a' = c!")" ++ y) := by
    refine finds_run (p := nonSpace) (E := fun _ a => ∃ y, a = c!")" ++ y) ?_ ?_ ?_ ?_ ⟨trivial, trivial⟩
    · intro b a g k t
      rw [starG_some]
      simp only [nonSpace, Bool.not_eq_true']
    · intro v hv c hc; simp [nonSpace, hv c hc]
    · intro b v a; rw [Reads.star]; simp [nonSpace]
    · intro b v a _ _; exact lit_begins
  have f2 := (f1.lit c!" ").step (X := .alt (ilit c!"HELO") (ilit c!"EHLO")) (D := Greeting) ⟨NoGroup.ilit _, NoGroup.ilit _⟩
    (fun b u v _ => reads_greeting) (same_length_prefix (k := 4) (fun u => greeting_length))
  have f3 := f2.lit c!"("
  rw [lazy_field f3 hb]
  apply leftmost_congr
  intro pre v
  constructor
  · rintro ⟨_, rfl, _, rfl, k, _, rfl, hk, _, rfl, hv, _, rfl, y, rfl⟩
    exact ⟨k, y, hk, hv, by simp⟩
  · rintro ⟨k, y, hk, hv, rfl⟩
    exact ⟨_, by simp only [List.append_assoc], _, rfl, k, _, rfl, hk, _, rfl, hv, _, rfl, y, rfl⟩

theorem helo3_field {h v : Str} (hb : Blanks h) : field heloRe3 0 h = some v ↔
    Leftmost (fun pre v => ∃ k rest, Reading c!"helo=" k ∧ Skip.Word v ∧ h = pre ++ k ++ v ++ c!")" ++ rest) v := by
  unfold heloRe3
  simp only [seqs]
  have f1 : Finds 0 (.seq (word 0) (lit c!")")) (fun a v => Skip.Word v ∧ ∃ a', a = v ++ a' ∧ ∃ y, a' = c!")" ++ y) :=
    finds_word (E := fun _ a => ∃ y, a = c!")" ++ y) (fun b v a _ _ => lit_begins) ⟨trivial, trivial⟩
  have f2 := f1.step (X := ilit c!"helo=") (D := Reading c!"helo=") (NoGroup.ilit _) (fun b u v _ => Reads.ilit)
    (same_length_prefix (k := 5) (fun u hu => by simpa using congrArg List.length hu))
  rw [lazy_field f2 hb]
  apply leftmost_congr
  intro pre v
  constructor
  · rintro ⟨_, rfl, k, _, rfl, hk, hv, _, rfl, y, rfl⟩
    exact ⟨k, y, hk, hv, by simp⟩
  · rintro ⟨k, y, hk, hv, rfl⟩
    exact ⟨_, by simp only [List.append_assoc], k, _, rfl, hk, hv, _, rfl, y, rfl⟩

theorem helo2_field {h v : Str} (hb : Blanks h) : field heloRe2 0 h = some v ↔
    Leftmost (fun pre v => ∃ a rest, Skip.Word v ∧ Address a ∧ h = pre ++ c!"(" ++ v ++ c!" [" ++ a ++ c!"])" ++ rest) v := by
  unfold heloRe2
  simp only [seqs]
  have f1 : Finds 0 (.seq (word 0) (.seq sp (.seq (lit c!"[") (.seq ip (lit c!"])")))))
      (fun a v => Skip.Word v ∧ ∃ a', a = v ++ a' ∧ ∃ x y, Address x ∧ a' = c!" [" ++ x ++ c!"])" ++ y) := by
    refine finds_word (E := fun _ a' => ∃ x y, Address x ∧ a' = c!" [" ++ x ++ c!"])" ++ y) ?_
      (avoid_noGroup ⟨trivial, NoGroup.lit _, noGroup_ip, NoGroup.lit _⟩)
    intro b v a _ ha
    simp only [reads_spSeq, reads_litSeq, reads_ipSeq, Reads.lit]
    constructor
    · rintro ⟨_, y, rfl, c, _, rfl, hc, _, rfl, x, _, rfl, hx, rfl⟩
      have := sp_blank (blanks_append.1 ha).2 hc
      subst this
      exact ⟨x, y, (ip_iff clear_open clear_close).1 hx, by simp⟩
    · rintro ⟨x, y, hx, rfl⟩
      exact ⟨_, y, rfl, ' ', c!"[" ++ (x ++ c!"])"), by simp, by decide, _, rfl, x, _, rfl, (ip_iff clear_open clear_close).2 hx, rfl⟩
  rw [lazy_field (f1.lit c!"(") hb]
  apply leftmost_congr
  intro pre v
  constructor
  · rintro ⟨_, rfl, _, rfl, hv, _, rfl, x, y, hx, rfl⟩
    exact ⟨x, y, hv, hx, by simp⟩
  · rintro ⟨x, y, hv, hx, rfl⟩
    exact ⟨c!"(" ++ (v ++ (c!" [" ++ x ++ c!"])" ++ y)), by simp, _, rfl, hv, _, rfl, x, y, hx, rfl⟩

theorem helo10_field {h v : Str} (hb : Blanks h) : field heloRe10 1 h = some v ↔
    Rightmost (fun pre v => ∃ k rest, '(' ∈ pre ∧ Greeting k ∧ Skip.Word v ∧ h = pre ++ c!" " ++ k ++ c!" " ++ v ++ c!")" ++ rest) v := by
  unfold heloRe10
  simp only [seqs]
  have f1 : Finds 1 (.seq (word 1) (lit c!")")) (fun a v => Skip.Word v ∧ ∃ a', a = v ++ a' ∧ ∃ y, a' = c!")" ++ y) :=
    finds_word (E := fun _ a => ∃ y, a = c!")" ++ y) (fun b v a _ _ => lit_begins) ⟨trivial, trivial⟩
  have f2 := ((f1.lit c!" ").groupStep (k := 0) (X := .alt (ilit c!"HELO") (ilit c!"EHLO")) (D := Greeting) ⟨NoGroup.ilit _, NoGroup.ilit _⟩
    (fun b u v _ => reads_greeting) (same_length_prefix (k := 4) (fun u => greeting_length))).lit c!" "
  generalize hR : (Re.seq (lit c!" ") (Re.seq (Re.group 0 ((ilit c!"HELO").alt (ilit c!"EHLO"))) (Re.seq (lit c!" ") (Re.seq (word 1) (lit c!")"))))) = R2 at f2 ⊢
  have f3 : Finds 1 R2 (fun a v => ∃ k y, Greeting k ∧ Skip.Word v ∧ a = c!" " ++ k ++ c!" " ++ v ++ c!")" ++ y) := by
    refine f2.congr fun a v => ?_
    constructor
    · rintro ⟨_, rfl, k, _, rfl, hk, _, rfl, hv, _, rfl, y, rfl⟩
      exact ⟨k, y, hk, hv, by simp⟩
    · rintro ⟨k, y, hk, hv, rfl⟩
      exact ⟨_, by simp only [List.append_assoc], k, _, rfl, hk, _, rfl, hv, _, rfl, y, rfl⟩
  have sound : ∀ {t}, matchRe (.seq dots (.seq (lit c!"(") (.seq dots R2))) h = some t → ∃ v, t.get 1 = some v ∧
      Rightmost (fun pre v => ∃ k rest, '(' ∈ pre ∧ Greeting k ∧ Skip.Word v ∧ h = pre ++ c!" " ++ k ++ c!" " ++ v ++ c!")" ++ rest) v := by
    intro t ht
    unfold matchRe at ht
    rw [m_seq, dots, m] at ht
    obtain ⟨pre, a, e, _, hk, _⟩ := (star_greedy_some _ _ _ _ _ _).1 ht
    simp only at e
    rw [m_seq, m_lit_some] at hk
    obtain ⟨a1, rfl, hk⟩ := hk
    rw [m_seq, m] at hk
    obtain ⟨mid, a2, e2, _, hk, hl⟩ := (star_greedy_some _ _ _ _ _ _).1 hk
    simp only at e2
    subst e2
    subst e
    have hb2 := (blanks_append.1 (blanks_append.1 (blanks_append.1 hb).2).2).2
    obtain ⟨v, hv, ⟨k, y, hg, hw, e3⟩, hlen⟩ := f3.sound hb2 hk
    refine ⟨v, hv, pre ++ c!"(" ++ mid, ⟨k, y, by simp, hg, hw, by rw [e3]; simp⟩, ?_⟩
    rintro pre' v' ⟨k', y', hp', hg', hw', e4⟩
    by_cases hlt : pre'.length < (pre ++ c!"(" ++ mid).length
    · exact .inl hlt
    right
    have e5 : (pre ++ c!"(" ++ mid) ++ a2 = pre' ++ (c!" " ++ k' ++ c!" " ++ v' ++ c!")" ++ y') := by
      rw [← List.append_assoc] at e4 ⊢
      simpa using e4
    obtain ⟨z, rfl⟩ : (pre ++ c!"(" ++ mid) <+: pre' :=
      List.prefix_of_prefix_length_le (List.prefix_append _ a2) (by rw [e5]; exact List.prefix_append _ _) (by omega)
    rw [List.append_assoc _ z] at e5
    have e6 := List.append_cancel_left e5
    by_cases hz : z = []
    · subst hz
      refine ⟨by simp, hlen v' ⟨k', y', hg', hw', by simpa using e6⟩⟩
    · exfalso
      rw [e6, blanks_append] at hb2
      have hn := hl z _ e6 hz (blanks_dot hb2.1)
      have := f3.complete (b := z.reverse ++ (mid.reverse ++ ((c!"(").reverse ++ (pre.reverse ++ [])))) (g := []) hb2.2 ⟨k', y', hg', hw', rfl⟩
      rw [hn] at this
      simp at this
  rw [field_some]
  constructor
  · rintro ⟨t, ht, hv⟩
    obtain ⟨v', hv', hL⟩ := sound ht
    rw [hv] at hv'
    simp at hv'
    rw [hv']
    exact hL
  · rintro ⟨pre, ⟨k, y, hp, hg, hw, e⟩, hmax⟩
    obtain ⟨x, mid, e'⟩ := List.append_of_mem hp
    have hq : ∃ a, h = x ++ (c!"(" ++ (mid ++ a)) ∧ a = c!" " ++ k ++ c!" " ++ v ++ c!")" ++ y := ⟨_, by rw [e, e']; simp, rfl⟩
    obtain ⟨a, e1, e2⟩ := hq
    have hb' := hb
    rw [e1, blanks_append, blanks_append, blanks_append] at hb'
    have hc := f3.complete (b := mid.reverse ++ ((c!"(").reverse ++ (x.reverse ++ []))) (g := []) hb'.2.2.2 ⟨k, y, hg, hw, e2⟩
    obtain ⟨u, z, e3, hr⟩ := (m_isSome _ _).1 hc
    simp only at e3 hr
    have hs' : (matchRe (.seq dots (.seq (lit c!"(") (.seq dots R2))) h).isSome = true := by
      rw [matchRe_isSome]
      exact ⟨x ++ (c!"(" ++ (mid ++ u)), z, by rw [e1, e3]; simp, x, _, rfl, blanks_dot hb'.1, c!"(", _, rfl, Reads.lit.2 rfl, mid, u, rfl,
        blanks_dot hb'.2.2.1, hr⟩
    cases ht : matchRe (.seq dots (.seq (lit c!"(") (.seq dots R2))) h with
    | none => rw [ht] at hs'; simp at hs'
    | some t =>
      refine ⟨t, rfl, ?_⟩
      obtain ⟨v', hv', pre', ⟨k', y', hp', hg', hw', e4⟩, hmax'⟩ := sound ht
      rw [hv']
      have h1 := hmax pre' v' ⟨k', y', hp', hg', hw', e4⟩
      have h2 := hmax' pre v ⟨k, y, hp, hg, hw, e⟩
      have hl : pre.length = pre'.length := by omega
      have hll : v.length = v'.length := by omega
      rw [e] at e4
      simp only [List.append_assoc] at e4
      obtain ⟨_, e5⟩ := List.append_inj e4 hl
      have e6 := List.append_cancel_left e5
      obtain ⟨_, e7⟩ := List.append_inj e6 (by rw [greeting_length hg, greeting_length hg'])
      have e8 := List.append_cancel_left e7
      rw [(List.append_inj e8 hll).1]

/-! ### With a port -/

theorem clear_dot {x : Str} : Clear ('.' :: x) := ⟨rfl, rfl⟩

/-- An address that is followed by a colon. -/
theorem ip_colon {b w x : Str} (hb : Clear b) : Reads ip b w (':' :: x) ↔ Quad w := by
  show Reads ipv4 b w (':' :: x) ∨ Reads (seqs [.alt (lit c!"IPv6:") (.nbehind hexColon), ipv6, .nahead hexColon]) b w (':' :: x) ↔ _
  rw [ipv4_iff hb rfl, reads_v6]
  constructor
  · rintro (h | ⟨_, _, _, _, _, h⟩)
    · exact h
    · exact absurd (show true = false from h) (by decide)
  · exact .inl

theorem plus_digit {b w a : Str} : Reads (plus digit) b w a ↔ w ≠ [] ∧ ∀ c ∈ w, c.isDigit = true := by
  rw [Reads.plus]
  exact Iff.rfl

/-- The address and the port. -/
theorem reads_ported {b : Str} (hb : Clear b) {x p y : Str} :
    (Reads ip b x (p ++ (']' :: y)) ∧ ∀ b', Reads (opt (.seq (.chr (fun c => c == '.' || c == ':')) (plus digit))) b' p (']' :: y)) ↔ Address x ∧ Port x p := by
  constructor
  · rintro ⟨hx, hp⟩
    rcases hp [] with ⟨_, d, rfl, ⟨c, rfl, hc⟩, hd⟩ | rfl
    · obtain ⟨h0, hd'⟩ := plus_digit.1 hd
      have hc' : c = '.' ∨ c = ':' := by simpa using hc
      rcases hc' with rfl | rfl
      · exact ⟨(ip_iff hb clear_dot).1 hx, .dot _ h0 hd'⟩
      · have := (ip_colon hb).1 hx
        exact ⟨.v4 this, .colon this h0 hd'⟩
    · exact ⟨(ip_iff hb clear_close).1 hx, .none _⟩
  · rintro ⟨hx, hp⟩
    cases hp with
    | none => exact ⟨(ip_iff hb clear_close).2 hx, fun _ => .inr rfl⟩
    | dot h0 hd => exact ⟨(ip_iff hb clear_dot).2 hx, fun _ => .inl ⟨['.'], _, rfl, ⟨'.', rfl, rfl⟩, plus_digit.2 ⟨h0, hd⟩⟩⟩
    | colon hq h0 hd => exact ⟨(ip_colon hb).2 hq, fun _ => .inl ⟨[':'], _, rfl, ⟨':', rfl, rfl⟩, plus_digit.2 ⟨h0, hd⟩⟩⟩

theorem port_any {b b' p y : Str} (h : Reads (opt (.seq (.chr (fun c => c == '.' || c == ':')) (plus digit))) b p y) :
    Reads (opt (.seq (.chr (fun c => c == '.' || c == ':')) (plus digit))) b' p y := by
  rcases h with ⟨_, d, rfl, ⟨c, rfl, hc⟩, hd⟩ | rfl
  · exact .inl ⟨[c], d, rfl, ⟨c, rfl, hc⟩, plus_digit.2 (plus_digit.1 hd)⟩
  · exact .inr rfl

theorem rdns4_field {h v : Str} (hb : Blanks h) : field rdnsRe4 1 h = some v ↔ WithPort h v := by
  have sound : ∀ {t}, matchRe rdnsRe4 h = some t → ∃ v, t.get 1 = some v ∧ WithPort h v := by
    intro t ht
    obtain ⟨w, gs, e, hg, hgs⟩ := m_gets ht
    unfold rdnsRe4 at hg
    simp only [seqs] at hg
    rw [gets_bolSeq] at hg
    obtain ⟨_, _, _, _, gv, rfl, ⟨g, hg, rfl⟩, hr, rfl⟩ := hg
    unfold word at hg
    rw [gets_groupSeq (show NoGroup (plus nonSpace) from ⟨trivial, trivial⟩)] at hg
    obtain ⟨v, _, _, rfl, hv, hg, rfl⟩ := hg
    obtain ⟨hx0, rfl⟩ := (gets_noGroup (show NoGroup (.seq sp (.seq (lit c!"([") ip)) from ⟨trivial, NoGroup.lit _, noGroup_ip⟩)).1 hg
    rw [gets_seqN (show NoGroup (opt (.seq (.chr (fun c => c == '.' || c == ':')) (plus digit))) from ⟨⟨trivial, trivial, trivial⟩, trivial⟩)] at hr
    obtain ⟨p, _, rfl, hp, hr⟩ := hr
    rw [gets_seqN (NoGroup.lit _)] at hr
    obtain ⟨_, _, rfl, hl, hr⟩ := hr
    cases Reads.lit.1 hl
    rw [gets_seqN (show NoGroup dotsLazy from trivial)] at hr
    obtain ⟨mid, _, rfl, _, hr⟩ := hr
    rw [gets_seqN (show NoGroup sp from trivial)] at hr
    obtain ⟨_, _, rfl, ⟨c, rfl, hc⟩, hr⟩ := hr
    rw [gets_seqN (NoGroup.lit _)] at hr
    obtain ⟨_, _, rfl, hl, hr⟩ := hr
    cases Reads.lit.1 hl
    rw [gets_seqN (show NoGroup sp from trivial)] at hr
    obtain ⟨_, s, rfl, ⟨c', rfl, hc'⟩, g2, hs, rfl⟩ := hr
    obtain ⟨hs', rfl⟩ := (gets_noGroup (show NoGroup (plus nonSpace) from ⟨trivial, trivial⟩)).1 hs
    simp only [reads_spSeq, reads_litSeq] at hx0
    obtain ⟨c1, _, rfl, hc1, x, rfl, hx⟩ := hx0
    rw [e] at hb
    have hc : c = ' ' := hb c (by simp) hc
    have hc' : c' = ' ' := hb c' (by simp) hc'
    have hc1 : c1 = ' ' := hb c1 (by simp) hc1
    subst hc hc' hc1
    obtain ⟨hx, hpt⟩ := (reads_ported clear_open).1 ⟨by simpa using hx, fun b' => port_any (by simpa using hp)⟩
    refine ⟨v, ?_, x, p, mid, s, t.after, reads_words.1 hv, hx, hpt, ?_, ?_⟩
    · rw [St.get, hgs]
      rfl
    · exact reads_words.1 hs'
    · rw [e]; simp
  rw [field_some]
  constructor
  · rintro ⟨t, ht, hv⟩
    obtain ⟨v', hv', hL⟩ := sound ht
    rw [hv] at hv'
    simp at hv'
    rw [hv']
    exact hL
  · rintro ⟨x, p, mid, s, y, hv, hx, hp, hs, e⟩
    have hs' : (matchRe rdnsRe4 h).isSome = true := by
      rw [matchRe_isSome]
      obtain ⟨hx', hp'⟩ := (reads_ported (b := c!"[( " ++ v.reverse) (y := c!")" ++ (mid ++ (c!" by " ++ (s ++ y)))) clear_open).2 ⟨hx, hp⟩
      refine ⟨(v ++ (c!" ([" ++ x)) ++ (p ++ (c!"])" ++ (mid ++ ([' '] ++ (c!"by" ++ ([' '] ++ s)))))), y, by rw [e]; simp, ?_⟩
      unfold rdnsRe4
      simp only [seqs]
      refine ⟨[], _, rfl, ⟨rfl, rfl⟩, _, _, rfl, ⟨v, _, rfl, ?_, [' '], _, rfl, ⟨' ', rfl, by decide⟩, c!"([", x, rfl, Reads.lit.2 rfl, ?_⟩, p, _, rfl, ?_,
        _, _, rfl, Reads.lit.2 rfl, mid, _, rfl, ?_, [' '], _, rfl, ⟨' ', rfl, by decide⟩, _, _, rfl, Reads.lit.2 rfl, [' '], s, rfl, ⟨' ', rfl, by decide⟩, ?_⟩
      · exact reads_words.2 hv
      · simpa using hx'
      · simpa using hp' _
      · exact blanks_dot (fun c hc => hb c (by rw [e]; simp [hc]))
      · exact reads_words.2 hs
    cases ht : matchRe rdnsRe4 h with
    | none => rw [ht] at hs'; simp at hs'
    | some t =>
      refine ⟨t, rfl, ?_⟩
      obtain ⟨v', hv', x', p', mid', s', y', hw', _, _, _, e'⟩ := sound ht
      rw [hv']
      have := (word_unique (a := c!" ([" ++ x ++ p ++ c!"])" ++ mid ++ c!" by " ++ s ++ y) (a' := c!" ([" ++ x' ++ p' ++ c!"])" ++ mid' ++ c!" by " ++ s' ++ y')
        hv hw' ⟨_, rfl⟩ ⟨_, rfl⟩ (by rw [e] at e'; simpa using e')).1
      rw [this]

end Verif.ReceivedRe
