import Verif.Lemmas.Parser
import Verif.Spec.IncludeTrace

namespace Verif.Parser
open Verif Py Spec.Trace

variable {C : Type}

abbrev IncT (C : Type) := Str → State C → State C × Option Raised

/-- The result without the list. -/
def forget (r : State C × Option Raised) : State C × Option Err := (r.1, r.2.map Prod.fst)

theorem forget_unlisted (r : State C × Option Err) : forget (unlisted r) = r := by
  obtain ⟨s, e⟩ := r
  cases e <;> rfl

/-- Add a call to the list of a recursion error. -/
def addCall (c : Call) : State C × Option Raised → State C × Option Raised
  | (s', some (.maxRec, calls)) => (s', some (.maxRec, calls ++ [c]))
  | r => r

theorem forget_addCall (c : Call) (r : State C × Option Raised) : forget (addCall c r) = forget r := by
  obtain ⟨s, e⟩ := r
  cases e with
  | none => rfl
  | some e => obtain ⟨e, cs⟩ := e; cases e <;> rfl

theorem hlT_include (E : Env C) (inc : IncT C) (f raw g : Str) (no : Nat) (s : State C) (h : includeTarget f raw = some g) :
    handleLineT E inc f raw no s = if s.ignore = true then (s, none) else addCall ⟨g, no, logical raw⟩ (inc g s) := by
  obtain ⟨h1, h2, h3, rfl⟩ := includeTarget_some h
  unfold Closer at h2
  unfold Skipped at h1
  simp only [not_or] at h1 h2
  unfold handleLineT
  simp only
  rw [if_neg (fun hh => h2.1 ((startsWith_iff _ _).1 hh)), if_neg (fun hh => h2.2 ((startsWith_iff _ _).1 hh)),
    if_neg (fun hh => h1.2.2 ((startsWith_iff _ _).1 hh))]
  by_cases hi : s.ignore = true
  · rw [if_pos (Or.inr (Or.inr hi)), if_pos hi]
  · rw [if_neg (fun hh => hh.elim h1.1 (fun hh => hh.elim (fun hh => h1.2.1 ((startsWith_iff _ _).1 hh)) hi)), if_neg hi,
      if_pos (show (splitHead (strip (cutComment none (strip raw)))).1 = c!"include" from h3)]
    rfl

theorem hlT_other (E : Env C) (inc : IncT C) (inc' : Inc C) (f raw : Str) (no : Nat) (s : State C) (h : includeTarget f raw = none) :
    handleLineT E inc f raw no s = unlisted (handleLine E inc' f raw s) := by
  unfold includeTarget at h
  unfold handleLineT handleLine
  simp only
  by_cases a1 : startsWith c!"endif" (strip raw) = true
  · rw [if_pos a1, if_pos a1]; rfl
  rw [if_neg a1, if_neg a1]
  by_cases a2 : startsWith c!"else" (strip raw) = true
  · rw [if_pos a2, if_pos a2]; rfl
  rw [if_neg a2, if_neg a2]
  by_cases a3 : startsWith c!"require_version" (strip raw) = true
  · rw [if_pos a3, if_pos a3]; rfl
  rw [if_neg a3, if_neg a3]
  by_cases a4 : strip raw = [] ∨ startsWith c!"#" (strip raw) = true ∨ s.ignore = true
  · rw [if_pos a4, if_pos a4]; rfl
  rw [if_neg a4, if_neg a4]
  have hk : (splitHead (strip (cutComment none (strip raw)))).1 ≠ c!"include" := by
    intro hk
    rw [if_pos] at h
    · cases h
    refine ⟨?_, ?_, hk⟩
    · rintro (x | x | x)
      · exact a4 (Or.inl x)
      · exact a4 (Or.inr (Or.inl ((startsWith_iff _ _).2 x)))
      · exact a3 ((startsWith_iff _ _).2 x)
    · rintro (x | x)
      · exact a1 ((startsWith_iff _ _).2 x)
      · exact a2 ((startsWith_iff _ _).2 x)
  rw [if_neg hk, if_neg hk]
  split
  · rfl
  split
  · rfl
  split <;> rfl

theorem forget_hlT (E : Env C) (inc : IncT C) (f raw : Str) (no : Nat) (s : State C) :
    forget (handleLineT E inc f raw no s) = handleLine E (fun g s => forget (inc g s)) f raw s := by
  cases h : includeTarget f raw with
  | none => rw [hlT_other E inc _ f raw no s h, forget_unlisted]
  | some g =>
    rw [hlT_include E inc f raw g no s h, hl_include E _ f raw g s h]
    split
    · rfl
    · exact forget_addCall _ _

theorem forget_lines (E : Env C) (inc : IncT C) (f : Str) : ∀ (ls : List Str) (no : Nat) (s : State C),
    forget (parseLinesT E inc f ls no s) = parseLines E (fun g s => forget (inc g s)) f ls s
  | [], _, _ => rfl
  | l :: ls, no, s => by
    have h := forget_hlT E inc f l no s
    unfold parseLinesT parseLines
    rw [← h]
    obtain ⟨s', e⟩ := handleLineT E inc f l no s
    cases e with
    | none => exact forget_lines E inc f ls (no + 1) s'
    | some r =>
      obtain ⟨e, cs⟩ := r
      cases e with
      | «syntax» =>
        simp only [forget, Option.map]
        split
        · rfl
        · exact forget_lines E inc f ls (no + 1) s'
      | pluginLoad => exact forget_lines E inc f ls (no + 1) s'
      | _ => rfl

theorem forget_file (E : Env C) : ∀ (n : Nat) (f : Str) (s : State C), forget (parseFileT E n f s) = parseFile E n f s
  | 0, _, _ => rfl
  | n + 1, f, s => by
    unfold parseFileT parseFile
    cases E.files f with
    | none => rfl
    | some ls =>
      have : (fun g s => forget (parseFileT E n g s)) = parseFile E n := by
        funext g s; exact forget_file E n g s
      simp only
      rw [forget_lines, this]

/-! ## No other line raises the error -/

theorem config_quiet (E : Env C) (hq : Quiet E) (k v : Str) (s : State C) : (handleConfig E k v s).2 ≠ some .maxRec := by
  have h := hq.config s.ctx k v
  unfold handleConfig
  generalize E.parseConfig s.ctx k v = p at h ⊢
  obtain ⟨c, r⟩ := p
  cases r with
  | done b => exact fun hh => by cases hh
  | raised e => exact fun hh => h (by simpa using hh)

theorem store_quiet (E : Env C) (t n : Str) (v : PVal) (s : State C) : (store E t n v s).2 ≠ some .maxRec := by
  unfold store
  simp only
  split
  · cases v <;> simp
  · simp

theorem two_quiet (E : Env C) (hq : Quiet E) (line : Str) (s : State C) : (handleTwo E line s).2 ≠ some .maxRec := by
  unfold handleTwo
  split
  · split
    · split
      · simp
      · split
        · simp
        · split
          · split
            · exact config_quiet E hq _ _ s
            · simp
          · split
            · exact store_quiet E _ _ _ s
            · simp
    · split <;> exact store_quiet E _ _ _ s
  · simp

theorem load_quiet (E : Env C) (hq : Quiet E) (v : Str) (s : State C) : (handleLoadplugin E v s).2 ≠ some .maxRec := by
  unfold handleLoadplugin
  simp only
  split
  · simp
  · split
    · simp
    · exact hq.load _ _ _

theorem hl_quiet (E : Env C) (hq : Quiet E) (f raw : Str) (s : State C) (h : includeTarget f raw = none) :
    (handleLine E (fun _ s => (s, none)) f raw s).2 ≠ some .maxRec := by
  unfold handleLine
  simp only
  split
  · simp
  split
  · simp
  split
  · simp
  split
  · simp
  split
  · simp
  split
  · simp
  split
  · exact load_quiet E hq _ s
  split
  · exact two_quiet E hq _ s
  · exact config_quiet E hq _ _ s

/-- A recursion error in the lines of a file comes from an include of one of these lines. -/
theorem lines_maxRec (E : Env C) (hq : Quiet E) (inc : IncT C) (f : Str) (cs : List Call) :
    ∀ (ls : List Str) (no : Nat) (s : State C), (parseLinesT E inc f ls no s).2 = some (.maxRec, cs) →
      ∃ before raw after g s' cs', ls = before ++ raw :: after ∧ includeTarget f raw = some g ∧
        (inc g s').2 = some (.maxRec, cs') ∧ cs = cs' ++ [⟨g, no + before.length, logical raw⟩]
  | [], _, _, h => by simp [parseLinesT] at h
  | l :: ls, no, s, h => by
    have next : ∀ s', (parseLinesT E inc f ls (no + 1) s').2 = some (.maxRec, cs) →
        ∃ before raw after g s' cs', l :: ls = before ++ raw :: after ∧ includeTarget f raw = some g ∧
          (inc g s').2 = some (.maxRec, cs') ∧ cs = cs' ++ [⟨g, no + before.length, logical raw⟩] := by
      intro s' h'
      obtain ⟨b, raw, a, g, s₂, cs', e1, e2, e3, e4⟩ := lines_maxRec E hq inc f cs ls (no + 1) s' h'
      refine ⟨l :: b, raw, a, g, s₂, cs', by rw [e1]; rfl, e2, e3, ?_⟩
      rw [e4, List.length_cons, show no + 1 + b.length = no + (b.length + 1) by omega]
    have here : ∀ s', handleLineT E inc f l no s = (s', some (.maxRec, cs)) →
        ∃ before raw after g s' cs', l :: ls = before ++ raw :: after ∧ includeTarget f raw = some g ∧
          (inc g s').2 = some (.maxRec, cs') ∧ cs = cs' ++ [⟨g, no + before.length, logical raw⟩] := by
      intro s' h'
      cases ht : includeTarget f l with
      | none =>
        rw [hlT_other E inc (fun _ s => (s, none)) f l no s ht] at h'
        have h2 := congrArg Prod.snd h'
        have hne := hl_quiet E hq f l s ht
        simp only [unlisted] at h2
        cases he : (handleLine E (fun _ s => (s, none)) f l s).2 with
        | none => rw [he] at h2; cases h2
        | some e =>
          rw [he] at h2 hne
          simp only [Option.map, Option.some.injEq, Prod.mk.injEq] at h2
          exact absurd (congrArg some h2.1) hne
      | some g =>
        rw [hlT_include E inc f l g no s ht] at h'
        split at h'
        · cases h'
        · refine ⟨[], l, ls, g, s, ?_⟩
          generalize inc g s = r at h' ⊢
          obtain ⟨s₂, e⟩ := r
          cases e with
          | none => cases h'
          | some e =>
            obtain ⟨e, cs'⟩ := e
            cases e with
            | maxRec =>
              simp only [addCall, Prod.mk.injEq, Option.some.injEq, true_and] at h'
              exact ⟨cs', rfl, ht, rfl, h'.2.symm⟩
            | _ => simp [addCall] at h'
    unfold parseLinesT at h
    generalize hr : handleLineT E inc f l no s = r at h
    obtain ⟨s', e⟩ := r
    cases e with
    | none => exact next s' h
    | some r =>
      obtain ⟨e, cs₂⟩ := r
      cases e with
      | «syntax» =>
        simp only at h
        split at h
        · simp at h
        · exact next s' h
      | pluginLoad => exact next s' h
      | maxRec =>
        simp only [Option.some.injEq, Prod.mk.injEq, true_and] at h
        subst h
        exact here s' hr
      | _ => simp at h

theorem file_maxRec (E : Env C) (hq : Quiet E) : ∀ (n : Nat) (f : Str) (s : State C) (cs : List Call),
    (parseFileT E n f s).2 = some (.maxRec, cs) → cs.length = n ∧ Path E f cs.reverse
  | 0, f, s, cs, h => by
    simp only [parseFileT, Option.some.injEq, Prod.mk.injEq, true_and] at h
    subst h
    exact ⟨rfl, .nil f⟩
  | n + 1, f, s, cs, h => by
    unfold parseFileT at h
    cases hf : E.files f with
    | none => rw [hf] at h; cases h
    | some ls =>
      rw [hf] at h
      obtain ⟨b, raw, a, g, s', cs', e1, e2, e3, rfl⟩ := lines_maxRec E hq _ f cs ls 1 s h
      obtain ⟨hl, hp⟩ := file_maxRec E hq n g s' cs' e3
      refine ⟨by simp [hl], ?_⟩
      rw [List.reverse_append]
      exact .cons ⟨ls, b, a, hf, e1, Nat.add_comm _ _⟩ e2 hp

end Verif.Parser
