import Verif.Lemmas.IncludeTrace
import Verif.Spec.ParserLog

namespace Verif.Parser
open Verif Py Spec.Log

variable {C : Type}

abbrev IncL (C : Type) := Str → State C → Out C

/-- The result without complaints. -/
def Out.plain (o : Out C) : State C × Option Err := (o.2.1, o.2.2.map Prod.fst)

/-- The complaints, and the one that the exception stands for. -/
def Out.said (o : Out C) : List Complaint := o.1 ++ (o.2.2.map Prod.snd).getD []

theorem configL_plain (E : Env C) (c : Kind → Complaint) (k v : Str) (s : State C) : (configL E c k v s).plain = handleConfig E k v s := by
  unfold configL handleConfig
  generalize E.parseConfig s.ctx k v = r
  obtain ⟨x, r⟩ := r
  cases r with
  | done b => cases b <;> rfl
  | raised e => rfl

theorem storeL_plain (E : Env C) (c : Kind → Complaint) (t n : Str) (v : PVal) (s : State C) : (storeL E c t n v s).plain = store E t n v s := by
  unfold storeL Out.plain
  simp only [Option.map_map]
  generalize store E t n v s = r
  obtain ⟨x, e⟩ := r
  cases e <;> rfl

theorem twoL_plain (E : Env C) (c : Kind → Complaint) (line : Str) (s : State C) : (twoL E c line s).plain = handleTwo E line s := by
  unfold twoL handleTwo
  generalize splitNone 2 line = w
  match w with
  | [] => rfl
  | [_] => rfl
  | [_, _] => rfl
  | _ :: _ :: _ :: _ :: _ => rfl
  | [rtype, name, value] =>
    simp only
    by_cases h1 : rtype = c!"lang"
    · rw [if_pos h1, if_pos h1]
      cases E.lang with
      | none => rfl
      | some l =>
        simp only
        by_cases h2 : (!startsWith name l) = true
        · rw [if_pos h2, if_pos h2]; rfl
        · rw [if_neg h2, if_neg h2]
          by_cases h3 : hasSub c!"report" value = true
          · rw [if_pos h3, if_pos h3]
            generalize splitNone 1 value = w
            match w with
            | [] => rfl
            | [_] => rfl
            | [k, v] => exact configL_plain E c _ _ s
            | _ :: _ :: _ :: _ => rfl
          · rw [if_neg h3, if_neg h3]
            generalize splitNone 2 value = w
            match w with
            | [] => rfl
            | [_] => rfl
            | [_, _] => rfl
            | [t, n, v] => exact storeL_plain E c _ _ _ s
            | _ :: _ :: _ :: _ :: _ => rfl
    · rw [if_neg h1, if_neg h1]
      by_cases h2 : rtype = c!"tflags"
      · rw [if_pos h2, if_pos h2]; exact storeL_plain E c _ _ _ s
      · rw [if_neg h2, if_neg h2]; exact storeL_plain E c _ _ _ s

/-- The part of `_handle_line` after the checks. -/
def dispatchL (E : Env C) (inc : IncL C) (file raw : Str) (no : Nat) (s : State C) : Out C :=
  if keyword raw = c!"include" then inc (includePath file (argument raw)) s
  else if keyword raw = c!"ifplugin" then ([], handleIfplugin E (argument raw) s, none)
  else if keyword raw = c!"loadplugin" then
    ([], (handleLoadplugin E (argument raw) s).1, (handleLoadplugin E (argument raw) s).2.map fun e => (e, []))
  else if keyword raw ∈ known2 ∨ E.isCmd s.ctx (keyword raw) = true then twoL E (fun k => ⟨k, file, no, logical raw⟩) (logical raw) s
  else configL E (fun k => ⟨k, file, no, logical raw⟩) (keyword raw) (argument raw) s

theorem hlL_main (E : Env C) (inc : IncL C) (f raw : Str) (no : Nat) (s : State C) (h : Counts s raw) :
    handleLineL E inc f raw no s = dispatchL E inc f raw no s := by
  obtain ⟨hi, hs, hc⟩ := h
  unfold Closer at hc
  unfold Skipped at hs
  simp only [not_or] at hs hc
  unfold handleLineL
  simp only
  rw [if_neg (fun hh => hc.1 ((startsWith_iff _ _).1 hh)), if_neg (fun hh => hc.2 ((startsWith_iff _ _).1 hh)),
    if_neg (fun hh => hs.2.2 ((startsWith_iff _ _).1 hh)),
    if_neg (fun hh => hh.elim hs.1 (fun hh => hh.elim (fun hh => hs.2.1 ((startsWith_iff _ _).1 hh)) (by rw [hi]; simp)))]
  rfl

theorem hlL_quiet (E : Env C) (inc : IncL C) (f raw : Str) (no : Nat) (s : State C) (h : ¬ Counts s raw) :
    (handleLineL E inc f raw no s).said = [] ∧ (handleLineL E inc f raw no s).plain = handleLine E (fun g s => (inc g s).plain) f raw s := by
  unfold handleLineL handleLine
  simp only
  by_cases a1 : startsWith c!"endif" (strip raw) = true
  · rw [if_pos a1, if_pos a1]; exact ⟨rfl, rfl⟩
  rw [if_neg a1, if_neg a1]
  by_cases a2 : startsWith c!"else" (strip raw) = true
  · rw [if_pos a2, if_pos a2]; exact ⟨rfl, rfl⟩
  rw [if_neg a2, if_neg a2]
  by_cases a3 : startsWith c!"require_version" (strip raw) = true
  · rw [if_pos a3, if_pos a3]; exact ⟨rfl, rfl⟩
  rw [if_neg a3, if_neg a3]
  by_cases a4 : strip raw = [] ∨ startsWith c!"#" (strip raw) = true ∨ s.ignore = true
  · rw [if_pos a4, if_pos a4]; exact ⟨rfl, rfl⟩
  exfalso
  simp only [not_or] at a4
  apply h
  refine ⟨by simpa using a4.2.2, ?_, ?_⟩
  · rintro (x | x | x)
    · exact a4.1 x
    · exact a4.2.1 ((startsWith_iff _ _).2 x)
    · exact a3 ((startsWith_iff _ _).2 x)
  · rintro (x | x)
    · exact a1 ((startsWith_iff _ _).2 x)
    · exact a2 ((startsWith_iff _ _).2 x)

theorem hlL_plain (E : Env C) (inc : IncL C) (f raw : Str) (no : Nat) (s : State C) :
    (handleLineL E inc f raw no s).plain = handleLine E (fun g s => (inc g s).plain) f raw s := by
  by_cases h : Counts s raw
  · rw [hlL_main E inc f raw no s h, hl_main _ _ _ _ _ h.2.2 h.2.1 h.1]
    unfold dispatchL dispatch
    split
    · rfl
    split
    · rfl
    split
    · unfold Out.plain
      simp only [Option.map_map]
      generalize handleLoadplugin E (argument raw) s = r
      obtain ⟨x, e⟩ := r
      cases e <;> rfl
    split
    · exact twoL_plain E _ _ s
    · exact configL_plain E _ _ _ s
  · exact (hlL_quiet E inc f raw no s h).2

theorem linesL_plain (E : Env C) (inc : IncL C) (f : Str) : ∀ (ls : List Str) (no : Nat) (s : State C),
    (parseLinesL E inc f ls no s).plain = parseLines E (fun g s => (inc g s).plain) f ls s
  | [], _, _ => rfl
  | l :: ls, no, s => by
    have h := hlL_plain E inc f l no s
    unfold parseLinesL parseLines
    rw [← h]
    obtain ⟨log, s', e⟩ := handleLineL E inc f l no s
    cases e with
    | none => exact linesL_plain E inc f ls (no + 1) s'
    | some r =>
      obtain ⟨e, cs⟩ := r
      cases e with
      | «syntax» =>
        simp only [Out.plain, Option.map]
        split
        · rfl
        · exact linesL_plain E inc f ls (no + 1) s'
      | pluginLoad => exact linesL_plain E inc f ls (no + 1) s'
      | _ => rfl

theorem fileL_plain (E : Env C) : ∀ (n : Nat) (f : Str) (s : State C), (parseFileL E n f s).plain = parseFile E n f s
  | 0, _, _ => rfl
  | n + 1, f, s => by
    unfold parseFileL parseFile
    cases E.files f with
    | none => rfl
    | some ls =>
      have : (fun g s => (parseFileL E n g s).plain) = parseFile E n := by
        funext g s; exact fileL_plain E n g s
      simp only
      rw [linesL_plain, this]

/-! ## What is said -/

theorem configL_said (E : Env C) (c : Kind → Complaint) (k v : Str) (s : State C) (x : Complaint) :
    x ∈ (configL E c k v s).said ↔ (E.parseConfig s.ctx k v).2 = .done false ∧ x = c .unknown := by
  unfold configL
  generalize E.parseConfig s.ctx k v = r
  obtain ⟨y, r⟩ := r
  cases r with
  | done b => cases b <;> simp [Out.said]
  | raised e => simp [Out.said]

theorem storeL_said (E : Env C) (c : Kind → Complaint) (t n : Str) (v : PVal) (s : State C) (x : Complaint) :
    x ∈ (storeL E c t n v s).said ↔
      (t = c!"priority" ∧ (∃ w, v = .str w ∧ int? w = none) ∧ E.isCmd s.ctx c!"priority" = false) ∧ x = c .priority := by
  have hs : (storeL E c t n v s).said = (storeL E c t n v s).1 := by
    unfold storeL Out.said
    simp only
    generalize store E t n v s = r
    obtain ⟨y, e⟩ := r
    cases e <;> simp
  rw [hs]
  unfold storeL
  simp only
  by_cases ht : t = c!"priority"
  · subst ht
    by_cases hc : E.isCmd s.ctx c!"priority" = true
    · rw [if_pos (Or.inr hc)]
      simp [hc]
    · rw [if_neg (by rintro (h | h)
                     · revert h; decide
                     · exact hc h), if_pos rfl]
      have hc' : E.isCmd s.ctx c!"priority" = false := by simpa using hc
      cases v with
      | list l => simp
      | str w =>
        simp only
        cases hw : int? w with
        | none => simp [hc', hw]
        | some i => simp [hw]
  · by_cases hr : t ∈ ruleTypes ∨ E.isCmd s.ctx t = true
    · rw [if_pos hr]; simp [ht]
    · rw [if_neg hr, if_neg ht]; simp [ht]

/-- `Deserves` for lines with two arguments. -/
theorem deserves_two (E : Env C) (s : State C) (raw : Str) (hT : Two E s raw) (k : Kind) :
    Deserves E s raw k ↔ (k = .missing ∧ (splitNone 2 (logical raw)).length ≠ 3) ∨
      (∃ l text us, splitNone 2 (logical raw) = [c!"lang", l, text] ∧ E.lang = some us ∧ l <+: us ∧
        ((k = .missing ∧ hasSub c!"report" text = true ∧ (splitNone 1 text).length ≠ 2) ∨
         (k = .missing ∧ hasSub c!"report" text = false ∧ (splitNone 2 text).length ≠ 3) ∨
         (k = .unknown ∧ hasSub c!"report" text = true ∧ ∃ a v, splitNone 1 text = [a, v] ∧ (E.parseConfig s.ctx a v).2 = .done false) ∨
         (k = .priority ∧ hasSub c!"report" text = false ∧ BadPriority E s (splitNone 2 text)))) ∨
      (k = .priority ∧ BadPriority E s (splitNone 2 (logical raw))) := by
  constructor
  · intro h
    cases h with
    | missing _ h => exact Or.inl ⟨rfl, h⟩
    | missingOption text h h1 h2 =>
      obtain ⟨-, l, us, e1, e2, e3⟩ := h
      exact Or.inr (Or.inl ⟨l, text, us, e1, e2, e3, Or.inl ⟨rfl, h1, h2⟩⟩)
    | missingText text h h1 h2 =>
      obtain ⟨-, l, us, e1, e2, e3⟩ := h
      exact Or.inr (Or.inl ⟨l, text, us, e1, e2, e3, Or.inr (Or.inl ⟨rfl, h1, h2⟩)⟩)
    | unknown h1 h2 h3 h4 h5 =>
      rcases hT.2.2 with h | h
      · exact absurd h h3
      · rw [h4] at h; cases h
    | unknownOption text a v h h1 h2 h3 =>
      obtain ⟨-, l, us, e1, e2, e3⟩ := h
      exact Or.inr (Or.inl ⟨l, text, us, e1, e2, e3, Or.inr (Or.inr (Or.inl ⟨rfl, h1, a, v, h2, h3⟩))⟩)
    | priority _ h => exact Or.inr (Or.inr ⟨rfl, h⟩)
    | priorityText text h h1 h2 =>
      obtain ⟨-, l, us, e1, e2, e3⟩ := h
      exact Or.inr (Or.inl ⟨l, text, us, e1, e2, e3, Or.inr (Or.inr (Or.inr ⟨rfl, h1, h2⟩))⟩)
  · rintro (⟨rfl, h⟩ | ⟨l, text, us, e1, e2, e3, h⟩ | ⟨rfl, h⟩)
    · exact .missing hT h
    · have hf : ForUs E s raw text := ⟨hT, l, us, e1, e2, e3⟩
      rcases h with ⟨rfl, h1, h2⟩ | ⟨rfl, h1, h2⟩ | ⟨rfl, h1, a, v, h2, h3⟩ | ⟨rfl, h1, h2⟩
      · exact .missingOption text hf h1 h2
      · exact .missingText text hf h1 h2
      · exact .unknownOption text a v hf h1 h2 h3
      · exact .priorityText text hf h1 h2
    · exact .priority hT h

theorem badPriority_short (E : Env C) (s : State C) (w : List Str) (h : w.length ≠ 3) : ¬ BadPriority E s w := by
  rintro ⟨n, v, rfl, _⟩
  exact h rfl

theorem badPriority_three (E : Env C) (s : State C) (t n v : Str) :
    BadPriority E s [t, n, v] ↔ t = c!"priority" ∧ int? v = none ∧ E.isCmd s.ctx c!"priority" = false := by
  constructor
  · rintro ⟨n', v', h, h2, h3⟩
    simp only [List.cons.injEq, and_true] at h
    exact ⟨h.1, h.2.2 ▸ h2, h3⟩
  · rintro ⟨rfl, h2, h3⟩
    exact ⟨n, v, rfl, h2, h3⟩

theorem missingL_said (c : Kind → Complaint) (s : State C) (x : Complaint) : x ∈ (missingL c s).said ↔ x = c .missing := by
  simp [missingL, Out.said]

theorem twoL_said (E : Env C) (c : Kind → Complaint) (s : State C) (raw : Str) (hT : Two E s raw) (x : Complaint) :
    x ∈ (twoL E c (logical raw) s).said ↔ ∃ k, Deserves E s raw k ∧ x = c k := by
  simp only [deserves_two E s raw hT]
  unfold twoL
  generalize splitNone 2 (logical raw) = w
  have short : w.length ≠ 3 → (x = c .missing ↔ ∃ k, ((k = .missing ∧ w.length ≠ 3) ∨
      (∃ l text us, w = [c!"lang", l, text] ∧ E.lang = some us ∧ l <+: us ∧
        ((k = .missing ∧ hasSub c!"report" text = true ∧ (splitNone 1 text).length ≠ 2) ∨
         (k = .missing ∧ hasSub c!"report" text = false ∧ (splitNone 2 text).length ≠ 3) ∨
         (k = .unknown ∧ hasSub c!"report" text = true ∧ ∃ a v, splitNone 1 text = [a, v] ∧ (E.parseConfig s.ctx a v).2 = .done false) ∨
         (k = .priority ∧ hasSub c!"report" text = false ∧ BadPriority E s (splitNone 2 text)))) ∨
      (k = .priority ∧ BadPriority E s w)) ∧ x = c k) := by
    intro hw
    constructor
    · intro h
      exact ⟨.missing, Or.inl ⟨rfl, hw⟩, h⟩
    · rintro ⟨k, ⟨rfl, _⟩ | ⟨l, text, us, rfl, _⟩ | ⟨rfl, h⟩, hx⟩
      · exact hx
      · exact absurd rfl hw
      · exact absurd h (badPriority_short E s w hw)
  match w, short with
  | [], short => rw [missingL_said]; exact short (by simp)
  | [_], short => rw [missingL_said]; exact short (by simp)
  | [_, _], short => rw [missingL_said]; exact short (by simp)
  | _ :: _ :: _ :: _ :: _, short => rw [missingL_said]; exact short (by simp)
  | [rtype, name, value], _ =>
    simp only
    by_cases h1 : rtype = c!"lang"
    · subst h1
      rw [if_pos rfl]
      have np : ¬ BadPriority E s [c!"lang", name, value] := by
        rw [badPriority_three]; rintro ⟨h, _⟩; revert h; decide
      have red : ∀ P : Kind → Str → Prop, (∃ k, ((k = .missing ∧ [c!"lang", name, value].length ≠ 3) ∨
          (∃ l text us, [c!"lang", name, value] = [c!"lang", l, text] ∧ E.lang = some us ∧ l <+: us ∧ P k text) ∨
          (k = .priority ∧ BadPriority E s [c!"lang", name, value])) ∧ x = c k) ↔
          ∃ us, E.lang = some us ∧ name <+: us ∧ ∃ k, P k value ∧ x = c k := by
        intro P
        constructor
        · rintro ⟨k, ⟨_, h⟩ | ⟨l, text, us, he, h2, h3, h4⟩ | ⟨_, h⟩, hx⟩
          · exact absurd rfl h
          · simp only [List.cons.injEq, and_true, true_and] at he
            obtain ⟨rfl, rfl⟩ := he
            exact ⟨us, h2, h3, k, h4, hx⟩
          · exact absurd h np
        · rintro ⟨us, h2, h3, k, h4, hx⟩
          exact ⟨k, Or.inr (Or.inl ⟨name, value, us, rfl, h2, h3, h4⟩), hx⟩
      rw [red]
      cases hl : E.lang with
      | none => simp [Out.said]
      | some l =>
        simp only
        by_cases h2 : name <+: l
        · rw [if_neg (by simp [(startsWith_iff _ _).2 h2])]
          by_cases h3 : hasSub c!"report" value = true
          · rw [if_pos h3]
            generalize splitNone 1 value = w
            match w with
            | [] => rw [missingL_said]; simp [h2, h3]
            | [_] => rw [missingL_said]; simp [h2, h3]
            | [a, v] =>
              rw [configL_said]
              simp only [Option.some.injEq, exists_eq_left', h2, h3, true_and]
              constructor
              · rintro ⟨h, hx⟩
                exact ⟨.unknown, Or.inr (Or.inr (Or.inl ⟨rfl, a, v, rfl, h⟩)), hx⟩
              · rintro ⟨k, ⟨_, h⟩ | ⟨_, h, _⟩ | ⟨rfl, a', v', h, h'⟩ | ⟨_, h, _⟩, hx⟩
                · exact absurd rfl h
                · cases h
                · simp only [List.cons.injEq, and_true] at h
                  obtain ⟨rfl, rfl⟩ := h
                  exact ⟨h', hx⟩
                · cases h
            | _ :: _ :: _ :: _ => rw [missingL_said]; simp [h2, h3]
          · rw [if_neg h3]
            have h3' : hasSub c!"report" value = false := by simpa using h3
            generalize splitNone 2 value = w
            match w with
            | [] => rw [missingL_said]; simp [h2, h3', BadPriority]
            | [_] => rw [missingL_said]; simp [h2, h3', BadPriority]
            | [_, _] => rw [missingL_said]; simp [h2, h3', BadPriority]
            | [t, n, v] =>
              rw [storeL_said]
              simp only [Option.some.injEq, exists_eq_left', h2, h3', true_and, badPriority_three]
              constructor
              · rintro ⟨⟨h, ⟨w, hw, hi⟩, hc⟩, hx⟩
                cases hw
                exact ⟨.priority, Or.inr (Or.inr (Or.inr ⟨rfl, h, hi, hc⟩)), hx⟩
              · rintro ⟨k, ⟨_, h, _⟩ | ⟨_, h⟩ | ⟨_, h, _⟩ | ⟨rfl, h, hi, hc⟩, hx⟩
                · cases h
                · exact absurd rfl h
                · cases h
                · exact ⟨⟨h, ⟨v, rfl, hi⟩, hc⟩, hx⟩
            | _ :: _ :: _ :: _ :: _ => rw [missingL_said]; simp [h2, h3', BadPriority]
        · rw [if_pos (by simp [Bool.eq_false_iff.2 (fun h => h2 ((startsWith_iff _ _).1 h))])]
          simp [Out.said, h2]
    · rw [if_neg h1]
      have red : (∃ k, ((k = .missing ∧ [rtype, name, value].length ≠ 3) ∨
          (∃ l text us, [rtype, name, value] = [c!"lang", l, text] ∧ E.lang = some us ∧ l <+: us ∧
        ((k = .missing ∧ hasSub c!"report" text = true ∧ (splitNone 1 text).length ≠ 2) ∨
         (k = .missing ∧ hasSub c!"report" text = false ∧ (splitNone 2 text).length ≠ 3) ∨
         (k = .unknown ∧ hasSub c!"report" text = true ∧ ∃ a v, splitNone 1 text = [a, v] ∧ (E.parseConfig s.ctx a v).2 = .done false) ∨
         (k = .priority ∧ hasSub c!"report" text = false ∧ BadPriority E s (splitNone 2 text)))) ∨
          (k = .priority ∧ BadPriority E s [rtype, name, value])) ∧ x = c k) ↔
          BadPriority E s [rtype, name, value] ∧ x = c .priority := by
        constructor
        · rintro ⟨k, ⟨_, h⟩ | ⟨l, text, us, he, _⟩ | ⟨rfl, h⟩, hx⟩
          · exact absurd rfl h
          · simp only [List.cons.injEq] at he
            exact absurd he.1 h1
          · exact ⟨h, hx⟩
        · rintro ⟨h, hx⟩
          exact ⟨.priority, Or.inr (Or.inr ⟨rfl, h⟩), hx⟩
      rw [red, badPriority_three]
      by_cases h2 : rtype = c!"tflags"
      · rw [if_pos h2, storeL_said]
        simp [h2]
      · rw [if_neg h2, storeL_said]
        simp

theorem deserves_keyword (E : Env C) (s : State C) (raw : Str) (k : Kind) (hk : Deserves E s raw k) :
    keyword raw ∉ [c!"include", c!"ifplugin", c!"loadplugin"] := by
  cases hk with
  | missing hT => exact hT.2.1
  | missingOption _ hT => exact hT.1.2.1
  | missingText _ hT => exact hT.1.2.1
  | unknown h1 h2 => exact h2
  | unknownOption _ _ _ hT => exact hT.1.2.1
  | priority hT => exact hT.2.1
  | priorityText _ hT => exact hT.1.2.1

/-- What is said about a line that includes nothing is exactly what it deserves. -/
theorem hlL_said (E : Env C) (inc : IncL C) (f raw : Str) (no : Nat) (s : State C) (h : includeTarget f raw = none ∨ s.ignore = true) (x : Complaint) :
    x ∈ (handleLineL E inc f raw no s).said ↔ ∃ k, Deserves E s raw k ∧ x = ⟨k, f, no, logical raw⟩ := by
  have hcount : ∀ k, Deserves E s raw k → Counts s raw ∧ keyword raw ∉ [c!"include", c!"ifplugin", c!"loadplugin"] := by
    intro k hk
    cases hk with
    | missing hT => exact ⟨hT.1, hT.2.1⟩
    | missingOption _ hT => exact ⟨hT.1.1, hT.1.2.1⟩
    | missingText _ hT => exact ⟨hT.1.1, hT.1.2.1⟩
    | unknown h1 h2 => exact ⟨h1, h2⟩
    | unknownOption _ _ _ hT => exact ⟨hT.1.1, hT.1.2.1⟩
    | priority hT => exact ⟨hT.1, hT.2.1⟩
    | priorityText _ hT => exact ⟨hT.1.1, hT.1.2.1⟩
  by_cases hc : Counts s raw
  · have hni : keyword raw ≠ c!"include" := by
      intro hk
      rcases h with h | h
      · unfold includeTarget at h
        rw [if_pos ⟨hc.2.1, hc.2.2, hk⟩] at h
        cases h
      · rw [hc.1] at h; cases h
    rw [hlL_main E inc f raw no s hc]
    unfold dispatchL
    rw [if_neg hni]
    by_cases h2 : keyword raw = c!"ifplugin"
    · rw [if_pos h2]
      constructor
      · intro hx; simp [Out.said] at hx
      · rintro ⟨k, hk, _⟩; exact absurd (hcount k hk).2 (by simp [h2])
    rw [if_neg h2]
    by_cases h3 : keyword raw = c!"loadplugin"
    · rw [if_pos h3]
      constructor
      · intro hx
        unfold Out.said at hx
        generalize handleLoadplugin E (argument raw) s = r at hx
        obtain ⟨y, e⟩ := r
        cases e <;> simp at hx
      · rintro ⟨k, hk, _⟩; exact absurd (hcount k hk).2 (by simp [h3])
    rw [if_neg h3]
    have hsp : keyword raw ∉ [c!"include", c!"ifplugin", c!"loadplugin"] := by simp [hni, h2, h3]
    by_cases h4 : keyword raw ∈ known2 ∨ E.isCmd s.ctx (keyword raw) = true
    · rw [if_pos h4, twoL_said E _ s raw ⟨hc, hsp, h4⟩]
    · rw [if_neg h4, configL_said]
      simp only [not_or] at h4
      constructor
      · rintro ⟨h5, rfl⟩
        exact ⟨.unknown, .unknown hc hsp h4.1 (by simpa using h4.2) h5, rfl⟩
      · rintro ⟨k, hk, rfl⟩
        cases hk with
        | unknown _ _ _ _ h5 => exact ⟨h5, rfl⟩
        | missing hT => exact absurd hT.2.2 (by simpa [not_or] using h4)
        | missingOption _ hT => exact absurd hT.1.2.2 (by simpa [not_or] using h4)
        | missingText _ hT => exact absurd hT.1.2.2 (by simpa [not_or] using h4)
        | unknownOption _ _ _ hT => exact absurd hT.1.2.2 (by simpa [not_or] using h4)
        | priority hT => exact absurd hT.2.2 (by simpa [not_or] using h4)
        | priorityText _ hT => exact absurd hT.1.2.2 (by simpa [not_or] using h4)
  · rw [(hlL_quiet E inc f raw no s hc).1]
    constructor
    · intro hx; cases hx
    · rintro ⟨k, hk, _⟩; exact absurd (hcount k hk).1 hc

/-! ## What is said about a file -/

/-- An exception other than a missing argument stands for nothing that has not been said. -/
def Out.fine (o : Out C) : Prop := ∀ e cs, o.2.2 = some (e, cs) → e ≠ .syntax → ∀ x ∈ cs, x ∈ o.1

theorem configL_fine (E : Env C) (c : Kind → Complaint) (k v : Str) (s : State C) : (configL E c k v s).fine := by
  unfold configL Out.fine
  generalize E.parseConfig s.ctx k v = r
  obtain ⟨y, r⟩ := r
  cases r with
  | done b => cases b <;> simp
  | raised e => simp

theorem storeL_fine (E : Env C) (c : Kind → Complaint) (t n : Str) (v : PVal) (s : State C) : (storeL E c t n v s).fine := by
  unfold storeL Out.fine
  simp only
  generalize store E t n v s = r
  obtain ⟨y, e⟩ := r
  cases e <;> simp

theorem missingL_fine (c : Kind → Complaint) (s : State C) : (missingL c s).fine := by
  simp [missingL, Out.fine]

theorem twoL_fine (E : Env C) (c : Kind → Complaint) (line : Str) (s : State C) : (twoL E c line s).fine := by
  unfold twoL
  generalize splitNone 2 line = w
  match w with
  | [] => exact missingL_fine c s
  | [_] => exact missingL_fine c s
  | [_, _] => exact missingL_fine c s
  | _ :: _ :: _ :: _ :: _ => exact missingL_fine c s
  | [rtype, name, value] =>
    simp only
    by_cases h1 : rtype = c!"lang"
    · rw [if_pos h1]
      cases E.lang with
      | none => simp [Out.fine]
      | some l =>
        simp only
        by_cases h2 : (!startsWith name l) = true
        · rw [if_pos h2]; simp [Out.fine]
        · rw [if_neg h2]
          by_cases h3 : hasSub c!"report" value = true
          · rw [if_pos h3]
            generalize splitNone 1 value = w
            match w with
            | [] => exact missingL_fine c s
            | [_] => exact missingL_fine c s
            | [k, v] => exact configL_fine E c _ _ s
            | _ :: _ :: _ :: _ => exact missingL_fine c s
          · rw [if_neg h3]
            generalize splitNone 2 value = w
            match w with
            | [] => exact missingL_fine c s
            | [_] => exact missingL_fine c s
            | [_, _] => exact missingL_fine c s
            | [t, n, v] => exact storeL_fine E c _ _ _ s
            | _ :: _ :: _ :: _ :: _ => exact missingL_fine c s
    · rw [if_neg h1]
      split <;> exact storeL_fine E c _ _ _ s

theorem hlL_fine (E : Env C) (inc : IncL C) (hI : ∀ g s, (inc g s).fine) (f raw : Str) (no : Nat) (s : State C) :
    (handleLineL E inc f raw no s).fine := by
  by_cases h : Counts s raw
  · rw [hlL_main E inc f raw no s h]
    unfold dispatchL
    split
    · exact hI _ s
    split
    · simp [Out.fine]
    split
    · unfold Out.fine
      generalize handleLoadplugin E (argument raw) s = r
      obtain ⟨y, e⟩ := r
      cases e <;> simp
    split
    · exact twoL_fine E _ _ s
    · exact configL_fine E _ _ _ s
  · intro e cs he _ x hx
    have h0 := (hlL_quiet E inc f raw no s h).1
    unfold Out.said at h0
    rw [he] at h0
    simp only [Option.map_some, Option.getD_some, List.append_eq_nil_iff] at h0
    rw [h0.2] at hx
    cases hx

/-- What follows a line. -/
def nextL (paranoid : Bool) (o : Out C) (k : State C → Out C) : Out C :=
  match o with
  | (log, s', none) => after log (k s')
  | (log, s', some (.syntax, c)) => if paranoid then (log ++ c, s', some (.syntax, c)) else after (log ++ c) (k s')
  | (log, s', some (.pluginLoad, _)) => after log (k s')
  | (log, s', some e) => (log, s', some e)

theorem linesL_cons (E : Env C) (inc : IncL C) (f l : Str) (ls : List Str) (no : Nat) (s : State C) :
    parseLinesL E inc f (l :: ls) no s = nextL E.paranoid (handleLineL E inc f l no s) (parseLinesL E inc f ls (no + 1)) := rfl

/-- Everything that the exception of a file stands for has been said. -/
theorem linesL_told (E : Env C) (inc : IncL C) (hI : ∀ g s, (inc g s).fine) (f : Str) : ∀ (ls : List Str) (no : Nat) (s : State C) (e : Err)
    (cs : List Complaint), (parseLinesL E inc f ls no s).2.2 = some (e, cs) → ∀ x ∈ cs, x ∈ (parseLinesL E inc f ls no s).1
  | [], _, _, _, _, h => by cases h
  | l :: ls, no, s, e, cs, h => by
    have hf := hlL_fine E inc hI f l no s
    have ih := linesL_told E inc hI f ls (no + 1)
    rw [linesL_cons] at h ⊢
    generalize handleLineL E inc f l no s = o at h hf ⊢
    obtain ⟨log, s', r⟩ := o
    have tl : ∀ log' : List Complaint, (after log' (parseLinesL E inc f ls (no + 1) s')).2.2 = some (e, cs) →
        ∀ x ∈ cs, x ∈ (after log' (parseLinesL E inc f ls (no + 1) s')).1 := by
      intro log' hh x hx
      exact List.mem_append_right _ (ih s' e cs hh x hx)
    cases r with
    | none => exact tl _ h
    | some r =>
      obtain ⟨e', cs'⟩ := r
      cases e' with
      | «syntax» =>
        simp only [nextL] at h ⊢
        by_cases hp : E.paranoid = true
        · rw [if_pos hp] at h ⊢
          cases h
          intro x hx
          exact List.mem_append_right _ hx
        · rw [if_neg hp] at h ⊢
          exact tl _ h
      | pluginLoad => exact tl _ h
      | _ => cases h; exact hf _ _ rfl (by decide)

theorem fileL_told (E : Env C) : ∀ (n : Nat) (f : Str) (s : State C) (e : Err) (cs : List Complaint),
    (parseFileL E n f s).2.2 = some (e, cs) → ∀ x ∈ cs, x ∈ (parseFileL E n f s).1
  | 0, _, _, _, _, h => by cases h; simp
  | n + 1, f, s, e, cs, h => by
    unfold parseFileL at h ⊢
    cases hf : E.files f with
    | none => rw [hf] at h; cases h
    | some ls =>
      rw [hf] at h
      exact linesL_told E (parseFileL E n) (fun g s e cs he _ => fileL_told E n g s e cs he) f ls 1 s e cs h

/-- One line, and the rest of the lines. -/
theorem linesL_step (E : Env C) (inc : IncL C) (hI : ∀ g s, (inc g s).fine) (f l : Str) (ls : List Str) (no : Nat) (s : State C) (x : Complaint) :
    x ∈ (parseLinesL E inc f (l :: ls) no s).1 ↔ x ∈ (handleLineL E inc f l no s).said ∨
      ∃ s', parseLines E (fun g s => (inc g s).plain) f [l] s = (s', none) ∧ x ∈ (parseLinesL E inc f ls (no + 1) s').1 := by
  have hf := hlL_fine E inc hI f l no s
  have h := hlL_plain E inc f l no s
  rw [linesL_cons, parseLines_cons, ← h]
  clear h
  generalize handleLineL E inc f l no s = o at hf ⊢
  obtain ⟨log, s', r⟩ := o
  cases r with
  | none => simp [Out.plain, Out.said, after, parseLines, nextL, andThen]
  | some r =>
    obtain ⟨e, cs⟩ := r
    cases e with
    | «syntax» =>
      by_cases hp : E.paranoid = true
      · simp [Out.plain, Out.said, parseLines, nextL, andThen, hp]
      · simp [Out.plain, Out.said, after, parseLines, nextL, andThen, hp, or_assoc]
    | pluginLoad =>
      have := hf _ _ rfl (by decide)
      simp only [Out.plain, Out.said, after, parseLines, nextL, andThen, List.mem_append, Option.map_some, Option.getD_some, Prod.mk.injEq, and_true,
        exists_eq_left']
      exact ⟨fun hx => hx.elim (fun h => Or.inl (Or.inl h)) Or.inr, fun hx => hx.elim (fun h => h.elim Or.inl (fun h => Or.inl (this x h))) Or.inr⟩
    | _ =>
      have := hf _ _ rfl (by decide)
      simp only [Out.plain, Out.said, nextL, andThen, List.mem_append, Option.map_some, Option.getD_some, Prod.mk.injEq, reduceCtorEq, and_false, false_and,
        exists_false, or_false]
      exact ⟨Or.inl, fun hx => hx.elim id (this x)⟩

/-- What is said about lines is what is said about those that are come to. -/
theorem mem_linesL (E : Env C) (inc : IncL C) (hI : ∀ g s, (inc g s).fine) (f : Str) (x : Complaint) : ∀ (ls : List Str) (no : Nat) (s : State C),
    x ∈ (parseLinesL E inc f ls no s).1 ↔ ∃ before raw rest s', ls = before ++ raw :: rest ∧
      parseLines E (fun g s => (inc g s).plain) f before s = (s', none) ∧ x ∈ (handleLineL E inc f raw (no + before.length) s').said
  | [], no, s => by simp [parseLinesL]
  | l :: ls, no, s => by
    rw [linesL_step E inc hI]
    constructor
    · rintro (h | ⟨s1, h1, h2⟩)
      · exact ⟨[], l, ls, s, rfl, rfl, h⟩
      · obtain ⟨before, raw, rest, s', rfl, h3, h4⟩ := (mem_linesL E inc hI f x ls (no + 1) s1).1 h2
        refine ⟨l :: before, raw, rest, s', rfl, ?_, ?_⟩
        · have := parseLines_append E (fun g s => (inc g s).plain) f [l] before s
          rw [h1] at this
          exact this.trans h3
        · rwa [List.length_cons, show no + (before.length + 1) = no + 1 + before.length by omega]
    · rintro ⟨before, raw, rest, s', he, h3, h4⟩
      cases before with
      | nil =>
        simp only [List.nil_append, List.cons.injEq] at he
        obtain ⟨rfl, rfl⟩ := he
        cases h3
        exact Or.inl h4
      | cons b before =>
        simp only [List.cons_append, List.cons.injEq] at he
        obtain ⟨rfl, rfl⟩ := he
        right
        have := parseLines_append E (fun g s => (inc g s).plain) f [l] before s
        rw [List.singleton_append, h3] at this
        cases h1 : parseLines E (fun g s => (inc g s).plain) f [l] s with
        | mk s1 e1 =>
          rw [h1] at this
          cases e1 with
          | some e => cases this
          | none =>
            refine ⟨s1, rfl, (mem_linesL E inc hI f x _ (no + 1) s1).2 ⟨before, raw, rest, s', rfl, this.symm, ?_⟩⟩
            rwa [List.length_cons, show no + (before.length + 1) = no + 1 + before.length by omega] at h4

theorem mem_fileL (E : Env C) (x : Complaint) : ∀ (n : Nat) (f : Str) (s : State C), x ∈ (parseFileL E n f s).1 ↔
    ∃ file no raw s', Visits E n f s file no raw s' ∧ ∃ k, Deserves E s' raw k ∧ x = ⟨k, file, no, logical raw⟩
  | 0, f, s => by
    constructor
    · intro h; cases h
    · rintro ⟨_, _, _, _, h, _⟩; cases h
  | n + 1, f, s => by
    have hI : ∀ g s, (parseFileL E n g s).fine := fun g s e cs he _ => fileL_told E n g s e cs he
    have hP : (fun g s => (parseFileL E n g s).plain) = parseFile E n := by
      funext g s; exact fileL_plain E n g s
    have inc_said : ∀ g s, x ∈ (parseFileL E n g s).said ↔ x ∈ (parseFileL E n g s).1 := by
      intro g s
      have := fileL_told E n g s
      unfold Out.said
      generalize parseFileL E n g s = o at this
      obtain ⟨log, s', r⟩ := o
      cases r with
      | none => simp
      | some r =>
        obtain ⟨e, cs⟩ := r
        have := this e cs rfl x
        simp only [Option.map_some, Option.getD_some, List.mem_append]
        exact ⟨fun h => h.elim id this, Or.inl⟩
    have inc_line : ∀ (raw g : Str) (no : Nat) (s : State C), includeTarget f raw = some g → s.ignore = false →
        handleLineL E (parseFileL E n) f raw no s = parseFileL E n g s := by
      intro raw g no s h hi
      obtain ⟨h1, h2, h3, rfl⟩ := includeTarget_some h
      rw [hlL_main _ _ _ _ _ _ ⟨hi, h1, h2⟩]
      unfold dispatchL
      rw [if_pos h3]
    unfold parseFileL
    cases hf : E.files f with
    | none =>
      constructor
      · intro h; cases h
      · rintro ⟨_, _, _, _, h, _⟩
        cases h with
        | here h => rw [hf] at h; cases h
        | inside h => rw [hf] at h; cases h
    | some ls =>
      simp only
      rw [mem_linesL E _ hI, hP]
      constructor
      · rintro ⟨before, raw, rest, s', he, h1, h2⟩
        by_cases hi : includeTarget f raw = none ∨ s'.ignore = true
        · obtain ⟨k, hk, rfl⟩ := (hlL_said E _ f raw _ s' hi x).1 h2
          exact ⟨f, before.length + 1, raw, s', .here hf he h1, k, hk, by rw [Nat.add_comm]⟩
        · simp only [not_or, Bool.not_eq_true] at hi
          obtain ⟨g, hg⟩ := Option.ne_none_iff_exists'.1 hi.1
          rw [inc_line raw g _ s' hg hi.2, inc_said] at h2
          obtain ⟨file, no, raw', s'', hv, hk⟩ := (mem_fileL E x n g s').1 h2
          exact ⟨file, no, raw', s'', .inside hf he h1 hg hi.2 hv, hk⟩
      · rintro ⟨file, no, raw, s', hv, k, hk, rfl⟩
        cases hv with
        | @here _ _ _ _ _ lines before rest h0 he h1 =>
          rw [hf] at h0
          cases h0
          refine ⟨before, raw, rest, s', he, h1, ?_⟩
          by_cases hi : includeTarget f raw = none ∨ s'.ignore = true
          · exact (hlL_said E _ f raw _ s' hi _).2 ⟨k, hk, by rw [Nat.add_comm]⟩
          · exfalso
            simp only [not_or, Bool.not_eq_true] at hi
            obtain ⟨g, hg⟩ := Option.ne_none_iff_exists'.1 hi.1
            obtain ⟨-, -, h3, -⟩ := includeTarget_some hg
            have := deserves_keyword E s' raw k hk
            rw [h3] at this
            simp at this
        | @inside _ _ g raw0 _ _ _ s1 _ _ lines before rest h0 he h1 hg hi hv =>
          rw [hf] at h0
          cases h0
          refine ⟨before, raw0, rest, s1, he, h1, ?_⟩
          rw [inc_line raw0 g _ s1 hg hi, inc_said]
          exact (mem_fileL E _ n g s1).2 ⟨file, no, raw, s', hv, k, hk, rfl⟩

/-! ## How often it is said -/

theorem twoL_once (E : Env C) (c : Kind → Complaint) (line : Str) (s : State C) (one : ∀ t n v, (storeL E c t n v s).said.length ≤ 1)
    (two : ∀ k v, (configL E c k v s).said.length ≤ 1) : (twoL E c line s).said.length ≤ 1 := by
  have mis : (missingL c s).said.length ≤ 1 := by simp [missingL, Out.said]
  unfold twoL
  generalize splitNone 2 line = w
  match w with
  | [] => exact mis
  | [_] => exact mis
  | [_, _] => exact mis
  | _ :: _ :: _ :: _ :: _ => exact mis
  | [rtype, name, value] =>
    simp only
    by_cases h1 : rtype = c!"lang"
    · rw [if_pos h1]
      cases E.lang with
      | none => simp [Out.said]
      | some l =>
        simp only
        by_cases h2 : (!startsWith name l) = true
        · rw [if_pos h2]; simp [Out.said]
        · rw [if_neg h2]
          by_cases h3 : hasSub c!"report" value = true
          · rw [if_pos h3]
            generalize splitNone 1 value = w
            match w with
            | [] => exact mis
            | [_] => exact mis
            | [k, v] => exact two _ _
            | _ :: _ :: _ :: _ => exact mis
          · rw [if_neg h3]
            generalize splitNone 2 value = w
            match w with
            | [] => exact mis
            | [_] => exact mis
            | [_, _] => exact mis
            | [t, n, v] => exact one _ _ _
            | _ :: _ :: _ :: _ :: _ => exact mis
    · rw [if_neg h1]
      split <;> exact one _ _ _

theorem configL_once (E : Env C) (c : Kind → Complaint) (k v : Str) (s : State C) : (configL E c k v s).said.length ≤ 1 := by
  unfold configL
  generalize E.parseConfig s.ctx k v = r
  obtain ⟨y, r⟩ := r
  cases r with
  | done b => cases b <;> simp [Out.said]
  | raised e => simp [Out.said]

theorem storeL_once (E : Env C) (c : Kind → Complaint) (t n : Str) (v : PVal) (s : State C) : (storeL E c t n v s).said.length ≤ 1 := by
  have hs : (storeL E c t n v s).said = (storeL E c t n v s).1 := by
    unfold storeL Out.said
    simp only
    generalize store E t n v s = r
    obtain ⟨y, e⟩ := r
    cases e <;> simp
  rw [hs]
  unfold storeL
  simp only
  split
  · simp
  split
  · cases v with
    | list l => simp
    | str w => simp only; split <;> simp
  · simp

theorem hlL_once (E : Env C) (inc : IncL C) (f raw : Str) (no : Nat) (s : State C) (h : includeTarget f raw = none) :
    (handleLineL E inc f raw no s).said.length ≤ 1 := by
  by_cases hc : Counts s raw
  · have hni : keyword raw ≠ c!"include" := by
      intro hk
      unfold includeTarget at h
      rw [if_pos ⟨hc.2.1, hc.2.2, hk⟩] at h
      cases h
    rw [hlL_main E inc f raw no s hc]
    unfold dispatchL
    rw [if_neg hni]
    split
    · simp [Out.said]
    split
    · unfold Out.said
      generalize handleLoadplugin E (argument raw) s = r
      obtain ⟨y, e⟩ := r
      cases e <;> simp
    split
    · exact twoL_once E _ _ s (fun t n v => storeL_once E _ t n v s) (fun k v => configL_once E _ k v s)
    · exact configL_once E _ _ _ s
  · rw [(hlL_quiet E inc f raw no s hc).1]
    simp

/-- In a file without includes the line numbers increase from complaint to complaint. -/
theorem linesL_once (E : Env C) (inc : IncL C) (hI : ∀ g s, (inc g s).fine) (f : Str) : ∀ (ls : List Str) (no : Nat) (s : State C),
    (∀ raw ∈ ls, includeTarget f raw = none) → (parseLinesL E inc f ls no s).1.Pairwise (fun a b => a.number < b.number)
  | [], _, _, _ => List.Pairwise.nil
  | l :: ls, no, s, hn => by
    have h1 := hlL_once E inc f l no s (hn l (by simp))
    have hno : ∀ x ∈ (handleLineL E inc f l no s).said, x.number = no := by
      intro x hx
      obtain ⟨k, _, rfl⟩ := (hlL_said E inc f l no s (Or.inl (hn l (by simp))) x).1 hx
      rfl
    have hn' : ∀ raw ∈ ls, includeTarget f raw = none := fun raw hr => hn raw (List.mem_cons_of_mem _ hr)
    have later : ∀ s', ∀ x ∈ (parseLinesL E inc f ls (no + 1) s').1, no < x.number := by
      intro s' x hx
      obtain ⟨before, raw, rest, s'', rfl, _, h4⟩ := (mem_linesL E inc hI f x ls (no + 1) s').1 hx
      obtain ⟨k, _, rfl⟩ := (hlL_said E inc f raw _ s'' (Or.inl (hn' raw (by simp))) x).1 h4
      simp only
      omega
    have short : ∀ log : List Complaint, log.length ≤ 1 → log.Pairwise (fun a b => a.number < b.number) := by
      intro log hl
      match log, hl with
      | [], _ => exact List.Pairwise.nil
      | [_], _ => exact List.pairwise_singleton _ _
      | _ :: _ :: _, hl => simp at hl
    rw [linesL_cons]
    generalize handleLineL E inc f l no s = o at h1 hno ⊢
    obtain ⟨log, s', r⟩ := o
    have go : ∀ log' : List Complaint, log'.length ≤ 1 → (∀ x ∈ log', x.number = no) →
        (after log' (parseLinesL E inc f ls (no + 1) s')).1.Pairwise (fun a b => a.number < b.number) := by
      intro log' hl hx
      unfold after
      rw [List.pairwise_append]
      refine ⟨short _ hl, linesL_once E inc hI f ls (no + 1) s' hn', ?_⟩
      intro a ha b hb
      rw [hx a ha]
      exact later s' b hb
    cases r with
    | none => exact go log (by simpa [Out.said] using h1) (by simpa [Out.said] using hno)
    | some r =>
      obtain ⟨e, cs⟩ := r
      have h1' : (log ++ cs).length ≤ 1 := by simpa [Out.said] using h1
      have hno' : ∀ x ∈ log ++ cs, x.number = no := hno
      have h2 : log.length ≤ 1 := by rw [List.length_append] at h1'; omega
      have hno2 : ∀ x ∈ log, x.number = no := fun x hx => hno' x (List.mem_append_left _ hx)
      cases e with
      | «syntax» =>
        simp only [nextL]
        split
        · exact short _ h1'
        · exact go _ h1' hno'
      | pluginLoad => exact go log h2 hno2
      | _ => exact short _ h2

/-- Lines read without an exception, and then the others. -/
theorem linesL_append (E : Env C) (inc : IncL C) (f : Str) (b : List Str) : ∀ (a : List Str) (no : Nat) (s s' : State C),
    parseLines E (fun g s => (inc g s).plain) f a s = (s', none) →
    ∃ log, parseLinesL E inc f (a ++ b) no s = after log (parseLinesL E inc f b (no + a.length) s')
  | [], no, s, s', h => by
    cases h
    exact ⟨[], rfl⟩
  | l :: a, no, s, s', h => by
    rw [parseLines_cons, ← hlL_plain E inc f l no s] at h
    rw [List.cons_append, linesL_cons]
    have e : no + (l :: a).length = no + 1 + a.length := by rw [List.length_cons]; omega
    rw [e]
    generalize handleLineL E inc f l no s = o at h ⊢
    obtain ⟨log, s1, r⟩ := o
    have go : ∀ log' : List Complaint, parseLines E (fun g s => (inc g s).plain) f a s1 = (s', none) →
        ∃ log, after log' (parseLinesL E inc f (a ++ b) (no + 1) s1) = after log (parseLinesL E inc f b (no + 1 + a.length) s') := by
      intro log' hh
      obtain ⟨log2, h2⟩ := linesL_append E inc f b a (no + 1) s1 s' hh
      exact ⟨log' ++ log2, by rw [h2]; simp [after]⟩
    cases r with
    | none => exact go log h
    | some r =>
      obtain ⟨e, cs⟩ := r
      cases e with
      | «syntax» =>
        simp only [nextL, Out.plain, Option.map_some, andThen] at h ⊢
        by_cases hp : E.paranoid = true
        · rw [if_pos hp] at h; cases h
        · rw [if_neg hp] at h ⊢; exact go _ h
      | pluginLoad => exact go log h
      | _ => cases h

end Verif.Parser
