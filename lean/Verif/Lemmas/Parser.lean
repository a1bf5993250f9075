import Verif.Lemmas.Py
import Verif.Spec.Parser

namespace Verif.Parser
open Verif Py

variable {C : Type}

abbrev Inc (C : Type) := Str → State C → State C × Option Err

theorem startsWith_iff (w l : Str) : startsWith w l = true ↔ w <+: l := by
  unfold startsWith; exact List.isPrefixOf_iff_prefix

theorem prefix_head {a b : Char} {x y l : Str} (h1 : (a :: x) <+: l) (h2 : (b :: y) <+: l) : a = b := by
  obtain ⟨t, rfl⟩ := h1
  obtain ⟨u, hu⟩ := h2
  simp only [List.cons_append, List.cons.injEq] at hu
  exact hu.1.symm

/-- The part of `_handle_line` after the checks. -/
def dispatch (E : Env C) (inc : Inc C) (file raw : Str) (s : State C) : State C × Option Err :=
  if keyword raw = c!"include" then inc (includePath file (argument raw)) s
  else if keyword raw = c!"ifplugin" then (handleIfplugin E (argument raw) s, none)
  else if keyword raw = c!"loadplugin" then handleLoadplugin E (argument raw) s
  else if keyword raw ∈ known2 ∨ E.isCmd s.ctx (keyword raw) = true then handleTwo E (logical raw) s
  else handleConfig E (keyword raw) (argument raw) s

theorem hl_endif (E : Env C) (inc : Inc C) (file raw : Str) (s : State C) (h : beginsWith c!"endif" raw) :
    handleLine E inc file raw s = ({ s with ignore := false }, none) := by
  unfold handleLine
  rw [if_pos ((startsWith_iff _ _).2 h)]

theorem not_endif_of_else {raw : Str} (h : beginsWith c!"else" raw) : ¬ beginsWith c!"endif" raw := by
  intro h2
  obtain ⟨t, ht⟩ := h
  obtain ⟨u, hu⟩ := h2
  rw [← ht] at hu
  simp at hu

theorem hl_else (E : Env C) (inc : Inc C) (file raw : Str) (s : State C) (h : beginsWith c!"else" raw) :
    handleLine E inc file raw s = ({ s with ignore := !s.ignore }, none) := by
  unfold handleLine
  simp only
  rw [if_neg (fun hh => not_endif_of_else h ((startsWith_iff _ _).1 hh)),
    if_pos ((startsWith_iff _ _).2 h)]

theorem hl_skipped (E : Env C) (inc : Inc C) (file raw : Str) (s : State C) (hc : ¬ Closer raw)
    (h : Skipped raw ∨ s.ignore = true) : handleLine E inc file raw s = (s, none) := by
  unfold Closer at hc
  simp only [not_or] at hc
  unfold handleLine
  simp only
  rw [if_neg (fun hh => hc.1 ((startsWith_iff _ _).1 hh)),
    if_neg (fun hh => hc.2 ((startsWith_iff _ _).1 hh))]
  by_cases hv : startsWith c!"require_version" (strip raw) = true
  · rw [if_pos hv]
  · rw [if_neg hv, if_pos]
    rcases h with (h | h | h) | h
    · exact Or.inl h
    · exact Or.inr (Or.inl ((startsWith_iff _ _).2 h))
    · exact absurd ((startsWith_iff _ _).2 h) hv
    · exact Or.inr (Or.inr h)

theorem hl_main (E : Env C) (inc : Inc C) (file raw : Str) (s : State C) (hc : ¬ Closer raw)
    (hs : ¬ Skipped raw) (hi : s.ignore = false) :
    handleLine E inc file raw s = dispatch E inc file raw s := by
  unfold Closer at hc
  unfold Skipped at hs
  simp only [not_or] at hc hs
  unfold handleLine
  simp only
  rw [if_neg (fun hh => hc.1 ((startsWith_iff _ _).1 hh)),
    if_neg (fun hh => hc.2 ((startsWith_iff _ _).1 hh)),
    if_neg (fun hh => hs.2.2 ((startsWith_iff _ _).1 hh)), if_neg]
  · rfl
  · simp only [hi, not_or]
    exact ⟨hs.1, fun hh => hs.2.1 ((startsWith_iff _ _).1 hh), by simp⟩

/-- How the loop of `parse_file` continues after a line. -/
def andThen (paranoid : Bool) (r : State C × Option Err) (k : State C → State C × Option Err) :
    State C × Option Err :=
  match r with
  | (s', none) => k s'
  | (s', some .syntax) => if paranoid then (s', some .syntax) else k s'
  | (s', some .pluginLoad) => k s'
  | (s', some e) => (s', some e)

theorem parseLines_cons (E : Env C) (inc : Inc C) (file l : Str) (ls : List Str) (s : State C) :
    parseLines E inc file (l :: ls) s =
      andThen E.paranoid (handleLine E inc file l s) (parseLines E inc file ls) := rfl

/-- The errors that leave `parse_file`. -/
theorem parseLines_err (E : Env C) (inc : Inc C) (file : Str) (ls : List Str) (s : State C) :
    (parseLines E inc file ls s).2 ≠ some .pluginLoad ∧
    ((parseLines E inc file ls s).2 = some .syntax → E.paranoid = true) := by
  induction ls generalizing s with
  | nil => simp [parseLines]
  | cons l ls ih =>
    rw [parseLines_cons]
    unfold andThen
    split
    · exact ih _
    · split
      · rename_i h; exact ⟨by simp, fun _ => h⟩
      · exact ih _
    · exact ih _
    · rename_i h1 h2 h3 h4
      refine ⟨?_, ?_⟩
      · intro h; simp only [Option.some.injEq] at h; subst h; exact h3 rfl
      · intro h; simp only [Option.some.injEq] at h; subst h; exact (h2 rfl).elim

theorem parseLines_append (E : Env C) (inc : Inc C) (file : Str) (a b : List Str) (s : State C) :
    parseLines E inc file (a ++ b) s =
      match parseLines E inc file a s with
      | (s', none) => parseLines E inc file b s'
      | (s', some e) => (s', some e) := by
  induction a generalizing s with
  | nil => rfl
  | cons l ls ih =>
    rw [List.cons_append, parseLines_cons, parseLines_cons]
    unfold andThen
    split
    · exact ih _
    · split
      · rfl
      · exact ih _
    · exact ih _
    · rfl

/-- A result that `andThen` treats like plain sequencing. -/
theorem andThen_eq (p : Bool) (r : State C × Option Err) (k : State C → State C × Option Err)
    (h1 : r.2 ≠ some .pluginLoad) (h2 : r.2 = some .syntax → p = true) :
    andThen p r k = match (generalizing := false) r with
      | (s', none) => k s'
      | (s', some e) => (s', some e) := by
  obtain ⟨s', e⟩ := r
  cases e with
  | none => rfl
  | some e =>
    cases e with
    | «syntax» => simp [andThen, h2 rfl]
    | pluginLoad => exact absurd rfl h1
    | plugin => rfl
    | maxRec => rfl
    | other => rfl

theorem includeTarget_none_iff (f raw : Str) :
    includeTarget f raw = none ↔ (Skipped raw ∨ Closer raw ∨ keyword raw ≠ c!"include") := by
  unfold includeTarget
  by_cases h1 : Skipped raw
  · simp [h1]
  · by_cases h2 : Closer raw
    · simp [h2]
    · by_cases h3 : keyword raw = c!"include"
      · simp [h1, h2, h3]
      · simp [h3]

theorem includeTarget_some {f raw g : Str} (h : includeTarget f raw = some g) :
    ¬ Skipped raw ∧ ¬ Closer raw ∧ keyword raw = c!"include" ∧ g = includePath f (argument raw) := by
  unfold includeTarget at h
  split at h
  · rename_i hh; exact ⟨hh.1, hh.2.1, hh.2.2, by simpa using h.symm⟩
  · cases h

/-- A line that is not an include line does not depend on the file or on other files. -/
theorem hl_noinclude (E : Env C) (inc inc' : Inc C) (f f' raw : Str) (s : State C)
    (h : includeTarget f raw = none) : handleLine E inc f raw s = handleLine E inc' f' raw s := by
  by_cases hc : Closer raw
  · rcases hc with hc | hc
    · rw [hl_endif _ _ _ _ _ hc, hl_endif _ _ _ _ _ hc]
    · rw [hl_else _ _ _ _ _ hc, hl_else _ _ _ _ _ hc]
  · by_cases hs : Skipped raw ∨ s.ignore = true
    · rw [hl_skipped _ _ _ _ _ hc hs, hl_skipped _ _ _ _ _ hc hs]
    · simp only [not_or] at hs
      have hi : s.ignore = false := by simpa using hs.2
      rw [hl_main _ _ _ _ _ hc hs.1 hi, hl_main _ _ _ _ _ hc hs.1 hi]
      rw [includeTarget_none_iff] at h
      have hk : keyword raw ≠ c!"include" := by
        rcases h with h | h | h
        · exact absurd h hs.1
        · exact absurd h hc
        · exact h
      unfold dispatch
      rw [if_neg hk, if_neg hk]

theorem hl_include (E : Env C) (inc : Inc C) (f raw g : Str) (s : State C)
    (h : includeTarget f raw = some g) :
    handleLine E inc f raw s = if s.ignore = true then (s, none) else inc g s := by
  obtain ⟨h1, h2, h3, rfl⟩ := includeTarget_some h
  by_cases hi : s.ignore = true
  · rw [if_pos hi, hl_skipped _ _ _ _ _ h2 (Or.inr hi)]
  · rw [if_neg hi, hl_main _ _ _ _ _ h2 h1 (by simpa using hi)]
    unfold dispatch
    rw [if_pos h3]

/-! ### Pasting -/

theorem readText_ignored (E : Env C) (ls : List Str) (s : State C) (hi : s.ignore = true)
    (h : ∀ l ∈ ls, ¬ Closer l) : readText E ls s = (s, none) := by
  induction ls with
  | nil => rfl
  | cons l ls ih =>
    show parseLines _ _ _ _ _ = _
    rw [parseLines_cons, hl_skipped _ _ _ _ _ (h l (by simp)) (Or.inr hi)]
    exact ih (fun x hx => h x (List.mem_cons_of_mem _ hx))

/-- The pasted text of `f` consists of lines of `f` and of files it reaches. -/
theorem mem_paste (E : Env C) : ∀ (n : Nat) (f : Str) (ls : List Str), paste E n f = some ls →
    ∀ l ∈ ls, ∃ g lines, (g = f ∨ Reaches E f g) ∧ E.files g = some lines ∧ l ∈ lines := by
  intro n
  induction n with
  | zero => intro f ls h; cases h
  | succ n ih =>
    intro f ls h l hl
    simp only [paste] at h
    cases hf : E.files f with
    | none => rw [hf] at h; cases h; cases hl
    | some lines =>
      rw [hf] at h
      simp only at h
      have key : ∀ (rest out : List Str), (∀ x ∈ rest, x ∈ lines) →
          pasteLines (paste E n) f rest = some out → l ∈ out →
          ∃ g lines, (g = f ∨ Reaches E f g) ∧ E.files g = some lines ∧ l ∈ lines := by
        intro rest
        induction rest with
        | nil => intro out _ ho hlo; cases ho; cases hlo
        | cons x xs ihx =>
          intro out hsub ho hlo
          simp only [pasteLines] at ho
          cases ht : includeTarget f x with
          | none =>
            rw [ht] at ho
            simp only [Option.map_eq_some_iff] at ho
            obtain ⟨o', ho', rfl⟩ := ho
            rcases List.mem_cons.1 hlo with h1 | h1
            · subst h1
              exact ⟨f, lines, Or.inl rfl, hf, hsub l (by simp)⟩
            · exact ihx o' (fun y hy => hsub y (List.mem_cons_of_mem _ hy)) ho' h1
          | some g =>
            rw [ht] at ho
            simp only at ho
            cases hp : paste E n g with
            | none => rw [hp] at ho; cases ho
            | some a =>
              cases hq : pasteLines (paste E n) f xs with
              | none => rw [hp, hq] at ho; cases ho
              | some b =>
                rw [hp, hq] at ho
                simp only [Option.some.injEq] at ho
                subst ho
                rcases List.mem_append.1 hlo with h1 | h1
                · obtain ⟨g', lines', hr, hf', hl'⟩ := ih g a hp l h1
                  have hinc : Includes E f g := ⟨lines, x, hf, hsub x (by simp), ht⟩
                  refine ⟨g', lines', Or.inr ?_, hf', hl'⟩
                  rcases hr with rfl | hr
                  · exact .one hinc
                  · exact .step hinc hr
                · exact ihx b (fun y hy => hsub y (List.mem_cons_of_mem _ hy)) hq h1
      exact key lines ls (fun x hx => hx) h hl

theorem parseFile_paste (E : Env C) : ∀ (n : Nat) (f : Str) (ls : List Str) (s : State C),
    paste E n f = some ls →
    (∀ g lines, Reaches E f g → E.files g = some lines → ∀ l ∈ lines, ¬ Closer l) →
    parseFile E n f s = readText E ls s := by
  intro n
  induction n with
  | zero => intro f ls s h; cases h
  | succ n ih =>
    intro f ls s h hcl
    simp only [paste] at h
    simp only [parseFile]
    cases hf : E.files f with
    | none => rw [hf] at h; cases h; rfl
    | some lines =>
      rw [hf] at h
      simp only at h ⊢
      have key : ∀ (rest out : List Str) (s : State C), (∀ x ∈ rest, x ∈ lines) →
          pasteLines (paste E n) f rest = some out →
          parseLines E (parseFile E n) f rest s = readText E out s := by
        intro rest
        induction rest with
        | nil => intro out s _ ho; cases ho; rfl
        | cons x xs ihx =>
          intro out s hsub ho
          have hsub' : ∀ y ∈ xs, y ∈ lines := fun y hy => hsub y (List.mem_cons_of_mem _ hy)
          simp only [pasteLines] at ho
          rw [parseLines_cons]
          cases ht : includeTarget f x with
          | none =>
            rw [ht] at ho
            simp only [Option.map_eq_some_iff] at ho
            obtain ⟨o', ho', rfl⟩ := ho
            show _ = parseLines _ _ _ _ _
            rw [parseLines_cons]
            rw [hl_noinclude E (parseFile E n) (fun _ s => (s, none)) f [] x s ht]
            have : parseLines E (parseFile E n) f xs = readText E o' := by
              funext s'; exact ihx o' s' hsub' ho'
            rw [this]
            rfl
          | some g =>
            rw [ht] at ho
            simp only at ho
            have hinc : Includes E f g := ⟨lines, x, hf, hsub x (by simp), ht⟩
            cases hp : paste E n g with
            | none => rw [hp] at ho; cases ho
            | some a =>
              cases hq : pasteLines (paste E n) f xs with
              | none => rw [hp, hq] at ho; cases ho
              | some b =>
                rw [hp, hq] at ho
                simp only [Option.some.injEq] at ho
                subst ho
                have hrest : parseLines E (parseFile E n) f xs = readText E b := by
                  funext s'; exact ihx b s' hsub' hq
                rw [hl_include _ _ _ _ _ _ ht, hrest]
                show _ = parseLines _ _ _ _ _
                rw [parseLines_append]
                have hnc : ∀ l ∈ a, ¬ Closer l := by
                  intro l hl
                  obtain ⟨g', lines', hr, hf', hl'⟩ := mem_paste E n g a hp l hl
                  refine hcl g' lines' ?_ hf' l hl'
                  rcases hr with rfl | hr
                  · exact .one hinc
                  · exact .step hinc hr
                by_cases hi : s.ignore = true
                · rw [if_pos hi]
                  have := readText_ignored E a s hi hnc
                  unfold readText at this
                  rw [this]
                  rfl
                · rw [if_neg hi]
                  have hg := ih g a s hp (fun g' lines' hr => hcl g' lines' (.step hinc hr))
                  rw [hg]
                  have he := parseLines_err E (fun _ s => (s, none)) [] a s
                  exact andThen_eq _ _ _ he.1 he.2
      exact key lines ls s (fun x hx => hx) h

/-! ### Depth -/

theorem paste_none_iff (E : Env C) : ∀ (n : Nat) (f : Str), paste E n f = none ↔ Chain E n f := by
  intro n
  induction n with
  | zero => intro f; exact ⟨fun _ => .zero f, fun _ => rfl⟩
  | succ n ih =>
    intro f
    have key : ∀ (rest : List Str), pasteLines (paste E n) f rest = none ↔
        ∃ x ∈ rest, ∃ g, includeTarget f x = some g ∧ paste E n g = none := by
      intro rest
      induction rest with
      | nil => simp [pasteLines]
      | cons x xs ihx =>
        simp only [pasteLines]
        cases ht : includeTarget f x with
        | none =>
          simp only [Option.map_eq_none_iff, ihx]
          constructor
          · rintro ⟨y, hy, hh⟩; exact ⟨y, List.mem_cons_of_mem _ hy, hh⟩
          · rintro ⟨y, hy, g, hg, hh⟩
            rcases List.mem_cons.1 hy with rfl | hy
            · rw [ht] at hg; cases hg
            · exact ⟨y, hy, g, hg, hh⟩
        | some g =>
          simp only
          cases hp : paste E n g with
          | none => simp only [true_iff]; exact ⟨x, by simp, g, ht, hp⟩
          | some a =>
            cases hq : pasteLines (paste E n) f xs with
            | none =>
              simp only [true_iff]
              obtain ⟨y, hy, hh⟩ := ihx.1 hq
              exact ⟨y, List.mem_cons_of_mem _ hy, hh⟩
            | some b =>
              simp only [reduceCtorEq, false_iff]
              rintro ⟨y, hy, g', hg, hh⟩
              rcases List.mem_cons.1 hy with rfl | hy
              · rw [ht] at hg; cases hg; rw [hp] at hh; cases hh
              · have := ihx.2 ⟨y, hy, g', hg, hh⟩
                rw [hq] at this; cases this
    simp only [paste]
    cases hf : E.files f with
    | none =>
      simp only [reduceCtorEq, false_iff]
      intro h
      cases h with
      | succ hi _ => obtain ⟨ls, l, hls, _⟩ := hi; rw [hf] at hls; cases hls
    | some lines =>
      simp only [key]
      constructor
      · rintro ⟨x, hx, g, hg, hp⟩
        exact .succ ⟨lines, x, hf, hx, hg⟩ ((ih g).1 hp)
      · intro h
        cases h with
        | succ hi hc =>
          obtain ⟨ls, l, hls, hl, ht⟩ := hi
          rw [hf] at hls; cases hls
          exact ⟨l, hl, _, ht, (ih _).2 hc⟩

/-- A line other than an include in a harmless environment. -/
theorem store_harmless (E : Env C) {I : C → Prop} {opt : Str → Str → Prop} {plug : Str → Option Str → Prop} (h : Harmless E I opt plug)
    (t n : Str) (v : PVal) (s : State C) (hI : I s.ctx)
    (hv : (∃ x, v = .str x) ∨ t = c!"tflags") :
    (store E t n v s).2 = none ∧ (store E t n v s).1.ignore = s.ignore ∧ I (store E t n v s).1.ctx := by
  unfold store
  simp only
  split
  · rename_i hr
    rcases hv with ⟨x, rfl⟩ | rfl
    · simp [hI]
    · have : ¬ (c!"tflags" ∈ ruleTypes ∨ E.isCmd s.ctx c!"tflags" = true) := by
        rw [h.tflags _ hI]
        simp [ruleTypes]
      exact absurd hr this
  · simp [hI]

theorem config_harmless (E : Env C) {I : C → Prop} {opt : Str → Str → Prop} {plug : Str → Option Str → Prop} (h : Harmless E I opt plug)
    (k v : Str) (s : State C) (hI : I s.ctx) (ho : opt k v) :
    (handleConfig E k v s).2 = none ∧ (handleConfig E k v s).1.ignore = s.ignore ∧ I (handleConfig E k v s).1.ctx := by
  unfold handleConfig
  obtain ⟨⟨b, hb⟩, hc'⟩ := h.config s.ctx k v hI ho
  cases hc : E.parseConfig s.ctx k v with
  | mk c r =>
    rw [hc] at hb hc'
    simp only at hb
    subst hb
    simpa using hc'

theorem two_harmless (E : Env C) {I : C → Prop} {opt : Str → Str → Prop} {plug : Str → Option Str → Prop} (h : Harmless E I opt plug)
    (line : Str) (s : State C) (hI : I s.ctx)
    (hl : ∀ x y rest k v, splitNone 2 line = [x, y, rest] → x = c!"lang" → splitNone 1 rest = [k, v] → opt k v) :
    ((handleTwo E line s).2 = none ∨ (handleTwo E line s).2 = some .syntax) ∧
    (handleTwo E line s).1.ignore = s.ignore ∧ I (handleTwo E line s).1.ctx := by
  unfold handleTwo
  split
  · rename_i hsp
    split
    · split
      · rename_i hl; have := h.lang; rw [hl] at this; cases this
      · split
        · simp [hI]
        · split
          · split
            · rename_i k v hkv
              have := config_harmless E h k v s hI (hl _ _ _ _ _ hsp (by assumption) hkv)
              exact ⟨Or.inl this.1, this.2⟩
            · simp [hI]
          · split
            · rename_i t n v _
              have := store_harmless E h t n (.str v) s hI (Or.inl ⟨v, rfl⟩)
              exact ⟨Or.inl this.1, this.2⟩
            · simp [hI]
    · split
      · rename_i t n v _ heq
        have := store_harmless E h t n (.list (splitWs v)) s hI (Or.inr heq)
        exact ⟨Or.inl this.1, this.2⟩
      · rename_i t n v _ _
        have := store_harmless E h t n (.str v) s hI (Or.inl ⟨_, rfl⟩)
        exact ⟨Or.inl this.1, this.2⟩
  · simp [hI]

theorem load_harmless (E : Env C) {I : C → Prop} {opt : Str → Str → Prop} {plug : Str → Option Str → Prop} (h : Harmless E I opt plug)
    (v : Str) (s : State C) (hI : I s.ctx) (hp : ∀ n p, NamesPlugin E v n p → plug n p) :
    ((handleLoadplugin E v s).2 = none ∨ (handleLoadplugin E v s).2 = some .pluginLoad) ∧
    (handleLoadplugin E v s).1.ignore = s.ignore ∧ I (handleLoadplugin E v s).1.ctx := by
  have key : ∀ (written : Str) (p : Option Str),
      ((∃ path, splitNone 1 v = [written, path] ∧ p = some path) ∨ ((splitNone 1 v).length ≠ 2 ∧ written = v ∧ p = none)) →
      ∀ n, (if hasSub c!"::" written = true then E.reimpl written else some written) = some n → plug n p := by
    intro written p hw n hn
    refine hp n p ⟨written, hw, fun hs => ?_, fun hs => ?_⟩
    · rw [if_pos hs] at hn; exact hn
    · rw [if_neg (by rw [hs]; simp)] at hn; exact (Option.some.inj hn).symm
  unfold handleLoadplugin
  split
  rename_i name path heq
  have hw : (∃ q, splitNone 1 v = [name, q] ∧ path = some q) ∨ ((splitNone 1 v).length ≠ 2 ∧ name = v ∧ path = none) := by
    split at heq
    · rename_i a b hab
      injection heq with e1 e2
      subst e1; subst e2
      exact .inl ⟨b, hab, rfl⟩
    · rename_i hno
      injection heq with e1 e2
      subst e1; subst e2
      refine .inr ⟨fun hlen => ?_, rfl, rfl⟩
      match hm : splitNone 1 v, hlen with
      | [a, b], _ => exact hno a b hm
  simp only
  split
  · exact ⟨.inl rfl, rfl, hI⟩
  · rename_i n hn
    split
    · exact ⟨.inl rfl, rfl, hI⟩
    · have := h.load s.ctx n path hI (key name path hw n (by simpa using hn))
      exact ⟨this.1, rfl, this.2⟩

theorem hl_harmless (E : Env C) {I : C → Prop} {opt : Str → Str → Prop} {plug : Str → Option Str → Prop} (h : Harmless E I opt plug)
    (inc : Inc C) (f raw : Str) (s : State C) (hI : I s.ctx) (hcl : Clean E opt plug raw)
    (hi : s.ignore = false) (hc : ¬ Closer raw) (hp : Skipped raw ∨ keyword raw ≠ c!"ifplugin")
    (ht : includeTarget f raw = none) :
    ((handleLine E inc f raw s).2 = none ∨ (handleLine E inc f raw s).2 = some .syntax ∨
      (handleLine E inc f raw s).2 = some .pluginLoad) ∧
    (handleLine E inc f raw s).1.ignore = false ∧ I (handleLine E inc f raw s).1.ctx := by
  by_cases hs : Skipped raw
  · rw [hl_skipped _ _ _ _ _ hc (Or.inl hs)]
    exact ⟨Or.inl rfl, hi, hI⟩
  · rw [hl_main _ _ _ _ _ hc hs hi]
    rw [includeTarget_none_iff] at ht
    have hk : keyword raw ≠ c!"include" := by
      rcases ht with h | h | h
      · exact absurd h hs
      · exact absurd h hc
      · exact h
    have hp' : keyword raw ≠ c!"ifplugin" := by
      rcases hp with h | h
      · exact absurd h hs
      · exact h
    unfold dispatch
    rw [if_neg hk, if_neg hp', ← hi]
    split
    · rename_i hlp
      have := load_harmless E h (argument raw) s hI (hcl.plugin hlp)
      refine ⟨?_, this.2⟩
      rcases this.1 with h | h
      · exact Or.inl h
      · exact Or.inr (Or.inr h)
    · split
      · have := two_harmless E h (logical raw) s hI hcl.lang
        refine ⟨?_, this.2⟩
        rcases this.1 with h | h
        · exact Or.inl h
        · exact Or.inr (Or.inl h)
      · rename_i hlp htwo
        have := config_harmless E h (keyword raw) (argument raw) s hI
          (hcl.option hs (fun hk2 => htwo (.inl hk2)) (by simp [hk, hp', hlp]))
        exact ⟨Or.inl this.1, this.2⟩

theorem parseFile_depth (E : Env C) {I : C → Prop} {opt : Str → Str → Prop} {plug : Str → Option Str → Prop} (h : Harmless E I opt plug) :
    ∀ (n : Nat) (f : Str) (s : State C), I s.ctx →
    s.ignore = false →
    (∀ g lines, (g = f ∨ Reaches E f g) → E.files g = some lines → ∀ l ∈ lines,
      ¬ Closer l ∧ (Skipped l ∨ keyword l ≠ c!"ifplugin") ∧ Clean E opt plug l) →
    (paste E n f = none → (parseFile E n f s).2 = some .maxRec) ∧
    (paste E n f ≠ none → (parseFile E n f s).2 = none ∧ (parseFile E n f s).1.ignore = false ∧ I (parseFile E n f s).1.ctx) := by
  intro n
  induction n with
  | zero => intro f s _ _ _; exact ⟨fun _ => rfl, fun h => absurd rfl h⟩
  | succ n ih =>
    intro f s hI hi hcl
    simp only [paste, parseFile]
    cases hf : E.files f with
    | none => exact ⟨fun h => (by cases h), fun _ => ⟨rfl, hi, hI⟩⟩
    | some lines =>
      simp only
      have key : ∀ (rest : List Str) (s : State C), I s.ctx → s.ignore = false → (∀ x ∈ rest, x ∈ lines) →
          (pasteLines (paste E n) f rest = none →
            (parseLines E (parseFile E n) f rest s).2 = some .maxRec) ∧
          (pasteLines (paste E n) f rest ≠ none →
            (parseLines E (parseFile E n) f rest s).2 = none ∧
            (parseLines E (parseFile E n) f rest s).1.ignore = false ∧ I (parseLines E (parseFile E n) f rest s).1.ctx) := by
        intro rest
        induction rest with
        | nil => intro s hI hi _; exact ⟨fun h => (by cases h), fun _ => ⟨rfl, hi, hI⟩⟩
        | cons x xs ihx =>
          intro s hI hi hsub
          have hsub' : ∀ y ∈ xs, y ∈ lines := fun y hy => hsub y (List.mem_cons_of_mem _ hy)
          rw [parseLines_cons]
          simp only [pasteLines]
          have hx := hcl f lines (Or.inl rfl) hf x (hsub x (by simp))
          cases ht : includeTarget f x with
          | none =>
            obtain ⟨he, hig, hI'⟩ := hl_harmless E h (parseFile E n) f x s hI hx.2.2 hi hx.1 hx.2.1 ht
            have hgo : andThen E.paranoid (handleLine E (parseFile E n) f x s) (parseLines E (parseFile E n) f xs) =
                parseLines E (parseFile E n) f xs (handleLine E (parseFile E n) f x s).1 := by
              cases hr : handleLine E (parseFile E n) f x s with
              | mk s' e =>
                rw [hr] at he
                simp only at he
                rcases he with rfl | rfl | rfl
                · rfl
                · simp [andThen, h.tolerant]
                · rfl
            rw [hgo]
            simp only [Option.map_eq_none_iff, ne_eq]
            exact ihx _ hI' hig hsub'
          | some g =>
            simp only
            have hinc : Includes E f g := ⟨lines, x, hf, hsub x (by simp), ht⟩
            rw [hl_include _ _ _ _ _ _ ht, if_neg (by simp [hi])]
            have hg := ih g s hI hi (fun g' lines' hr => hcl g' lines' (Or.inr (by
              rcases hr with rfl | hr
              · exact .one hinc
              · exact .step hinc hr)))
            cases hp : paste E n g with
            | none =>
              have := hg.1 hp
              refine ⟨fun _ => ?_, fun h => absurd rfl h⟩
              cases hr : parseFile E n g s with
              | mk s' e => rw [hr] at this; simp only at this; subst this; rfl
            | some a =>
              have := hg.2 (by rw [hp]; simp)
              have hgo : andThen E.paranoid (parseFile E n g s) (parseLines E (parseFile E n) f xs) =
                  parseLines E (parseFile E n) f xs (parseFile E n g s).1 := by
                cases hr : parseFile E n g s with
                | mk s' e => rw [hr] at this; simp only at this; rw [this.1]; rfl
              rw [hgo]
              have hrec := ihx (parseFile E n g s).1 this.2.2 this.2.1 hsub'
              cases hq : pasteLines (paste E n) f xs with
              | none => exact ⟨fun _ => hrec.1 hq, fun h => absurd rfl h⟩
              | some b => exact ⟨fun h => (by cases h), fun _ => hrec.2 (by rw [hq]; simp)⟩
      exact key lines s hI hi (fun x hx => hx)

theorem chain_of_reaches_self (E : Env C) {f : Str} (h : Reaches E f f) : ∀ n, Chain E n f := by
  -- every file on the way back to `f` starts chains of every length
  have step : ∀ n g, Reaches E g f → (∀ m, m < n → Chain E m f) → Chain E n g := by
    intro n
    induction n with
    | zero => intro g _ _; exact .zero g
    | succ n ih =>
      intro g hg hm
      cases hg with
      | one hi => exact .succ hi (hm n (Nat.lt_succ_self n))
      | step hi hr => exact .succ hi (ih _ hr (fun m h => hm m (Nat.lt_succ_of_lt h)))
  intro n
  induction n using Nat.strongRecOn with
  | ind n ih => exact step n f h ih

end Verif.Parser
