import Verif.Lemmas.ParserLines
import Verif.Props.Parser

/-!
# C12 with included files and with sections in sections
-/

namespace Verif.Props
open Verif Py Parser

variable {C : Type}

theorem readText_cut (E : Env C) (a b : List Str) (s : State C) : readText E (a ++ b) s =
    match readText E a s with
    | (s', none) => readText E b s'
    | (s', some e) => (s', some e) := parseLines_append _ _ _ _ _ _

/-- What leaves a file is not handled by the line that includes it. -/
theorem andThen_text (E : Env C) (ls : List Str) (s : State C) (k : State C → State C × Option Err) :
    andThen E.paranoid (readText E ls s) k = match readText E ls s with
      | (s', none) => k s'
      | (s', some e) => (s', some e) := by
  have := parseLines_err E (fun _ s => (s, none)) [] ls s
  unfold readText
  cases hr : parseLines E (fun _ s => (s, none)) [] ls s with
  | mk s' e =>
    rw [hr] at this
    cases e with
    | none => rfl
    | some e =>
      cases e with
      | pluginLoad => exact absurd rfl this.1
      | «syntax» =>
        have := this.2 rfl
        simp [andThen, this]
      | _ => rfl

/-- **C12** (the part that holds).  In a file with includes and sections, where no section stands in a part that is not taken,
exactly those lines count that are outside sections or in sections whose plugin is loaded at that point (or after the `else`, if
it is not), or are for the language of the locale. -/
theorem C12_nested_partial (E : Env C) (s0 : State C) {k : Nat} {f : Str} {done ls out : List Str} (h : Counted E s0 k f done ls out) :
    ∀ s : State C, readText E done s0 = (s, none) → s.ignore = false →
      parseLines E (parseFile E k) f ls s = readText E out s ∧ (readText E out s).1.ignore = false := by
  have hset : ∀ x : State C, x.ignore = false → ({ x with ignore := false } : State C) = x := by
    intro x hx; cases x; simp_all
  have more : ∀ {done o1 : List Str} {s s1 : State C}, readText E done s0 = (s, none) → readText E o1 s = (s1, none) →
      readText E (done ++ o1) s0 = (s1, none) := by
    intro done o1 s s1 h1 h2
    rw [readText_cut, h1]
    exact h2
  have line : ∀ {k : Nat} {f l : Str} {done ls out : List Str} {s : State C}, Plain l → readText E done s0 = (s, none) → s.ignore = false →
      (∀ s1 : State C, readText E (done ++ [l]) s0 = (s1, none) → s1.ignore = false →
        parseLines E (parseFile E k) f ls s1 = readText E out s1 ∧ (readText E out s1).1.ignore = false) →
      parseLines E (parseFile E k) f (l :: ls) s = readText E (l :: out) s ∧ (readText E (l :: out) s).1.ignore = false := by
    intro k f l done ls out s hp hd hi ih
    have hone : handleLine E (parseFile E k) f l s = handleLine E (fun _ s => (s, none)) [] l s := by
      refine hl_noinclude _ _ _ _ _ _ _ ?_
      rw [includeTarget_none_iff]
      by_cases hs : Skipped l
      · exact .inl hs
      · exact .inr (.inr (hp.2 hs).1)
    have hg := plain_ignore E (fun _ s => (s, none)) [] l s hp hi
    have hdl : ∀ s1, (readText E [l] s = (s1, none)) → s1.ignore = false →
        parseLines E (parseFile E k) f ls s1 = readText E out s1 ∧ (readText E out s1).1.ignore = false := fun s1 h1 h2 => ih s1 (more hd h1) h2
    have h1 : readText E [l] s = andThen E.paranoid (handleLine E (fun _ s => (s, none)) [] l s) (fun s => (s, none)) := rfl
    have h2 : readText E (l :: out) s = andThen E.paranoid (handleLine E (fun _ s => (s, none)) [] l s) (readText E out) := rfl
    rw [parseLines_cons, hone, h2]
    rw [h1] at hdl
    cases hr : handleLine E (fun _ s => (s, none)) [] l s with
    | mk s1 e =>
      rw [hr] at hdl hg
      cases e with
      | none => exact hdl s1 rfl hg
      | some e =>
        cases e with
        | «syntax» =>
          cases hpar : E.paranoid with
          | true => exact ⟨by simp [andThen], by simpa [andThen] using hg⟩
          | false =>
            rw [hpar] at hdl
            have := hdl s1 (by simp [andThen]) hg
            exact ⟨by simpa [andThen] using this.1, by simpa [andThen] using this.2⟩
        | pluginLoad => exact hdl s1 rfl hg
        | plugin => exact ⟨rfl, hg⟩
        | maxRec => exact ⟨rfl, hg⟩
        | other => exact ⟨rfl, hg⟩
  induction h with
  | nil => intro s _ hi; exact ⟨rfl, hi⟩
  | @line k f done l ls out hp _ ih =>
    intro s hd hi
    exact line hp hd hi ih
  | @spoken k f done raw lang here l ls out hl hh hp _ ih =>
    intro s hd hi
    obtain ⟨t, n, v, rest, h1, h2, h3, h4, h5, h6, h7, h8, h9, h10, h11⟩ := hl
    have hpl : Plain l := by
      refine ⟨h5, fun _ => ?_⟩
      rw [keyword_of_three h6]
      constructor <;> (intro he; rw [he] at h9; revert h9; decide)
    rw [parseLines_cons, C13_lang_partial E _ f raw l lang here t n v rest s hh h1 h2 h3 h4 h5 h6 h7 h8 h9 h10 h11, if_pos hp,
      ← parseLines_cons]
    exact line hpl hd hi ih
  | @foreign k f done raw lang here l ls out hl hh hp _ ih =>
    intro s hd hi
    obtain ⟨t, n, v, rest, h1, h2, h3, h4, h5, h6, h7, h8, h9, h10, h11⟩ := hl
    rw [parseLines_cons, C13_lang_partial E _ f raw l lang here t n v rest s hh h1 h2 h3 h4 h5 h6 h7 h8 h9 h10 h11, if_neg hp]
    exact ih s hd hi
  | @pasted k f done l g text pasted ls out ht hg _ _ ih1 ih2 =>
    intro s hd hi
    obtain ⟨h1, h2⟩ := ih1 s hd hi
    have hin : parseFile E (k + 1) g s = readText E pasted s := by
      unfold parseFile
      rw [hg]
      exact h1
    rw [parseLines_cons, hl_include E _ f l g s ht, if_neg (by simp [hi]), hin, andThen_text, readText_cut]
    cases hr : readText E pasted s with
    | mk s1 e =>
      rw [hr] at h2
      cases e with
      | none => exact ih2 s1 (more hd hr) h2
      | some e => exact ⟨rfl, h2⟩
  | @missing k f done l g ls out ht hg _ ih =>
    intro s hd hi
    have hin : parseFile E (k + 1) g s = (s, none) := by
      unfold parseFile
      rw [hg]
    rw [parseLines_cons, hl_include E _ f l g s ht, if_neg (by simp [hi]), hin]
    exact ih s hd hi
  | @enabled k f done o body taken e ls out ho hen _ he _ ih1 ih2 =>
    intro s hd hi
    rw [hd] at hen
    obtain ⟨h1, h2⟩ := ih1 s hd hi
    rw [List.cons_append, parseLines_cons, hl_ifplugin E _ f o s ho.1 ho.2.1 ho.2.2 hi, if_pos (show E.hasPlugin s.ctx (pluginClass E (argument o)) = true from hen)]
    simp only [andThen]
    rw [parseLines_append, h1, readText_cut]
    cases hr : readText E taken s with
    | mk s1 err =>
      rw [hr] at h2
      cases err with
      | none =>
        simp only
        rw [parseLines_cons, hl_endif _ _ _ _ _ he, hset s1 h2]
        exact ih2 s1 (more hd hr) h2
      | some err => exact ⟨rfl, h2⟩
  | @enabledElse k f done o body taken el other e ls out ho hen _ hel hot he _ ih1 ih2 =>
    intro s hd hi
    rw [hd] at hen
    obtain ⟨h1, h2⟩ := ih1 s hd hi
    rw [List.cons_append, List.cons_append, parseLines_cons, hl_ifplugin E _ f o s ho.1 ho.2.1 ho.2.2 hi, if_pos (show E.hasPlugin s.ctx (pluginClass E (argument o)) = true from hen)]
    simp only [andThen]
    rw [List.append_assoc, parseLines_append, h1, readText_cut]
    cases hr : readText E taken s with
    | mk s1 err =>
      rw [hr] at h2
      cases err with
      | none =>
        simp only
        rw [List.cons_append, parseLines_cons, hl_else _ _ _ _ _ hel, h2]
        simp only [andThen]
        rw [parseLines_append, lines_skipped E _ f other hot _ rfl]
        simp only
        rw [parseLines_cons, hl_endif _ _ _ _ _ he]
        simp only [andThen]
        rw [hset s1 h2]
        exact ih2 s1 (more hd hr) h2
      | some err => exact ⟨rfl, h2⟩
  | @disabled k f done o body e ls out ho hen hb he _ ih =>
    intro s hd hi
    rw [hd] at hen
    rw [List.cons_append, parseLines_cons, hl_ifplugin E _ f o s ho.1 ho.2.1 ho.2.2 hi, if_neg (show ¬ E.hasPlugin s.ctx (pluginClass E (argument o)) = true from hen)]
    simp only [andThen]
    rw [parseLines_append, lines_skipped E _ f body hb _ rfl]
    simp only
    rw [parseLines_cons, hl_endif _ _ _ _ _ he]
    simp only [andThen]
    rw [hset s hi]
    exact ih s hd hi
  | @disabledElse k f done o body el other taken e ls out ho hen hb hel _ he _ ih1 ih2 =>
    intro s hd hi
    rw [hd] at hen
    obtain ⟨h1, h2⟩ := ih1 s hd hi
    rw [List.cons_append, List.cons_append, parseLines_cons, hl_ifplugin E _ f o s ho.1 ho.2.1 ho.2.2 hi, if_neg (show ¬ E.hasPlugin s.ctx (pluginClass E (argument o)) = true from hen)]
    simp only [andThen]
    rw [List.append_assoc, parseLines_append, lines_skipped E _ f body hb _ rfl]
    simp only
    rw [List.cons_append, parseLines_cons, hl_else _ _ _ _ _ hel]
    simp only [andThen, Bool.not_true]
    rw [hset s hi, parseLines_append, h1, readText_cut]
    cases hr : readText E taken s with
    | mk s1 err =>
      rw [hr] at h2
      cases err with
      | none =>
        simp only
        rw [parseLines_cons, hl_endif _ _ _ _ _ he, hset s1 h2]
        exact ih2 s1 (more hd hr) h2
      | some err => exact ⟨rfl, h2⟩

example : ForLanguage c!" lang en describe R some text" c!"en" c!"describe R some text" :=
  ⟨c!"describe", c!"R", c!"some text", c!"describe R some text", by decide, by decide, by decide, by decide, by decide, by decide,
    by decide, by decide, by decide, by decide, by decide⟩

/-- One line for the language of the locale and one for another language. -/
example (E : Env C) (s0 : State C) (h : E.lang = some c!"en_US") :
    Counted E s0 0 [] [] [c!"body R /x/", c!"lang en describe R some text", c!"lang fr describe R du texte"]
      [c!"body R /x/", c!"describe R some text"] :=
  .line (by decide) (.spoken (lang := c!"en")
    ⟨c!"describe", c!"R", c!"some text", c!"describe R some text", by decide, by decide, by decide, by decide, by decide, by decide,
      by decide, by decide, by decide, by decide, by decide⟩ h (by decide) (.foreign (lang := c!"fr") (l := c!"describe R du texte")
    ⟨c!"describe", c!"R", c!"du texte", c!"describe R du texte", by decide, by decide, by decide, by decide, by decide, by decide,
      by decide, by decide, by decide, by decide, by decide⟩ h (by decide) .nil))

end Verif.Props
