import Verif.Lemmas.ParserLog
import Verif.Props.Parser

/-!
# C177: the lines that the parser complains about
-/

namespace Verif.Props
open Verif Py Parser Spec.Log

variable {C : Type}

/-- **C177**: reading a file ends as without the complaints (C11 to C15), whatever the file. -/
theorem C177_same (E : Env C) (f : Str) (s : State C) :
    (parseL E f s).2.1 = (parse E f s).1 ∧ (parseL E f s).2.2.map Prod.fst = (parse E f s).2 := by
  have h := fileL_plain E 11 f s
  exact ⟨congrArg Prod.fst h, congrArg Prod.snd h⟩

/-- **C177**: the complaints are exactly those that a line deserves which is come to while the file and the files that it includes are read, and each names
the file, the number and the text of this line. -/
theorem C177_exact (E : Env C) (f : Str) (s : State C) (c : Complaint) : c ∈ (parseL E f s).1 ↔
    ∃ file number raw s', Visits E 11 f s file number raw s' ∧ ∃ kind, Deserves E s' raw kind ∧ c = ⟨kind, file, number, logical raw⟩ :=
  mem_fileL E c 11 f s

/-- **C177**: a complaint shows a line that stands under its number in the file that it names. -/
theorem C177_where (E : Env C) (f : Str) (s : State C) (c : Complaint) (h : c ∈ (parseL E f s).1) :
    ∃ raw, Spec.Trace.LineOf E c.file c.number raw ∧ logical raw = c.line := by
  obtain ⟨file, number, raw, s', hv, k, _, rfl⟩ := (C177_exact E f s c).1 h
  refine ⟨raw, ?_, rfl⟩
  have gen : ∀ (n : Nat) (f : Str) (s : State C) (file : Str) (number : Nat) (raw : Str) (s' : State C), Visits E n f s file number raw s' →
      Spec.Trace.LineOf E file number raw := by
    intro n f s file number raw s' hv
    induction hv with
    | @here n f raw s s' lines before rest h0 he h1 => exact ⟨lines, before, rest, h0, he, rfl⟩
    | inside _ _ _ _ _ _ ih => exact ih
  exact gen _ _ _ _ _ _ _ hv

/-- **C177**: no line of a file without includes is complained about twice, and the complaints come in the order of the lines. -/
theorem C177_once_partial (E : Env C) (f : Str) (s : State C) (h : ∀ lines, E.files f = some lines → ∀ raw ∈ lines, includeTarget f raw = none) :
    (parseL E f s).1.Pairwise (fun a b => a.number < b.number) := by
  unfold parseL parseFileL
  cases hf : E.files f with
  | none => exact List.Pairwise.nil
  | some ls => exact linesL_once E _ (fun g s e cs he _ => fileL_told E 10 g s e cs he) f ls 1 s (h ls hf)

/-- Full statement of C177: a line that is read once is complained about at most once.  It fails in paranoid mode for every file that includes one in which an
argument is missing: the complaint that ends the included file is made once more for the file that includes it, and so on for every level. -/
theorem C177_repeated_violated (E : Env C) (hp : E.paranoid = true) (n : Nat) (f g raw : Str) (lines before rest : List Str) (s s' : State C)
    (hf : E.files f = some lines) (he : lines = before ++ raw :: rest) (hb : parseLines E (parseFile E n) f before s = (s', none))
    (ht : includeTarget f raw = some g) (hi : s'.ignore = false) (c : Complaint) (hc : (parseFileL E n g s').2.2 = some (.syntax, [c])) :
    (parseFileL E (n + 1) f s).2.2 = some (.syntax, [c]) ∧
      (parseFileL E n g s').1.count c + 1 ≤ (parseFileL E (n + 1) f s).1.count c ∧ 2 ≤ (parseFileL E (n + 1) f s).1.count c := by
  have hP : (fun g s => (parseFileL E n g s).plain) = parseFile E n := by
    funext g s; exact fileL_plain E n g s
  obtain ⟨h1, h2, h3, rfl⟩ := includeTarget_some ht
  have hl : ∀ no, handleLineL E (parseFileL E n) f raw no s' = parseFileL E n (includePath f (argument raw)) s' := by
    intro no
    rw [hlL_main _ _ _ _ _ _ ⟨hi, h1, h2⟩]
    unfold dispatchL
    rw [if_pos h3]
  obtain ⟨log, hlog⟩ := linesL_append E (parseFileL E n) f (raw :: rest) before 1 s s' (by rw [hP]; exact hb)
  have told := fileL_told E n _ s' .syntax [c] hc c (by simp)
  have hfile : parseFileL E (n + 1) f s = after log (parseLinesL E (parseFileL E n) f (raw :: rest) (1 + before.length) s') := by
    rw [← hlog, ← he]
    conv => lhs; unfold parseFileL
    rw [hf]
  rw [hfile, linesL_cons, hl]
  generalize parseFileL E n (includePath f (argument raw)) s' = o at hc told ⊢
  obtain ⟨log2, s2, r⟩ := o
  simp only at hc
  subst hc
  have hpos : 0 < log2.count c := List.count_pos_iff.2 told
  simp only [nextL, hp, if_true, after, List.count_append, List.count_singleton_self]
  refine ⟨trivial, by omega, by omega⟩

/-! ## The hypotheses are met -/

/-- Files with lines to complain about, one included in the other. -/
def complainEnv (paranoid : Bool) : Env Unit :=
  { quietEnv with
    paranoid := paranoid
    parseConfig := fun c k _ => (c, .done (k == c!"report_safe"))
    files := fun f =>
      if f = c!"/a" then some [c!"score R 1", c!"include b # why", c!"nonsense 1", c!"priority R x"]
      else if f = c!"/b" then some [c!"report_safe 1", c!"", c!" body R  # no value"] else none }

example : (parseL (complainEnv false) c!"/a" ⟨[], false, ()⟩).1 =
    [⟨.missing, c!"/b", 3, c!"body R"⟩, ⟨.unknown, c!"/a", 3, c!"nonsense 1"⟩, ⟨.priority, c!"/a", 4, c!"priority R x"⟩] := by decide +kernel

example : (parseL (complainEnv true) c!"/a" ⟨[], false, ()⟩).1 =
    [⟨.missing, c!"/b", 3, c!"body R"⟩, ⟨.missing, c!"/b", 3, c!"body R"⟩] := by decide +kernel

example : (parseFileL (complainEnv true) 10 c!"/b" ⟨[], false, ()⟩).2.2 = some (.syntax, [⟨.missing, c!"/b", 3, c!"body R"⟩]) := by decide +kernel

example : includeTarget c!"/a" c!"include b # why" = some c!"/b" ∧
    ∃ s', parseLines (complainEnv true) (parseFile (complainEnv true) 10) c!"/a" [c!"score R 1"] ⟨[], false, ()⟩ = (s', none) ∧ s'.ignore = false :=
  ⟨by decide +kernel, _, rfl, rfl⟩

/-- A file without includes. -/
example : ∀ lines, (complainEnv false).files c!"/b" = some lines → ∀ raw ∈ lines, includeTarget c!"/b" raw = none := by
  intro lines h
  have : (complainEnv false).files c!"/b" = some [c!"report_safe 1", c!"", c!" body R  # no value"] := by decide
  rw [this] at h
  cases h
  decide +kernel

example : Deserves (complainEnv false) ⟨[], false, ()⟩ c!"nonsense 1" .unknown :=
  .unknown ⟨rfl, by decide +kernel, by decide +kernel⟩ (by decide +kernel) (by decide +kernel) rfl (by decide +kernel)

end Verif.Props
