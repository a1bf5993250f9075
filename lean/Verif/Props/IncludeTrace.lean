import Verif.Lemmas.IncludeTrace
import Verif.Model.FullEnv
import Verif.Props.Parser

/-!
# C176: the list of includes in the error for too many includes
-/

namespace Verif.Props
open Verif Py Parser Spec.Trace

variable {C : Type}

/-- **C176**: reading a file ends as without the list (C11 to C15), whatever the file. -/
theorem C176_same (E : Env C) (f : Str) (s : State C) :
    (parseT E f s).1 = (parse E f s).1 ∧ (parseT E f s).2.map Prod.fst = (parse E f s).2 := by
  have h := forget_file E 11 f s
  exact ⟨congrArg Prod.fst h, congrArg Prod.snd h⟩

/-- **C176**: the error for too many includes carries exactly eleven calls, the deepest first; read backwards they lead from the file that was
to be read down to the one that was one too many, each with the number and the text of an include line of the file before it. -/
theorem C176_list (E : Env C) (hq : Quiet E) (f : Str) (s : State C) (h : (parse E f s).2 = some .maxRec) :
    ∃ calls, (parseT E f s).2 = some (.maxRec, calls) ∧ calls.length = 11 ∧ Path E f calls.reverse := by
  have h2 := (C176_same E f s).2
  rw [h] at h2
  cases hr : (parseT E f s).2 with
  | none => rw [hr] at h2; cases h2
  | some r =>
    obtain ⟨e, calls⟩ := r
    rw [hr] at h2
    simp only [Option.map, Option.some.injEq] at h2
    subst h2
    exact ⟨calls, rfl, file_maxRec E hq 11 f s calls hr⟩

theorem path_reaches {E : Env C} {f : Str} {cs : List Call} (h : Path E f cs) : ∀ c ∈ cs, Reaches E f c.file := by
  induction h with
  | nil f => intro c hc; cases hc
  | @cons f g raw k cs hl ht _ ih =>
    obtain ⟨lines, b, a, hf, he, _⟩ := hl
    have hi : Includes E f g := ⟨lines, raw, hf, by rw [he]; simp, ht⟩
    intro c hc
    rcases List.mem_cons.1 hc with rfl | hc
    · exact .one hi
    · exact .step hi (ih c hc)

/-- Full statement of C176: every call of the list shows the line that stands under its number in the file that it names.  It fails for every
file that is not included in itself: no call names this file, although the last one shows one of its lines. -/
theorem C176_file_violated (E : Env C) (hq : Quiet E) (f : Str) (s : State C) (h : (parse E f s).2 = some .maxRec) (hn : ¬ Reaches E f f) :
    ∃ calls last, (parseT E f s).2 = some (.maxRec, calls ++ [last]) ∧
      (∃ raw, LineOf E f last.number raw ∧ logical raw = last.line ∧ includeTarget f raw = some last.file) ∧
      (∀ c ∈ calls ++ [last], c.file ≠ f) := by
  obtain ⟨calls, hr, hlen, hp⟩ := C176_list E hq f s h
  have hall : ∀ c ∈ calls, c.file ≠ f := by
    intro c hc he
    exact hn (he ▸ path_reaches hp c (by simpa using hc))
  generalize hrev : calls.reverse = rev at hp
  cases hp with
  | nil =>
    have : calls.length = 0 := by rw [← List.length_reverse, hrev]; rfl
    omega
  | @cons _ g raw k cs hl ht _ =>
    have hc : calls = cs.reverse ++ [⟨g, k, logical raw⟩] := by
      rw [← List.reverse_reverse calls, hrev, List.reverse_cons]
    subst hc
    exact ⟨_, _, hr, ⟨raw, hl, rfl, ht⟩, hall⟩

/-- C176 fails as well wherever the include that was one too many names a file that is not there: the first call names it and a line of it. -/
theorem C176_missing_violated (E : Env C) (hq : Quiet E) (f : Str) (s : State C) (h : (parse E f s).2 = some .maxRec)
    (first : Call) (rest : List Call) (hr : (parseT E f s).2 = some (.maxRec, first :: rest)) (hm : E.files first.file = none) :
    ¬ Accurate E first ∧ ∃ g raw, (g = f ∨ Reaches E f g) ∧ LineOf E g first.number raw ∧ logical raw = first.line := by
  refine ⟨fun ⟨raw, ⟨lines, _, _, hf, _⟩, _⟩ => (by rw [hm] at hf; cases hf), ?_⟩
  obtain ⟨calls, hr', _, hp⟩ := C176_list E hq f s h
  rw [hr] at hr'
  obtain rfl : first :: rest = calls := by simpa using hr'
  have gen : ∀ (cs : List Call) (f : Str), Path E f cs → ∀ c ∈ cs,
      ∃ g raw, (g = f ∨ Reaches E f g) ∧ LineOf E g c.number raw ∧ logical raw = c.line := by
    intro cs f hp
    induction hp with
    | nil f => intro c hc; cases hc
    | @cons f g raw k cs hl ht _ ih =>
      have hi : Includes E f g := by
        obtain ⟨lines, b, a, hf, he, _⟩ := hl
        exact ⟨lines, raw, hf, by rw [he]; simp, ht⟩
      intro c hc
      rcases List.mem_cons.1 hc with rfl | hc
      · exact ⟨f, raw, Or.inl rfl, hl, rfl⟩
      · obtain ⟨g', raw', hg, hl', he⟩ := ih c hc
        exact ⟨g', raw', Or.inr (hg.elim (fun e => e ▸ .one hi) (fun hr => .step hi hr)), hl', he⟩
  exact gen _ f hp first (by simp)

/-- **C176** for a file that includes only itself: every call of the list is right. -/
theorem C176_self_partial (E : Env C) (hq : Quiet E) (f : Str) (s : State C) (h : (parse E f s).2 = some .maxRec)
    (hself : ∀ g, Includes E f g → g = f) :
    ∃ calls, (parseT E f s).2 = some (.maxRec, calls) ∧ calls.length = 11 ∧ ∀ c ∈ calls, c.file = f ∧ Accurate E c := by
  obtain ⟨calls, hr, hlen, hp⟩ := C176_list E hq f s h
  refine ⟨calls, hr, hlen, ?_⟩
  have gen : ∀ (cs : List Call) (g : Str), Path E g cs → g = f → ∀ c ∈ cs, c.file = f ∧ Accurate E c := by
    intro cs g hp
    induction hp with
    | nil f => intro _ c hc; cases hc
    | @cons f' g raw k cs hl ht _ ih =>
      intro he c hc
      subst he
      have hg : g = f' := by
        obtain ⟨lines, b, a, hf, he, _⟩ := hl
        exact hself g ⟨lines, raw, hf, by rw [he]; simp, ht⟩
      subst hg
      rcases List.mem_cons.1 hc with rfl | hc
      · exact ⟨rfl, raw, hl, rfl⟩
      · exact ih rfl c hc
  exact fun c hc => gen _ f hp rfl c (by simpa using hc)

/-- The parser with the options and plugins of the program (C174) never takes another error for this one. -/
theorem C176_quiet {F : Type} (fe : Conf.FloatEnv F) (plug : Str → Context.Plugin) (bad : Str → Context.Err)
    (files : Str → Option (List Str)) (paranoid : Bool) (lang : Option Str) : Quiet (fullEnv fe plug bad files paranoid lang) := by
  constructor
  · intro c n p
    show (Context.load c.reg n p.isSome (importOf plug bad c.world n)).2.map ofLoadErr ≠ some .maxRec
    cases (Context.load c.reg n p.isSome (importOf plug bad c.world n)).2 with
    | none => simp
    | some e => cases e <;> simp [ofLoadErr]
  · intro c k v
    show (configFull fe c k v).2 ≠ .raised .maxRec
    unfold configFull
    split <;> simp

/-! ## The hypotheses are met -/

example : Quiet quietEnv := ⟨fun _ _ _ => by simp [quietEnv], fun _ _ _ => by simp [quietEnv]⟩

example : (parseT quietEnv c!"/etc/loop.cf" ⟨[], false, ()⟩).2 =
    some (.maxRec, List.replicate 11 ⟨c!"/etc/loop.cf", 1, c!"include loop.cf"⟩) := by decide +kernel

/-- Two files that include each other. -/
def pairEnv : Env Unit :=
  { quietEnv with files := fun f => if f = c!"/a" then some [c!"# x", c!" include /b # why"]
                                   else if f = c!"/b" then some [c!"include /a"] else none }

example : (parse pairEnv c!"/a" ⟨[], false, ()⟩).2 = some .maxRec := by decide +kernel

example : ((parseT pairEnv c!"/a" ⟨[], false, ()⟩).2.map fun r => r.2.drop 9) =
    some [⟨c!"/a", 1, c!"include /a"⟩, ⟨c!"/b", 2, c!"include /b"⟩] := by decide +kernel

/-- The second call of this list names a line that `/b` does not have. -/
example : ¬ Accurate pairEnv ⟨c!"/b", 2, c!"include /b"⟩ := by
  rintro ⟨raw, ⟨lines, b, a, hf, he, hk⟩, _⟩
  have hl : lines = [c!"include /a"] := by
    have : pairEnv.files c!"/b" = some [c!"include /a"] := by decide
    rw [this] at hf
    exact (Option.some.inj hf).symm
  have := congrArg List.length (hl.symm.trans he)
  simp only [List.length_append, List.length_cons, List.length_nil] at this
  simp only at hk
  omega

/-- Eleven files, each with a line that includes the next one; the twelfth is not there. -/
def longFiles : Dict Str (List Str) :=
  [(c!"/a", [c!"score R 1", c!"include b"]), (c!"/b", [c!"include c"]), (c!"/c", [c!"include d"]), (c!"/d", [c!"include e"]), (c!"/e", [c!"include f"]),
   (c!"/f", [c!"include g"]), (c!"/g", [c!"include h"]), (c!"/h", [c!"include i"]), (c!"/i", [c!"include j"]), (c!"/j", [c!"include k"]),
   (c!"/k", [c!"include l"])]

def longEnv : Env Unit := { quietEnv with files := Dict.get? longFiles }

example : (parse longEnv c!"/a" ⟨[], false, ()⟩).2 = some .maxRec := by decide +kernel

/-- The file `/a` is not included in itself. -/
example : ¬ Reaches longEnv c!"/a" c!"/a" := by
  have hd : ∀ p ∈ longFiles, ∀ l ∈ p.2, includeTarget p.1 l ≠ some c!"/a" := by decide +kernel
  have hI : ∀ f g, Includes longEnv f g → g ≠ c!"/a" := by
    rintro f g ⟨ls, l, hf, hl, ht⟩ rfl
    have hm : (f, ls) ∈ longFiles := Dict.mem_of_get? longFiles hf
    exact hd (f, ls) hm l hl ht
  have : ∀ f g, Reaches longEnv f g → g ≠ c!"/a" := by
    intro f g h
    induction h with
    | one h => exact hI _ _ h
    | step _ _ ih => exact ih
  exact fun h => this _ _ h rfl

example : (parseT longEnv c!"/a" ⟨[], false, ()⟩).2.map (fun r => (r.2.head?, r.2.getLast?)) =
    some (some ⟨c!"/l", 1, c!"include l"⟩, some ⟨c!"/b", 2, c!"include b"⟩) := by decide +kernel

example : longEnv.files c!"/l" = none := by decide

end Verif.Props
