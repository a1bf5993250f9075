import Verif.Spec.PluginFile
import Verif.Lemmas.Py
import Verif.Lemmas.Context
import Verif.Lemmas.Strip

/-!
# C160: plugins from files
-/

namespace Verif.Props
open Verif Py Context PluginFile

variable {V : Type}

theorem fold_get (l : List (Str × Import V)) (d : Dict Str (Import V)) (x : Str) :
    Dict.get? (l.foldl (fun d x => Dict.set d x.1 x.2) d) x = ((l.reverse.find? (fun b => b.1 = x)).map Prod.snd).or (Dict.get? d x) := by
  induction l generalizing d with
  | nil => simp
  | cons b l ih =>
    rw [List.foldl_cons, ih, List.reverse_cons, List.find?_append]
    cases h : l.reverse.find? (fun b => b.1 = x) with
    | some y => simp
    | none =>
      by_cases hb : b.1 = x
      · simp [hb]
      · simp [hb, Dict.get?_set_ne _ _ hb]

/-- What importing a class from a file gives. -/
theorem import_eq (ms : Modules V) (path cls : Str) (f : File V) (h : f.raises = false) :
    (importFile ms path cls f).2 = ((f.says cls).or (Dict.get? ((Dict.get? ms (moduleName path)).getD []) cls)).getD .missing := by
  unfold importFile loadModule
  simp only [h, Bool.false_eq_true, if_false, fold_get]
  rfl

/-- A class that the file defines is the one that is loaded. -/
theorem C160_class (p : Proc V) (name path : Str) (f : File V) (i : Import V) (hf : f.raises = false) (hi : f.says (className name) = some i) :
    ((loadPath p name path f).1.ctx, (loadPath p name path f).2) = load p.ctx name true i := by
  unfold loadPath
  simp only [import_eq _ _ _ _ hf, hi, Option.some_or, Option.getD_some]

/-- If there is no module with the name of the file yet, a class that the file does not define is not found. -/
theorem C160_missing_partial (p : Proc V) (name path : Str) (f : File V) (hf : f.raises = false) (hi : f.says (className name) = none)
    (hm : Dict.get? p.modules (moduleName path) = none) :
    (loadPath p name path f).2 = some .other ∧ Dict.get? (loadPath p name path f).1.ctx.plugins (className name) = none := by
  unfold loadPath
  simp only [import_eq _ _ _ _ hf, hi, hm, Option.none_or, Option.getD_none, Dict.get?_nil]
  unfold load
  simp only [Bool.not_true, Bool.false_and, Bool.false_eq_true, if_false]
  refine ⟨trivial, ?_⟩
  split
  · rename_i h
    unfold unload
    cases hg : Dict.get? p.ctx.plugins (className name) with
    | none => simp [hg]
    | some q => simp [Dict.get?_del]
  · rename_i h
    cases hg : Dict.get? p.ctx.plugins (className name) with
    | none => rfl
    | some q => simp [Dict.has, hg] at h

/-- Modules with other names are not changed. -/
theorem C160_others_partial (p : Proc V) (name path : Str) (f : File V) (m : Str) (hm : m ≠ moduleName path) :
    Dict.get? (loadPath p name path f).1.modules m = Dict.get? p.modules m := by
  unfold loadPath importFile loadModule
  simp only []
  cases f.raises with
  | false =>
    simp only [Bool.false_eq_true, if_false]
    exact Dict.get?_set_ne _ _ hm.symm
  | true =>
    simp only [if_true]
    cases hg : Dict.get? p.modules (moduleName path) with
    | none => rfl
    | some q => exact Dict.get?_set_ne _ _ hm.symm

/-- A file whose code raises loads no plugin, and a module of its name that was not there is not there afterwards. -/
theorem C160_raises (p : Proc V) (name path : Str) (f : File V) (hf : f.raises = true) :
    (loadPath p name path f).2 = some .other ∧
    (Dict.get? p.ctx.plugins (className name) = none → (loadPath p name path f).1.ctx = p.ctx) ∧
    (Dict.get? p.modules (moduleName path) = none → (loadPath p name path f).1.modules = p.modules) := by
  unfold loadPath importFile loadModule load
  simp only [hf, if_true]
  cases hg : Dict.get? p.modules (moduleName path) with
  | none =>
    refine ⟨by simp, ?_, by simp⟩
    intro h
    simp [Dict.has, h]
  | some ns =>
    refine ⟨by simp, ?_, by simp⟩
    intro h
    simp [Dict.has, h]

theorem basename_eq (dir b : Str) (h : '/' ∉ b) : basename (dir ++ c!"/" ++ b) = b := by
  unfold basename
  rw [show dir ++ c!"/" ++ b = dir ++ '/' :: b by simp, rsplit1_append dir h]

theorem dropWhile_twice (q q' : Char → Bool) (h : ∀ c, q c = true → q' c = true) (l : Str) : (l.dropWhile q).dropWhile q' = l.dropWhile q' := by
  induction l with
  | nil => rfl
  | cons c l ih =>
    rw [List.dropWhile_cons]
    cases hc : q c with
    | false => simp
    | true => simp [ih, h c hc]

theorem rstrip_all (q : Char → Bool) (s suf : Str) (hs : ∀ c ∈ suf, q c = true) (hl : ∀ c, s.getLast? = some c → q c = false) :
    rstripBy q (s ++ suf) = s := by
  unfold rstripBy
  rw [List.reverse_append, List.dropWhile_append_of_pos (by simpa using hs)]
  rcases List.eq_nil_or_concat s with rfl | ⟨s', c, rfl⟩
  · rfl
  · have := hl c (by simp)
    simp [this]

/-- The name of the module of a file: all of the characters `.`, `p`, `y` and `c` at the end of the name are dropped, not only the extension. -/
theorem moduleName_eq (dir stem suf : Str) (h : '/' ∉ stem) (hs : ∀ c ∈ suf, c ∈ c!".pyc") (hl : ∀ c, stem.getLast? = some c → c ∉ c!".pyc") :
    moduleName (dir ++ c!"/" ++ stem ++ suf) = stem := by
  have hsuf : '/' ∉ suf := fun hm => absurd (hs _ hm) (by decide)
  unfold moduleName
  rw [List.append_assoc (dir ++ c!"/"), basename_eq dir (stem ++ suf) (by simp [h, hsuf])]
  rw [show rstripBy (fun c => c!".pyc".contains c) (rstripBy (fun c => c!".py".contains c) (stem ++ suf)) =
      rstripBy (fun c => c!".pyc".contains c) (stem ++ suf) by
    unfold rstripBy
    rw [List.reverse_reverse, dropWhile_twice]
    intro c hc
    simp at hc ⊢
    rcases hc with h | h | h <;> simp [h]]
  apply rstrip_all
  · intro c hc
    have := hs c hc
    simpa using this
  · intro c hc
    have := hl c hc
    simpa using this

/-- A file with the usual extension whose name does not end in one of those characters has a module of its own name. -/
theorem C160_names_partial (dir stem : Str) (h : '/' ∉ stem) (hl : ∀ c, stem.getLast? = some c → c ∉ c!".pyc") :
    moduleName (dir ++ c!"/" ++ stem ++ c!".py") = stem := moduleName_eq dir stem c!".py" h (by decide) hl

/-- A module that is there already, whatever it is, is overwritten by a plugin whose file name continues its name with such characters. -/
theorem C160_overwritten_violated (p : Proc V) (name dir stem suf : Str) (f : File V) (x : Str) (v : Import V) (h : '/' ∉ stem)
    (hs : ∀ c ∈ suf, c ∈ c!".pyc") (hl : ∀ c, stem.getLast? = some c → c ∉ c!".pyc") (hf : f.raises = false) (hx : f.says x = some v) :
    ∃ ns, Dict.get? (loadPath p name (dir ++ c!"/" ++ stem ++ suf) f).1.modules stem = some ns ∧ Dict.get? ns x = some v := by
  unfold loadPath importFile loadModule
  simp only [hf, Bool.false_eq_true, if_false, moduleName_eq dir stem suf h hs hl]
  refine ⟨_, Dict.get?_set_self _ _ _, ?_⟩
  rw [fold_get]
  unfold File.says at hx
  rw [hx]
  rfl

/-- If one plugin was loaded from a file, then a second file with another name, which does not define the class at all, is taken as defining
it, if both names differ only in such characters. -/
theorem C160_missing_violated (p : Proc V) (name name' d d' stem suf suf' : Str) (f f' : File V) (i : Import V) (h : '/' ∉ stem)
    (hs : ∀ c ∈ suf ++ suf', c ∈ c!".pyc") (hl : ∀ c, stem.getLast? = some c → c ∉ c!".pyc") (hf : f.raises = false) (hf' : f'.raises = false)
    (hi : f.says (className name') = some i) (hi' : f'.says (className name') = none) :
    let q := (loadPath p name (d ++ c!"/" ++ stem ++ suf) f).1
    let r := loadPath q name' (d' ++ c!"/" ++ stem ++ suf') f'
    (r.1.ctx, r.2) = load q.ctx name' true i := by
  obtain ⟨ns, h1, h2⟩ := C160_overwritten_violated p name d stem suf f _ i h (fun c hc => hs c (by simp [hc])) hl hf hi
  simp only []
  generalize (loadPath p name (d ++ c!"/" ++ stem ++ suf) f).1 = q at *
  unfold loadPath
  simp only [import_eq _ _ _ _ hf', hi', moduleName_eq d' stem suf' h (fun c hc => hs c (by simp [hc])) hl, h1, Option.getD_some, h2, Option.none_or]

/-! ### The hypotheses can be met -/

/-- A file that defines one plugin. -/
def demoFile : File Unit := { names := [(c!"Happy", .ok ⟨1, [(c!"check_happy", true)], []⟩ [])] }

example : (loadPath ⟨Ctx.empty, []⟩ c!"Happy" c!"/etc/oa/happy.py" demoFile).2 = none := by
  have h := C160_class ⟨Ctx.empty, []⟩ c!"Happy" c!"/etc/oa/happy.py" demoFile _ rfl rfl
  exact congrArg Prod.snd h

example : (loadPath ⟨Ctx.empty, []⟩ c!"Sad" c!"/etc/oa/happy.py" demoFile).2 = some .other :=
  (C160_missing_partial ⟨Ctx.empty, []⟩ c!"Sad" c!"/etc/oa/happy.py" demoFile rfl rfl rfl).1

example : moduleName c!"/etc/oa/relays.py" = c!"relays" := C160_names_partial c!"/etc/oa" c!"relays" (by decide) (by decide)

/-- `happy.py` and `hac.py` are both the module `ha`, and a plugin file `osc.py` is run in Python's own module `os`. -/
example : moduleName c!"/etc/oa/happy.py" = c!"ha" ∧ moduleName c!"/etc/oa/hac.py" = c!"ha" ∧ moduleName c!"/etc/oa/osc.py" = c!"os" := by decide

example : ∃ ns, Dict.get? (loadPath ⟨Ctx.empty, [(c!"os", [])]⟩ c!"Happy" (c!"/etc/oa" ++ c!"/" ++ c!"os" ++ c!"c.py") demoFile).1.modules c!"os" = some ns ∧
    (Dict.get? ns c!"Happy").isSome = true := by
  obtain ⟨ns, h1, h2⟩ := C160_overwritten_violated ⟨Ctx.empty, [(c!"os", [])]⟩ c!"Happy" c!"/etc/oa" c!"os" c!"c.py" demoFile c!"Happy" _ (by decide) (by decide)
    (by decide) rfl rfl
  exact ⟨ns, h1, by rw [h2]; rfl⟩

example :
    let q := (loadPath ⟨Ctx.empty, []⟩ c!"Happy" (c!"/etc/oa" ++ c!"/" ++ c!"ha" ++ c!"ppy.py") demoFile).1
    (loadPath q c!"Happy" (c!"/etc/oa" ++ c!"/" ++ c!"ha" ++ c!"c.py") { names := [] }).2 = none := by
  have h := C160_missing_violated ⟨Ctx.empty, []⟩ c!"Happy" c!"Happy" c!"/etc/oa" c!"/etc/oa" c!"ha" c!"ppy.py" c!"c.py" demoFile { names := [] } _ (by decide) (by decide)
    (by decide) rfl rfl rfl rfl
  exact congrArg Prod.snd h

end Verif.Props
