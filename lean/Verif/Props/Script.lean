import Verif.Model.Script

/-!
# C100: the messages of the command line
-/

namespace Verif.Props
open Verif Script

variable {M : Type}

theorem list_all (o : Options) (ok : M → Bool) (ms : List M) (h : ∀ m ∈ ms, ok m = true) :
    Script.list o ok (ms.map some) = (ms.flatMap (one o), true) := by
  induction ms with
  | nil => rfl
  | cons m ms ih =>
    rw [List.map_cons, Script.list, if_pos (h m (by simp)), ih fun x hx => h x (List.mem_cons_of_mem _ hx)]
    rfl

theorem list_bad (o : Options) (ok : M → Bool) (ms : List M) (h : ∀ m ∈ ms, ok m = true) (x : Option M) (rest : List (Option M))
    (hx : ∀ m, x = some m → ok m = false) :
    Script.list o ok (ms.map some ++ x :: rest) = (ms.flatMap (one o), false) := by
  induction ms with
  | nil =>
    cases x with
    | none => rfl
    | some m => simp [Script.list, hx m rfl]
  | cons m ms ih =>
    rw [List.map_cons, List.cons_append, Script.list, if_pos (h m (by simp)), ih fun x hx => h x (List.mem_cons_of_mem _ hx)]
    rfl

theorem loop_all (o : Options) (ok : M → Bool) (ss : List (Source M)) : ∀ (ms : List M) (n : Nat),
    (∀ m ∈ ms, ok m = true) → ss.flatMap Source.messages = ms.map some →
    loop o ok ss n = (ms.flatMap (one o) ++ (if o.revoke || o.report then [.printedCount (n + ss.length)] else []), true) := by
  induction ss with
  | nil =>
    intro ms n _ he
    cases ms with
    | nil => rfl
    | cons m ms => cases he
  | cons s ss ih =>
    intro ms n hok he
    rw [List.flatMap_cons] at he
    obtain ⟨a, b, e1, e2, e3⟩ := List.map_eq_append_iff.mp he.symm
    subst e1
    rw [loop, ← e2, list_all o ok a (fun m hm => hok m (List.mem_append_left _ hm))]
    simp only
    rw [ih b (n + 1) (fun m hm => hok m (List.mem_append_right _ hm)) e3.symm]
    simp [List.flatMap_append, Nat.add_assoc, Nat.add_comm 1]

/-- The messages that are found under the paths: the file itself, or all files of a directory; a place that holds no message is
`none`. -/
inductive Found : List (Source M) → List (Option M) → Prop where
  | nil : Found [] []
  | file (m : Option M) {ss l} : Found ss l → Found (.file m :: ss) (m :: l)
  | dir (ms : List (Option M)) {ss l} : Found ss l → Found (.dir ms :: ss) (ms ++ l)

theorem Found.messages {ss : List (Source M)} {l : List (Option M)} (h : Found ss l) : ss.flatMap Source.messages = l := by
  induction h with
  | nil => rfl
  | file m _ ih => rw [List.flatMap_cons, ih]; rfl
  | dir ms _ ih => rw [List.flatMap_cons, ih]; rfl

/-- **C100** (partial).  If every file can be read and every message processed, exactly the messages of all the paths are
processed, each once and in their order, and nothing else is. -/
theorem C100_all_partial (o : Options) (ok : M → Bool) (ss : List (Source M)) (ms : List M) (hok : ∀ m ∈ ms, ok m = true)
    (he : Found ss (ms.map some)) :
    ∃ last, main o ok ss = (ms.flatMap (one o) ++ last, true) ∧ (last = [] ∨ ∃ n, last = [.printedCount n]) := by
  refine ⟨_, loop_all o ok ss ms 0 hok he.messages, ?_⟩
  split
  · exact Or.inr ⟨_, rfl⟩
  · exact Or.inl rfl

/-- **C100** (partial).  A message is scanned exactly if it is neither reported nor revoked, and then something is printed; its
report is printed exactly with the options for it. -/
theorem C100_one_partial (o : Options) (m : M) :
    (.matched m ∈ one o m ↔ o.revoke = false ∧ o.report = false) ∧
    (.revoked m ∈ one o m ↔ o.revoke = true) ∧
    (.reported m ∈ one o m ↔ o.revoke = false ∧ o.report = true) ∧
    (.printedMessage m ∈ one o m ↔ o.revoke = false ∧ o.report = false ∧ o.reportOnly = false) ∧
    (.printedReport m ∈ one o m ↔ o.revoke = false ∧ o.report = false ∧ (o.reportOnly = true ∨ o.testMode = true)) := by
  obtain ⟨a, b, c, d⟩ := o
  cases a <;> cases b <;> cases c <;> cases d <;> simp [one]

/-- **C100** is violated: the number of messages examined that is printed is the number of paths, whatever the number of
messages in them. -/
theorem C100_count_violated (o : Options) (ho : o.revoke = true ∨ o.report = true) (ok : M → Bool) (ss : List (Source M))
    (ms : List M) (hok : ∀ m ∈ ms, ok m = true) (he : Found ss (ms.map some)) :
    main o ok ss = (ms.flatMap (one o) ++ [.printedCount ss.length], true) := by
  rw [main, loop_all o ok ss ms 0 hok he.messages, if_pos (by rcases ho with h | h <;> simp [h])]
  simp

/-- **C100** is violated: one file that cannot be read, or one message that cannot be processed, ends the script: none after it
is looked at, and no number is printed. -/
theorem C100_abort_violated (o : Options) (ok : M → Bool) (ss : List (Source M)) (ms : List M) (hok : ∀ m ∈ ms, ok m = true)
    (x : Option M) (hx : ∀ m, x = some m → ok m = false) (rest : List (Option M))
    (he : Found ss (ms.map some ++ x :: rest)) :
    main o ok ss = (ms.flatMap (one o), false) := by
  have : ∀ (ss : List (Source M)) (ms : List M) (n : Nat), (∀ m ∈ ms, ok m = true) →
      ss.flatMap Source.messages = ms.map some ++ x :: rest → loop o ok ss n = (ms.flatMap (one o), false) := by
    intro ss
    induction ss with
    | nil => intro ms n _ he; simp at he
    | cons s ss ih =>
      intro ms n hok he
      rw [List.flatMap_cons] at he
      rcases List.append_eq_append_iff.mp he with ⟨a, e1, e2⟩ | ⟨a, e1, e2⟩
      · -- the first source holds only good messages
        obtain ⟨u, v, f1, f2, f3⟩ := List.map_eq_append_iff.mp e1
        subst f1
        rw [loop, ← f2, list_all o ok u (fun m hm => hok m (List.mem_append_left _ hm))]
        simp only
        rw [ih v (n + 1) (fun m hm => hok m (List.mem_append_right _ hm)) (by rw [e2, f3])]
        simp [List.flatMap_append]
      · cases a with
        | nil =>
          rw [List.append_nil] at e1
          rw [loop, e1, list_all o ok ms hok]
          simp only
          rw [ih [] (n + 1) (by simp) (by simpa using e2.symm)]
          simp
        | cons y ys =>
          simp only [List.cons_append, List.cons.injEq] at e2
          obtain ⟨rfl, e2⟩ := e2
          rw [loop, e1, list_bad o ok ms hok x ys hx]
  exact this ss ms 0 hok he.messages

-- a directory with two messages and a file, reported: "2 message(s) examined"; and a directory in the directory
example : main ⟨false, true, false, false⟩ (fun _ => true) [.dir [some 1, some 2], .file (some 3)] =
      ([.reported 1, .reported 2, .reported 3, .printedCount 2], true) ∧
    main ⟨false, true, false, false⟩ (fun _ => true) [.dir [some 1, none, some 2], .file (some 3)] = ([.reported 1], false) ∧
    main ⟨false, false, false, true⟩ (fun _ => true) [.file (some 3)] =
      ([.matched 3, .printedMessage 3, .printedReport 3], true) := by
  refine ⟨rfl, rfl, rfl⟩

example : Found [.dir [some 1, some 2], .file (some 3)] ([1, 2, 3].map some) := .dir _ (.file _ .nil)

example : Found [.dir [some 1, none, some 2], .file (some 3)] ([1].map some ++ none :: [some 2, some 3]) := .dir _ (.file _ .nil)

end Verif.Props
