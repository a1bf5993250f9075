import Verif.Spec.Compile

/-!
# C162: compiled rules
-/

namespace Verif.Props
open Verif Py Compile

variable {R : Type}

/-! ### Where compiling is supported -/

/-- For Python 2 and 3 with numbers as versions, compiling is possible exactly where the warnings say.  Missing: later versions
(`C162_later_violated`) and other version texts (`C162_version_violated`). -/
theorem C162_supported_partial (p : Python) (major minor patch : Int) (hi : hasSub c!"pypy" (lower p.impl) = false)
    (h1 : int? p.major = some major) (h2 : int? p.minor = some minor) (h3 : int? p.patch = some patch)
    (hm : major = 2 ∨ major = 3) (hv : 2 < major ∨ minor ≤ 7) : canCompile p = some true ↔ Supported major minor patch := by
  unfold canCompile Supported
  rw [hi, h1, h2, h3]
  simp only [Bool.false_eq_true, if_false, Option.map_some]
  rcases hm with rfl | rfl
  · simp only [show ¬ (3 : Int) ≤ 2 by decide, if_false, Int.le_refl, if_true]
    by_cases h : minor < 7
    · simp only [h, if_true]
      constructor
      · simp
      · omega
    · have h7 : minor = 7 := by omega
      subst h7
      simp
  · by_cases h : minor < 5
    · simp [h]
    · simp [h]; omega

/-- On PyPy it never is. -/
theorem C162_pypy (p : Python) (hi : hasSub c!"pypy" (lower p.impl) = true) : canCompile p = some false := by
  unfold canCompile
  rw [if_pos hi]

/-- It is refused for all versions after 3 until their fifth, as too old. -/
theorem C162_later_violated (p : Python) (major minor : Int) (h1 : int? p.major = some major) (h2 : int? p.minor = some minor)
    (hm : 3 < major) (hn : minor < 5) : canCompile p = some false := by
  unfold canCompile
  rw [h1, h2]
  split
  · rfl
  · simp [hn, show (3 : Int) ≤ major by omega]

/-- Where the version does not end with a number, as in `2.7.15+`, asking raises. -/
theorem C162_version_violated (p : Python) (hi : hasSub c!"pypy" (lower p.impl) = false)
    (h1 : int? p.major = some 2) (h2 : int? p.minor = some 7) (h3 : int? p.patch = none) : canCompile p = none := by
  unfold canCompile
  rw [hi, h1, h2, h3]
  simp

/-! ### Writing the file -/

theorem write_end (f c : Bytes) : writeAt f f.length c = f ++ c := by
  unfold writeAt
  simp

/-- The file is what it was and nobody writes; or it is what one process has written so far. -/
def FileInv (k : Pickle R) (f0 : Option Bytes) (rs : Nat → R) (w : World) : Prop :=
  (∀ p ps, w.procs p = .waiting ps → ps = k.dump (rs p)) ∧
  ((w.file = f0 ∧ ∀ q off ps, w.procs q ≠ .writing off ps) ∨
   ∃ q b rest, w.file = some b ∧ b ++ rest.flatten = (k.dump (rs q)).flatten ∧
     (∀ q' off ps, w.procs q' = .writing off ps → q' = q ∧ off = b.length ∧ ps = rest))

theorem fileInv_begin (k : Pickle R) (f0 : Option Bytes) (rs : Nat → R) : FileInv k f0 rs (begin k f0 rs) :=
  ⟨fun p ps h => by injection h with h; exact h.symm, Or.inl ⟨rfl, fun q off ps h => by cases h⟩⟩

/-- Ending a process keeps the invariant. -/
theorem fileInv_end (k : Pickle R) (f0 : Option Bytes) (rs : Nat → R) (w : World) (h : FileInv k f0 rs w) (p : Nat) (e : End) :
    FileInv k f0 rs (w.proc p (.ended e)) := by
  obtain ⟨h1, h2⟩ := h
  have hw : ∀ q off ps, (w.proc p (.ended e)).procs q = .writing off ps → w.procs q = .writing off ps := by
    intro q off ps hq
    simp only [World.proc] at hq
    split at hq
    · cases hq
    · exact hq
  refine ⟨fun q ps hq => ?_, ?_⟩
  · simp only [World.proc] at hq
    split at hq
    · cases hq
    · exact h1 q ps hq
  · rcases h2 with ⟨hf, hn⟩ | ⟨q, b, rest, hf, hb, hq⟩
    · exact Or.inl ⟨hf, fun q off ps hq => hn q off ps (hw q off ps hq)⟩
    · exact Or.inr ⟨q, b, rest, hf, hb, fun q' off ps h => hq q' off ps (hw q' off ps h)⟩

theorem fileInv_step (k : Pickle R) (f0 : Option Bytes) (rs : Nat → R) (w : World) (h : FileInv k f0 rs w) (e : Event)
    (ha : ∀ p, e = .open p → ∀ q off ps, w.procs q ≠ .writing off ps) : FileInv k f0 rs (step w e) := by
  cases e with
  | «open» p =>
    unfold step
    simp only []
    cases hp : w.procs p with
    | waiting ps =>
      simp only []
      obtain ⟨h1, h2⟩ := h
      refine ⟨fun q ps' hq => ?_, Or.inr ⟨p, [], k.dump (rs p), rfl, rfl, fun q' off ps' hq => ?_⟩⟩
      · simp only [World.proc] at hq
        split at hq
        · cases hq
        · exact h1 q ps' hq
      · simp only [World.proc] at hq
        split at hq
        · rename_i e
          injection hq with a b
          exact ⟨e, a.symm, b.symm.trans (h1 p ps hp)⟩
        · exact absurd hq (ha p rfl q' off ps')
    | writing off ps => exact h
    | ended e => exact h
  | write p =>
    unfold step
    simp only []
    cases hp : w.procs p with
    | waiting ps => exact h
    | ended e => exact h
    | writing off ps =>
      cases ps with
      | nil => exact h
      | cons c ps =>
        simp only []
        obtain ⟨h1, h2⟩ := h
        refine ⟨fun q ps' hq => ?_, ?_⟩
        · simp only [World.proc] at hq
          split at hq
          · cases hq
          · exact h1 q ps' hq
        · rcases h2 with ⟨hf, hn⟩ | ⟨q, b, rest, hf, hb, hq⟩
          · exact absurd hp (hn p off (c :: ps))
          · obtain ⟨rfl, rfl, rfl⟩ := hq p _ _ hp
            refine Or.inr ⟨p, b ++ c, ps, by simp [hf, write_end], by simpa using hb, fun q' off' ps' h' => ?_⟩
            simp only [World.proc] at h'
            split at h'
            · rename_i e
              injection h' with a b
              exact ⟨e, by simp [← a], b.symm⟩
            · exact absurd (hq q' off' ps' h').1 (by assumption)
  | close p =>
    unfold step
    simp only []
    cases hp : w.procs p with
    | waiting ps => exact h
    | ended e => exact h
    | writing off ps =>
      cases ps with
      | nil => exact fileInv_end k f0 rs w h p _
      | cons c ps => exact h
  | refuse p =>
    unfold step
    simp only []
    cases hp : w.procs p with
    | waiting ps => exact fileInv_end k f0 rs w h p _
    | ended e => exact h
    | writing off ps => exact fileInv_end k f0 rs w h p _
  | raise p =>
    unfold step
    simp only []
    cases hp : w.procs p with
    | waiting ps => exact h
    | ended e => exact h
    | writing off ps => exact fileInv_end k f0 rs w h p _
  | kill p =>
    unfold step
    simp only []
    cases hp : w.procs p with
    | waiting ps => exact fileInv_end k f0 rs w h p _
    | ended e => exact h
    | writing off ps => exact fileInv_end k f0 rs w h p _

theorem fileInv_run (k : Pickle R) (f0 : Option Bytes) (rs : Nat → R) (es : List Event) (w : World) (h : FileInv k f0 rs w) (ha : Alone w es) :
    FileInv k f0 rs (run w es) := by
  induction es generalizing w with
  | nil => exact h
  | cons e es ih => exact ih (step w e) (fileInv_step k f0 rs w h e ha.1) ha.2

theorem prefix_loads (k : Pickle R) (r : R) (b rest : Bytes) (h : b ++ rest = (k.dump r).flatten) (x : R) (hx : k.load b = .ok x) :
    b = (k.dump r).flatten ∧ x = r := by
  by_cases he : b = (k.dump r).flatten
  · refine ⟨he, ?_⟩
    rw [he, k.loads r] at hx
    injection hx with hx
    exact hx.symm
  · exact absurd hx (k.cut r b ⟨rest, h⟩ he x)

/-- At every moment of any number of compilations one after the other, whichever of them fail or are killed, what can be restored from
the file is what could be restored at the beginning or one of the compiled rulesets, and nothing else.  Missing: something always can
(`C162_lost_violated`), and compilations at the same time (`C162_mixed_violated`). -/
theorem C162_moment_partial (k : Pickle R) (f0 : Option Bytes) (rs : Nat → R) (es : List Event) (ha : Alone (begin k f0 rs) es) (r : R)
    (h : Holds k (run (begin k f0 rs) es).file r) : Holds k f0 r ∨ ∃ q, r = rs q := by
  obtain ⟨b, hb, hl⟩ := h
  rcases (fileInv_run k f0 rs es _ (fileInv_begin k f0 rs) ha).2 with ⟨hf, _⟩ | ⟨q, b', rest, hf, hr, _⟩
  · exact Or.inl ⟨b, by rw [← hf, hb], hl⟩
  · rw [hb] at hf
    injection hf with hf
    subst hf
    exact Or.inr ⟨q, (prefix_loads k (rs q) b _ hr r hl).2⟩

/-- When a compilation has ended normally, the compiled ruleset is restored by the script that matches messages; and no other is. -/
theorem C162_done_partial (k : Pickle R) (f0 : Option Bytes) (rs : Nat → R) (es : List Event) (ha : Alone (begin k f0 rs) es) (p : Nat)
    (h0 : (run (begin k f0 rs) es).procs p ≠ .ended .normal) (h : (run (begin k f0 rs) (es ++ [.close p])).procs p = .ended .normal)
    (files : List Str) (hf : files ≠ []) (parse : Parsed R) (post : R → Option R) (r : R) :
    start k files true (some true) parse post (run (begin k f0 rs) (es ++ [.close p])).file = .restored r ↔ post (rs p) = some r := by
  have hi := fileInv_run k f0 rs es _ (fileInv_begin k f0 rs) ha
  have hs : run (begin k f0 rs) (es ++ [.close p]) = step (run (begin k f0 rs) es) (.close p) := by
    unfold run; rw [List.foldl_append]; rfl
  rw [hs] at h ⊢
  generalize run (begin k f0 rs) es = w at hi h h0 ⊢
  unfold step at h ⊢
  simp only [] at h ⊢
  cases hp : w.procs p with
  | waiting ps => simp [hp] at h
  | ended e => simp [hp] at h; subst h; exact absurd hp h0
  | writing off ps =>
    cases ps with
    | cons c ps => simp [hp] at h
    | nil =>
      simp only []
      rcases hi.2 with ⟨_, hn⟩ | ⟨q, b, rest, hf', hr, hq⟩
      · exact absurd hp (hn p off [])
      · obtain ⟨rfl, rfl, rfl⟩ := hq p _ _ hp
        have hb : b = (k.dump (rs p)).flatten := by simpa using hr
        have : (w.proc p (.ended .normal)).file = some (k.dump (rs p)).flatten := by rw [← hb]; exact hf'
        unfold start
        simp only [this, hf, if_false, if_true, k.loads]
        cases post (rs p) with
        | none => simp
        | some x => simp

/-- A single process: what it leaves when it opens the file and writes `n` pieces. -/
theorem run_writes (off : Nat) (p : Nat) (done rest : List Bytes) (w : World) (b : Bytes) (hf : w.file = some b) (ho : off = b.length)
    (hp : w.procs p = .writing off (done ++ rest)) :
    (run w (List.replicate done.length (.write p))).file = some (b ++ done.flatten) ∧
    (run w (List.replicate done.length (.write p))).procs p = .writing (off + done.flatten.length) rest ∧
    ∀ q, q ≠ p → (run w (List.replicate done.length (.write p))).procs q = w.procs q := by
  induction done generalizing off w b with
  | nil => exact ⟨by simpa [run] using hf, by simpa [run] using hp, fun _ _ => rfl⟩
  | cons c done ih =>
    have hs : step w (.write p) = { w.proc p (.writing (off + c.length) (done ++ rest)) with file := some (b ++ c) } := by
      unfold step
      simp only []
      rw [hp]
      simp only [List.cons_append, hf, Option.getD_some, ho, write_end]
    rw [List.length_cons, List.replicate_succ]
    show (run (step w (.write p)) _).file = _ ∧ (run (step w (.write p)) _).procs p = _ ∧ _
    have := ih (off + c.length) (step w (.write p)) (b ++ c) (by rw [hs]) (by simp [ho]) (by rw [hs]; simp [World.proc])
    refine ⟨by rw [this.1]; simp, by rw [this.2.1]; simp [Nat.add_assoc], fun q hq => ?_⟩
    show (run (step w (.write p)) _).procs q = _
    rw [this.2.2 q hq, hs]
    simp [World.proc, hq]

/-- A compilation that does not write everything, because the disk is full, the ruleset cannot be written or the process is killed,
destroys the rules compiled before: nothing can be restored any more, and the script that matches messages does not run. -/
theorem C162_lost_violated (k : Pickle R) (f0 : Option Bytes) (rs : Nat → R) (p : Nat) (done rest : List Bytes)
    (hd : k.dump (rs p) = done ++ rest) (hr : rest.flatten ≠ []) (e : Event) (he : e = .refuse p ∨ e = .raise p ∨ e = .kill p)
    (files : List Str) (parse : Parsed R) (post : R → Option R) :
    let w := run (begin k f0 rs) (.open p :: (List.replicate done.length (.write p) ++ [e]))
    (∀ r, ¬ Holds k w.file r) ∧ ∃ x, start k files true (some true) parse post w.file = .ended x := by
  have h1 : step (begin k f0 rs) (.open p) = { (begin k f0 rs).proc p (.writing 0 (done ++ rest)) with file := some [] } := by
    unfold step
    simp only [begin, hd]
  have hw := run_writes 0 p done rest (step (begin k f0 rs) (.open p)) [] (by rw [h1]) rfl (by rw [h1]; simp [World.proc])
  have hrun : run (begin k f0 rs) (.open p :: (List.replicate done.length (.write p) ++ [e])) =
      step (run (step (begin k f0 rs) (.open p)) (List.replicate done.length (.write p))) e := by
    unfold run
    rw [List.foldl_cons, List.foldl_append]
    rfl
  simp only [hrun]
  generalize run (step (begin k f0 rs) (.open p)) (List.replicate done.length (.write p)) = w at hw
  obtain ⟨hf, hp, _⟩ := hw
  have hfile : (step w e).file = some done.flatten := by
    rcases he with rfl | rfl | rfl <;> unfold step <;> simp only [hp, World.proc, hf, List.nil_append]
  have hne : ∀ x, k.load done.flatten ≠ .ok x := by
    intro x hx
    have hd' : done.flatten ++ rest.flatten = (k.dump (rs p)).flatten := by rw [hd, List.flatten_append]
    have := (prefix_loads k (rs p) done.flatten rest.flatten hd' x hx).1
    rw [← hd'] at this
    exact hr (by simpa using this.symm)
  rw [hfile]
  refine ⟨fun r ⟨b, hb, hl⟩ => ?_, ?_⟩
  · injection hb with hb
    subst hb
    exact hne r hl
  · unfold start
    split
    · exact ⟨_, rfl⟩
    · simp only [if_true]
      cases hl : k.load done.flatten with
      | ok r => exact absurd hl (hne r)
      | eof => exact ⟨_, rfl⟩
      | error => exact ⟨_, rfl⟩

/-- Two compilations at the same time, of rulesets whose pieces have the same lengths, can both end normally and leave a file that is
neither of the two. -/
theorem C162_mixed_violated (k : Pickle R) (f0 : Option Bytes) (rs : Nat → R) (a a' b b' : Bytes) (ha : k.dump (rs 0) = [a, a'])
    (hb : k.dump (rs 1) = [b, b']) (hl : a.length = b.length) (hl' : a'.length = b'.length) (hne : a ≠ b) (hne' : a' ≠ b') :
    ∃ es, (run (begin k f0 rs) es).procs 0 = .ended .normal ∧ (run (begin k f0 rs) es).procs 1 = .ended .normal ∧
      (run (begin k f0 rs) es).file ≠ some (k.dump (rs 0)).flatten ∧ (run (begin k f0 rs) es).file ≠ some (k.dump (rs 1)).flatten := by
  refine ⟨[.open 0, .open 1, .write 0, .write 1, .write 1, .write 0, .close 0, .close 1], ?_⟩
  have hfile : (run (begin k f0 rs) [.open 0, .open 1, .write 0, .write 1, .write 1, .write 0, .close 0, .close 1]).file = some (b ++ a') := by
    simp [run, step, begin, World.proc, ha, hb, writeAt, hl, hl']
  refine ⟨?_, ?_, ?_, ?_⟩
  · simp [run, step, begin, World.proc, ha, hb]
  · simp [run, step, begin, World.proc, ha, hb]
  · rw [hfile, ha]
    intro h
    simp only [List.flatten_cons, List.flatten_nil, List.append_nil, Option.some.injEq] at h
    exact hne (List.append_inj_left h.symm hl)
  · rw [hfile, hb]
    intro h
    simp only [List.flatten_cons, List.flatten_nil, List.append_nil, Option.some.injEq] at h
    exact hne' (List.append_cancel_left h)

/-- … or a file that has the end of the longer one behind the whole of the shorter one. -/
theorem C162_tail_violated (k : Pickle R) (f0 : Option Bytes) (rs : Nat → R) (a b : Bytes) (ha : k.dump (rs 0) = [a])
    (hb : k.dump (rs 1) = [b]) (hl : b.length < a.length) :
    ∃ es, (run (begin k f0 rs) es).procs 0 = .ended .normal ∧ (run (begin k f0 rs) es).procs 1 = .ended .normal ∧
      (run (begin k f0 rs) es).file = some (b ++ a.drop b.length) ∧ b ++ a.drop b.length ≠ b := by
  refine ⟨[.open 0, .open 1, .write 0, .close 0, .write 1, .close 1], ?_, ?_, ?_, ?_⟩
  · simp [run, step, begin, World.proc, ha, hb]
  · simp [run, step, begin, World.proc, ha, hb]
  · simp [run, step, begin, World.proc, ha, hb, writeAt]
  · intro h
    have := congrArg List.length h
    simp only [List.length_append, List.length_drop] at this
    omega

/-! ### The scripts -/

/-- Both scripts say so by their exit status where they cannot go on: compiling is not supported, there are no configuration
files, or the files cannot be parsed.  Only compiling files that cannot be parsed ends with an exception. -/
theorem C162_exits (k : Pickle R) (files : List Str) (serialize : Bool) (parse : Parsed R) (post : R → Option R) (file : Option Bytes) :
    compile k (some false) files parse = .ended .exit1 ∧ compile k (some true) [] parse = .ended .exit1 ∧
    start k [] serialize (some true) parse post file = .ended .exit1 ∧
    (files ≠ [] → ∀ can, (serialize = false ∨ can = some false) → (parse = .recursion ∨ parse = .parsing) →
      start k files serialize can parse post file = .ended .exit1) := by
  refine ⟨rfl, rfl, rfl, fun hf can h hp => ?_⟩
  have : (if serialize then can else some false) = some false := by
    rcases h with rfl | rfl
    · rfl
    · cases serialize <;> rfl
  unfold start
  rw [if_neg hf, this]
  rcases hp with rfl | rfl <;> rfl

/-- Without the option the rules are parsed, whatever has been compiled; so they are with the option where compiling is not supported. -/
theorem C162_parsed (k : Pickle R) (files : List Str) (hf : files ≠ []) (serialize : Bool) (can : Option Bool) (parse : Parsed R)
    (post : R → Option R) (file : Option Bytes) (h : serialize = false ∨ can = some false) (r : R) :
    (start k files serialize can parse post file = .parsed r ↔ parse = .ok r) ∧
    start k files serialize can parse post file ≠ .restored r := by
  have : (if serialize then can else some false) = some false := by
    rcases h with rfl | rfl
    · rfl
    · cases serialize <;> rfl
  unfold start
  rw [if_neg hf, this]
  cases parse <;> simp

/-- With it, where compiling is supported, they never are. -/
theorem C162_restored (k : Pickle R) (files : List Str) (parse : Parsed R) (post : R → Option R) (file : Option Bytes) (r : R) :
    start k files true (some true) parse post file ≠ .parsed r ∧
    (start k files true (some true) parse post file = .restored r → ∃ r', Holds k file r' ∧ post r' = some r) := by
  unfold start
  split
  · simp
  · simp only [if_true]
    cases file with
    | none => simp
    | some b =>
      cases hl : k.load b with
      | eof => simp [hl]
      | error => simp [hl]
      | ok r' =>
        cases hp : post r' with
        | none => simp [hl, hp]
        | some x =>
          simp only [hl, hp]
          refine ⟨by simp, fun h => ?_⟩
          injection h with h
          exact ⟨r', ⟨b, rfl, hl⟩, by rw [hp, h]⟩

/-- Compiled rules alone are not enough: without configuration files, which are not used then, the script ends. -/
theorem C162_files_violated (k : Pickle R) (can : Option Bool) (parse : Parsed R) (post : R → Option R) (file : Option Bytes) :
    start k [] true can parse post file = .ended .exit1 := rfl

/-- An empty file is reported, but a missing or a damaged one ends the script with an exception. -/
theorem C162_report_violated (k : Pickle R) (files : List Str) (hf : files ≠ []) (parse : Parsed R) (post : R → Option R) :
    start k files true (some true) parse post none = .ended .raised ∧
    (∀ b, k.load b = .error → start k files true (some true) parse post (some b) = .ended .raised) ∧
    (∀ b, k.load b = .eof → start k files true (some true) parse post (some b) = .ended .exit1) := by
  refine ⟨?_, fun b hb => ?_, fun b hb => ?_⟩ <;> unfold start <;> simp [hf, *]

/-- A ruleset is written exactly if compiling is supported, there are configuration files and they can be parsed. -/
theorem C162_compiles (k : Pickle R) (can : Option Bool) (files : List Str) (parse : Parsed R) (ps : List Bytes) :
    compile k can files parse = .waiting ps ↔ can = some true ∧ files ≠ [] ∧ ∃ r, parse = .ok r ∧ ps = k.dump r := by
  unfold compile
  cases can with
  | none => simp
  | some b =>
    cases b with
    | false => simp
    | true =>
      by_cases hf : files = []
      · simp [hf]
      · cases parse <;> simp [hf, eq_comm]

/-! ### The hypotheses can be met -/

/-- A way to write lists of two-valued things: each as two bytes, one of which says that it goes on; then the end. -/
def codeBytes : List Bool → Bytes
  | [] => [0]
  | b :: bs => [if b then 2 else 1] ++ codeBytes bs

def decodeBytes : Bytes → Loaded (List Bool)
  | [] => .eof
  | c :: cs =>
    if c = 0 then .ok []
    else if c = 1 ∨ c = 2 then
      match decodeBytes cs with
      | .ok l => .ok ((c == 2) :: l)
      | x => x
    else .error

theorem decode_code (l : List Bool) : decodeBytes (codeBytes l) = .ok l := by
  induction l with
  | nil => rfl
  | cons b l ih => cases b <;> simp [codeBytes, decodeBytes, ih] <;> decide

theorem decode_cut (l : List Bool) (b : Bytes) (hb : b <+: codeBytes l) (hne : b ≠ codeBytes l) (x : List Bool) :
    decodeBytes b ≠ .ok x := by
  induction l generalizing b x with
  | nil =>
    rcases b with _ | ⟨c, b⟩
    · simp [decodeBytes]
    · obtain ⟨t, ht⟩ := hb
      simp only [codeBytes, List.cons_append, List.cons.injEq, List.append_eq_nil_iff] at ht
      exact absurd (by simp [codeBytes, ht]) hne
  | cons y l ih =>
    rcases b with _ | ⟨c, b⟩
    · simp [decodeBytes]
    · obtain ⟨t, ht⟩ := hb
      simp only [codeBytes, List.cons_append, List.nil_append, List.cons.injEq] at ht
      have hne' : b ≠ codeBytes l := fun h => hne (by simp [codeBytes, ht.1, h])
      have := ih b ⟨t, ht.2⟩ hne'
      rw [ht.1]
      cases y <;> simp only [decodeBytes] <;> cases hd : decodeBytes b <;> simp_all

def pickleExample : Pickle (List Bool) where
  dump l := (codeBytes l).map fun c => [c]
  load := decodeBytes
  loads r := by rw [← decode_code r]; congr 1; induction codeBytes r <;> simp_all
  cut r b := by
    have : ((codeBytes r).map fun c => [c]).flatten = codeBytes r := by induction codeBytes r <;> simp_all
    rw [this]
    exact decode_cut r b

/-- The second compilation is killed after one byte: the first ruleset is lost. -/
example : (run (begin pickleExample none fun p => [p == 0]) [.open 0, .write 0, .write 0, .close 0]).file = some [2, 0] := by decide
example : (run (begin pickleExample none fun p => [p == 0]) [.open 0, .write 0, .write 0, .close 0, .open 1, .write 1, .kill 1]).file =
    some [1] := by decide
example : Alone (begin pickleExample none fun p => [p == 0]) [.open 0, .write 0, .write 0, .close 0] := by
  simp [Alone, begin, step, World.proc]
example : start pickleExample [c!"a.cf"] true (some true) .other some (some [2, 1, 0]) = .restored [true, false] := by decide
example : canCompile ⟨c!"CPython", c!"3", c!"11", c!"2"⟩ = some true := by decide
example : canCompile ⟨c!"CPython", c!"2", c!"7", c!"15+"⟩ = none := by decide
example : canCompile ⟨c!"CPython", c!"4", c!"0", c!"0"⟩ = some false := by decide
example : canCompile ⟨c!"PyPy", c!"3", c!"9", c!"10"⟩ = some false := by decide

end Verif.Props
