import Verif.Props.Report

/-!
# C184: the marks of a delivered message are those of the scanner
-/

namespace Verif.Props
open Verif Py Report Spec

/-- The name of a mark: `X-Spam-` and something, in capital or small letters. -/
def MarkName (n : Str) : Prop := c!"x-spam-" <+: lower n

/-- The lines that apply to a message with this verdict. -/
def Applies (spam : Bool) (f : For) : Prop := f = .all ∨ f = if spam then .spam else .ham

/-- The header is what an `add_header` line asks for. -/
def Ours (val : Str → Option Str) (adds : List AddLine) (spam : Bool) (p : Str × Str) : Prop :=
  ∃ l ∈ adds, Applies spam l.target ∧ p.1 = c!"X-Spam-" ++ l.name ∧ val (convertTags l.value).1 = some p.2

/-- The message that is delivered is not the original but one that has it as an attachment. -/
def Wrapped (spam headerOnly : Bool) (reportSafe : Int) : Prop := spam = true ∧ headerOnly = false ∧ reportSafe ≠ 0

theorem adjustHeaders_remove (val : Str → Option Str) (m : Mod) (ms : List Mod) (h : Hdrs) (hm : m.remove = true) :
    adjustHeaders val (m :: ms) h = adjustHeaders val ms (h.filter (fun p => lower p.1 ≠ lower m.name)) := by
  rw [adjustHeaders, if_pos hm]

theorem adjustHeaders_add (val : Str → Option Str) (m : Mod) (ms : List Mod) (h h' : Hdrs) (hm : m.remove = false)
    (e : adjustHeaders val (m :: ms) h = some h') : ∃ v, val m.value = some v ∧ adjustHeaders val ms (h ++ [(m.name, v)]) = some h' := by
  rw [adjustHeaders, if_neg (by simp [hm])] at e
  cases hv : val m.value with
  | none => rw [hv] at e; cases e
  | some v => rw [hv] at e; exact ⟨v, rfl, e⟩

/-- Every header was there before or was added. -/
theorem adjust_origin (val : Str → Option Str) (ms : List Mod) (h h' : Hdrs) (e : adjustHeaders val ms h = some h') :
    ∀ p ∈ h', p ∈ h ∨ ∃ m ∈ ms, m.remove = false ∧ p.1 = m.name ∧ val m.value = some p.2 := by
  induction ms generalizing h with
  | nil => cases e; exact fun p hp => .inl hp
  | cons m ms ih =>
    intro p hp
    cases hm : m.remove with
    | true =>
      rw [adjustHeaders_remove val m ms h hm] at e
      rcases ih _ e p hp with hx | ⟨x, hx, rest⟩
      · exact .inl (List.mem_filter.mp hx).1
      · exact .inr ⟨x, by simp [hx], rest⟩
    | false =>
      obtain ⟨v, hv, e⟩ := adjustHeaders_add val m ms h h' hm e
      rcases ih _ e p hp with hx | ⟨x, hx, rest⟩
      · rcases List.mem_append.mp hx with hx | hx
        · exact .inl hx
        · rw [List.mem_singleton.mp hx]
          exact .inr ⟨m, by simp, hm, rfl, hv⟩
      · exact .inr ⟨x, by simp [hx], rest⟩

/-- Headers that are not removed stay, and come first. -/
theorem adjust_stays (val : Str → Option Str) (n : Str) (ms : List Mod) (h h' : Hdrs) (e : adjustHeaders val ms h = some h')
    (hr : ∀ m ∈ ms, m.remove = true → ¬ SameName m.name n) :
    ∃ more, h'.filter (fun p => SameName p.1 n) = h.filter (fun p => SameName p.1 n) ++ more := by
  induction ms generalizing h with
  | nil => cases e; exact ⟨[], by simp⟩
  | cons m ms ih =>
    have hr' : ∀ x ∈ ms, x.remove = true → ¬ SameName x.name n := fun x hx => hr x (by simp [hx])
    cases hm : m.remove with
    | true =>
      rw [adjustHeaders_remove val m ms h hm] at e
      obtain ⟨more, hx⟩ := ih _ e hr'
      refine ⟨more, ?_⟩
      rw [hx, List.filter_filter]
      congr 1
      apply List.filter_congr
      intro p _
      have hne := hr m (by simp) hm
      by_cases hp : SameName p.1 n
      · have : lower p.1 ≠ lower m.name := fun he => hne (he.symm.trans hp)
        simp [hp, this]
      · simp [hp]
    | false =>
      obtain ⟨v, -, e⟩ := adjustHeaders_add val m ms h h' hm e
      obtain ⟨more, hx⟩ := ih _ e hr'
      rw [List.filter_append, List.append_assoc] at hx
      exact ⟨_, hx⟩

/-- What is added after the last removal is there. -/
theorem adjust_adds (val : Str → Option Str) (n : Str) (ms : List Mod) (h h' : Hdrs) (e : adjustHeaders val ms h = some h')
    (hr : ∀ m ∈ ms, m.remove = true → ¬ SameName m.name n) (m : Mod) (hm : m ∈ ms) (ha : m.remove = false) (hn : SameName m.name n) :
    ∃ v, val m.value = some v ∧ (m.name, v) ∈ h' := by
  induction ms generalizing h with
  | nil => cases hm
  | cons x ms ih =>
    have hr' : ∀ x ∈ ms, x.remove = true → ¬ SameName x.name n := fun x hx => hr x (by simp [hx])
    cases hx : x.remove with
    | true =>
      rw [adjustHeaders_remove val x ms h hx] at e
      rcases List.mem_cons.mp hm with rfl | hm
      · rw [hx] at ha; cases ha
      · exact ih _ e hr' hm
    | false =>
      obtain ⟨v, hv, e⟩ := adjustHeaders_add val x ms h h' hx e
      rcases List.mem_cons.mp hm with rfl | hm
      · refine ⟨v, hv, ?_⟩
        obtain ⟨more, hk⟩ := adjust_stays val n ms _ h' e hr'
        have : (m.name, v) ∈ h'.filter (fun p => SameName p.1 n) := by
          rw [hk]
          simp [hn]
        exact (List.mem_filter.mp this).1
      · exact ih _ e hr' hm

/-- After a removal only what is added later is there. -/
theorem adjust_takes (val : Str → Option Str) (n : Str) (ms : List Mod) (h h' : Hdrs) (e : adjustHeaders val ms h = some h')
    (ha : ∀ m ∈ ms, m.remove = false → ¬ SameName m.name n) (hr : ∃ m ∈ ms, m.remove = true ∧ SameName m.name n) :
    ∀ p ∈ h', ¬ SameName p.1 n := by
  induction ms generalizing h with
  | nil => obtain ⟨m, hm, -⟩ := hr; cases hm
  | cons x ms ih =>
    have ha' : ∀ x ∈ ms, x.remove = false → ¬ SameName x.name n := fun x hx => ha x (by simp [hx])
    by_cases hlater : ∃ m ∈ ms, m.remove = true ∧ SameName m.name n
    · cases hx : x.remove with
      | true => rw [adjustHeaders_remove val x ms h hx] at e; exact ih _ e ha' hlater
      | false =>
        obtain ⟨v, -, e⟩ := adjustHeaders_add val x ms h h' hx e
        exact ih _ e ha' hlater
    · obtain ⟨m, hm, h1, h2⟩ := hr
      have hxm : m = x := by
        rcases List.mem_cons.mp hm with hm | hm
        · exact hm
        · exact absurd ⟨m, hm, h1, h2⟩ hlater
      subst hxm
      rw [adjustHeaders_remove val m ms h h1] at e
      intro p hp hs
      rcases adjust_origin val ms _ h' e p hp with hq | ⟨y, hy, hy1, hy2, -⟩
      · have := (List.mem_filter.mp hq).2
        simp only [ne_eq, decide_not, Bool.not_eq_eq_eq_not, Bool.not_true, decide_eq_false_iff_not] at this
        exact this (hs.trans h2.symm)
      · exact ha' y hy hy1 (hy2 ▸ hs)

/-- The modifications in the order they are made. -/
theorem adjusted_parts (spam headerOnly : Bool) (reportSafe : Int) (mods : Mods) (val : Str → Option Str) (report : Option Str) (orig bounce h : Hdrs)
    (e : adjusted spam headerOnly reportSafe mods val report orig bounce = some h) :
    ∃ h0 h1, adjustHeaders val mods.all h0 = some h1 ∧ adjustHeaders val (if spam then mods.spam else mods.ham) h1 = some h ∧
      ((reportSafe = 0 ∧ ∃ r, report = some r ∧ h0 = orig ++ [(c!"X-Spam-Report", r)]) ∨
        (reportSafe ≠ 0 ∧ (spam = false ∨ headerOnly = true) ∧ h0 = orig) ∨ (Wrapped spam headerOnly reportSafe ∧ h0 = bounce)) := by
  by_cases hr : reportSafe = 0
  · unfold adjusted at e
    simp only [hr, decide_true, Bool.or_true, if_true] at e
    cases report with
    | none => simp at e
    | some r =>
      simp only [Option.map_some, Option.bind_some] at e
      cases h1 : adjustHeaders val mods.all (orig ++ [(c!"X-Spam-Report", r)]) with
      | none => rw [h1] at e; simp at e
      | some x =>
        rw [h1] at e
        exact ⟨_, x, h1, e, .inl ⟨hr, r, rfl, rfl⟩⟩
  · by_cases hw : spam = false ∨ headerOnly = true
    · have e : (adjustHeaders val mods.all orig).bind (adjustHeaders val (if spam then mods.spam else mods.ham)) = some h := by
        unfold adjusted at e
        simpa [hw, hr] using e
      cases h1 : adjustHeaders val mods.all orig with
      | none => rw [h1] at e; simp at e
      | some x =>
        rw [h1] at e
        exact ⟨_, x, h1, e, .inr (.inl ⟨hr, hw, rfl⟩)⟩
    · have hs : spam = true := by
        cases spam with
        | true => rfl
        | false => exact absurd (.inl rfl) hw
      have hh : headerOnly = false := by
        cases headerOnly with
        | false => rfl
        | true => exact absurd (.inr rfl) hw
      subst hs hh
      have e : (adjustHeaders val mods.all bounce).bind (adjustHeaders val (if true then mods.spam else mods.ham)) = some h := by
        unfold adjusted at e
        simpa [hr] using e
      cases h1 : adjustHeaders val mods.all bounce with
      | none => rw [h1] at e; simp at e
      | some x =>
        rw [h1] at e
        exact ⟨_, x, h1, e, .inr (.inr ⟨⟨rfl, rfl, hr⟩, rfl⟩)⟩

theorem mods_of (adds : List AddLine) (removes : List RemoveLine) (mods : Mods)
    (h : readMods (adds.map AddLine.text) (removes.map RemoveLine.text) = some mods) (f : For) (m : Mod) :
    m ∈ f.list mods ↔ (∃ l ∈ adds, l.target = f ∧ m = ⟨false, c!"X-Spam-" ++ l.name, (convertTags l.value).1⟩) ∨
      ∃ l ∈ removes, l.target = f ∧ m = ⟨true, c!"X-Spam-" ++ l.name, []⟩ := by
  obtain ⟨mods', h1, h2⟩ := C56_read adds removes
  rw [h1] at h
  injection h with h
  subst h
  rw [h2 f, List.mem_append, List.mem_map, List.mem_map]
  constructor
  · rintro (⟨l, hl, rfl⟩ | ⟨l, hl, rfl⟩)
    · obtain ⟨a, b⟩ := List.mem_filter.mp hl
      exact .inl ⟨l, a, by simpa using b, rfl⟩
    · obtain ⟨a, b⟩ := List.mem_filter.mp hl
      exact .inr ⟨l, a, by simpa using b, rfl⟩
  · rintro (⟨l, a, b, rfl⟩ | ⟨l, a, b, rfl⟩)
    · exact .inl ⟨l, List.mem_filter.mpr ⟨a, by simpa using b⟩, rfl⟩
    · exact .inr ⟨l, List.mem_filter.mpr ⟨a, by simpa using b⟩, rfl⟩

theorem verdict_list (spam : Bool) (mods : Mods) :
    (if spam then mods.spam else mods.ham) = (if spam then For.spam else For.ham).list mods := by
  cases spam <;> rfl

/-- Every header of the delivered message was there or is what a line asks for. -/
theorem delivered_origin (adds : List AddLine) (removes : List RemoveLine) (mods : Mods)
    (hm : readMods (adds.map AddLine.text) (removes.map RemoveLine.text) = some mods) (spam : Bool) (val : Str → Option Str) (h0 h1 h : Hdrs)
    (e1 : adjustHeaders val mods.all h0 = some h1) (e2 : adjustHeaders val (if spam then mods.spam else mods.ham) h1 = some h) :
    ∀ p ∈ h, p ∈ h0 ∨ Ours val adds spam p := by
  have key : ∀ f, Applies spam f → ∀ m ∈ f.list mods, m.remove = false → ∀ p : Str × Str, p.1 = m.name → val m.value = some p.2 → Ours val adds spam p := by
    intro f hf m hmem hr p hp hv
    rcases (mods_of adds removes mods hm f m).mp hmem with ⟨l, hl, ht, rfl⟩ | ⟨l, hl, ht, rfl⟩
    · exact ⟨l, hl, ht ▸ hf, hp, hv⟩
    · cases hr
  intro p hp
  rcases adjust_origin val _ h1 h e2 p hp with hq | ⟨m, hmem, hr, hn, hv⟩
  · rcases adjust_origin val _ h0 h1 e1 p hq with hq | ⟨m, hmem, hr, hn, hv⟩
    · exact .inl hq
    · exact .inr (key .all (.inl rfl) m hmem hr p hn hv)
  · rw [verdict_list] at hmem
    exact .inr (key _ (.inr rfl) m hmem hr p hn hv)

/-- **C184**, part.  If the message came without marks, those it is delivered with are what the `add_header` lines for its verdict ask for, and
the report that `report_safe 0` adds.  Missing: messages that came with marks (`C184_forged_violated`). -/
theorem C184_clean_partial (adds : List AddLine) (removes : List RemoveLine) (mods : Mods)
    (hm : readMods (adds.map AddLine.text) (removes.map RemoveLine.text) = some mods) (spam headerOnly : Bool) (reportSafe : Int)
    (val : Str → Option Str) (report : Option Str) (orig : Hdrs) (received now : Str) (get : Str → Option Str) (h : Hdrs)
    (hc : ∀ p ∈ orig, ¬ MarkName p.1)
    (e : adjusted spam headerOnly reportSafe mods val report orig (bounceHeaders received now get) = some h) :
    ∀ p ∈ h, MarkName p.1 → Ours val adds spam p ∨ (reportSafe = 0 ∧ p.1 = c!"X-Spam-Report" ∧ report = some p.2) := by
  obtain ⟨h0, h1, e1, e2, hx⟩ := adjusted_parts spam headerOnly reportSafe mods val report orig _ h e
  intro p hp hmark
  rcases delivered_origin adds removes mods hm spam val h0 h1 h e1 e2 p hp with hq | ho
  · rcases hx with ⟨hr, r, hrep, rfl⟩ | ⟨-, -, rfl⟩ | ⟨-, rfl⟩
    · rcases List.mem_append.mp hq with hq | hq
      · exact absurd hmark (hc p hq)
      · rw [List.mem_singleton.mp hq]
        exact .inr ⟨hr, rfl, hrep⟩
    · exact absurd hmark (hc p hq)
    · exfalso
      have hb : p.1 ∈ [c!"Content-Type", c!"MIME-Version", c!"Received", c!"From", c!"To", c!"Subject", c!"Date"] := by
        unfold bounceHeaders at hq
        simp only [List.mem_append, List.mem_cons, List.not_mem_nil, or_false, Option.mem_toList, Option.map_eq_some_iff] at hq
        rcases hq with (((hq | ⟨_, _, rfl⟩) | ⟨_, _, rfl⟩) | ⟨_, _, rfl⟩) | rfl
        · rcases hq with rfl | rfl | rfl <;> simp
        all_goals simp
      have : ∀ n ∈ [c!"Content-Type", c!"MIME-Version", c!"Received", c!"From", c!"To", c!"Subject", c!"Date"], ¬ (c!"x-spam-" <+: lower n) := by
        decide
      exact this _ hb hmark
  · exact .inl ho

/-- **C184**, part.  Spam that is delivered as an attachment has only marks that `add_header` lines ask for, whatever marks it came with. -/
theorem C184_wrapped_partial (adds : List AddLine) (removes : List RemoveLine) (mods : Mods)
    (hm : readMods (adds.map AddLine.text) (removes.map RemoveLine.text) = some mods) (spam headerOnly : Bool) (reportSafe : Int)
    (hw : Wrapped spam headerOnly reportSafe) (val : Str → Option Str) (report : Option Str) (orig : Hdrs) (received now : Str)
    (get : Str → Option Str) (h : Hdrs)
    (e : adjusted spam headerOnly reportSafe mods val report orig (bounceHeaders received now get) = some h) :
    ∀ p ∈ h, MarkName p.1 → Ours val adds spam p := by
  have e' : adjusted spam headerOnly reportSafe mods val report [] (bounceHeaders received now get) = some h := by
    obtain ⟨rfl, rfl, hr⟩ := hw
    unfold adjusted at e ⊢
    simpa [hr] using e
  intro p hp hmark
  rcases C184_clean_partial adds removes mods hm spam headerOnly reportSafe val report [] received now get h (by simp) e' p hp hmark with ho | ⟨hr, -⟩
  · exact ho
  · exact absurd hr hw.2.2

/-- **C184**, part.  A way to keep forged marks out: remove the name from all messages, and add it only for spam or only for ham.  Then the
marks of that name are exactly those of the `add_header` lines for the verdict. -/
theorem C184_protected_partial (adds : List AddLine) (removes : List RemoveLine) (mods : Mods)
    (hm : readMods (adds.map AddLine.text) (removes.map RemoveLine.text) = some mods) (name : Str)
    (hr : ∃ r ∈ removes, r.target = .all ∧ SameName (c!"X-Spam-" ++ r.name) name)
    (ho : ∀ r ∈ removes, SameName (c!"X-Spam-" ++ r.name) name → r.target = .all)
    (ha : ∀ l ∈ adds, SameName (c!"X-Spam-" ++ l.name) name → l.target ≠ .all)
    (spam headerOnly : Bool) (reportSafe : Int) (val : Str → Option Str) (report : Option Str) (orig bounce h : Hdrs)
    (e : adjusted spam headerOnly reportSafe mods val report orig bounce = some h) :
    (∀ p ∈ h, SameName p.1 name → Ours val adds spam p) ∧
    ∀ l ∈ adds, l.target = (if spam then .spam else .ham) → SameName (c!"X-Spam-" ++ l.name) name →
      ∃ v, val (convertTags l.value).1 = some v ∧ (c!"X-Spam-" ++ l.name, v) ∈ h := by
  obtain ⟨h0, h1, e1, e2, -⟩ := adjusted_parts spam headerOnly reportSafe mods val report orig bounce h e
  have hgone : ∀ p ∈ h1, ¬ SameName p.1 name := by
    refine adjust_takes val name mods.all h0 h1 e1 ?_ ?_
    · intro m hmem hrem hs
      rcases (mods_of adds removes mods hm .all m).mp hmem with ⟨l, hl, ht, rfl⟩ | ⟨l, hl, ht, rfl⟩
      · exact ha l hl hs ht
      · cases hrem
    · obtain ⟨r, h1, h2, h3⟩ := hr
      exact ⟨_, (mods_of adds removes mods hm .all _).mpr (.inr ⟨r, h1, h2, rfl⟩), rfl, h3⟩
  have hnr : ∀ m ∈ (if spam then mods.spam else mods.ham), m.remove = true → ¬ SameName m.name name := by
    intro m hmem hrem hs
    rw [verdict_list] at hmem
    rcases (mods_of adds removes mods hm _ m).mp hmem with ⟨l, hl, ht, rfl⟩ | ⟨l, hl, ht, rfl⟩
    · cases hrem
    · have := ho l hl hs
      rw [this] at ht
      cases spam <;> cases ht
  constructor
  · intro p hp hs
    rcases adjust_origin val _ h1 h e2 p hp with hq | ⟨m, hmem, hrem, hn, hv⟩
    · exact absurd hs (hgone p hq)
    · rw [verdict_list] at hmem
      rcases (mods_of adds removes mods hm _ m).mp hmem with ⟨l, hl, ht, rfl⟩ | ⟨l, hl, ht, rfl⟩
      · exact ⟨l, hl, .inr ht, hn, hv⟩
      · cases hrem
  · intro l hl ht hs
    have hmem : (⟨false, c!"X-Spam-" ++ l.name, (convertTags l.value).1⟩ : Mod) ∈ (if spam then mods.spam else mods.ham) := by
      rw [verdict_list]
      exact (mods_of adds removes mods hm _ _).mpr (.inl ⟨l, hl, ht, rfl⟩)
    exact adjust_adds val name _ h1 h e2 hnr _ hmem rfl hs

/-- **C184**, negation.  A mark that the sender wrote stays, and stands before the one that is added, unless a `remove_header` line for the
verdict names it: whatever the other lines, the settings and the verdict, if the message is not delivered as an attachment. -/
theorem C184_forged_violated (adds : List AddLine) (removes : List RemoveLine) (mods : Mods)
    (hm : readMods (adds.map AddLine.text) (removes.map RemoveLine.text) = some mods) (name : Str) (spam : Bool)
    (ho : ∀ r ∈ removes, Applies spam r.target → ¬ SameName (c!"X-Spam-" ++ r.name) name)
    (headerOnly : Bool) (reportSafe : Int) (hw : ¬ Wrapped spam headerOnly reportSafe) (val : Str → Option Str) (report : Option Str)
    (orig bounce h : Hdrs) (e : adjusted spam headerOnly reportSafe mods val report orig bounce = some h) :
    ∃ more, h.filter (fun p => SameName p.1 name) = orig.filter (fun p => SameName p.1 name) ++ more := by
  obtain ⟨h0, h1, e1, e2, hx⟩ := adjusted_parts spam headerOnly reportSafe mods val report orig bounce h e
  have key : ∀ f, Applies spam f → ∀ m ∈ f.list mods, m.remove = true → ¬ SameName m.name name := by
    intro f hf m hmem hrem
    rcases (mods_of adds removes mods hm f m).mp hmem with ⟨l, hl, ht, rfl⟩ | ⟨l, hl, ht, rfl⟩
    · cases hrem
    · exact ho l hl (ht ▸ hf)
  obtain ⟨m1, k1⟩ := adjust_stays val name _ h0 h1 e1 (key .all (.inl rfl))
  obtain ⟨m2, k2⟩ := adjust_stays val name _ h1 h e2 (by rw [verdict_list]; exact key _ (.inr rfl))
  rcases hx with ⟨-, r, -, rfl⟩ | ⟨-, -, rfl⟩ | ⟨hw', -⟩
  · rw [List.filter_append, List.append_assoc] at k1
    exact ⟨_, by rw [k2, k1, List.append_assoc]⟩
  · exact ⟨m1 ++ m2, by rw [k2, k1, List.append_assoc]⟩
  · exact absurd hw' hw

/-! ## The hypotheses can be met -/

/-- `add_header ham Flag NO`. -/
def flagLine : AddLine := ⟨c!"ham", .ham, c!"Flag", c!"NO", rfl, ⟨by decide, by decide⟩, 'N', c!"O", rfl, by decide⟩

/-- `remove_header all Flag`. -/
def flagGone : RemoveLine := ⟨c!"all", .all, c!"Flag", rfl, ⟨by decide, by decide⟩⟩

example : ((readMods [AddLine.text flagLine] []).bind fun mods =>
      adjusted true true 1 mods some none [(c!"x-spam-flag", c!"NO"), (c!"To", c!"me")] []) = some [(c!"x-spam-flag", c!"NO"), (c!"To", c!"me")] ∧
    ((readMods [AddLine.text flagLine] [RemoveLine.text flagGone]).bind fun mods =>
      adjusted true true 1 mods some none [(c!"x-spam-flag", c!"NO"), (c!"To", c!"me")] []) = some [(c!"To", c!"me")] ∧
    ((readMods [AddLine.text flagLine] [RemoveLine.text flagGone]).bind fun mods =>
      adjusted false true 1 mods some none [(c!"x-spam-flag", c!"maybe"), (c!"To", c!"me")] []) = some [(c!"To", c!"me"), (c!"X-Spam-Flag", c!"NO")] := by
  decide +kernel

example : Wrapped true false 1 ∧ ¬ Wrapped true true 1 ∧ MarkName c!"X-SPAM-flag" := by
  unfold Wrapped MarkName
  decide

end Verif.Props
