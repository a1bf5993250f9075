import Verif.Model.HeadText
import Verif.Model.SpamdReport
import Verif.Spec.HeadText
import Verif.Props.HeadEnd
import Verif.Props.Marks
import Verif.Props.Dkim
import Verif.Props.Build

/-!
# C185: the text of the delivered message has the headers and the body
-/

namespace Verif.Props
open Verif Py Report HeadText Spec Spec.HeadEnd Spec.HeadText

theorem oneLine_break {v : Str} (h : OneLine v) : ∀ c ∈ v, MimeEval.isBreak c = false := by
  refine unbroken (fun hc => (h _ hc).2.1 rfl) (fun hc => (h _ hc).1 rfl) (fun c hc => (h c hc).2.2)

theorem embedded_one : ∀ {v : Str}, '\n' ∉ v → embedded v = false
  | [], _ => rfl
  | c :: s, h => by
    have hc : c ≠ '\n' := fun e => h (by simp [e])
    simp [embedded, hc, embedded_one (v := s) (fun hs => h (by simp [hs]))]

theorem bare_one : ∀ {v : Str}, '\n' ∉ v → bare v = false
  | [], _ => rfl
  | c :: s, h => by
    have hc : c ≠ '\n' := fun e => h (by simp [e])
    simp [bare, hc, bare_one (v := s) (fun hs => h (by simp [hs]))]

theorem bare_found (a : Str) (d : Char) (b : Str) (h1 : d ≠ ' ') (h2 : d ≠ '\t') : bare (a ++ '\n' :: d :: b) = true := by
  induction a with
  | nil => simp [bare, h1, h2]
  | cons c a ih =>
    show (_ || bare (a ++ '\n' :: d :: b)) = true
    rw [ih, Bool.or_true]

theorem fieldName_newline {n : Str} (h : FieldName n) : '\n' ∉ n := by
  intro hc
  have := (h _ hc).1
  revert this
  decide

theorem star_not_header (x : Str) : ¬ HeaderLine (c!"* " ++ x) := by
  rintro h
  generalize e : c!"* " ++ x = l at h
  cases h with
  | envelope r => injection e with e _; exact absurd e (by decide)
  | field name r hn =>
    cases name with
    | nil => injection e with e _; exact absurd e (by decide)
    | cons a name =>
      injection e with e1 e2
      cases name with
      | nil => injection e2 with e2 _; exact absurd e2 (by decide)
      | cons b name =>
        injection e2 with e2 _
        have := (hn b (by simp)).1
        rw [← e2] at this
        exact absurd this (by decide)
  | folded c r hc =>
    injection e with e _
    rcases hc with hc | hc <;> rw [hc] at e <;> exact absurd e (by decide)

theorem linesFrom_start (s cur : Str) (hc : cur ≠ []) : ∃ l ls, MimeEval.linesFrom cur s = (cur ++ l) :: ls := by
  induction s generalizing cur with
  | nil => exact ⟨[], [], by simp [MimeEval.linesFrom, hc]⟩
  | cons c s ih =>
    unfold MimeEval.linesFrom
    split
    · contradiction
    · exact ⟨[], _, by simp; rfl⟩
    · rename_i c' r' h1 h2
      injection h2 with h2 h3
      subst h2; subst h3
      split
      · exact ⟨[], _, by simp; rfl⟩
      · obtain ⟨l, ls, e⟩ := ih (cur ++ [c]) (by simp)
        exact ⟨c :: l, ls, by rw [e]; simp⟩

/-- The report begins with an empty line, and its second line with a star. -/
theorem encoded_star (x : Str) : ∃ l, encoded (c!"\r\n* " ++ x) = c!"\n* " ++ l := by
  have h : MimeEval.splitlines (c!"\r\n* " ++ x) = [] :: MimeEval.linesFrom c!"* " x := by
    show MimeEval.linesFrom [] ('\r' :: '\n' :: '*' :: ' ' :: x) = _
    rw [MimeEval.linesFrom]
    congr 1
  obtain ⟨l, ls, e⟩ := linesFrom_start x c!"* " (by simp)
  unfold encoded
  rw [h, e]
  cases ls with
  | nil => exact ⟨l, by simp [join]⟩
  | cons a ls => exact ⟨l ++ c!"\n" ++ join c!"\n" (a :: ls), by simp [join]⟩

theorem reportLines_some {S X : Type} (shw : S → Str) (st : RuleSt S X) (s : MsgSt S X) :
    ∀ (d : Dict Str Int) (ls : List Str), reportLines shw st s d = some ls → (∃ p ∈ d, p.2 ≠ 0) →
      ∃ x ls', ls = (c!"* " ++ x) :: ls'
  | [], ls, _, h => by obtain ⟨p, hp, _⟩ := h; cases hp
  | (name, v) :: rest, ls, e, h => by
    rw [reportLines] at e
    by_cases hv : v = 0
    · rw [if_pos hv] at e
      refine reportLines_some shw st s rest ls e ?_
      obtain ⟨p, hp, hne⟩ := h
      rcases List.mem_cons.mp hp with rfl | hp
      · exact absurd hv hne
      · exact ⟨p, hp, hne⟩
    · rw [if_neg hv] at e
      split at e
      · obtain ⟨ls', -, rfl⟩ := Option.map_eq_some_iff.mp e
        exact ⟨_, ls', by simp only [reportLine, List.append_assoc]; rfl⟩
      · cases e

theorem report_star {S X : Type} (shw : S → Str) (st : RuleSt S X) (s : MsgSt S X) (r : Str) (e : matchedReport shw st s = some r)
    (h : ∃ p ∈ s.checked, p.2 ≠ 0) : ∃ x, r = c!"\r\n* " ++ x := by
  obtain ⟨ls, h1, rfl⟩ := Option.map_eq_some_iff.mp e
  obtain ⟨x, ls', rfl⟩ := reportLines_some shw st s _ _ h1 h
  cases ls' with
  | nil => exact ⟨x, by simp [join]⟩
  | cons a ls' => exact ⟨x ++ c!"\r\n" ++ join c!"\r\n" (a :: ls'), by simp [join]⟩

theorem write_strict (before after : Hdrs) (n v a b : Str) (d : Char) (he : encoded v = a ++ '\n' :: d :: b) (h1 : d ≠ ' ') (h2 : d ≠ '\t') :
    writeHeaders true (before ++ (n, v) :: after) = none := by
  induction before with
  | nil =>
    rw [List.nil_append, writeHeaders]
    have hb : bare (n ++ c!": " ++ encoded v) = true := by
      rw [he, ← List.append_assoc]
      exact bare_found _ d b h1 h2
    rw [hb]
    simp
  | cons p before ih =>
    obtain ⟨m, w⟩ := p
    rw [List.cons_append, writeHeaders, ih]
    simp

theorem write_lax (before after : Hdrs) (n v text : Str) (e : writeHeaders false (before ++ (n, v) :: after) = some text) :
    ∃ t0 t1, text = t0 ++ n ++ c!": " ++ encoded v ++ c!"\n" ++ t1 ∧ writeHeaders false before = some (t0 ++ c!"\n") ∧
      writeHeaders false after = some t1 := by
  induction before generalizing text with
  | nil =>
    rw [List.nil_append, writeHeaders] at e
    split at e
    · cases e
    · rw [Bool.false_and, if_neg (by simp)] at e
      obtain ⟨t1, h1, rfl⟩ := Option.map_eq_some_iff.mp e
      exact ⟨[], t1, by simp, rfl, h1⟩
  | cons p before ih =>
    obtain ⟨m, w⟩ := p
    rw [List.cons_append, writeHeaders] at e
    split at e
    · cases e
    · rename_i hem
      rw [Bool.false_and, if_neg (by simp)] at e
      obtain ⟨t, h1, rfl⟩ := Option.map_eq_some_iff.mp e
      obtain ⟨t0, t1, rfl, h2, h3⟩ := ih t h1
      refine ⟨m ++ c!": " ++ encoded w ++ c!"\n" ++ t0, t1, by simp, ?_, h3⟩
      rw [writeHeaders]
      rw [if_neg hem, Bool.false_and, if_neg (by simp), h2]
      simp

/-- What a reader takes for the headers ends before a line that is no header line. -/
theorem head_before (A B head rest : List Str) (l : Str) (hl : ¬ HeaderLine l) (h : Head (A ++ l :: B) head rest) : head <+: A := by
  obtain ⟨h1, h2, -⟩ := h
  rcases List.append_eq_append_iff.mp h1 with ⟨c, hc, hr⟩ | ⟨c, hc, -⟩
  · cases c with
    | nil => simp at hc; rw [hc]; exact List.prefix_rfl
    | cons x c =>
      injection hr with hx _
      exact absurd (h2 l (by rw [hc, hx]; simp)) hl
  · exact ⟨c, hc.symm⟩

theorem oneLine_newline {l : Str} (h : OneLine l) : '\n' ∉ l := fun hc => (h _ hc).1 rfl

theorem lines_folded (f : Str) (more : List Str) (hf : OneLine f) (hm : ∀ l ∈ more, Continues l) (hne : f ≠ [] ∨ more ≠ []) :
    MimeEval.splitlines (join c!"\n" (f :: more)) = f :: more := by
  induction more generalizing f with
  | nil =>
    show MimeEval.linesFrom [] f = _
    rw [lines_last f [] (oneLine_break hf)]
    simp at hne
    simp [hne]
  | cons x more ih =>
    obtain ⟨hx, c, r, e, -⟩ := hm x (by simp)
    rw [show join c!"\n" (f :: x :: more) = f ++ '\n' :: join c!"\n" (x :: more) by simp [join], lines_one f _ (oneLine_break hf),
      ih x hx (fun l hl => hm l (by simp [hl])) (.inl (by simp [e]))]

theorem encoded_folded (f : Str) (more : List Str) (hf : OneLine f) (hm : ∀ l ∈ more, Continues l) :
    encoded (join c!"\n" (f :: more)) = join c!"\n" (f :: more) := by
  by_cases hne : f ≠ [] ∨ more ≠ []
  · unfold encoded
    rw [lines_folded f more hf hm hne]
  · simp only [not_or, ne_eq, Classical.not_not] at hne
    rw [hne.1, hne.2]
    rfl

theorem embedded_skip (f t : Str) (h : '\n' ∉ f) : embedded (f ++ t) = embedded t := by
  induction f with
  | nil => rfl
  | cons c f ih =>
    have hc : c ≠ '\n' := fun e => h (by simp [e])
    show ((c == '\n' && _) || embedded (f ++ t)) = _
    rw [ih (fun hs => h (by simp [hs]))]
    simp [hc]

theorem bare_skip (f t : Str) (h : '\n' ∉ f) : bare (f ++ t) = bare t := by
  induction f with
  | nil => rfl
  | cons c f ih =>
    have hc : c ≠ '\n' := fun e => h (by simp [e])
    show ((c == '\n' && _) || bare (f ++ t)) = _
    rw [ih (fun hs => h (by simp [hs]))]
    simp [hc]

theorem embedded_folded (f : Str) (more : List Str) (hf : '\n' ∉ f) (hm : ∀ l ∈ more, Continues l) :
    embedded (join c!"\n" (f :: more)) = false ∧ bare (join c!"\n" (f :: more)) = false := by
  induction more generalizing f with
  | nil => exact ⟨embedded_one hf, bare_one hf⟩
  | cons x more ih =>
    obtain ⟨hx, c, r, e, hc, -⟩ := hm x (by simp)
    obtain ⟨i1, i2⟩ := ih x (oneLine_newline hx) (fun l hl => hm l (by simp [hl]))
    have hj : ∃ z, join c!"\n" (x :: more) = c :: z := by
      rw [e]
      cases more with
      | nil => exact ⟨r, rfl⟩
      | cons y more => exact ⟨_, rfl⟩
    obtain ⟨z, hz⟩ := hj
    rw [show join c!"\n" (f :: x :: more) = f ++ '\n' :: join c!"\n" (x :: more) by simp [join], embedded_skip f _ hf, bare_skip f _ hf]
    rw [hz] at i1 i2 ⊢
    constructor
    · show (('\n' == '\n' && ((List.takeWhile (fun d => d != ' ' && d != '\t') (c :: z)).drop 1).contains ':') || embedded (c :: z)) = false
      rw [i1]
      rcases hc with rfl | rfl <;> simp
    · show (('\n' == '\n' && (c != ' ' && c != '\t')) || bare (c :: z)) = false
      rw [i2]
      rcases hc with rfl | rfl <;> simp

theorem split_folded (pre f : Str) (more : List Str) (hp : '\n' ∉ pre) (hf : '\n' ∉ f) (hm : ∀ l ∈ more, '\n' ∉ l) :
    splitChar '\n' (pre ++ join c!"\n" (f :: more)) = (pre ++ f) :: more := by
  have hpf : '\n' ∉ pre ++ f := by simp [hp, hf]
  induction more generalizing pre f with
  | nil => exact splitChar_nocomma hpf
  | cons x more ih =>
    have hx : '\n' ∉ x := hm x (by simp)
    rw [show pre ++ join c!"\n" (f :: x :: more) = (pre ++ f) ++ '\n' :: ([] ++ join c!"\n" (x :: more)) by simp [join],
      splitChar_append _ hpf, ih [] x (by simp) hx (fun l hl => hm l (by simp [hl])) (by simpa using hx)]
    rfl

/-- **C185**, part.  If the headers are proper ones, whose values may be folded, every version of Python writes the message; a reader finds
exactly the lines of the headers, in order, and after the empty line the body. -/
theorem C185_kept_partial (strict : Bool) (fs : List Field) (body : Str) (hf : ∀ f ∈ fs, f.Proper) :
    ∃ text, delivered strict (fs.map Field.header) body = some text ∧
      Head (splitChar '\n' text) (fs.flatMap Field.lines) ([] :: splitChar '\n' (Wrap.normNl body)) := by
  have hw : ∃ t, writeHeaders strict (fs.map Field.header) = some t ∧
      ∀ b, splitChar '\n' (t ++ b) = fs.flatMap Field.lines ++ [] :: splitChar '\n' b := by
    induction fs with
    | nil => exact ⟨c!"\n", rfl, fun b => by simp [splitChar]⟩
    | cons f fs ih =>
      obtain ⟨t, h1, h2⟩ := ih (fun q hq => hf q (by simp [hq]))
      obtain ⟨hn, hv, hc⟩ := hf f (by simp)
      obtain ⟨n, v, more⟩ := f
      dsimp only at hn hv hc
      have hpre : '\n' ∉ n ++ c!": " := by
        simp only [List.mem_append, not_or]
        exact ⟨fieldName_newline hn, by decide⟩
      obtain ⟨k1, k2⟩ := embedded_folded v more (oneLine_newline hv) hc
      refine ⟨n ++ c!": " ++ join c!"\n" (v :: more) ++ c!"\n" ++ t, ?_, fun b => ?_⟩
      · rw [List.map_cons, Field.header, writeHeaders, encoded_folded v more hv hc, k1, bare_skip _ _ hpre, k2, h1]
        simp
      · rw [show n ++ c!": " ++ join c!"\n" (v :: more) ++ c!"\n" ++ t ++ b = (n ++ c!": " ++ join c!"\n" (v :: more)) ++ '\n' :: (t ++ b) by simp,
          splitChar_append_any, split_folded _ v more hpre (oneLine_newline hv) (fun l hl => oneLine_newline (hc l hl).1), h2 b]
        simp [Field.lines]
  obtain ⟨t, h1, h2⟩ := hw
  refine ⟨t ++ Wrap.normNl body, by unfold delivered; rw [h1]; rfl, h2 _, ?_, ?_⟩
  · intro l hl
    obtain ⟨f, hp, hl⟩ := List.mem_flatMap.mp hl
    obtain ⟨hn, hv, hc⟩ := hf f hp
    rcases List.mem_cons.mp hl with rfl | hl
    · have := HeaderLine.field f.name (' ' :: f.first) hn
      simpa using this
    · obtain ⟨-, c, r, rfl, hcr, -⟩ := hc l hl
      exact HeaderLine.folded c r hcr
  · intro l hl hh
    cases hl
    generalize e : ([] : Str) = l at hh
    cases hh <;> simp at e

theorem fields_of (h : Hdrs) (hp : ∀ p ∈ h, ∃ f : Field, f.Proper ∧ f.header = p) :
    ∃ fs : List Field, fs.map Field.header = h ∧ ∀ f ∈ fs, f.Proper := by
  induction h with
  | nil => exact ⟨[], rfl, by simp⟩
  | cons p h ih =>
    obtain ⟨fs, h1, h2⟩ := ih (fun q hq => hp q (by simp [hq]))
    obtain ⟨f, h3, h4⟩ := hp p (by simp)
    refine ⟨f :: fs, by rw [List.map_cons, h1, h4], ?_⟩
    intro g hg
    rcases List.mem_cons.mp hg with rfl | hg
    · exact h3
    · exact h2 g hg

/-- **C185**, part.  A message with proper headers, delivered with marks that are on one line: every version of Python writes it, and a reader
finds the headers of the adjusted message and the body. -/
theorem C185_marked_partial (strict : Bool) (adds : List AddLine) (removes : List RemoveLine) (mods : Mods)
    (hm : readMods (adds.map AddLine.text) (removes.map RemoveLine.text) = some mods) (spam headerOnly : Bool) (reportSafe : Int)
    (hw : ¬ Wrapped spam headerOnly reportSafe) (hs : reportSafe ≠ 0) (val : Str → Option Str) (report : Option Str)
    (hn : ∀ l ∈ adds, FieldName l.name) (hv : ∀ l ∈ adds, ∀ v, val (convertTags l.value).1 = some v → OneLine v)
    (orig : List Field) (ho : ∀ f ∈ orig, f.Proper) (bounce h : Hdrs)
    (e : adjusted spam headerOnly reportSafe mods val report (orig.map Field.header) bounce = some h) (body : Str) :
    ∃ fs : List Field, fs.map Field.header = h ∧ ∃ text, delivered strict h body = some text ∧
      Head (splitChar '\n' text) (fs.flatMap Field.lines) ([] :: splitChar '\n' (Wrap.normNl body)) := by
  obtain ⟨h0, h1, e1, e2, hx⟩ := adjusted_parts spam headerOnly reportSafe mods val report _ bounce h e
  have h0e : h0 = orig.map Field.header := by
    rcases hx with ⟨hs', -⟩ | ⟨-, -, h⟩ | ⟨hw', -⟩
    · exact absurd hs' hs
    · exact h
    · exact absurd hw' hw
  obtain ⟨fs, hfs, hp⟩ := fields_of h (by
    intro p hp
    rcases delivered_origin adds removes mods hm spam val h0 h1 h e1 e2 p hp with hq | ⟨l, hl, -, hname, hval⟩
    · rw [h0e] at hq
      obtain ⟨f, hf, rfl⟩ := List.mem_map.mp hq
      exact ⟨f, ho f hf, rfl⟩
    · refine ⟨⟨p.1, p.2, []⟩, ⟨?_, hv l hl _ hval, by simp⟩, rfl⟩
      show FieldName p.1
      rw [hname]
      intro c hc
      rcases List.mem_append.mp hc with hc | hc
      · exact (by decide : ∀ c ∈ c!"X-Spam-", 33 ≤ c.toNat ∧ c.toNat ≤ 126 ∧ c ≠ ':') c hc
      · exact hn l hl c hc)
  refine ⟨fs, hfs, ?_⟩
  rw [← hfs]
  exact C185_kept_partial strict fs body hp

/-- **C185**, negation.  With `report_safe 0` and any rule that matches, unless a `remove_header` line takes the report away: a version of Python
that looks at what it has written raises an exception, so there is no message to deliver.  Another version writes a line that is no header line
into the headers: for a reader they end with the empty report, and the marks that were added after it are in the body. -/
theorem C185_report_violated {S X : Type} (shw : S → Str) (st : RuleSt S X) (s : MsgSt S X) (hmatch : ∃ p ∈ s.checked, p.2 ≠ 0)
    (adds : List AddLine) (removes : List RemoveLine) (mods : Mods)
    (hm : readMods (adds.map AddLine.text) (removes.map RemoveLine.text) = some mods) (spam : Bool)
    (ho : ∀ r ∈ removes, Applies spam r.target → ¬ SameName (c!"X-Spam-" ++ r.name) c!"X-Spam-Report")
    (headerOnly : Bool) (val : Str → Option Str) (orig bounce h : Hdrs)
    (e : adjusted spam headerOnly 0 mods val (matchedReport shw st s) orig bounce = some h) (body : Str) :
    delivered true h body = none ∧
    ∀ text, delivered false h body = some text →
      ∃ before after r t0 t1, h = before ++ (c!"X-Spam-Report", r) :: after ∧
        writeHeaders false before = some (t0 ++ c!"\n") ∧ writeHeaders false after = some t1 ∧
        (∃ l, text = t0 ++ c!"X-Spam-Report: \n* " ++ l ++ c!"\n" ++ t1 ++ Wrap.normNl body) ∧
        ∀ head rest, Head (splitChar '\n' text) head rest → head <+: splitChar '\n' (t0 ++ c!"X-Spam-Report: ") := by
  obtain ⟨h0, h1, e1, e2, hx⟩ := adjusted_parts spam headerOnly 0 mods val _ orig bounce h e
  obtain ⟨-, r, hr, rfl⟩ | ⟨h', -⟩ | ⟨h', -⟩ := hx
  rotate_left
  · exact absurd rfl h'
  · exact absurd rfl h'.2.2
  obtain ⟨x, rfl⟩ := report_star shw st s r hr hmatch
  have key : ∀ f, Applies spam f → ∀ m ∈ f.list mods, m.remove = true → ¬ SameName m.name c!"X-Spam-Report" := by
    intro f hf m hmem hrem
    rcases (mods_of adds removes mods hm f m).mp hmem with ⟨l, hl, ht, rfl⟩ | ⟨l, hl, ht, rfl⟩
    · cases hrem
    · exact ho l hl (ht ▸ hf)
  obtain ⟨m1, k1⟩ := adjust_stays val c!"X-Spam-Report" _ _ h1 e1 (key .all (.inl rfl))
  obtain ⟨m2, k2⟩ := adjust_stays val c!"X-Spam-Report" _ h1 h e2 (by rw [verdict_list]; exact key _ (.inr rfl))
  have hin : (c!"X-Spam-Report", c!"\r\n* " ++ x) ∈ h := by
    have : (c!"X-Spam-Report", c!"\r\n* " ++ x) ∈ h.filter (fun p => SameName p.1 c!"X-Spam-Report") := by
      rw [k2, k1, List.filter_append]
      simp [SameName]
    exact (List.mem_filter.mp this).1
  obtain ⟨before, after, rfl⟩ := List.append_of_mem hin
  obtain ⟨l, hl⟩ := encoded_star x
  constructor
  · unfold delivered
    rw [write_strict before after _ _ [] (' ' :: l) '*' (by rw [hl]; rfl) (by decide) (by decide)]
    rfl
  · intro text ht
    obtain ⟨tt, hw, rfl⟩ := Option.map_eq_some_iff.mp ht
    obtain ⟨t0, t1, rfl, w1, w2⟩ := write_lax before after _ _ tt hw
    rw [hl]
    refine ⟨before, after, _, t0, t1, rfl, w1, w2, ⟨l, by simp⟩, ?_⟩
    intro head rest hh
    have heq : t0 ++ c!"X-Spam-Report" ++ c!": " ++ (c!"\n* " ++ l) ++ c!"\n" ++ t1 ++ Wrap.normNl body =
        (t0 ++ c!"X-Spam-Report: ") ++ '\n' :: ((c!"* " ++ l) ++ '\n' :: (t1 ++ Wrap.normNl body)) := by simp
    rw [heq, splitChar_append_any, splitChar_append_any '\n' _ (c!"* " ++ l)] at hh
    have hs : ∃ y ys, splitChar '\n' (c!"* " ++ l) = (c!"* " ++ y) :: ys := by
      show ∃ y ys, splitChar '\n' ('*' :: ' ' :: l) = _
      cases hsl : splitChar '\n' l with
      | nil => exact ⟨[], [], by simp [splitChar, hsl]⟩
      | cons y ys => exact ⟨y, ys, by simp [splitChar, hsl]⟩
    obtain ⟨y, ys, hy⟩ := hs
    rw [hy] at hh
    exact head_before _ _ head rest _ (star_not_header y) hh

theorem linesFrom_odd (a cur r : Str) (k : Char) (ha : ∀ c ∈ a, MimeEval.isBreak c = false) (hk : MimeEval.isBreak k = true) (hr : k ≠ '\r') :
    MimeEval.linesFrom cur (a ++ k :: r) = (cur ++ a) :: MimeEval.linesFrom [] r := by
  induction a generalizing cur with
  | nil =>
    show MimeEval.linesFrom cur (k :: r) = _
    conv => lhs; unfold MimeEval.linesFrom
    split
    · contradiction
    · rename_i h2
      injection h2 with h2 _
      exact absurd h2 hr
    · rename_i c' r' h1 h2
      injection h2 with h2 h3
      subst h2; subst h3
      rw [if_pos hk]
      simp
  | cons c a ih =>
    have hc : MimeEval.isBreak c = false := ha c (by simp)
    have : MimeEval.linesFrom cur (c :: (a ++ k :: r)) = MimeEval.linesFrom (cur ++ [c]) (a ++ k :: r) := by
      conv => lhs; unfold MimeEval.linesFrom
      split
      · contradiction
      · rename_i h2
        injection h2 with h2 _
        subst h2
        exact absurd hc (by decide)
      · rename_i c' r' h1 h2
        injection h2 with h2 h3
        subst h2; subst h3
        rw [if_neg (by simp [hc])]
    rw [List.cons_append, this, ih _ (fun x hx => ha x (by simp [hx]))]
    simp

theorem encoded_odd (a r : Str) (k d : Char) (ha : OneLine a) (hk : k.toNat ∈ oddBreaks) (hd : OneLine [d]) :
    ∃ l, encoded (a ++ k :: d :: r) = a ++ '\n' :: d :: l := by
  have hkb : MimeEval.isBreak k = true := by
    unfold MimeEval.isBreak
    simp only [oddBreaks, List.mem_cons, List.not_mem_nil, or_false] at hk
    rcases hk with h | h | h | h | h | h | h | h <;> rw [h] <;> decide
  have hkr : k ≠ '\r' := by
    rintro rfl
    exact absurd hk (by decide)
  have hdb : MimeEval.isBreak d = false := oneLine_break hd d (by simp)
  have h1 : MimeEval.linesFrom [] (d :: r) = MimeEval.linesFrom [d] r := by
    conv => lhs; unfold MimeEval.linesFrom
    split
    · contradiction
    · rename_i h2
      injection h2 with h2 _
      subst h2
      exact absurd hdb (by decide)
    · rename_i c' r' h1 h2
      injection h2 with h2 h3
      subst h2; subst h3
      rw [if_neg (by simp [hdb])]
      rfl
  obtain ⟨l, ls, e⟩ := linesFrom_start r [d] (by simp)
  unfold encoded MimeEval.splitlines
  rw [linesFrom_odd a [] _ k (oneLine_break ha) hkb hkr, h1, e]
  cases ls with
  | nil => exact ⟨l, by simp [join]⟩
  | cons x ls => exact ⟨l ++ c!"\n" ++ join c!"\n" (x :: ls), by simp [join]⟩

theorem embedded_found (a name r : Str) (d : Char) (h1 : d ≠ ' ') (h2 : d ≠ '\t') (hn : ∀ c ∈ name, c ≠ ' ' ∧ c ≠ '\t') :
    embedded (a ++ '\n' :: d :: (name ++ ':' :: r)) = true := by
  induction a with
  | nil =>
    show ((('\n' == '\n') && (((d :: (name ++ ':' :: r)).takeWhile (fun d => d != ' ' && d != '\t')).drop 1).contains ':') || _) = true
    have : (d :: (name ++ ':' :: r)).takeWhile (fun d => d != ' ' && d != '\t') =
        d :: (name ++ ':' :: r.takeWhile (fun d => d != ' ' && d != '\t')) := by
      rw [List.takeWhile_cons_of_pos (by simp [h1, h2]), List.takeWhile_append_of_pos (by intro c hc; simp [hn c hc]),
        List.takeWhile_cons_of_pos (by decide)]
    rw [this]
    simp
  | cons c a ih =>
    show (_ || embedded (a ++ '\n' :: d :: (name ++ ':' :: r))) = true
    rw [ih, Bool.or_true]

theorem splitChar_first (l : Str) : ∃ y ys z, splitChar '\n' l = y :: ys ∧ l = y ++ z := by
  induction l with
  | nil => exact ⟨[], [], [], rfl, rfl⟩
  | cons c l ih =>
    obtain ⟨y, ys, z, h1, h2⟩ := ih
    by_cases hc : c = '\n'
    · exact ⟨[], splitChar '\n' l, c :: l, by simp [splitChar, hc], rfl⟩
    · exact ⟨c :: y, ys, z, by simp [splitChar, hc, h1], by rw [h2]; rfl⟩

/-- A header whose value has a second line that is neither a continuation nor looks like a header. -/
theorem broken_write (before after : Hdrs) (n v a l : Str) (d : Char) (he : encoded v = a ++ '\n' :: d :: l)
    (hd : d ∉ [' ', '\t', ':', 'F']) (hnl : d ≠ '\n') :
    writeHeaders true (before ++ (n, v) :: after) = none ∧
    ∀ tt, writeHeaders false (before ++ (n, v) :: after) = some tt →
      ∃ t0 t1, writeHeaders false before = some (t0 ++ c!"\n") ∧ writeHeaders false after = some t1 ∧
        tt = t0 ++ n ++ c!": " ++ a ++ '\n' :: d :: l ++ c!"\n" ++ t1 ∧
        ∀ tail head rest, Head (splitChar '\n' (tt ++ tail)) head rest → head <+: splitChar '\n' (t0 ++ n ++ c!": " ++ a) := by
  simp only [List.mem_cons, List.not_mem_nil, or_false, not_or] at hd
  obtain ⟨d1, d2, d3, d4⟩ := hd
  constructor
  · exact write_strict before after n v a l d he d1 d2
  · intro tt hw
    have hem : embedded (encoded v) = false := by
      induction before generalizing tt with
      | nil =>
        rw [List.nil_append, writeHeaders] at hw
        split at hw
        · cases hw
        · rename_i h; simpa using h
      | cons p before ih =>
        obtain ⟨m, w⟩ := p
        rw [List.cons_append, writeHeaders] at hw
        split at hw
        · cases hw
        · rw [Bool.false_and, if_neg (by simp)] at hw
          obtain ⟨t, h1, -⟩ := Option.map_eq_some_iff.mp hw
          exact ih t h1
    obtain ⟨t0, t1, rfl, w1, w2⟩ := write_lax before after _ _ tt hw
    rw [he]
    refine ⟨t0, t1, w1, w2, by simp, ?_⟩
    intro tail head rest hh
    have heq : t0 ++ n ++ c!": " ++ (a ++ '\n' :: d :: l) ++ c!"\n" ++ t1 ++ tail =
        (t0 ++ n ++ c!": " ++ a) ++ '\n' :: ((d :: l) ++ '\n' :: (t1 ++ tail)) := by simp
    rw [heq, splitChar_append_any, splitChar_append_any '\n' _ (d :: l)] at hh
    obtain ⟨y, ys, z, hy, hz⟩ := splitChar_first l
    have hs : splitChar '\n' (d :: l) = (d :: y) :: ys := by simp [splitChar, hnl, hy]
    rw [hs] at hh
    refine head_before _ _ head rest _ ?_ hh
    intro hl
    generalize e : d :: y = line at hl
    cases hl with
    | envelope r => injection e with e _; exact d4 e
    | folded c r hc =>
      injection e with e _
      rcases hc with hc | hc
      · exact d1 (e.trans hc)
      · exact d2 (e.trans hc)
    | field name r hname =>
      cases name with
      | nil => injection e with e _; exact d3 e
      | cons x name =>
        injection e with _ e2
        have := embedded_found a name (r ++ z) d d1 d2 (fun c hc => by
          have := (hname c (by simp [hc])).1
          constructor <;> rintro rfl <;> exact absurd this (by decide))
        have e2 : y = name ++ ':' :: r := e2
        rw [he, hz, e2, show (name ++ ':' :: r) ++ z = name ++ ':' :: (r ++ z) by simp, this] at hem
        cases hem

theorem broken_header (before after : Hdrs) (n v a l body : Str) (d : Char) (he : encoded v = a ++ '\n' :: d :: l)
    (hd : d ∉ [' ', '\t', ':', 'F']) (hnl : d ≠ '\n') :
    delivered true (before ++ (n, v) :: after) body = none ∧
    ∀ text, delivered false (before ++ (n, v) :: after) body = some text →
      ∃ t0 t1, writeHeaders false before = some (t0 ++ c!"\n") ∧ writeHeaders false after = some t1 ∧
        text = t0 ++ n ++ c!": " ++ a ++ '\n' :: d :: l ++ c!"\n" ++ t1 ++ Wrap.normNl body ∧
        ∀ head rest, Head (splitChar '\n' text) head rest → head <+: splitChar '\n' (t0 ++ n ++ c!": " ++ a) := by
  obtain ⟨b1, b2⟩ := broken_write before after n v a l d he hd hnl
  refine ⟨by unfold delivered; rw [b1]; rfl, fun text ht => ?_⟩
  obtain ⟨tt, hw, rfl⟩ := Option.map_eq_some_iff.mp ht
  obtain ⟨t0, t1, c1, c2, rfl, c4⟩ := b2 tt hw
  exact ⟨t0, t1, c1, c2, rfl, fun head rest => c4 _ head rest⟩

/-- **C185**, negation.  An `add_header` line that shows the beginning of the text (`_PREVIEW_`) lets the sender decide: if the first line of the
text has a form feed, or another of the odd line breaks, before a character that is no blank, there is no message to deliver, or the headers end
there and the marks that are added later are in the body.  `d` is any character that is no line break but a blank, a tab, a colon or `F`. -/
theorem C185_preview_violated (adds : List AddLine) (removes : List RemoveLine) (mods : Mods)
    (hm : readMods (adds.map AddLine.text) (removes.map RemoveLine.text) = some mods) (spam : Bool) (line : AddLine) (hline : line ∈ adds)
    (htarget : line.target = if spam then .spam else .ham)
    (ho : ∀ r ∈ removes, r.target = (if spam then .spam else .ham) → ¬ SameName (c!"X-Spam-" ++ r.name) (c!"X-Spam-" ++ line.name))
    (text a b : Str) (k d : Char) (htext : text = a ++ k :: d :: b) (ha : OneLine a) (hlen : a.length < 199)
    (hk : k.toNat ∈ oddBreaks) (hd : d ∉ [' ', '\t', ':', 'F']) (hd1 : OneLine [d])
    (val : Str → Option Str) (hval : val (convertTags line.value).1 = some (Spamd.previewOf text))
    (headerOnly : Bool) (reportSafe : Int) (report : Option Str) (orig bounce h : Hdrs)
    (e : adjusted spam headerOnly reportSafe mods val report orig bounce = some h) (body : Str) :
    delivered true h body = none ∧
    ∀ out, delivered false h body = some out →
      ∃ before after t0 t1 l, h = before ++ (c!"X-Spam-" ++ line.name, Spamd.previewOf text) :: after ∧
        writeHeaders false before = some (t0 ++ c!"\n") ∧ writeHeaders false after = some t1 ∧
        out = t0 ++ (c!"X-Spam-" ++ line.name) ++ c!": " ++ a ++ '\n' :: d :: l ++ c!"\n" ++ t1 ++ Wrap.normNl body ∧
        ∀ head rest, Head (splitChar '\n' out) head rest → head <+: splitChar '\n' (t0 ++ (c!"X-Spam-" ++ line.name) ++ c!": " ++ a) := by
  obtain ⟨h0, h1, e1, e2, -⟩ := adjusted_parts spam headerOnly reportSafe mods val report orig bounce h e
  have hnr : ∀ m ∈ (if spam then mods.spam else mods.ham), m.remove = true → ¬ SameName m.name (c!"X-Spam-" ++ line.name) := by
    intro m hmem hrem
    rw [verdict_list] at hmem
    rcases (mods_of adds removes mods hm _ m).mp hmem with ⟨l, hl, ht, rfl⟩ | ⟨l, hl, ht, rfl⟩
    · cases hrem
    · exact ho l hl ht
  have hmem : (⟨false, c!"X-Spam-" ++ line.name, (convertTags line.value).1⟩ : Mod) ∈ (if spam then mods.spam else mods.ham) := by
    rw [verdict_list]
    exact (mods_of adds removes mods hm _ _).mpr (.inl ⟨line, hline, htarget, rfl⟩)
  obtain ⟨v, hv, hin⟩ := adjust_adds val _ _ h1 h e2 hnr _ hmem rfl rfl
  dsimp only at hv hin
  rw [hval] at hv
  cases hv
  have hdn : d ≠ '\n' := (hd1 d (by simp)).1
  have hkn : k ≠ '\n' := by rintro rfl; exact absurd hk (by decide)
  have hprev : ∃ r, Spamd.previewOf text = a ++ k :: d :: r := by
    have hlead : '\n' ∉ a ++ [k, d] := by
      simp only [List.mem_append, List.mem_cons, List.not_mem_nil, or_false, not_or]
      exact ⟨fun hc => (ha _ hc).1 rfl, fun h => hkn h.symm, fun h => hdn h.symm⟩
    have hsplit : ∀ p : Str, '\n' ∉ p → ∃ y ys, splitChar '\n' (p ++ b) = (p ++ y) :: ys := by
      intro p
      induction p with
      | nil =>
        intro _
        obtain ⟨y, ys, z, h, -⟩ := splitChar_first b
        exact ⟨y, ys, h⟩
      | cons c p ih =>
        intro hp
        obtain ⟨y, ys, h⟩ := ih (fun hc => hp (by simp [hc]))
        have hc : c ≠ '\n' := fun hc => hp (by simp [hc])
        exact ⟨y, ys, by simp [splitChar, hc, h]⟩
    obtain ⟨y, ys, hs⟩ := hsplit _ hlead
    have hj : ∃ w, join c!" " ((splitChar '\n' text).take 3) = (a ++ [k, d]) ++ w := by
      rw [htext, show a ++ k :: d :: b = (a ++ [k, d]) ++ b by simp, hs]
      show ∃ w, join c!" " (((a ++ [k, d]) ++ y) :: ys.take 2) = _
      cases ys.take 2 with
      | nil => exact ⟨y, rfl⟩
      | cons q qs => exact ⟨y ++ c!" " ++ join c!" " (q :: qs), by simp [join]⟩
    obtain ⟨w, hw⟩ := hj
    unfold Spamd.previewOf
    rw [hw, List.take_append, List.take_of_length_le (by simp; omega)]
    exact ⟨_, by simp; rfl⟩
  obtain ⟨r, hr⟩ := hprev
  obtain ⟨l, hl⟩ := encoded_odd a r k d ha hk hd1
  rw [← hr] at hl
  obtain ⟨before, after, rfl⟩ := List.append_of_mem hin
  obtain ⟨b1, b2⟩ := broken_header before after (c!"X-Spam-" ++ line.name) _ a l body d hl hd hdn
  refine ⟨b1, fun out hout => ?_⟩
  obtain ⟨t0, t1, c1, c2, c3, c4⟩ := b2 out hout
  exact ⟨before, after, t0, t1, l, rfl, c1, c2, c3, c4⟩

/-- A header that is not removed stays, and no header comes to stand before it. -/
theorem adjust_splits (val : Str → Option Str) (p : Str × Str) (ms : List Mod) (A B h' : Hdrs)
    (e : adjustHeaders val ms (A ++ p :: B) = some h') (hr : ∀ m ∈ ms, m.remove = true → ¬ SameName m.name p.1) :
    ∃ A' B', h' = A' ++ p :: B' ∧ A'.Sublist A := by
  induction ms generalizing A B with
  | nil => cases e; exact ⟨A, B, rfl, List.Sublist.refl _⟩
  | cons m ms ih =>
    have hr' : ∀ x ∈ ms, x.remove = true → ¬ SameName x.name p.1 := fun x hx => hr x (by simp [hx])
    cases hm : m.remove with
    | true =>
      rw [adjustHeaders_remove val m ms _ hm] at e
      have hp : lower p.1 ≠ lower m.name := fun hs => hr m (by simp) hm hs.symm
      rw [List.filter_append, List.filter_cons_of_pos (by simpa using hp)] at e
      obtain ⟨A', B', h1, h2⟩ := ih _ _ e hr'
      exact ⟨A', B', h1, h2.trans List.filter_sublist⟩
    | false =>
      obtain ⟨v, -, e'⟩ := adjustHeaders_add val m ms _ h' hm e
      rw [List.append_assoc, List.cons_append] at e'
      exact ih _ _ e' hr'

/-- **C185**, negation.  Whatever the configuration, the sender can do it with any header of the message, unless the message is wrapped: if the
value has a form feed, or another of the odd line breaks, before a character that is no blank, there is no message to deliver, or the headers end
there.  All headers before it are headers of the sender, so that every mark of the scanner is in the body. -/
theorem C185_header_violated (adds : List AddLine) (removes : List RemoveLine) (mods : Mods)
    (hm : readMods (adds.map AddLine.text) (removes.map RemoveLine.text) = some mods) (spam headerOnly : Bool) (reportSafe : Int)
    (hw : ¬ Wrapped spam headerOnly reportSafe) (name a b : Str) (k d : Char) (o1 o2 : Hdrs) (ha : OneLine a)
    (ho : ∀ r ∈ removes, Applies spam r.target → ¬ SameName (c!"X-Spam-" ++ r.name) name)
    (hk : k.toNat ∈ oddBreaks) (hd : d ∉ [' ', '\t', ':', 'F']) (hd1 : OneLine [d])
    (val : Str → Option Str) (report : Option Str) (bounce h : Hdrs)
    (e : adjusted spam headerOnly reportSafe mods val report (o1 ++ (name, a ++ k :: d :: b) :: o2) bounce = some h) (body : Str) :
    delivered true h body = none ∧
    ∀ out, delivered false h body = some out →
      ∃ before after t0 t1 l, h = before ++ (name, a ++ k :: d :: b) :: after ∧ before.Sublist o1 ∧
        writeHeaders false before = some (t0 ++ c!"\n") ∧ writeHeaders false after = some t1 ∧
        out = t0 ++ name ++ c!": " ++ a ++ '\n' :: d :: l ++ c!"\n" ++ t1 ++ Wrap.normNl body ∧
        ∀ head rest, Head (splitChar '\n' out) head rest → head <+: splitChar '\n' (t0 ++ name ++ c!": " ++ a) := by
  obtain ⟨h0, h1, e1, e2, hx⟩ := adjusted_parts spam headerOnly reportSafe mods val report _ bounce h e
  have key : ∀ f, Applies spam f → ∀ m ∈ f.list mods, m.remove = true → ¬ SameName m.name name := by
    intro f hf m hmem hrem
    rcases (mods_of adds removes mods hm f m).mp hmem with ⟨l, hl, ht, rfl⟩ | ⟨l, hl, ht, rfl⟩
    · cases hrem
    · exact ho l hl (ht ▸ hf)
  have h0s : ∃ B, h0 = o1 ++ (name, a ++ k :: d :: b) :: B := by
    rcases hx with ⟨-, r, -, rfl⟩ | ⟨-, -, rfl⟩ | ⟨hw', -⟩
    · exact ⟨_, by rw [List.append_assoc, List.cons_append]⟩
    · exact ⟨o2, rfl⟩
    · exact absurd hw' hw
  obtain ⟨B0, rfl⟩ := h0s
  obtain ⟨A1, B1, rfl, s1⟩ := adjust_splits val _ _ _ _ _ e1 (key .all (.inl rfl))
  obtain ⟨A2, B2, rfl, s2⟩ := adjust_splits val _ _ _ _ _ e2 (by rw [verdict_list]; exact key _ (.inr rfl))
  obtain ⟨l, hl⟩ := encoded_odd a b k d ha hk hd1
  obtain ⟨b1, b2⟩ := broken_header A2 B2 name _ a l body d hl hd (hd1 d (by simp)).1
  refine ⟨b1, fun out hout => ?_⟩
  obtain ⟨t0, t1, c1, c2, c3, c4⟩ := b2 out hout
  exact ⟨A2, B2, t0, t1, l, rfl, s2.trans s1, c1, c2, c3, c4⟩

theorem mark_not_subject (x : Str) : ¬ SameName (c!"X-Spam-" ++ x) c!"Subject" := by
  intro h
  have h : 'x' :: _ = 's' :: _ := h
  injection h with h
  exact absurd h (by decide)

/-- **C185**, negation.  Wrapping does not help if it is the subject: the wrapping message has the same subject.  `setBoundary` is the last change
to the headers before they are written (C142). -/
theorem C185_subject_violated (adds : List AddLine) (removes : List RemoveLine) (mods : Mods)
    (hm : readMods (adds.map AddLine.text) (removes.map RemoveLine.text) = some mods) (spam headerOnly : Bool) (reportSafe : Int)
    (hw : Wrapped spam headerOnly reportSafe) (a b : Str) (k d : Char) (ha : OneLine a)
    (hk : k.toNat ∈ oddBreaks) (hd : d ∉ [' ', '\t', ':', 'F']) (hd1 : OneLine [d])
    (received now : Str) (get : Str → Option Str) (hsub : get c!"Subject" = some (a ++ k :: d :: b))
    (val : Str → Option Str) (report : Option Str) (orig h : Hdrs)
    (e : adjusted spam headerOnly reportSafe mods val report orig (bounceHeaders received now get) = some h) (boundary : Str) :
    writeHeaders true (Wrap.setBoundary boundary h) = none ∧
    ∀ text, writeHeaders false (Wrap.setBoundary boundary h) = some text →
      ∃ before after t0 t1 l, h = before ++ (c!"Subject", a ++ k :: d :: b) :: after ∧ (∀ p ∈ before, ¬ MarkName p.1) ∧
        writeHeaders false (Wrap.setBoundary boundary before) = some (t0 ++ c!"\n") ∧ writeHeaders false (Wrap.setBoundary boundary after) = some t1 ∧
        text = t0 ++ c!"Subject" ++ c!": " ++ a ++ '\n' :: d :: l ++ c!"\n" ++ t1 ∧
        ∀ parts head rest, Head (splitChar '\n' (text ++ parts)) head rest → head <+: splitChar '\n' (t0 ++ c!"Subject" ++ c!": " ++ a) := by
  obtain ⟨h0, h1, e1, e2, hx⟩ := adjusted_parts spam headerOnly reportSafe mods val report _ _ h e
  have key : ∀ f : For, ∀ m ∈ f.list mods, m.remove = true → ¬ SameName m.name c!"Subject" := by
    intro f m hmem hrem
    rcases (mods_of adds removes mods hm f m).mp hmem with ⟨l, hl, ht, rfl⟩ | ⟨l, hl, ht, rfl⟩
    · cases hrem
    · exact mark_not_subject _
  have h0s : ∃ A B, h0 = A ++ (c!"Subject", a ++ k :: d :: b) :: B ∧ ∀ p ∈ A, ¬ MarkName p.1 := by
    rcases hx with ⟨hr, -⟩ | ⟨-, hn, -⟩ | ⟨-, rfl⟩
    · exact absurd hr hw.2.2
    · obtain ⟨w1, w2, -⟩ := hw
      rw [w1, w2] at hn
      rcases hn with hn | hn <;> cases hn
    · unfold bounceHeaders
      rw [hsub]
      refine ⟨_, _, by rw [List.append_assoc]; rfl, ?_⟩
      intro p hp hmark
      have hb : p.1 ∈ [c!"Content-Type", c!"MIME-Version", c!"Received", c!"From", c!"To"] := by
        simp only [List.mem_append, List.mem_cons, List.not_mem_nil, or_false, Option.mem_toList, Option.map_eq_some_iff] at hp
        rcases hp with (hq | ⟨_, _, rfl⟩) | ⟨_, _, rfl⟩
        · rcases hq with rfl | rfl | rfl <;> simp
        all_goals simp
      have : ∀ n ∈ [c!"Content-Type", c!"MIME-Version", c!"Received", c!"From", c!"To"], ¬ (c!"x-spam-" <+: lower n) := by decide
      exact this _ hb hmark
  obtain ⟨A0, B0, rfl, hA⟩ := h0s
  obtain ⟨A1, B1, rfl, s1⟩ := adjust_splits val _ _ _ _ _ e1 (key .all)
  obtain ⟨A2, B2, rfl, s2⟩ := adjust_splits val _ _ _ _ _ e2 (by rw [verdict_list]; exact key _)
  have hset : Wrap.setBoundary boundary (A2 ++ (c!"Subject", a ++ k :: d :: b) :: B2) =
      Wrap.setBoundary boundary A2 ++ (c!"Subject", a ++ k :: d :: b) :: Wrap.setBoundary boundary B2 := by
    unfold Wrap.setBoundary
    rw [List.map_append, List.map_cons, if_neg (by dsimp only; decide)]
  obtain ⟨l, hl⟩ := encoded_odd a b k d ha hk hd1
  rw [hset]
  obtain ⟨b1, b2⟩ := broken_write (Wrap.setBoundary boundary A2) (Wrap.setBoundary boundary B2) c!"Subject" _ a l d hl hd (hd1 d (by simp)).1
  refine ⟨b1, fun text ht => ?_⟩
  obtain ⟨t0, t1, c1, c2, c3, c4⟩ := b2 text ht
  exact ⟨A2, B2, t0, t1, l, rfl, fun p hp => hA p ((s2.trans s1).subset hp), c1, c2, c3, c4⟩

/-! ## The hypotheses can be met -/

example : delivered true [(c!"To", c!"me"), (c!"X-Spam-Flag", c!"NO")] c!"hi\r\n" = some c!"To: me\nX-Spam-Flag: NO\n\nhi\n" ∧
    delivered true [(c!"To", c!"me"), (c!"X-Spam-Report", c!"\r\n* 1.0 A body")] c!"hi" = none ∧
    delivered false [(c!"To", c!"me"), (c!"X-Spam-Report", c!"\r\n* 1.0 A body"), (c!"X-Spam-Flag", c!"YES")] c!"hi" =
      some c!"To: me\nX-Spam-Report: \n* 1.0 A body\nX-Spam-Flag: YES\n\nhi" ∧
    delivered false [(c!"To", c!"me"), (c!"X-Spam-A", c!"a\nTo: you")] c!"hi" = none ∧
    delivered true [(c!"To", c!"me"), (c!"X-Spam-A", c!"a\n b")] c!"hi" = some c!"To: me\nX-Spam-A: a\n b\n\nhi" := by
  decide +kernel

/-- `add_header ham Text _PREVIEW_`. -/
def previewLine : AddLine := ⟨c!"ham", .ham, c!"Text", c!"_PREVIEW_", rfl, ⟨by decide, by decide⟩, '_', c!"PREVIEW_", rfl, by decide⟩

/-- A form feed. -/
def formFeed : Char := Char.ofNat 12

example : (convertTags previewLine.value).1 = c!"%(PREVIEW)s" ∧ OneLine c!"hello" ∧ formFeed.toNat ∈ oddBreaks ∧
    ((readMods [AddLine.text previewLine] []).bind fun mods =>
      (adjusted false false 1 mods (fun _ => some (Spamd.previewOf (c!"hello" ++ formFeed :: c!"you\nmore"))) none [(c!"To", c!"me")] []).bind fun h =>
        delivered false h c!"hi") = some c!"To: me\nX-Spam-Text: hello\nyou more[...]\n\nhi" := by
  unfold OneLine
  decide +kernel

example : ((readMods [AddLine.text flagLine] []).bind fun mods =>
      (adjusted false false 1 mods some none [(c!"Subject", c!"hello" ++ formFeed :: c!"you"), (c!"To", c!"me")] []).map fun h =>
        (delivered false h c!"hi", delivered true h c!"hi")) = some (some c!"Subject: hello\nyou\nTo: me\nX-Spam-Flag: NO\n\nhi", none) := by
  decide +kernel

example : ((readMods [AddLine.text flagLine] []).bind fun mods =>
      (adjusted true false 1 mods some none [] (bounceHeaders c!"r" c!"now" (fun n => if n = c!"Subject" then some (c!"hello" ++ formFeed :: c!"you") else none))).map
        fun h => (writeHeaders false (Wrap.setBoundary c!"b" h), writeHeaders true (Wrap.setBoundary c!"b" h))) =
      some (some c!"Content-Type: multipart/mixed; boundary=\"b\"\nMIME-Version: 1.0\nReceived: r\nSubject: hello\nyou\nDate: now\n\n", none) := by
  decide +kernel

/-- A folded header. -/
def foldedTo : Field := ⟨c!"To", c!"me,", [c!" you,", c!"\tall"]⟩

example : foldedTo.Proper ∧ delivered true [foldedTo.header, (c!"X-Spam-Flag", c!"NO")] c!"hi" = some c!"To: me,\n you,\n\tall\nX-Spam-Flag: NO\n\nhi" := by
  refine ⟨⟨?_, ?_, ?_⟩, by decide +kernel⟩
  · unfold FieldName; decide
  · unfold OneLine; decide
  · intro l hl
    have hl : l = c!" you," ∨ l = c!"\tall" := by simpa [foldedTo] using hl
    rcases hl with rfl | rfl
    · exact ⟨by unfold OneLine; decide, _, _, rfl, .inl rfl, by decide⟩
    · exact ⟨by unfold OneLine; decide, _, _, rfl, .inr rfl, by decide⟩

end Verif.Props
