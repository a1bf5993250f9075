import Verif.Model.HeadEnd
import Verif.Spec.HeadEnd
import Verif.Lemmas.Re
import Verif.Props.Message
import Verif.Props.MimeEval
import Verif.Lemmas.Strip
import Verif.Props.Texts

/-!
# C147: messages without a line between headers and body
-/

namespace Verif.Props
open Verif Py Re HeadEnd Spec Spec.HeadEnd

theorem nameChar_iff (c : Char) : nameChar c = true ↔ 33 ≤ c.toNat ∧ c.toNat ≤ 126 ∧ c ≠ ':' := by
  have h : c ≠ ':' ↔ c.toNat ≠ 58 := by
    constructor
    · intro h e; apply h; apply Char.ext; apply UInt32.toNat.inj; exact e
    · rintro h rfl; exact h rfl
  unfold nameChar
  rw [h]
  simp only [Bool.or_eq_true, Bool.and_eq_true, decide_eq_true_eq]
  omega

theorem isHeader_iff (l : Str) : isHeader l = true ↔ HeaderLine l := by
  unfold isHeader
  rw [matchRe_isSome]
  unfold headerRe
  simp only [Re.Reads, lit]
  constructor
  · rintro ⟨w, z, rfl, h⟩
    rcases h with h | h | h
    · have : w = c!"From " := by
        obtain ⟨u1, v1, rfl, h1, u2, v2, rfl, h2, u3, v3, rfl, h3, u4, v4, rfl, h4, u5, v5, rfl, h5, h6⟩ := h
        obtain ⟨x1, rfl, e1⟩ := h1
        obtain ⟨x2, rfl, e2⟩ := h2
        obtain ⟨x3, rfl, e3⟩ := h3
        obtain ⟨x4, rfl, e4⟩ := h4
        obtain ⟨x5, rfl, e5⟩ := h5
        simp only [beq_iff_eq] at e1 e2 e3 e4 e5
        subst e1 e2 e3 e4 e5 h6
        rfl
      rw [this]
      exact .envelope z
    · obtain ⟨u, v, rfl, h1, c, rfl, h2⟩ := h
      simp only [beq_iff_eq] at h2
      subst h2
      rw [List.append_assoc]
      exact .field u z (fun c hc => (nameChar_iff c).1 (h1 c hc))
    · obtain ⟨c, rfl, h⟩ := h
      simp only [Bool.or_eq_true, beq_iff_eq] at h
      exact .folded c z h.symm
  · intro h
    cases h with
    | envelope r =>
      refine ⟨c!"From ", r, rfl, .inl ?_⟩
      exact ⟨['F'], c!"rom ", rfl, ⟨_, rfl, rfl⟩, ['r'], c!"om ", rfl, ⟨_, rfl, rfl⟩, ['o'], c!"m ", rfl, ⟨_, rfl, rfl⟩,
        ['m'], c!" ", rfl, ⟨_, rfl, rfl⟩, [' '], [], rfl, ⟨_, rfl, rfl⟩, rfl⟩
    | field name r hn =>
      refine ⟨name ++ [':'], r, by simp, .inr (.inl ⟨name, [':'], rfl, ?_, ':', rfl, rfl⟩)⟩
      exact fun c hc => (nameChar_iff c).2 (hn c hc)
    | folded c r hc =>
      refine ⟨[c], r, rfl, .inr (.inr ⟨c, rfl, ?_⟩)⟩
      rcases hc with rfl | rfl <;> rfl

/-! ### Lines -/

theorem loop_headers (hs rest : List Str) (h : ∀ l ∈ hs, HeaderLine l) : flagLoop (hs ++ rest) = flagLoop rest := by
  induction hs with
  | nil => rfl
  | cons l hs ih =>
    rw [List.cons_append, flagLoop, if_neg (by simp [(isHeader_iff l).2 (h l (by simp))])]
    exact ih (fun x hx => h x (by simp [hx]))

theorem loop_other (l : Str) (rest : List Str) (h : ¬ HeaderLine l) : flagLoop (l :: rest) = !(strip l).isEmpty := by
  rw [flagLoop, if_pos]
  cases hl : isHeader l with
  | false => rfl
  | true => exact absurd ((isHeader_iff l).1 hl) h

theorem unbroken {l : Str} (h1 : '\r' ∉ l) (h2 : '\n' ∉ l) (h3 : Plain l) : ∀ c ∈ l, MimeEval.isBreak c = false := by
  intro c hc
  apply isBreak_no
  have a : c.toNat ≠ 10 := fun e => h2 (by
    have : c = '\n' := Char.ext (UInt32.toNat.inj e)
    rwa [← this])
  have b : c.toNat ≠ 13 := fun e => h1 (by
    have : c = '\r' := Char.ext (UInt32.toNat.inj e)
    rwa [← this])
  have d := h3 c hc
  simp only [oddBreaks, List.mem_cons, List.not_mem_nil, not_or, not_false_eq_true, and_true] at d
  simp only [MimeEval.lineBreaks, List.mem_cons, List.not_mem_nil, not_or, not_false_eq_true, and_true]
  omega

theorem lines_render (hs ls : List (Str × Eol)) (rest : Str) (h : Unambiguous (hs ++ ls) rest) (hp : ∀ p ∈ hs, Plain p.1) :
    MimeEval.splitlines (Mail.translateLineBreaks (renderLines (hs ++ ls) rest)) =
      hs.map (·.1) ++ MimeEval.splitlines (renderLines (ls.map (fun p => (p.1, Eol.lf))) rest) := by
  rw [C34_styles _ _ h]
  induction hs with
  | nil => rfl
  | cons p hs ih =>
    obtain ⟨l, e⟩ := p
    obtain ⟨h1, h2, _, h4⟩ := h
    rw [List.map_cons, List.cons_append, List.cons_append, ← ih h4 (fun q hq => hp q (by simp [hq]))]
    unfold MimeEval.splitlines
    simp only [List.map_cons, renderLines, Eol.text, List.append_assoc]
    exact linesFrom_line l [] _ (unbroken h1 h2 (hp (l, e) (by simp)))

theorem lines_one (l r : Str) (h : ∀ c ∈ l, MimeEval.isBreak c = false) :
    MimeEval.splitlines (l ++ '\n' :: r) = l :: MimeEval.splitlines r := linesFrom_line l [] r h

theorem lines_last (l cur : Str) (h : ∀ c ∈ l, MimeEval.isBreak c = false) :
    MimeEval.linesFrom cur l = if cur ++ l = [] then [] else [cur ++ l] := by
  induction l generalizing cur with
  | nil => simp [MimeEval.linesFrom]
  | cons c l ih =>
    have hc : MimeEval.isBreak c = false := h c (by simp)
    have : MimeEval.linesFrom cur (c :: l) = MimeEval.linesFrom (cur ++ [c]) l := by
      conv => lhs; unfold MimeEval.linesFrom
      split
      · contradiction
      · rename_i r' h2
        injection h2 with h2 h3
        subst h2
        exact absurd hc (by decide)
      · rename_i c' r' h1 h2
        injection h2 with h2 h3
        subst h2; subst h3
        rw [if_neg (by simp [hc])]
    rw [this, ih _ (fun d hd => h d (by simp [hd]))]
    simp

theorem seen_iff (l : Str) : (!(strip l).isEmpty) = true ↔ ∃ c ∈ l, isSpace c = false := by
  constructor
  · intro h
    false_or_by_contra
    rename_i hn
    have : strip l = [] := strip_blank (fun c hc => by
      cases hs : isSpace c with
      | true => rfl
      | false => exact absurd ⟨c, hc, hs⟩ hn)
    simp [this] at h
  · rintro ⟨c, hc, hs⟩
    have : c ∈ strip l := (mem_stripBy hs l).2 hc
    cases hl : strip l with
    | nil => simp [hl] at this
    | cons _ _ => rfl

/-- **C147** (partial).  A message with lines ended in any style, whose first line after the headers is `l`: the rule holds if and
only if `l` is not the empty line that should be there.  Missing: lines with characters that Unicode says break lines, and a
first line of white space other than blanks (a line that begins with a blank continues a header). -/
theorem C147_separator_partial (hs body : List (Str × Eol)) (l : Str) (e : Eol) (rest : Str)
    (hu : Unambiguous (hs ++ (l, e) :: body) rest) (hh : ∀ p ∈ hs, HeaderLine p.1 ∧ Plain p.1) (hl : ¬ HeaderLine l) (hp : Plain l)
    (hw : l = [] ∨ ∃ c ∈ l, isSpace c = false) (parts : List (List (Str × Str))) (headers : Mail.Headers Str) (epilogue : Option Str) :
    checkMsgParseFlags (renderLines (hs ++ (l, e) :: body) rest) parts headers epilogue c!"missing_mime_head_body_separator" = true
      ↔ l ≠ [] := by
  rw [checkMsgParseFlags.eq_def, if_pos rfl, missingSeparator, lines_render _ _ _ hu (fun p hp => (hh p hp).2), loop_headers _ _ (by
    intro x hx
    obtain ⟨p, hp, rfl⟩ := List.mem_map.1 hx
    exact (hh p hp).1)]
  have hb : '\r' ∉ l ∧ '\n' ∉ l := by
    clear hh
    induction hs with
    | nil => exact ⟨hu.1, hu.2.1⟩
    | cons p hs ih => exact ih hu.2.2.2
  simp only [List.map_cons, renderLines, Eol.text, List.append_assoc]
  rw [show (c!"\n" ++ renderLines (body.map (fun p => (p.1, Eol.lf))) rest) = '\n' :: renderLines (body.map (fun p => (p.1, Eol.lf))) rest from rfl,
    lines_one l _ (unbroken hb.1 hb.2 hp), loop_other _ _ hl, seen_iff]
  constructor
  · rintro ⟨c, hc, _⟩ rfl; simp at hc
  · intro h; exact hw.resolve_left h

/-- **C147**.  A message of nothing but headers is not said to lack the line between them and the body, whether its last line is
ended or not. -/
theorem C147_headers_only (hs : List (Str × Eol)) (rest : Str) (hu : Unambiguous hs rest)
    (hh : ∀ p ∈ hs, HeaderLine p.1 ∧ Plain p.1) (hr : rest = [] ∨ (HeaderLine rest ∧ Plain rest)) (parts : List (List (Str × Str)))
    (headers : Mail.Headers Str) (epilogue : Option Str) :
    checkMsgParseFlags (renderLines hs rest) parts headers epilogue c!"missing_mime_head_body_separator" = false := by
  have hl := lines_render hs [] rest (by rwa [List.append_nil]) (fun p hp => (hh p hp).2)
  rw [List.append_nil] at hl
  rw [checkMsgParseFlags.eq_def, if_pos rfl, missingSeparator, hl, loop_headers _ _ (by
    intro x hx
    obtain ⟨p, hp, rfl⟩ := List.mem_map.1 hx
    exact (hh p hp).1)]
  simp only [List.map_nil, renderLines]
  have hb : '\r' ∉ rest ∧ '\n' ∉ rest := by
    clear hh hl
    induction hs with
    | nil => exact hu
    | cons p hs ih => exact ih hu.2.2.2
  rcases hr with rfl | ⟨h1, h2⟩
  · rfl
  · unfold MimeEval.splitlines
    rw [lines_last rest [] (unbroken hb.1 hb.2 h2), List.nil_append]
    split
    · rfl
    · have := loop_headers [rest] [] (by simpa using h1)
      rw [List.append_nil] at this
      rw [this]; rfl

/-- **C147** (violation).  A header whose value has a form feed, a vertical tab or another of the odd line breaks in it: if what
follows it does not look like a header, the message is said to lack the empty line, whatever comes after it. -/
theorem C147_lines_violated (hs body : List (Str × Eol)) (name a b : Str) (k : Char) (e : Eol) (rest : Str)
    (hu : Unambiguous (hs ++ (name ++ ':' :: a ++ k :: b, e) :: ([], e) :: body) rest)
    (hh : ∀ p ∈ hs, HeaderLine p.1 ∧ Plain p.1) (hn : ∀ c ∈ name, 33 ≤ c.toNat ∧ c.toNat ≤ 126 ∧ c ≠ ':')
    (ha : Plain a) (hk : k.toNat ∈ oddBreaks) (hb : Plain b) (hb1 : ¬ HeaderLine b) (hb2 : ∃ c ∈ b, isSpace c = false)
    (parts : List (List (Str × Str))) (headers : Mail.Headers Str) (epilogue : Option Str) :
    HeaderLine (name ++ ':' :: a ++ k :: b) ∧
    checkMsgParseFlags (renderLines (hs ++ (name ++ ':' :: a ++ k :: b, e) :: ([], e) :: body) rest) parts headers epilogue
      c!"missing_mime_head_body_separator" = true := by
  refine ⟨by rw [List.append_assoc]; exact .field name _ hn, ?_⟩
  rw [checkMsgParseFlags.eq_def, if_pos rfl, missingSeparator, lines_render _ _ _ hu (fun p hp => (hh p hp).2), loop_headers _ _ (by
    intro x hx
    obtain ⟨p, hp, rfl⟩ := List.mem_map.1 hx
    exact (hh p hp).1)]
  have hc : '\r' ∉ (name ++ ':' :: a ++ k :: b) ∧ '\n' ∉ (name ++ ':' :: a ++ k :: b) := by
    clear hh
    induction hs with
    | nil => exact ⟨hu.1, hu.2.1⟩
    | cons p hs ih => exact ih hu.2.2.2
  obtain ⟨h1, h2⟩ := hc
  simp only [List.mem_append, List.mem_cons, not_or] at h1 h2
  simp only [List.map_cons, renderLines, Eol.text, List.append_assoc]
  generalize renderLines (body.map (fun p => (p.1, Eol.lf))) rest = z
  have hname : Plain (name ++ ':' :: a) := by
    intro c hc
    rcases List.mem_append.1 hc with hc | hc
    · have := hn c hc
      simp only [oddBreaks, List.mem_cons, List.not_mem_nil, not_or, not_false_eq_true, and_true]
      omega
    · rcases List.mem_cons.1 hc with rfl | hc
      · decide
      · exact ha c hc
  have hf := linesFrom_break (name ++ ':' :: a) [] (b ++ (c!"\n" ++ ([] ++ (c!"\n" ++ z)))) k
    (unbroken (by simp only [List.mem_append, List.mem_cons, not_or]; exact h1.1) (by simp only [List.mem_append, List.mem_cons, not_or]; exact h2.1) hname)
    (by
      simp only [oddBreaks, List.mem_cons, List.not_mem_nil, or_false] at hk
      unfold MimeEval.isBreak
      simp only [List.mem_cons, List.not_mem_nil, or_false, decide_eq_true_eq]
      omega)
    (fun h => h1.2.1 h.1.symm)
  unfold MimeEval.splitlines
  rw [show name ++ (':' :: a ++ (k :: b ++ (c!"\n" ++ ([] ++ (c!"\n" ++ z))))) = (name ++ ':' :: a) ++ k :: (b ++ (c!"\n" ++ ([] ++ (c!"\n" ++ z)))) by simp, hf]
  have hg := linesFrom_line b [] ([] ++ (c!"\n" ++ z)) (unbroken h1.2.2 h2.2.2 hb)
  rw [show c!"\n" ++ ([] ++ (c!"\n" ++ z)) = '\n' :: ([] ++ (c!"\n" ++ z)) from rfl, hg]
  have hone := loop_headers [[] ++ (name ++ ':' :: a)] (([] ++ b) :: MimeEval.linesFrom [] ([] ++ (c!"\n" ++ z)))
    (by simpa using HeaderLine.field name a hn)
  rw [List.singleton_append] at hone
  rw [hone, List.nil_append, loop_other _ _ hb1, seen_iff]
  exact hb2

/-- **C147** (violation).  If the first line after the headers is not empty but has only white space in it that is no blank and no
tab, such as no-break spaces, the message is not said to lack the empty line. -/
theorem C147_blank_violated (hs body : List (Str × Eol)) (l : Str) (e : Eol) (rest : Str)
    (hu : Unambiguous (hs ++ (l, e) :: body) rest) (hh : ∀ p ∈ hs, HeaderLine p.1 ∧ Plain p.1) (hp : Plain l)
    (hn : l ≠ []) (h0 : ∀ c, l.head? = some c → c ≠ ' ' ∧ c ≠ '\t') (hw : ∀ c ∈ l, isSpace c = true)
    (parts : List (List (Str × Str))) (headers : Mail.Headers Str) (epilogue : Option Str) :
    ¬ HeaderLine l ∧
    checkMsgParseFlags (renderLines (hs ++ (l, e) :: body) rest) parts headers epilogue c!"missing_mime_head_body_separator" = false := by
  have hl : ¬ HeaderLine l := by
    intro h
    cases h with
    | envelope r => exact absurd (hw 'F' (by simp)) (by decide)
    | field name r _ => exact absurd (hw ':' (by simp)) (by decide)
    | folded c r hc => exact absurd hc (by have := h0 c rfl; simp [this.1, this.2])
  refine ⟨hl, ?_⟩
  rw [checkMsgParseFlags.eq_def, if_pos rfl, missingSeparator, lines_render _ _ _ hu (fun p hp => (hh p hp).2), loop_headers _ _ (by
    intro x hx
    obtain ⟨p, hp, rfl⟩ := List.mem_map.1 hx
    exact (hh p hp).1)]
  have hb : '\r' ∉ l ∧ '\n' ∉ l := by
    clear hh
    induction hs with
    | nil => exact ⟨hu.1, hu.2.1⟩
    | cons p hs ih => exact ih hu.2.2.2
  simp only [List.map_cons, renderLines, Eol.text, List.append_assoc]
  rw [show (c!"\n" ++ renderLines (body.map (fun p => (p.1, Eol.lf))) rest) = '\n' :: renderLines (body.map (fun p => (p.1, Eol.lf))) rest from rfl,
    lines_one l _ (unbroken hb.1 hb.2 hp), loop_other _ _ hl, strip_blank hw]
  rfl

/-- **C147**.  The rule about missing headers of parts holds if and only if the message or one of its parts has none; the rule
about text after the last part holds if and only if there is some; no other word is a flag. -/
theorem C147_flags (raw : Str) (parts : List (List (Str × Str))) (headers : Mail.Headers Str) (epilogue : Option Str) :
    (checkMsgParseFlags raw parts headers epilogue c!"missing_mime_headers" = true ↔ [] ∈ parts) ∧
    (checkMsgParseFlags raw parts headers epilogue c!"mime_epilogue_exists" = true ↔ ∃ e, epilogue = some e ∧ e ≠ []) ∧
    (∀ flag, flag ≠ c!"missing_mime_head_body_separator" → flag ≠ c!"missing_mime_headers" → flag ≠ c!"truncated_headers" →
      flag ≠ c!"mime_epilogue_exists" → checkMsgParseFlags raw parts headers epilogue flag = false) := by
  refine ⟨?_, ?_, ?_⟩
  · rw [checkMsgParseFlags.eq_def, if_neg (by decide), if_pos rfl, missingBoundaryHeader]
    have : ∀ (ps : List (List (Str × Str))) (b : Bool),
        ps.foldl (fun flag headers => if headers.isEmpty then true else flag) b = true ↔ b = true ∨ [] ∈ ps := by
      intro ps
      induction ps with
      | nil => intro b; simp
      | cons p ps ih =>
        intro b
        rw [List.foldl_cons, ih]
        cases p with
        | nil => simp
        | cons x xs => simp
    rw [this]
    simp
  · rw [checkMsgParseFlags.eq_def, if_neg (by decide), if_neg (by decide), if_neg (by decide), if_pos rfl]
    cases epilogue with
    | none => simp
    | some e => cases e <;> simp
  · intro flag h1 h2 h3 h4
    rw [checkMsgParseFlags.eq_def, if_neg h1, if_neg h2, if_neg h3, if_neg h4]

/-! ### Cases -/

set_option maxRecDepth 8000 in
example : missingSeparator c!"From me Mon\r\nSubject: a\r\n b\r\n\r\nHello" = false := by decide +kernel
set_option maxRecDepth 8000 in
example : missingSeparator c!"Subject: a\r\n b\rHello\n\nYou: there" = true := by decide +kernel
set_option maxRecDepth 8000 in
example : missingSeparator c!"Subject: a\x0cb\n\nHello" = true := by decide +kernel
set_option maxRecDepth 8000 in
example : missingSeparator c!"Subject: a\n\xa0\nHello" = false := by decide +kernel
example : Unambiguous ([(c!"Subject: a", .crlf), (c!" b", .cr)] ++ (c!"Hello", .lf) :: [([], .lf)]) c!"x" ∧
    HeaderLine c!"Subject: a" ∧ HeaderLine c!" b" ∧ ¬ HeaderLine c!"Hello" ∧ Plain c!"Hello" := by
  refine ⟨by simp [Unambiguous], .field c!"Subject" c!" a" (by decide), .folded ' ' _ (.inl rfl), ?_, by unfold Plain; decide⟩
  intro h
  have := (isHeader_iff _).2 h
  revert this
  decide
example : checkMsgParseFlags [] [[(c!"Subject", c!"a")], []] [] none c!"missing_mime_headers" = true := by decide

end Verif.Props
