import Verif.Spec.Report
import Verif.Lemmas.Strip
import Verif.Props.Matching

/-!
# C56: header modifications, C60: templates, C61: TESTSSCORES, C07 (tags)
-/

namespace Verif.Props
open Verif Py Report Spec

/-! ### C60 -/

theorem not_upper {d : Char} (h : ¬ ('A' ≤ d ∧ d ≤ 'Z')) : isUpper d = false := by
  cases hx : isUpper d with
  | false => rfl
  | true => simp [isUpper] at hx; exact absurd hx h

theorem tagName_ne {u : Str} (hu : TagName u) : ∀ c ∈ u, c ≠ '_' := by
  intro c hc e
  subst e
  exact absurd (hu _ hc) (by decide)

theorem subTags_plain (u : Str) (hu : ∀ c ∈ u, c ≠ '_') (rest : Str) :
    subTags none (u ++ rest) = u ++ subTags none rest ∧ findTags none (u ++ rest) = findTags none rest := by
  induction u with
  | nil => exact ⟨rfl, rfl⟩
  | cons c u ih =>
    obtain ⟨i1, i2⟩ := ih (fun x hx => hu x (List.mem_cons_of_mem _ hx))
    simp only [List.cons_append, subTags, findTags, if_neg (hu c (List.mem_cons_self ..)), i1, i2, and_self]

theorem subTags_broken (u : Str) (hu : TagName u) {d : Char} (h1 : d ≠ '_') (h2 : isUpper d = false) : ∀ (t rest : Str),
    subTags (some t) (u ++ d :: rest) = '_' :: (t ++ u) ++ d :: subTags none rest ∧
    findTags (some t) (u ++ d :: rest) = findTags none rest := by
  induction u with
  | nil => intro t rest; simp [subTags, findTags, h1, h2]
  | cons c u ih =>
    intro t rest
    have hc := hu c (List.mem_cons_self ..)
    have hne := tagName_ne hu c (List.mem_cons_self ..)
    have hup : isUpper c = true := by simp [isUpper, hc]
    obtain ⟨i1, i2⟩ := ih (fun x hx => hu x (List.mem_cons_of_mem _ hx)) (t ++ [c]) rest
    simp only [List.cons_append, subTags, findTags, if_neg hne, hup, if_true, i1, i2]
    simp

theorem subTags_end (u : Str) (hu : TagName u) : ∀ (t : Str),
    subTags (some t) u = '_' :: (t ++ u) ∧ findTags (some t) u = [] := by
  induction u with
  | nil => intro t; simp [subTags, findTags]
  | cons c u ih =>
    intro t
    have hc := hu c (List.mem_cons_self ..)
    have hne := tagName_ne hu c (List.mem_cons_self ..)
    have hup : isUpper c = true := by simp [isUpper, hc]
    obtain ⟨i1, i2⟩ := ih (fun x hx => hu x (List.mem_cons_of_mem _ hx)) (t ++ [c])
    simp only [subTags, findTags, if_neg hne, hup, if_true, i1, i2]
    simp

theorem subTags_lit (s rest : Str) (h : PlainText s) :
    subTags none (s ++ rest) = s ++ subTags none rest ∧ findTags none (s ++ rest) = findTags none rest := by
  induction s with
  | nil => exact ⟨rfl, rfl⟩
  | cons c s ih =>
    obtain ⟨h1, h2⟩ := h
    obtain ⟨i1, i2⟩ := ih h2
    by_cases hc : c = '_'
    · obtain ⟨u, d, s', rfl, hu, hd1, hd2⟩ := h1 hc
      subst hc
      have hu' := not_upper hd2
      obtain ⟨b1, b2⟩ := subTags_broken u hu hd1 hu' [] (s' ++ rest)
      have hud : ∀ x ∈ u ++ [d], x ≠ '_' := by
        intro x hx
        rcases List.mem_append.1 hx with hx | hx
        · exact tagName_ne hu x hx
        · rw [List.mem_singleton.1 hx]; exact hd1
      obtain ⟨p1, p2⟩ := subTags_plain (u ++ [d]) hud (s' ++ rest)
      have e : u ++ d :: s' ++ rest = u ++ d :: (s' ++ rest) := by simp
      have e' : u ++ [d] ++ (s' ++ rest) = u ++ d :: (s' ++ rest) := by simp
      rw [e'] at p1 p2
      rw [e] at i1 i2
      rw [i1] at p1
      rw [i2] at p2
      simp only [List.cons_append, subTags, findTags, if_true, e, b1, b2, List.nil_append]
      refine ⟨?_, p2.symm⟩
      rw [p1]; simp
    · simp only [List.cons_append, subTags, findTags, if_neg hc, i1, i2, and_self]

theorem subTags_pend (u : Str) (hu : TagName u) : ∀ (t rest : Str),
    subTags (some t) (u ++ '_' :: rest) = c!"%(" ++ (t ++ u) ++ c!")s" ++ subTags none rest ∧
    findTags (some t) (u ++ '_' :: rest) = (t ++ u) :: findTags none rest := by
  induction u with
  | nil => intro t rest; simp [subTags, findTags]
  | cons c u ih =>
    intro t rest
    have hc := hu c (List.mem_cons_self ..)
    have hne : c ≠ '_' := by
      intro e; subst e; exact absurd hc (by decide)
    have hup : isUpper c = true := by simp [isUpper, hc]
    obtain ⟨i1, i2⟩ := ih (fun x hx => hu x (List.mem_cons_of_mem _ hx)) (t ++ [c]) rest
    simp only [List.cons_append, subTags, findTags, if_neg hne, hup, if_true, i1, i2]
    simp

theorem subTags_segs (segs : List Seg) (tail : Str) (h : ∀ g ∈ segs, g.Ok) (ht : PlainTail tail) :
    subTags none (segs.flatMap Seg.text ++ tail) =
      segs.flatMap (fun g => match g with | .lit s => s | .tag t => c!"%(" ++ t ++ c!")s") ++ tail ∧
    findTags none (segs.flatMap Seg.text ++ tail) =
      segs.filterMap (fun g => match g with | .lit _ => none | .tag t => some t) := by
  induction segs with
  | nil =>
    rcases ht with rfl | ⟨u, hu, rfl⟩
    · exact ⟨rfl, rfl⟩
    · obtain ⟨b1, b2⟩ := subTags_end u hu []
      simp [subTags, findTags, b1, b2]
  | cons g segs ih =>
    obtain ⟨i1, i2⟩ := ih (fun x hx => h x (List.mem_cons_of_mem _ hx))
    have hg := h g (List.mem_cons_self ..)
    simp only [List.flatMap_cons, List.append_assoc]
    cases g with
    | lit s =>
      obtain ⟨a1, a2⟩ := subTags_lit s (segs.flatMap Seg.text ++ tail) hg.1
      simp only [Seg.text] at *
      rw [a1, a2, i1, i2]; simp
    | tag t =>
      obtain ⟨a1, a2⟩ := subTags_pend t hg [] (segs.flatMap Seg.text ++ tail)
      have : (Seg.tag t).text ++ (segs.flatMap Seg.text ++ tail) = '_' :: (t ++ '_' :: (segs.flatMap Seg.text ++ tail)) := by
        simp [Seg.text]
      rw [this]
      simp only [subTags, findTags, if_true, a1, a2, i1, i2]
      simp

theorem fmtAux_lit (data : Dict Str Str) (s rest : Str) (h : '%' ∉ s) :
    fmtAux data .text (s ++ rest) = (fmtAux data .text rest).map (s ++ ·) := by
  induction s with
  | nil => simp
  | cons c s ih =>
    have hc : c ≠ '%' := fun e => h (by simp [e])
    simp only [List.cons_append, fmtAux, if_neg hc, ih (fun hm => h (List.mem_cons_of_mem _ hm))]
    cases fmtAux data .text rest <;> simp

theorem fmtAux_key (data : Dict Str Str) (u : Str) (hu : ')' ∉ u) : ∀ (k rest : Str),
    fmtAux data (.key k) (u ++ ')' :: 's' :: rest) =
      (Dict.get? data (k ++ u)).bind (fun v => (fmtAux data .text rest).map (v ++ ·)) := by
  induction u with
  | nil => intro k rest; simp [fmtAux]
  | cons c u ih =>
    intro k rest
    have hc : c ≠ ')' := fun e => hu (by simp [e])
    simp only [List.cons_append, fmtAux, if_neg hc, ih (fun hm => hu (List.mem_cons_of_mem _ hm))]
    simp

theorem fmt_segs (data : Dict Str Str) (value : Str → Str) (segs : List Seg)
    (hl : ∀ s, Seg.lit s ∈ segs → '%' ∉ s) (h : ∀ t, Seg.tag t ∈ segs → TagName t)
    (hd : ∀ t, Seg.tag t ∈ segs → Dict.get? data t = some (value t)) :
    fmt data (segs.flatMap (fun g => match g with | .lit s => s | .tag t => c!"%(" ++ t ++ c!")s")) =
      some (segs.flatMap (Seg.shown value)) := by
  unfold fmt
  induction segs with
  | nil => rfl
  | cons g segs ih =>
    have i := ih (fun x hx => hl x (List.mem_cons_of_mem _ hx)) (fun x hx => h x (List.mem_cons_of_mem _ hx))
      (fun t ht => hd t (List.mem_cons_of_mem _ ht))
    simp only [List.flatMap_cons]
    cases g with
    | lit s => simp only [fmtAux_lit data s _ (hl s (List.mem_cons_self ..)), i, Option.map_some, Seg.shown]
    | tag t =>
      have hp : ')' ∉ t := fun hm => absurd (h t (List.mem_cons_self ..) _ hm) (by decide)
      have e : ∀ r : Str, c!"%(" ++ t ++ c!")s" ++ r = '%' :: '(' :: (t ++ ')' :: 's' :: r) := by
        intro r; simp
      simp only [e]
      simp only [fmtAux, if_true]
      rw [fmtAux_key data t hp, List.nil_append, hd t (List.mem_cons_self ..)]
      simp only [i, Option.map_some, Option.bind_some, Seg.shown]

theorem stripChars_around {q core q1 q2 : Str} (h1 : ∀ c ∈ q1, q.contains c = true) (h2 : ∀ c ∈ q2, q.contains c = true)
    (hc : core = [] ∨ (∃ c cs, core = c :: cs ∧ q.contains c = false) ∧ (∃ cs c, core = cs ++ [c] ∧ q.contains c = false)) :
    stripChars q (q1 ++ core ++ q2) = core := by
  unfold stripChars stripBy lstripBy
  rw [List.append_assoc, dropWhile_all _ h1]
  rcases hc with rfl | ⟨⟨c, cs, rfl, h⟩, ⟨ds, d, e, h'⟩⟩
  · have : ([] ++ q2).dropWhile (fun c => q.contains c) = [] := by
      have := dropWhile_all (p := fun c => q.contains c) [] h2
      simpa using this
    rw [this]; rfl
  · rw [List.cons_append, dropWhile_head _ h, ← List.cons_append, rstripBy_all _ h2]
    rw [e, rstripBy_last _ h']

/-- What a segment becomes when a template is stored. -/
def segConv : Seg → Str
  | .lit s => s
  | .tag t => c!"%(" ++ t ++ c!")s"

theorem segConv_eq : (fun g : Seg => match g with | .lit s => s | .tag t => c!"%(" ++ t ++ c!")s") = segConv := by
  funext g
  cases g <;> rfl

theorem convertTags_segs (segs : List Seg) (tail q1 q2 : Str) (h : ∀ g ∈ segs, g.Ok) (ht : PlainTail tail)
    (h1 : ∀ c ∈ q1, c = '"' ∨ c = '\'') (h2 : ∀ c ∈ q2, c = '"' ∨ c = '\'')
    (hq : ∀ c, ((segs.flatMap Seg.text ++ tail).head? = some c ∨ (segs.flatMap Seg.text ++ tail).getLast? = some c) →
      c ≠ '"' ∧ c ≠ '\'') :
    (convertTags (q1 ++ (segs.flatMap Seg.text ++ tail) ++ q2)).1 = segs.flatMap segConv ++ tail ∧
    (convertTags (q1 ++ (segs.flatMap Seg.text ++ tail) ++ q2)).2 =
      segs.filterMap (fun g => match g with | .lit _ => none | .tag t => some t) := by
  have hs : stripChars c!"'\"" (q1 ++ (segs.flatMap Seg.text ++ tail) ++ q2) = segs.flatMap Seg.text ++ tail := by
    apply stripChars_around
    · intro c hc; rcases h1 c hc with rfl | rfl <;> decide
    · intro c hc; rcases h2 c hc with rfl | rfl <;> decide
    · have hne : ∀ c : Char, c ≠ '"' ∧ c ≠ '\'' → (c!"'\"").contains c = false := by
        intro c hc; simp [hc.1, hc.2]
      have hq' := hq
      cases hx : segs.flatMap Seg.text ++ tail with
      | nil => exact .inl rfl
      | cons c cs =>
        right
        rw [hx] at hq'
        refine ⟨⟨c, cs, rfl, hne c (hq' c (.inl rfl))⟩, ?_⟩
        rcases List.eq_nil_or_concat (c :: cs) with he | ⟨ds, d, he⟩
        · cases he
        · refine ⟨ds, d, by rw [he, List.concat_eq_append], hne d (hq' d (.inr ?_))⟩
          rw [he]; simp
  unfold convertTags
  simp only [hs]
  obtain ⟨a1, a2⟩ := subTags_segs segs tail h ht
  rw [a1, a2, segConv_eq]
  exact ⟨rfl, rfl⟩

theorem tail_percent {tail : Str} (ht : PlainTail tail) : '%' ∉ tail := by
  rcases ht with rfl | ⟨u, hu, rfl⟩
  · simp
  · intro hm
    rcases List.mem_cons.1 hm with hm | hm
    · cases hm
    · exact absurd (hu _ hm) (by decide)

/-- **C60** (partial).  A template, possibly in quotes, of plain text and tags is shown with every tag
replaced by its value and the text unchanged.  Missing: templates containing `%` or two
underscores in a row (`C60_single_percent_violated`, `C60_underscores_violated`). -/
theorem C60_template_partial (data : Dict Str Str) (value : Str → Str) (segs : List Seg) (tail q1 q2 : Str)
    (h : ∀ g ∈ segs, g.Ok) (ht : PlainTail tail)
    (hd : ∀ t, Seg.tag t ∈ segs → Dict.get? data t = some (value t))
    (h1 : ∀ c ∈ q1, c = '"' ∨ c = '\'') (h2 : ∀ c ∈ q2, c = '"' ∨ c = '\'')
    (hq : ∀ s, s = segs.flatMap Seg.text ++ tail →
      ∀ c, (s.head? = some c ∨ s.getLast? = some c) → c ≠ '"' ∧ c ≠ '\'') :
    fmt data (convertTags (q1 ++ (segs.flatMap Seg.text ++ tail) ++ q2)).1 =
      some (segs.flatMap (Seg.shown value) ++ tail) ∧
    (convertTags (q1 ++ (segs.flatMap Seg.text ++ tail) ++ q2)).2 =
      segs.filterMap (fun g => match g with | .lit _ => none | .tag t => some t) := by
  have hs : stripChars c!"'\"" (q1 ++ (segs.flatMap Seg.text ++ tail) ++ q2) = segs.flatMap Seg.text ++ tail := by
    apply stripChars_around
    · intro c hc; rcases h1 c hc with rfl | rfl <;> decide
    · intro c hc; rcases h2 c hc with rfl | rfl <;> decide
    · have hne : ∀ c : Char, c ≠ '"' ∧ c ≠ '\'' → (c!"'\"").contains c = false := by
        intro c hc; simp [hc.1, hc.2]
      have hq' := hq _ rfl
      cases hx : segs.flatMap Seg.text ++ tail with
      | nil => exact .inl rfl
      | cons c cs =>
        right
        rw [hx] at hq'
        refine ⟨⟨c, cs, rfl, hne c (hq' c (.inl rfl))⟩, ?_⟩
        rcases List.eq_nil_or_concat (c :: cs) with he | ⟨ds, d, he⟩
        · cases he
        · refine ⟨ds, d, by rw [he, List.concat_eq_append], hne d (hq' d (.inr ?_))⟩
          rw [he]; simp
  unfold convertTags
  simp only [hs]
  obtain ⟨a1, a2⟩ := subTags_segs segs tail h ht
  rw [a1, a2]
  refine ⟨?_, rfl⟩
  have htail : '%' ∉ tail := by
    rcases ht with rfl | ⟨u, hu, rfl⟩
    · simp
    · intro hm
      rcases List.mem_cons.1 hm with hm | hm
      · cases hm
      · exact absurd (hu _ hm) (by decide)
  have := fmt_segs data value (segs ++ [.lit tail]) ?_ ?_ ?_
  · simp only [List.flatMap_append, List.flatMap_cons, List.flatMap_nil, List.append_nil, Seg.shown] at this
    have e : ([Seg.lit tail].flatMap fun g => match g with | .lit s => s | .tag t => c!"%(" ++ t ++ c!")s") = tail := by simp
    simpa using this
  · intro s hs
    rcases List.mem_append.1 hs with hs | hs
    · exact (h _ hs).2
    · simp at hs; rw [hs]; exact htail
  · intro t ht
    rcases List.mem_append.1 ht with ht | ht
    · exact h _ ht
    · simp at ht
  · intro t ht
    rcases List.mem_append.1 ht with ht | ht
    · exact hd t ht
    · simp at ht

def demoSegs : List Seg := [.lit c!"Spam: ", .tag c!"YESNO", .lit c!" for my_Xhost, score ", .tag c!"SCORE"]
def demoData : Dict Str Str := [(c!"YESNO", c!"Yes"), (c!"SCORE", c!"7.5")]
example : (demoSegs.flatMap Seg.text) = c!"Spam: _YESNO_ for my_Xhost, score _SCORE_" ∧
    fmt demoData (convertTags (c!"\"" ++ demoSegs.flatMap Seg.text ++ c!"\"")).1 =
      some c!"Spam: Yes for my_Xhost, score 7.5" := by decide
example : ∀ g ∈ demoSegs, g.Ok := by
  intro g hg
  simp only [demoSegs, List.mem_cons, List.not_mem_nil, or_false] at hg
  rcases hg with rfl | rfl | rfl | rfl
  · simp [Seg.Ok, PlainText]
  · simp only [Seg.Ok, TagName]; decide
  · refine ⟨?_, by decide⟩
    simp only [PlainText]
    simp
    exact ⟨['X'], 'h', ⟨c!"ost, score ", rfl⟩, by simp only [TagName]; decide, by decide, by decide⟩
  · simp only [Seg.Ok, TagName]; decide
example : PlainTail c!"_SCO" ∧ fmt demoData (convertTags (demoSegs.flatMap Seg.text ++ c!"_SCO")).1 =
    some c!"Spam: Yes for my_Xhost, score 7.5_SCO" :=
  ⟨.inr ⟨c!"SCO", by simp only [TagName]; decide, rfl⟩, by decide⟩

/-- A percent sign in a template is not shown as itself: interpolation fails, or formats the
dictionary. -/
example : fmt demoData (convertTags c!"100% sure").1 = none := by decide

/-- Text with nothing special in it: no underscore, no percent sign, no quotes. -/
def Ordinary (s : Str) : Prop := ∀ c ∈ s, c ≠ '_' ∧ c ≠ '%' ∧ c ≠ '"' ∧ c ≠ '\''

theorem convertTags_plain (s : Str) (h : ∀ c ∈ s, c ≠ '_' ∧ c ≠ '"' ∧ c ≠ '\'') : (convertTags s).1 = s := by
  have hs : stripChars c!"'\"" s = s := by
    have hne : ∀ c ∈ s, (c!"'\"").contains c = false := by
      intro c hc
      obtain ⟨_, h1, h2⟩ := h c hc
      simp [h1, h2]
    have := stripChars_around (q := c!"'\"") (core := s) (q1 := []) (q2 := []) (by simp) (by simp)
      (by
        by_cases he : s = []
        · exact .inl he
        · obtain ⟨c, cs, e⟩ := List.exists_cons_of_ne_nil he
          exact .inr ⟨⟨c, cs, e, hne c (by simp [e])⟩, ⟨s.dropLast, s.getLast he,
            (List.dropLast_concat_getLast he).symm, hne _ (List.getLast_mem he)⟩⟩)
    simpa using this
  have := (subTags_plain s (fun c hc => (h c hc).1) []).1
  unfold convertTags
  simp only [hs]
  simpa [subTags] using this

/-- **C60** (partial).  A doubled percent sign in a template is shown as one: what stands before and
after it is unchanged. -/
theorem C60_doubled_partial (data : Dict Str Str) (a b : Str) (ha : Ordinary a) (hb : Ordinary b) :
    fmt data (convertTags (a ++ c!"%%" ++ b)).1 = some (a ++ c!"%" ++ b) := by
  rw [convertTags_plain]
  · have hb' := fmtAux_lit data b [] (fun h => (hb _ h).2.1 rfl)
    simp only [List.append_nil] at hb'
    unfold fmt
    rw [List.append_assoc, fmtAux_lit data a _ (fun h => (ha _ h).2.1 rfl)]
    simp [fmtAux, hb']
  · intro c hc
    simp only [List.mem_append] at hc
    rcases hc with (hc | hc) | hc
    · exact ⟨(ha c hc).1, (ha c hc).2.2⟩
    · revert c; decide
    · exact ⟨(hb c hc).1, (hb c hc).2.2⟩

/-- **C60 is violated** by every template with a single percent sign: whatever the values of the
tags, the text cannot be shown. -/
theorem C60_single_percent_violated (data : Dict Str Str) (a b : Str) (ha : Ordinary a) (hb : Ordinary b)
    (hp : b.head? ≠ some '(') : fmt data (convertTags (a ++ c!"%" ++ b)).1 = none := by
  rw [convertTags_plain]
  · unfold fmt
    rw [List.append_assoc, fmtAux_lit data a _ (fun h => (ha _ h).2.1 rfl)]
    cases b with
    | nil => simp [fmtAux]
    | cons c b =>
      have h1 := (hb c (by simp)).2.1
      have h2 : c ≠ '(' := by simpa using hp
      simp [fmtAux, h1, h2]
  · intro c hc
    simp only [List.mem_append] at hc
    rcases hc with (hc | hc) | hc
    · exact ⟨(ha c hc).1, (ha c hc).2.2⟩
    · revert c; decide
    · exact ⟨(hb c hc).1, (hb c hc).2.2⟩

example : Ordinary c!"100" ∧ Ordinary c!" sure" ∧
    fmt demoData (convertTags c!"100%% sure").1 = some c!"100% sure" :=
  ⟨by unfold Ordinary; decide, by unfold Ordinary; decide, by decide⟩

/-- **C60 is violated** by every template with two underscores in a row: they are taken for a tag without a name, and what is shown in their place
is the value of that tag, which is `@@@@` (`C60_unknown_tag`). -/
theorem C60_underscores_violated (data : Dict Str Str) (a b : Str) (ha : Ordinary a) (hb : Ordinary b) :
    fmt data (convertTags (a ++ c!"__" ++ b)).1 = (Dict.get? data []).map (fun v => a ++ v ++ b) := by
  have hq : ∀ c ∈ a ++ c!"__" ++ b, (c!"'\"").contains c = false := by
    intro c hc
    simp only [List.mem_append] at hc
    rcases hc with (hc | hc) | hc
    · simp [(ha c hc).2.2.1, (ha c hc).2.2.2]
    · revert c; decide
    · simp [(hb c hc).2.2.1, (hb c hc).2.2.2]
  have hs : stripChars c!"'\"" (a ++ c!"__" ++ b) = a ++ c!"__" ++ b := by
    have he : a ++ c!"__" ++ b ≠ [] := by simp
    have := stripChars_around (q := c!"'\"") (core := a ++ c!"__" ++ b) (q1 := []) (q2 := []) (by simp) (by simp)
      (by
        obtain ⟨c, cs, e⟩ := List.exists_cons_of_ne_nil he
        exact .inr ⟨⟨c, cs, e, hq c (by simp [e])⟩, ⟨_, _, (List.dropLast_concat_getLast he).symm, hq _ (List.getLast_mem he)⟩⟩)
    simpa using this
  have hb' := (subTags_plain b (fun c hc => (hb c hc).1) []).1
  have hf := fmtAux_lit data b [] (fun h => (hb _ h).2.1 rfl)
  simp only [List.append_nil] at hb' hf
  have hc : (convertTags (a ++ c!"__" ++ b)).1 = a ++ (c!"%()s" ++ b) := by
    unfold convertTags
    simp only [hs]
    rw [List.append_assoc, (subTags_plain a (fun c hc => (ha c hc).1) _).1]
    show a ++ (c!"%(" ++ [] ++ c!")s" ++ subTags none b) = _
    rw [hb']
    simp [subTags]
  rw [hc]
  unfold fmt
  rw [fmtAux_lit data a _ (fun h => (ha _ h).2.1 rfl)]
  show (fmtAux data (.key []) ([] ++ ')' :: 's' :: b)).map _ = _
  rw [fmtAux_key data [] (by simp), hf]
  rw [List.append_nil]
  cases Dict.get? data [] <;> simp [fmtAux]

example : (convertTags c!"a__b").1 = c!"a%()sb" ∧
    fmt [([], c!"@@@@")] (convertTags c!"a__b").1 = some c!"a@@@@b" := by decide

/-! ### C61 -/

variable {S X : Type} [PyNum S]

/-- **C61** (partial).  The TESTSSCORES tag names exactly the matched rules, once each, in evaluation
order, and is `none` exactly if there are none.  Missing: the number shown is the rule's result,
not its score (`C61_score_violated`). -/
theorem C61_names_partial (E : Env S) (out : Str → Outcome) (rules : Dict Str (Rule S X)) (s : MsgSt S X)
    (hq : ∀ p ∈ rules, Quiet p.2) (ho : ∀ p ∈ rules, ∀ s, (p.2.run s).1 = out p.1)
    (hn : (rules.map Prod.fst).Nodup) (hs : s.checked = []) :
    let matched := (executed out rules).filter (fun p => Matched (out p.1))
    (matched = [] → testsScoresTag E (runRules rules s) = c!"none") ∧
    (matched ≠ [] → testsScoresTag E (runRules rules s) =
      join c!"," (matched.map (fun p => p.1 ++ c!"=" ++ E.int (asResult (out p.1))))) := by
  have h := (C01_score_exact out rules s hq ho hn hs).1
  have hm : ((runRules rules s).checked.filter (fun p => p.2 ≠ 0)).map (fun p => p.1 ++ c!"=" ++ E.int p.2) =
      ((executed out rules).filter (fun p => Matched (out p.1))).map
        (fun p => p.1 ++ c!"=" ++ E.int (asResult (out p.1))) := by
    rw [h, List.filter_map, List.map_map]
    congr 1
  simp only [testsScoresTag, hm]
  refine ⟨?_, ?_⟩
  · intro he; rw [he]; rfl
  · intro hne
    rw [if_neg]
    simpa using hne

/-- Decimal digits, for the example. -/
def showInt (n : Int) : Str := (toString n).toList
def intEnv : Env Int := ⟨showInt, showInt, showInt, showInt, c!"host", c!"1.2b", c!"N/A", c!""⟩

/-- **C61 is violated**: the TESTSSCORES tag does not depend on the scores.  Rules with the same names and results but any other scores give the
same tag. -/
theorem C61_score_violated (E : Env S) (out : Str → Outcome) (rules rules' : Dict Str (Rule S X)) (s s' : MsgSt S X)
    (hq : ∀ p ∈ rules, Quiet p.2) (ho : ∀ p ∈ rules, ∀ s, (p.2.run s).1 = out p.1) (hq' : ∀ p ∈ rules', Quiet p.2)
    (ho' : ∀ p ∈ rules', ∀ s, (p.2.run s).1 = out p.1) (hn : (rules.map Prod.fst).Nodup)
    (hsame : rules.map Prod.fst = rules'.map Prod.fst) (hs : s.checked = []) (hs' : s'.checked = []) :
    testsScoresTag E (runRules rules s) = testsScoresTag E (runRules rules' s') := by
  have key : ∀ l l' : Dict Str (Rule S X), l.map Prod.fst = l'.map Prod.fst →
      ((executed out l).filter (fun p => Matched (out p.1))).map Prod.fst = ((executed out l').filter (fun p => Matched (out p.1))).map Prod.fst := by
    intro l
    induction l with
    | nil => intro l' h; cases l' with
      | nil => rfl
      | cons => simp at h
    | cons p l ih => intro l' h; cases l' with
      | nil => simp at h
      | cons p' l' =>
        simp only [List.map_cons, List.cons.injEq] at h
        have h' := ih l' h.2
        unfold executed at h' ⊢
        simp only [List.takeWhile_cons, h.1]
        split
        · simp only [List.filter_cons, h.1]
          split
          · rw [List.map_cons, List.map_cons, h', h.1]
          · exact h'
        · rfl
  have hk := key rules rules' hsame
  have e : ∀ l : List (Str × Rule S X), l.map (fun p => p.1 ++ c!"=" ++ E.int (asResult (out p.1))) =
      (l.map Prod.fst).map (fun n => n ++ c!"=" ++ E.int (asResult (out n))) := fun l => by simp
  have h1 := C61_names_partial E out rules s hq ho hn hs
  have h2 := C61_names_partial E out rules' s' hq' ho' (hsame ▸ hn) hs'
  simp only [e] at h1 h2
  by_cases hm : (executed out rules).filter (fun p => Matched (out p.1)) = []
  · have hm' : (executed out rules').filter (fun p => Matched (out p.1)) = [] := by
      rw [hm] at hk; exact List.map_eq_nil_iff.1 hk.symm
    rw [h1.1 hm, h2.1 hm']
  · have hm' : (executed out rules').filter (fun p => Matched (out p.1)) ≠ [] := by
      intro h; rw [h] at hk; exact hm (List.map_eq_nil_iff.1 hk)
    rw [h1.2 hm, h2.2 hm', hk]

/-- A rule with score 5 that matched is shown with 1. -/
example :
    testsScoresTag intEnv (runRules [(c!"A", constRule c!"A" 5 (.ret (.val 1)))] startMsg) = c!"A=" ++ intEnv.int 1 ∧
    (runRules [(c!"A", constRule c!"A" 5 (.ret (.val 1)))] startMsg).score = 5 := by
  refine ⟨rfl, by decide⟩

/-! ### C07: the tags -/

theorem get?_foldl_set (l : List (Str × Str)) (k : Str) (h : k ∉ l.map Prod.fst) (d : Dict Str Str) :
    Dict.get? (l.foldl (fun (d : Dict Str Str) (p : Str × Str) => Dict.set d p.1 p.2) d) k = Dict.get? d k := by
  induction l generalizing d with
  | nil => rfl
  | cons p l ih =>
    simp only [List.map_cons, List.mem_cons, not_or] at h
    rw [List.foldl_cons, ih h.2, Dict.get?_set_ne _ _ (fun e => h.1 e.symm)]

theorem setIf_get {tags : List Str} {k k' : Str} {v : Option Str} {d : Option (Dict Str Str)} {d' : Dict Str Str}
    (h : setIf tags k v d = some d') (hk : k ≠ k') : ∃ d0, d = some d0 ∧ Dict.get? d' k' = Dict.get? d0 k' := by
  unfold setIf at h
  split at h
  · split at h
    · rename_i v0 d0
      cases h
      exact ⟨d0, rfl, Dict.get?_set_ne _ _ hk⟩
    · cases h
  · exact ⟨d', h, rfl⟩

/-- **C07**.  Whatever the templates, the tags YESNO and YESNOCAPS say yes exactly if the score
reaches the required score, unless a plugin sets a tag of that name. -/
theorem C07_tags (E : Env S) (c : RConf S) (st : RuleSt S X) (s : MsgSt S X) (pt d : Dict Str Str)
    (h : tagData E c st s pt = some d) (h1 : c!"YESNO" ∉ pt.map Prod.fst) (h2 : c!"YESNOCAPS" ∉ pt.map Prod.fst) :
    Dict.get? d c!"YESNO" = some (if c.required ≤ s.score then c!"Yes" else c!"No") ∧
    Dict.get? d c!"YESNOCAPS" = some (if c.required ≤ s.score then c!"YES" else c!"NO") := by
  unfold tagData at h
  simp only [Option.map_eq_some_iff] at h
  obtain ⟨d5, e5, rfl⟩ := h
  rw [get?_foldl_set pt _ h1, get?_foldl_set pt _ h2]
  obtain ⟨d4, e4, g5⟩ := setIf_get (k' := c!"YESNO") e5 (by decide)
  obtain ⟨d4', e4', g5'⟩ := setIf_get (k' := c!"YESNOCAPS") e5 (by decide)
  obtain ⟨d3, e3, g4⟩ := setIf_get (k' := c!"YESNO") e4 (by decide)
  obtain ⟨d3', e3', g4'⟩ := setIf_get (k' := c!"YESNOCAPS") e4' (by decide)
  obtain ⟨d2, e2, g3⟩ := setIf_get (k' := c!"YESNO") e3 (by decide)
  obtain ⟨d2', e2', g3'⟩ := setIf_get (k' := c!"YESNOCAPS") e3' (by decide)
  obtain ⟨d1, e1, g2⟩ := setIf_get (k' := c!"YESNO") e2 (by decide)
  obtain ⟨d1', e1', g2'⟩ := setIf_get (k' := c!"YESNOCAPS") e2' (by decide)
  obtain ⟨d0, e0, g1⟩ := setIf_get (k' := c!"YESNO") e1 (by decide)
  obtain ⟨d0', e0', g1'⟩ := setIf_get (k' := c!"YESNOCAPS") e1' (by decide)
  rw [g5, g4, g3, g2, g1, g5', g4', g3', g2', g1']
  cases e0; cases e0'
  constructor
  · rw [Dict.get?_set_ne _ _ (by decide), Dict.get?_set_ne _ _ (by decide), Dict.get?_set_ne _ _ (by decide),
      Dict.get?_set_ne _ _ (by decide), Dict.get?_set_self]
    simp [isSpam]
  · rw [Dict.get?_set_ne _ _ (by decide), Dict.get?_set_ne _ _ (by decide), Dict.get?_set_ne _ _ (by decide),
      Dict.get?_set_ne _ _ (by decide), Dict.get?_set_ne _ _ (by decide), Dict.get?_set_self]
    simp [isSpam]

/-- A tag none of the optional blocks sets. -/
theorem tagData_get {E : Env S} {c : RConf S} {st : RuleSt S X} {s : MsgSt S X} {pt d : Dict Str Str} (k : Str)
    (h : tagData E c st s pt = some d) (hp : k ∉ pt.map Prod.fst)
    (hk : k ∉ [c!"REPORT", c!"TESTS", c!"TESTSSCORES", c!"SUMMARY", c!"PREVIEW"]) :
    Dict.get? d k = Dict.get? (Dict.set (Dict.set (Dict.set (Dict.set (Dict.set (Dict.set (Dict.set (Dict.set
      (c.tags.foldl (fun (d : Dict Str Str) (t : Str) => Dict.set d t (c!"@@" ++ t ++ c!"@@")) [])
      c!"CONTACTADDRESS" c.contact) c!"HOSTNAME" E.hostname)
      c!"YESNOCAPS" (if isSpam c s then c!"YES" else c!"NO")) c!"YESNO" (if isSpam c s then c!"Yes" else c!"No"))
      c!"SCORE" (E.fmt1 s.score)) c!"REQD" (E.fmt1 c.required)) c!"SUBVERSION" E.release) c!"VERSION" E.version) k := by
  simp only [List.mem_cons, List.not_mem_nil, or_false, not_or] at hk
  unfold tagData at h
  simp only [Option.map_eq_some_iff] at h
  obtain ⟨d5, e5, rfl⟩ := h
  rw [get?_foldl_set pt _ hp]
  obtain ⟨d4, e4, g5⟩ := setIf_get (k' := k) e5 (fun e => hk.2.2.2.2 e.symm)
  obtain ⟨d3, e3, g4⟩ := setIf_get (k' := k) e4 (fun e => hk.2.2.2.1 e.symm)
  obtain ⟨d2, e2, g3⟩ := setIf_get (k' := k) e3 (fun e => hk.2.2.1 e.symm)
  obtain ⟨d1, e1, g2⟩ := setIf_get (k' := k) e2 (fun e => hk.2.1 e.symm)
  obtain ⟨d0, e0, g1⟩ := setIf_get (k' := k) e1 (fun e => hk.1 e.symm)
  cases e0
  rw [g5, g4, g3, g2, g1]

theorem get?_unknown (tags : List Str) (t : Str) (h : t ∈ tags) (d : Dict Str Str) :
    Dict.get? (tags.foldl (fun (d : Dict Str Str) (t : Str) => Dict.set d t (c!"@@" ++ t ++ c!"@@")) d) t =
      some (c!"@@" ++ t ++ c!"@@") := by
  have key : ∀ (tags : List Str) (d : Dict Str Str), Dict.get? d t = some (c!"@@" ++ t ++ c!"@@") →
      Dict.get? (tags.foldl (fun (d : Dict Str Str) (t : Str) => Dict.set d t (c!"@@" ++ t ++ c!"@@")) d) t =
        some (c!"@@" ++ t ++ c!"@@") := by
    intro tags
    induction tags with
    | nil => intro d hd; exact hd
    | cons u tags ih =>
      intro d hd
      rw [List.foldl_cons]
      apply ih
      by_cases e : u = t
      · subst e; rw [Dict.get?_set_self]
      · rw [Dict.get?_set_ne _ _ e, hd]
  induction tags generalizing d with
  | nil => cases h
  | cons u tags ih =>
    rw [List.foldl_cons]
    rcases List.mem_cons.1 h with rfl | h
    · exact key tags _ (Dict.get?_set_self _ _ _)
    · exact ih h _

/-- **C60**.  What the tags stand for, unless a plugin sets a tag of that name: the contact address
and required score as configured, the message's score, the host's name, and the program's version. -/
theorem C60_values (E : Env S) (c : RConf S) (st : RuleSt S X) (s : MsgSt S X) (pt d : Dict Str Str)
    (h : tagData E c st s pt = some d) :
    (c!"CONTACTADDRESS" ∉ pt.map Prod.fst → Dict.get? d c!"CONTACTADDRESS" = some c.contact) ∧
    (c!"HOSTNAME" ∉ pt.map Prod.fst → Dict.get? d c!"HOSTNAME" = some E.hostname) ∧
    (c!"SCORE" ∉ pt.map Prod.fst → Dict.get? d c!"SCORE" = some (E.fmt1 s.score)) ∧
    (c!"REQD" ∉ pt.map Prod.fst → Dict.get? d c!"REQD" = some (E.fmt1 c.required)) ∧
    (c!"VERSION" ∉ pt.map Prod.fst → Dict.get? d c!"VERSION" = some E.version) ∧
    (c!"SUBVERSION" ∉ pt.map Prod.fst → Dict.get? d c!"SUBVERSION" = some E.release) := by
  refine ⟨fun hp => ?_, fun hp => ?_, fun hp => ?_, fun hp => ?_, fun hp => ?_, fun hp => ?_⟩ <;>
  · rw [tagData_get _ h hp (by decide)]
    repeat first
      | rw [Dict.get?_set_self]
      | rw [Dict.get?_set_ne _ _ (by decide)]

/-- **C60**.  A tag that is used in a template, is not a documented one and is not set by any plugin
stands for its own name between `@@`. -/
theorem C60_unknown_tag (E : Env S) (c : RConf S) (st : RuleSt S X) (s : MsgSt S X) (pt d : Dict Str Str)
    (h : tagData E c st s pt = some d) (t : Str) (ht : t ∈ c.tags) (hp : t ∉ pt.map Prod.fst)
    (hk : t ∉ [c!"CONTACTADDRESS", c!"HOSTNAME", c!"YESNOCAPS", c!"YESNO", c!"SCORE", c!"REQD", c!"SUBVERSION",
      c!"VERSION", c!"REPORT", c!"TESTS", c!"TESTSSCORES", c!"SUMMARY", c!"PREVIEW"]) :
    Dict.get? d t = some (c!"@@" ++ t ++ c!"@@") := by
  simp only [List.mem_cons, List.not_mem_nil, or_false, not_or] at hk
  obtain ⟨k1, k2, k3, k4, k5, k6, k7, k8, k9, k10, k11, k12, k13⟩ := hk
  rw [tagData_get _ h hp (by simp [k9, k10, k11, k12, k13]), Dict.get?_set_ne _ _ (Ne.symm k8),
    Dict.get?_set_ne _ _ (Ne.symm k7), Dict.get?_set_ne _ _ (Ne.symm k6), Dict.get?_set_ne _ _ (Ne.symm k5),
    Dict.get?_set_ne _ _ (Ne.symm k4), Dict.get?_set_ne _ _ (Ne.symm k3), Dict.get?_set_ne _ _ (Ne.symm k2),
    Dict.get?_set_ne _ _ (Ne.symm k1), get?_unknown _ _ ht]

example : (tagData intEnv (⟨5, c!"me", 0, [], [], [c!"FOO"]⟩ : RConf Int)
    ⟨[], []⟩ startMsg []).map (Dict.get? · c!"FOO") = some (some c!"@@FOO@@") := by decide

/-- **C60**.  The report for a message is its template filled in, with a line break at the end; if
there is no template, it says so. -/
theorem C60_report (build : Option (Dict Str Str)) (cache d : Dict Str Str) (template : Str)
    (hc : cache = d ∨ (cache = [] ∧ build = some d)) (hd : d ≠ []) :
    (template = [] → (getReport template build cache).1 = some c!"\n(no report template found)\n") ∧
    (template ≠ [] → ∀ text, fmt d template = some text →
      (getReport template build cache).1 = some (text ++ c!"\n")) := by
  constructor
  · rintro rfl; rfl
  · intro ht text hx
    rcases hc with rfl | ⟨rfl, rfl⟩
    · simp [getReport, ht, interpolate, hd, hx]
    · simp [getReport, ht, interpolate, hx]

example : (getReport c!"hi %(YESNO)s" (some demoData) []).1 = some c!"hi Yes\n" := by decide

/-- **C07**.  All texts shown for one message are made from the same tag values: those computed
for the first text. -/
theorem C07_same_tags (build build' : Option (Dict Str Str)) (d cache : Dict Str Str) (a b : Str)
    (hc : cache = []) (hb : build = some d) (hd : d ≠ []) :
    interpolate build cache a = (fmt d a, d) ∧
    interpolate build' (interpolate build cache a).2 b = (fmt d b, d) := by
  subst hc hb
  simp [interpolate, hd]

/-! ### C56 -/

/-- A stored modification as a change, once its text is known. -/
def changeOf (val : Str → Option Str) (m : Mod) : Option Change :=
  if m.remove then some (.remove m.name) else (val m.value).map (Change.add m.name)

theorem headersAfter_remove {n : Str} {m : Str} {chs : List Change} {old old' new : List (Str × Str)}
    (h : HeadersAfter n chs old' new) (h1 : SameName m n → old' = []) (h2 : ¬ SameName m n → old' = old) :
    HeadersAfter n (.remove m :: chs) old new := by
  rcases h with ⟨h3, h4⟩ | ⟨b, c, a, rfl, h4, h5, h6⟩
  · by_cases hs : SameName m n
    · right
      exact ⟨[], _, chs, rfl, hs, h3, by rw [h4, h1 hs]; rfl⟩
    · left
      refine ⟨?_, by rw [h4, h2 hs]; rfl⟩
      intro ch hc
      rcases List.mem_cons.1 hc with rfl | hc
      · exact hs
      · exact h3 ch hc
  · right
    exact ⟨.remove m :: b, c, a, rfl, h4, h5, h6⟩

theorem headersAfter_add {n m v : Str} {chs : List Change} {old old' new : List (Str × Str)}
    (h : HeadersAfter n chs old' new) (h1 : old' = old ++ if SameName m n then [(m, v)] else []) :
    HeadersAfter n (.add m v :: chs) old new := by
  rcases h with ⟨h3, h4⟩ | ⟨b, c, a, rfl, h4, h5, h6⟩
  · left
    refine ⟨?_, ?_⟩
    · intro ch hc
      rcases List.mem_cons.1 hc with rfl | hc
      · exact id
      · exact h3 ch hc
    · rw [h4, h1]
      by_cases hs : SameName m n <;> simp [additions, hs]
  · right
    exact ⟨.add m v :: b, c, a, rfl, h4, h5, h6⟩

theorem adjustHeaders_after (val : Str → Option Str) (ms : List Mod) (h h' : Hdrs)
    (e : adjustHeaders val ms h = some h') :
    ∃ chs : List Change, ms.mapM (changeOf val) = some chs ∧
      ∀ n, HeadersAfter n chs (h.filter (fun p => SameName p.1 n)) (h'.filter (fun p => SameName p.1 n)) := by
  induction ms generalizing h with
  | nil =>
    cases e
    exact ⟨[], rfl, fun n => .inl ⟨by simp, by simp [additions]⟩⟩
  | cons m ms ih =>
    simp only [adjustHeaders] at e
    split at e
    · rename_i hr
      obtain ⟨chs, h1, h2⟩ := ih _ e
      refine ⟨.remove m.name :: chs, by simp [List.mapM_cons, changeOf, hr, h1], ?_⟩
      intro n
      refine headersAfter_remove (h2 n) ?_ ?_
      · intro hs
        rw [List.filter_eq_nil_iff]
        intro p hp
        have := (List.mem_filter.1 hp).2
        simp only [SameName] at hs
        have hne : ¬ SameName p.1 n := by
          intro hx
          rw [SameName, ← hs] at hx
          simp [hx] at this
        simp [hne]
      · intro hs
        rw [List.filter_filter]
        apply List.filter_congr
        intro p _
        simp only [SameName] at hs ⊢
        by_cases hp : lower p.1 = lower n
        · have : lower p.1 ≠ lower m.name := fun e => hs (by rw [← e, hp])
          simp [hp]; exact fun e => hs e.symm
        · simp [hp]
    · rename_i hr
      split at e
      · rename_i v hv
        obtain ⟨chs, h1, h2⟩ := ih _ e
        refine ⟨.add m.name v :: chs, by simp [List.mapM_cons, changeOf, hr, hv, h1], ?_⟩
        intro n
        refine headersAfter_add (h2 n) ?_
        rw [List.filter_append]
        by_cases hs : SameName m.name n <;> simp [hs]
      · cases e

theorem adjustHeaders_append (val : Str → Option Str) (a b : List Mod) (h : Hdrs) :
    adjustHeaders val (a ++ b) h = (adjustHeaders val a h).bind (adjustHeaders val b) := by
  induction a generalizing h with
  | nil => rfl
  | cons m a ih =>
    simp only [List.cons_append, adjustHeaders]
    split
    · exact ih _
    · split
      · exact ih _
      · rfl

/-- **C56** (partial).  A delivered message that is not wrapped gets, for every header name, exactly
the changes configured for all messages followed by those for its verdict, in the stored order.
Missing: `report_safe 0` (`C56_report_added_violated`), wrapped messages (`C56_wrapped_violated`), and
the order between additions and removals (`C56_order_violated`). -/
theorem C56_changes_partial (spam headerOnly : Bool) (reportSafe : Int) (mods : Mods) (val : Str → Option Str)
    (report : Option Str) (orig bounce h : Hdrs) (hr : reportSafe ≠ 0) (hw : spam = false ∨ headerOnly = true)
    (e : adjusted spam headerOnly reportSafe mods val report orig bounce = some h) :
    ∃ chs : List Change, (mods.all ++ (if spam then mods.spam else mods.ham)).mapM (changeOf val) = some chs ∧
      ∀ n, HeadersAfter n chs (orig.filter (fun p => SameName p.1 n)) (h.filter (fun p => SameName p.1 n)) := by
  apply adjustHeaders_after
  rw [adjustHeaders_append]
  unfold adjusted at e
  simpa [hw, hr] using e

/-- **C56**.  Headers that no modification names keep their values and their order. -/
theorem C56_untouched (val : Str → Option Str) (ms : List Mod) (h h' : Hdrs) (e : adjustHeaders val ms h = some h') :
    h'.filter (fun p => ∀ m ∈ ms, ¬ SameName p.1 m.name) = h.filter (fun p => ∀ m ∈ ms, ¬ SameName p.1 m.name) := by
  suffices ∀ (P : Str → Bool) (ms : List Mod) (h : Hdrs), (∀ m ∈ ms, ∀ a, SameName a m.name → P a = false) →
      adjustHeaders val ms h = some h' → h'.filter (fun p => P p.1) = h.filter (fun p => P p.1) by
    have := this (fun a => decide (∀ m ∈ ms, ¬ SameName a m.name)) ms h (by
      intro m hm a ha
      simp only [decide_eq_false_iff_not]
      intro hx; exact hx m hm ha) e
    simpa using this
  intro P ms
  induction ms with
  | nil => intro h _ e; cases e; rfl
  | cons m ms ih =>
    intro h hP e
    have hP' := fun x hx => hP x (List.mem_cons_of_mem _ hx)
    simp only [adjustHeaders] at e
    split at e
    · rw [ih _ hP' e, List.filter_filter]
      apply List.filter_congr
      intro p _
      by_cases hs : lower p.1 = lower m.name
      · simp [hP m (List.mem_cons_self ..) p.1 hs]
      · simp [hs]
    · split at e
      · rw [ih _ hP' e, List.filter_append]
        simp [hP m (List.mem_cons_self ..) m.name rfl]
      · cases e

theorem addHeaderRule_prefix (v : Str) (r : Bool) (m m' : Mods) (h : addHeaderRule v r m = some m') :
    ∃ x : Mod, c!"X-Spam-" <+: x.name ∧ x.remove = r ∧
      (m' = { m with spam := m.spam ++ [x] } ∨ m' = { m with ham := m.ham ++ [x] } ∨ m' = { m with all := m.all ++ [x] }) := by
  unfold addHeaderRule at h
  simp only at h
  have put : ∀ status name val : Str,
      (if lower status = c!"spam" then some { m with spam := m.spam ++ [⟨r, c!"X-Spam-" ++ name, val⟩] }
       else if lower status = c!"ham" then some { m with ham := m.ham ++ [⟨r, c!"X-Spam-" ++ name, val⟩] }
       else if lower status = c!"all" then some { m with all := m.all ++ [⟨r, c!"X-Spam-" ++ name, val⟩] }
       else none) = some m' →
      ∃ x : Mod, c!"X-Spam-" <+: x.name ∧ x.remove = r ∧
        (m' = { m with spam := m.spam ++ [x] } ∨ m' = { m with ham := m.ham ++ [x] } ∨ m' = { m with all := m.all ++ [x] }) := by
    intro status name val h
    refine ⟨⟨r, c!"X-Spam-" ++ name, val⟩, List.prefix_append _ _, rfl, ?_⟩
    split at h
    · cases h; exact .inl rfl
    · split at h
      · cases h; exact .inr (.inl rfl)
      · split at h
        · cases h; exact .inr (.inr rfl)
        · cases h
  split at h
  · split at h
    · exact put _ _ _ h
    · cases h
  · split at h
    · exact put _ _ _ h
    · cases h

/-- **C56**.  The name of every stored modification starts with `X-Spam-`, so only such headers are
ever touched. -/
theorem C56_only_x_spam (adds removes : List Str) (mods : Mods) (h : readMods adds removes = some mods) :
    ∀ m ∈ mods.all ++ mods.spam ++ mods.ham, c!"X-Spam-" <+: m.name := by
  have fold : ∀ (l : List Str) (r : Bool) (m : Option Mods) (m' : Mods),
      (∀ x, m = some x → ∀ y ∈ x.all ++ x.spam ++ x.ham, c!"X-Spam-" <+: y.name) →
      l.foldl (fun (m : Option Mods) (v : Str) => m.bind (addHeaderRule v r)) m = some m' →
      ∀ y ∈ m'.all ++ m'.spam ++ m'.ham, c!"X-Spam-" <+: y.name := by
    intro l
    induction l with
    | nil => intro r m m' hm e; exact hm m' e
    | cons v l ih =>
      intro r m m' hm e
      rw [List.foldl_cons] at e
      refine ih r _ m' ?_ e
      intro x hx y hy
      cases m with
      | none => cases hx
      | some m0 =>
        obtain ⟨z, hz, -, hh⟩ := addHeaderRule_prefix v r m0 x hx
        have h0 := hm m0 rfl
        rcases hh with rfl | rfl | rfl <;> simp only [List.mem_append, List.mem_singleton] at hy h0 <;>
          grind
  unfold readMods at h
  simp only at h
  cases ha : adds.foldl (fun (m : Option Mods) (v : Str) => m.bind (addHeaderRule v false)) (some ⟨[], [], []⟩) with
  | none =>
    rw [ha] at h
    have : ∀ l : List Str, l.foldl (fun (m : Option Mods) (v : Str) => m.bind (addHeaderRule v true)) none = none := by
      intro l; induction l with
      | nil => rfl
      | cons v l ih => exact ih
    rw [this] at h; cases h
  | some m0 =>
    rw [ha] at h
    refine fold removes true (some m0) mods ?_ h
    rintro x ⟨⟩
    exact fold adds false (some ⟨[], [], []⟩) m0 (by rintro x ⟨⟩; simp) ha

/-- A word: not empty, no white space. -/
def Word (w : Str) : Prop := w ≠ [] ∧ ∀ c ∈ w, isSpace c = false

theorem takeWhile_word {w : Str} (h : ∀ c ∈ w, isSpace c = false) (rest : Str) :
    (w ++ ' ' :: rest).takeWhile (fun c => !isSpace c) = w ∧
    (w ++ ' ' :: rest).dropWhile (fun c => !isSpace c) = ' ' :: rest := by
  induction w with
  | nil =>
    have : isSpace ' ' = true := by decide
    simp [List.takeWhile_cons, List.dropWhile_cons, this]
  | cons c w ih =>
    have hc := h c (List.mem_cons_self ..)
    obtain ⟨i1, i2⟩ := ih (fun x hx => h x (List.mem_cons_of_mem _ hx))
    simp [List.takeWhile_cons, List.dropWhile_cons, hc, i1, i2]

theorem splitNone_word {w rest : Str} (h : Word w) (k : Nat) :
    splitNone (k + 1) (w ++ ' ' :: rest) = w :: splitNone k (' ' :: rest) := by
  obtain ⟨hne, hw⟩ := h
  cases w with
  | nil => exact absurd rfl hne
  | cons c w =>
    have hc := hw c (List.mem_cons_self ..)
    obtain ⟨i1, i2⟩ := takeWhile_word hw rest
    simp only [splitNone]
    rw [List.cons_append, dropWhile_head _ hc, ← List.cons_append, i1, i2]
    simp

theorem splitNone_space (k : Nat) (rest : Str) : splitNone k (' ' :: rest) = splitNone k rest := by
  have : isSpace ' ' = true := by decide
  cases k <;> simp [splitNone, List.dropWhile_cons, this]

theorem splitNone_zero {c : Char} {v : Str} (h : isSpace c = false) : splitNone 0 (c :: v) = [c :: v] := by
  simp [splitNone, List.dropWhile_cons, h]

theorem splitNone_last {w : Str} (h : Word w) (k : Nat) : splitNone (k + 1) w = [w] := by
  obtain ⟨hne, hw⟩ := h
  cases w with
  | nil => exact absurd rfl hne
  | cons c w =>
    have hc := hw c (List.mem_cons_self ..)
    have h1 : (c :: w).dropWhile isSpace = c :: w := by simp [List.dropWhile_cons, hc]
    have h2 : (c :: w).takeWhile (fun c => !isSpace c) = c :: w := by
      have := List.takeWhile_append_of_pos (p := fun c => !isSpace c) (l₁ := c :: w) (l₂ := []) (fun x hx => by simp [hw x hx])
      simpa using this
    have h3 : (c :: w).dropWhile (fun c => !isSpace c) = [] := by
      have := List.dropWhile_append_of_pos (p := fun c => !isSpace c) (l₁ := c :: w) (l₂ := []) (fun x hx => by simp [hw x hx])
      simpa using this
    simp only [splitNone, h1, h2, h3]
    cases k <;> simp [splitNone]

theorem word_cons {w : Str} (h : Word w) : ∃ c v, w = c :: v ∧ isSpace c = false := by
  cases w with
  | nil => exact absurd rfl h.1
  | cons c v => exact ⟨c, v, rfl, h.2 c (List.mem_cons_self ..)⟩

/-- The verdict a modification is for. -/
inductive For where
  | all
  | spam
  | ham
deriving DecidableEq

def For.list : For → Mods → List Mod
  | .all, m => m.all
  | .spam, m => m.spam
  | .ham, m => m.ham

/-- How it is written: any mix of cases. -/
def For.Written : For → Str → Prop
  | .all, w => lower w = c!"all"
  | .spam, w => lower w = c!"spam"
  | .ham, w => lower w = c!"ham"

theorem For.word {f : For} {w : Str} (h : f.Written w) : Word w := by
  have key : ∀ t : Str, t ≠ [] → (∀ c ∈ t, isSpace c = false) → lower w = t → Word w := by
    intro t h1 h2 h3
    refine ⟨by rintro rfl; exact h1 h3.symm, ?_⟩
    intro c hc
    have hm : c.toLower ∈ t := by rw [← h3]; exact List.mem_map_of_mem hc
    have hs := h2 _ hm
    by_cases hu : c.isUpper
    · cases hx : isSpace c with
      | false => rfl
      | true =>
        exfalso
        simp only [Char.isUpper, Bool.and_eq_true, decide_eq_true_eq] at hu
        have h1 : 65 ≤ c.toNat := hu.1
        have h2 : c.toNat ≤ 90 := hu.2
        simp [isSpace] at hx
        omega
    · have : c.toLower = c := by
        simp only [Char.toLower]
        rw [dif_neg]
        intro hx
        exact hu (by simpa [Char.isUpper] using hx)
      rwa [this] at hs
  cases f
  · exact key _ (by simp) (by decide) h
  · exact key _ (by simp) (by decide) h
  · exact key _ (by simp) (by decide) h

/-- A well-formed `add_header` line. -/
structure AddLine where
  status : Str
  target : For
  name : Str
  value : Str
  ok1 : target.Written status
  ok2 : Word name
  ok3 : ∃ c v, value = c :: v ∧ isSpace c = false

/-- A well-formed `remove_header` line. -/
structure RemoveLine where
  status : Str
  target : For
  name : Str
  ok1 : target.Written status
  ok2 : Word name

def AddLine.text (l : AddLine) : Str := l.status ++ c!" " ++ l.name ++ c!" " ++ l.value
def RemoveLine.text (l : RemoveLine) : Str := l.status ++ c!" " ++ l.name

theorem addHeaderRule_add (l : AddLine) (m : Mods) : ∃ m', addHeaderRule l.text false m = some m' ∧
    ∀ f : For, f.list m' = f.list m ++
      if l.target = f then [⟨false, c!"X-Spam-" ++ l.name, (convertTags l.value).1⟩] else [] := by
  obtain ⟨status, target, name, value, h1, h2, c, v, rfl, h3⟩ := l
  have e : splitNone 2 (AddLine.text ⟨status, target, name, c :: v, h1, h2, c, v, rfl, h3⟩) = [status, name, c :: v] := by
    simp only [AddLine.text]
    rw [show status ++ c!" " ++ name ++ c!" " ++ (c :: v) = status ++ ' ' :: (name ++ ' ' :: (c :: v)) by simp,
      splitNone_word (For.word h1), splitNone_space, splitNone_word h2, splitNone_space, splitNone_zero h3]
  simp only [addHeaderRule, e, Bool.false_eq_true, if_false]
  cases target <;> simp only [For.Written] at h1 <;> simp only [h1] <;>
    exact ⟨_, by first | rfl | decide, fun f => by cases f <;> simp [For.list]⟩

theorem addHeaderRule_remove (l : RemoveLine) (m : Mods) : ∃ m', addHeaderRule l.text true m = some m' ∧
    ∀ f : For, f.list m' = f.list m ++
      if l.target = f then [⟨true, c!"X-Spam-" ++ l.name, []⟩] else [] := by
  obtain ⟨status, target, name, h1, h2⟩ := l
  obtain ⟨c, v, rfl, h3⟩ := word_cons h2
  have e : splitNone 1 (RemoveLine.text ⟨status, target, c :: v, h1, h2⟩) = [status, c :: v] := by
    simp only [RemoveLine.text]
    rw [show status ++ c!" " ++ (c :: v) = status ++ ' ' :: (c :: v) by simp,
      splitNone_word (For.word h1), splitNone_space, splitNone_zero h3]
  simp only [addHeaderRule, e, if_true]
  cases target <;> simp only [For.Written] at h1 <;> simp only [h1] <;>
    exact ⟨_, by first | rfl | decide, fun f => by cases f <;> simp [For.list]⟩

/-- **C56**.  From well-formed lines, the modifications stored for each verdict are those of the
`add_header` lines for it and then those of the `remove_header` lines for it, each in order, with
`X-Spam-` before the name. -/
theorem C56_read (adds : List AddLine) (removes : List RemoveLine) :
    ∃ mods, readMods (adds.map AddLine.text) (removes.map RemoveLine.text) = some mods ∧
      ∀ f : For, f.list mods =
        (adds.filter (fun l => l.target = f)).map
          (fun l => ⟨false, c!"X-Spam-" ++ l.name, (convertTags l.value).1⟩) ++
        (removes.filter (fun l => l.target = f)).map (fun l => ⟨true, c!"X-Spam-" ++ l.name, []⟩) := by
  have f1 : ∀ (adds : List AddLine) (m : Mods), ∃ m',
      (adds.map AddLine.text).foldl (fun (m : Option Mods) (v : Str) => m.bind (addHeaderRule v false)) (some m) = some m' ∧
      ∀ f : For, f.list m' = f.list m ++ (adds.filter (fun l => l.target = f)).map
          (fun l => ⟨false, c!"X-Spam-" ++ l.name, (convertTags l.value).1⟩) := by
    intro adds
    induction adds with
    | nil => intro m; exact ⟨m, rfl, by simp⟩
    | cons l adds ih =>
      intro m
      obtain ⟨m1, e1, g1⟩ := addHeaderRule_add l m
      obtain ⟨m2, e2, g2⟩ := ih m1
      refine ⟨m2, ?_, ?_⟩
      · simp only [List.map_cons, List.foldl_cons, Option.bind_some, e1]; exact e2
      · intro f
        rw [g2 f, g1 f]
        by_cases h : l.target = f <;> simp [List.filter_cons, h]
  have f2 : ∀ (removes : List RemoveLine) (m : Mods), ∃ m',
      (removes.map RemoveLine.text).foldl (fun (m : Option Mods) (v : Str) => m.bind (addHeaderRule v true)) (some m) = some m' ∧
      ∀ f : For, f.list m' = f.list m ++ (removes.filter (fun l => l.target = f)).map
          (fun l => ⟨true, c!"X-Spam-" ++ l.name, []⟩) := by
    intro removes
    induction removes with
    | nil => intro m; exact ⟨m, rfl, by simp⟩
    | cons l adds ih =>
      intro m
      obtain ⟨m1, e1, g1⟩ := addHeaderRule_remove l m
      obtain ⟨m2, e2, g2⟩ := ih m1
      refine ⟨m2, ?_, ?_⟩
      · simp only [List.map_cons, List.foldl_cons, Option.bind_some, e1]; exact e2
      · intro f
        rw [g2 f, g1 f]
        by_cases h : l.target = f <;> simp [List.filter_cons, h]
  obtain ⟨m1, e1, g1⟩ := f1 adds ⟨[], [], []⟩
  obtain ⟨m2, e2, g2⟩ := f2 removes m1
  refine ⟨m2, ?_, ?_⟩
  · simp only [readMods]; rw [e1]; exact e2
  · intro f
    rw [g2 f, g1 f]
    cases f <;> simp [For.list]

def plainVal (t : Str) : Option Str := fmt demoData t

theorem adjust_gone (val : Str → Option Str) (n : Str) : ∀ (ms : List Mod) (h h' : Hdrs), adjustHeaders val ms h = some h' →
    (∀ m ∈ ms, m.remove = false → ¬ SameName m.name n) → (∀ p ∈ h, ¬ SameName p.1 n) → ∀ p ∈ h', ¬ SameName p.1 n := by
  intro ms
  induction ms with
  | nil => intro h h' e _ hh; simp only [adjustHeaders, Option.some.injEq] at e; exact e ▸ hh
  | cons m ms ih =>
    intro h h' e ha hh
    have ha' := fun x hx => ha x (List.mem_cons_of_mem _ hx)
    simp only [adjustHeaders] at e
    split at e
    · exact ih _ _ e ha' (fun p hp => hh p (List.mem_filter.1 hp).1)
    · rename_i hr
      split at e
      · refine ih _ _ e ha' (fun p hp => ?_)
        rcases List.mem_append.1 hp with hp | hp
        · exact hh p hp
        · rw [List.mem_singleton.1 hp]
          exact ha m (List.mem_cons_self ..) (by simpa using hr)
      · exact absurd e (by simp)

theorem adjust_removed (val : Str → Option Str) (n : Str) (m : Mod) (hm : m.remove = true) (hn : SameName m.name n) (after : List Mod)
    (ha : ∀ m ∈ after, m.remove = false → ¬ SameName m.name n) : ∀ (ms : List Mod) (h h' : Hdrs),
    adjustHeaders val (ms ++ m :: after) h = some h' → ∀ p ∈ h', ¬ SameName p.1 n := by
  intro ms
  induction ms with
  | nil =>
    intro h h' e
    simp only [List.nil_append, adjustHeaders, hm, if_true] at e
    refine adjust_gone val n after _ _ e ha (fun p hp => ?_)
    have := (List.mem_filter.1 hp).2
    simp only [decide_eq_true_eq] at this
    exact fun h => this (h.trans hn.symm)
  | cons x ms ih =>
    intro h h' e
    simp only [List.cons_append, adjustHeaders] at e
    split at e
    · exact ih _ _ e
    · split at e
      · exact ih _ _ e
      · exact absurd e (by simp)

/-- **C56 is violated**: removals are always performed after additions, so a header that the configuration removes for all messages and then adds
again is missing from every message. -/
theorem C56_order_violated (adds : List AddLine) (removes : List RemoveLine) (r : RemoveLine) (hr : r ∈ removes) (hall : r.target = .all)
    (hadds : ∀ l ∈ adds, l.target = .all) :
    ∃ mods, readMods (adds.map AddLine.text) (removes.map RemoveLine.text) = some mods ∧
      ∀ spam headerOnly reportSafe val report orig bounce h, adjusted spam headerOnly reportSafe mods val report orig bounce = some h →
        ∀ p ∈ h, ¬ SameName p.1 (c!"X-Spam-" ++ r.name) := by
  obtain ⟨mods, h1, h2⟩ := C56_read adds removes
  refine ⟨mods, h1, ?_⟩
  intro spam headerOnly reportSafe val report orig bounce h e
  have hno : ∀ f : For, f ≠ .all → ∀ m ∈ f.list mods, m.remove = true := by
    intro f hf m hm
    rw [h2 f, List.mem_append, List.mem_map, List.mem_map] at hm
    rcases hm with ⟨l, hl, -⟩ | ⟨l, -, rfl⟩
    · have := List.mem_filter.1 hl
      have hx : l.target = f := by simpa using this.2
      exact absurd ((hadds l this.1).symm.trans hx).symm hf
    · rfl
  have hother : ∀ m ∈ (if spam then mods.spam else mods.ham), m.remove = true := by
    intro m hm
    cases spam
    · exact hno .ham (by decide) m hm
    · exact hno .spam (by decide) m hm
  unfold adjusted at e
  simp only [Option.bind_eq_some_iff] at e
  obtain ⟨a, ⟨b, -, e1⟩, e2⟩ := e
  refine adjust_gone val _ _ _ _ e2 (fun m hm hf => absurd (hother m hm) (by simp [hf])) ?_
  have hx := h2 .all
  simp only [For.list] at hx
  rw [hx] at e1
  obtain ⟨x, y, hxy⟩ := List.append_of_mem (show r ∈ removes.filter (fun l => l.target = For.all) from
    List.mem_filter.2 ⟨hr, by simp [hall]⟩)
  rw [hxy, List.map_append, List.map_cons, ← List.append_assoc] at e1
  refine adjust_removed val _ _ rfl rfl _ (fun m hm hf => ?_) _ _ _ e1
  obtain ⟨l, -, rfl⟩ := List.mem_map.1 hm
  cases hf

/-- `remove_header all Foo` followed by `add_header all Foo x` leaves the message without the header. -/
example : ∃ mods, readMods [c!"all Foo x"] [c!"all Foo"] = some mods ∧
    adjusted false false 1 mods plainVal none [(c!"X-Spam-Foo", c!"old")] [] = some [] ∧
    ¬ HeadersAfter c!"X-Spam-Foo" [.remove c!"X-Spam-Foo", .add c!"X-Spam-Foo" c!"x"] [(c!"X-Spam-Foo", c!"old")] [] := by
  refine ⟨_, rfl, by decide, ?_⟩
  rintro (⟨h, -⟩ | ⟨b, ch, a, e, h1, h2, h3⟩)
  · exact h _ (List.mem_cons_self ..) rfl
  · have hb : b = [] := by
      cases b with
      | nil => rfl
      | cons x b =>
        simp only [List.cons_append, List.cons.injEq] at e
        obtain ⟨-, e⟩ := e
        cases b with
        | nil =>
          simp only [List.nil_append, List.cons.injEq] at e
          rw [← e.1] at h1
          exact absurd h1 id
        | cons y b => simp at e
    subst hb
    simp only [List.nil_append, List.cons.injEq] at e
    rw [← e.2] at h3
    simp [additions, SameName] at h3

/-- With `report_safe 0` and no configured modifications, even ham gets a report header. -/
example :
    adjusted false false 0 ⟨[], [], []⟩ plainVal (some c!"
") [(c!"Subject", c!"hi")] [] =
      some [(c!"Subject", c!"hi"), (c!"X-Spam-Report", c!"
")] := by decide

/-- With `report_safe 0` and no configured modifications, every message, spam or not, gets a report
header after its own headers. -/
theorem C56_report_added_violated (spam headerOnly : Bool) (val : Str → Option Str) (r : Str) (orig bounce : Hdrs) :
    adjusted spam headerOnly 0 ⟨[], [], []⟩ val (some r) orig bounce = some (orig ++ [(c!"X-Spam-Report", r)]) := by
  cases spam <;> cases headerOnly <;> simp [adjusted, adjustHeaders]

/-- **C56 is violated** for wrapped spam: with `report_safe` set and no modifications configured, the
delivered message has the original's recipient as its sender and the original's sender as its
recipient.  The subject is kept. -/
theorem C56_wrapped_violated (reportSafe : Int) (h0 : reportSafe ≠ 0) (val : Str → Option Str) (report : Option Str)
    (received now : Str) (orig : Hdrs) (get : Str → Option Str) :
    ∃ h, adjusted true false reportSafe ⟨[], [], []⟩ val report orig (bounceHeaders received now get) = some h ∧
      (∀ v, (c!"From", v) ∈ h ↔ get c!"To" = some v) ∧
      (∀ v, (c!"To", v) ∈ h ↔ get c!"From" = some v) ∧
      (∀ v, (c!"Subject", v) ∈ h ↔ get c!"Subject" = some v) ∧
      (∀ v, v ≠ [] → get c!"Date" = some v → (c!"Date", v) ∈ h) := by
  refine ⟨bounceHeaders received now get, by simp [adjusted, h0, adjustHeaders], ?_, ?_, ?_, ?_⟩
  · intro v
    simp only [bounceHeaders]
    cases get c!"To" <;> cases get c!"From" <;> cases get c!"Subject" <;> simp <;> exact ⟨Eq.symm, Eq.symm⟩
  · intro v
    simp only [bounceHeaders]
    cases get c!"To" <;> cases get c!"From" <;> cases get c!"Subject" <;> simp <;> exact ⟨Eq.symm, Eq.symm⟩
  · intro v
    simp only [bounceHeaders]
    cases get c!"To" <;> cases get c!"From" <;> cases get c!"Subject" <;> simp <;> exact ⟨Eq.symm, Eq.symm⟩
  · intro v hv hd
    simp [bounceHeaders, hd, hv]

example :
    let get := fun n : Str => Dict.get? [(c!"From", c!"a@x"), (c!"To", c!"b@y")] n
    ∃ h, adjusted true false 1 ⟨[], [], []⟩ plainVal none [(c!"From", c!"a@x"), (c!"To", c!"b@y")]
        (bounceHeaders c!"r" c!"now" get) = some h ∧ (c!"From", c!"b@y") ∈ h ∧ (c!"From", c!"a@x") ∉ h :=
  ⟨_, rfl, by decide⟩

/-- **C56 is violated**: one `add_header` line without a value or with an unknown status makes loading all the rules fail. -/
theorem C56_malformed_violated (before after removes : List Str) (status name : Str) (hs : Word status) (hn : Word name) :
    readMods (before ++ (status ++ c!" " ++ name) :: after) removes = none ∧
    ((∀ f : For, ¬ f.Written status) → ∀ (c : Char) (v : Str), isSpace c = false →
      readMods (before ++ (status ++ c!" " ++ name ++ c!" " ++ c :: v) :: after) removes = none) := by
  have hnone : ∀ (f : Str → Mods → Option Mods) (l : List Str), l.foldl (fun m v => m.bind (f v)) none = none := by
    intro f l
    induction l with
    | nil => rfl
    | cons x l ih => simpa using ih
  have key : ∀ l : Str, (∀ m, addHeaderRule l false m = none) → readMods (before ++ l :: after) removes = none := by
    intro l h
    unfold readMods
    simp only [List.foldl_append, List.foldl_cons]
    have e : (before.foldl (fun (m : Option Mods) (v : Str) => m.bind (addHeaderRule v false)) (some ⟨[], [], []⟩)).bind
        (addHeaderRule l false) = none := by
      cases before.foldl (fun (m : Option Mods) (v : Str) => m.bind (addHeaderRule v false)) (some ⟨[], [], []⟩) with
      | none => rfl
      | some m => exact h m
    rw [e, hnone (fun v => addHeaderRule v false), hnone (fun v => addHeaderRule v true)]
  refine ⟨key _ (fun m => ?_), fun hf c v hc => key _ (fun m => ?_)⟩
  · obtain ⟨c, v, rfl, h3⟩ := word_cons hn
    have e : splitNone 2 (status ++ c!" " ++ c :: v) = [status, c :: v] := by
      rw [show status ++ c!" " ++ c :: v = status ++ ' ' :: (c :: v) by simp, splitNone_word hs, splitNone_space]
      rw [splitNone_last hn 0]
    simp only [addHeaderRule, e, Bool.false_eq_true, if_false]
  · have e : splitNone 2 (status ++ c!" " ++ name ++ c!" " ++ c :: v) = [status, name, c :: v] := by
      rw [show status ++ c!" " ++ name ++ c!" " ++ c :: v = status ++ ' ' :: (name ++ ' ' :: (c :: v)) by simp,
        splitNone_word hs, splitNone_space, splitNone_word hn, splitNone_space, splitNone_zero hc]
    have h1 := hf .all
    have h2 := hf .spam
    have h3 := hf .ham
    simp only [For.Written] at h1 h2 h3
    simp only [addHeaderRule, e, Bool.false_eq_true, if_false, if_neg h1, if_neg h2, if_neg h3]

example : readMods [c!"spam Foo"] [] = none ∧ readMods [c!"junk Foo x"] [] = none := by
  decide

example : ∃ mods, readMods [c!"all Flag _YESNO_", c!"spam Level 5", c!"ham Note ok"] [c!"spam Old"] = some mods ∧
    adjusted true true 1 mods plainVal none [(c!"From", c!"a"), (c!"x-spam-old", c!"1")] [] =
      some [(c!"From", c!"a"), (c!"X-Spam-Flag", c!"Yes"), (c!"X-Spam-Level", c!"5")] ∧
    adjusted false true 1 mods plainVal none [(c!"From", c!"a"), (c!"x-spam-old", c!"1")] [] =
      some [(c!"From", c!"a"), (c!"x-spam-old", c!"1"), (c!"X-Spam-Flag", c!"Yes"), (c!"X-Spam-Note", c!"ok")] := by
  refine ⟨_, rfl, by decide, by decide⟩

end Verif.Props
