import Verif.Spec.ReplaceTags
import Verif.Lemmas.Strip

/-!
# C79: tags in patterns
-/

namespace Verif.Props
open Verif Py ReplaceTags

/-! ## Definitions of tags -/

theorem snoc_ind {α : Type} {P : List α → Prop} (h0 : P []) (hs : ∀ l a, P l → P (l ++ [a])) (l : List α) : P l := by
  have : ∀ l : List α, P l.reverse := by
    intro l
    induction l with
    | nil => exact h0
    | cons a l ih => rw [List.reverse_cons]; exact hs _ _ ih
  simpa using this l.reverse

theorem dropWhile_false_head {p : Char → Bool} : ∀ (s : Str) {c : Char} {cs : Str}, s.dropWhile p = c :: cs → p c = false
  | [], _, _, h => by simp at h
  | d :: ds, c, cs, h => by
    by_cases hd : p d = true
    · rw [List.dropWhile_cons_of_pos hd] at h; exact dropWhile_false_head ds h
    · rw [List.dropWhile_cons_of_neg hd] at h
      injection h with h1 h2; subst h1; simpa using hd

theorem takeWhile_true_mem {p : Char → Bool} : ∀ (s : Str) {c : Char}, c ∈ s.takeWhile p → p c = true
  | [], _, h => by simp at h
  | d :: ds, c, h => by
    by_cases hd : p d = true
    · rw [List.takeWhile_cons_of_pos hd] at h
      rcases List.mem_cons.1 h with rfl | h
      · exact hd
      · exact takeWhile_true_mem ds h
    · rw [List.takeWhile_cons_of_neg hd] at h; simp at h

theorem takeWhile_stop {p : Char → Bool} {a : Str} (ha : ∀ c ∈ a, p c = true) {c : Char} (hc : p c = false) (b : Str) :
    (a ++ c :: b).takeWhile p = a ∧ (a ++ c :: b).dropWhile p = c :: b := by
  induction a with
  | nil => simp [hc]
  | cons d ds ih =>
    have := ih fun x hx => ha x (List.mem_cons_of_mem _ hx)
    rw [List.cons_append, List.takeWhile_cons_of_pos (ha d (by simp)), List.dropWhile_cons_of_pos (ha d (by simp)),
      this.1, this.2]
    exact ⟨rfl, rfl⟩

theorem splitNone_defines (line name value : Str) : splitNone 1 line = [name, value] ↔ Defines line name value := by
  constructor
  · intro h
    have e1 : line = line.takeWhile isSpace ++ line.dropWhile isSpace := List.takeWhile_append_dropWhile.symm
    simp only [splitNone, List.isEmpty_iff] at h
    generalize hr : line.dropWhile isSpace = r at h e1
    by_cases hre : r = []
    · simp [hre] at h
    · rw [if_neg hre] at h
      have e2 : r = r.takeWhile (fun c => !isSpace c) ++ r.dropWhile (fun c => !isSpace c) :=
        List.takeWhile_append_dropWhile.symm
      generalize ht : r.dropWhile (fun c => !isSpace c) = t at h e2
      have e3 : t = t.takeWhile isSpace ++ t.dropWhile isSpace := List.takeWhile_append_dropWhile.symm
      generalize hv : t.dropWhile isSpace = v at h e3
      by_cases hve : v = []
      · simp [hve] at h
      · rw [if_neg hve] at h
        simp only [List.cons.injEq, and_true] at h
        obtain ⟨hn, rfl⟩ := h
        refine ⟨line.takeWhile isSpace, t.takeWhile isSpace, fun c hc => takeWhile_true_mem _ hc,
          fun c hc => takeWhile_true_mem _ hc, ?_, ?_, ?_, ?_, ?_⟩
        · intro hnil
          rw [hnil, List.nil_append] at e3
          cases t with
          | nil => exact hve e3.symm
          | cons c cs =>
            have h1 := dropWhile_false_head _ ht
            have h2 := dropWhile_false_head _ (hv.trans e3.symm)
            simp [h2] at h1
        · intro hnil
          cases r with
          | nil => exact hre rfl
          | cons c cs =>
            have h1 := dropWhile_false_head _ hr
            rw [← hn, List.takeWhile_cons_of_pos (by simp [h1])] at hnil
            simp at hnil
        · intro c hc
          rw [← hn] at hc
          simpa using takeWhile_true_mem _ hc
        · cases v with
          | nil => exact absurd rfl hve
          | cons c cs => exact ⟨c, cs, rfl, dropWhile_false_head _ hv⟩
        · rw [← hn, List.append_assoc, List.append_assoc, ← e3, ← e2, ← e1]
  · rintro ⟨lead, sp, hl, hs, hsn, hnn, hn, ⟨c, cs, rfl, hc⟩, rfl⟩
    cases name with
    | nil => exact absurd rfl hnn
    | cons d ds =>
      cases sp with
      | nil => exact absurd rfl hsn
      | cons x xs =>
        have e1 : (lead ++ (d :: ds) ++ (x :: xs) ++ c :: cs).dropWhile isSpace = (d :: ds) ++ (x :: xs) ++ c :: cs := by
          rw [List.append_assoc, List.append_assoc, dropWhile_all _ hl]
          rw [List.cons_append, dropWhile_head _ (hn d (by simp))]
          simp
        have e2 : ((d :: ds) ++ (x :: xs) ++ c :: cs).takeWhile (fun c => !isSpace c) = d :: ds ∧
            ((d :: ds) ++ (x :: xs) ++ c :: cs).dropWhile (fun c => !isSpace c) = (x :: xs) ++ c :: cs := by
          have := takeWhile_stop (p := fun c => !isSpace c) (a := d :: ds) (fun y hy => by simp [hn y hy]) (c := x)
            (by simp [hs x (by simp)]) (xs ++ c :: cs)
          simpa using this
        have e3 : ((x :: xs) ++ c :: cs).dropWhile isSpace = c :: cs := by
          rw [dropWhile_all _ hs, dropWhile_head _ hc]
        simp only [splitNone]
        rw [e1]
        simp only [e2.1, e2.2, e3]
        simp

theorem prepareTags_snoc (o : Opts) (extra : Str) (lines : List Str) (l : Str) :
    prepareTags o extra (lines ++ [l]) =
      match splitNone 1 l with
      | [name, value] => Dict.set (prepareTags o extra lines) (o.start ++ extra ++ name ++ o.stop) value
      | _ => prepareTags o extra lines := by
  unfold prepareTags
  rw [List.foldl_append]
  rfl

theorem lastDefines_snoc (lines : List Str) (l name value : Str) :
    LastDefines (lines ++ [l]) name value ↔
      Defines l name value ∨ ((∀ v, ¬ Defines l name v) ∧ LastDefines lines name value) := by
  constructor
  · rintro ⟨a, k, b, h, hd, hb⟩
    rcases List.eq_nil_or_concat b with rfl | ⟨b', z, rfl⟩
    · have := List.append_inj' h rfl
      have h2 := this.2
      simp only [List.cons.injEq, and_true] at h2
      subst h2
      exact Or.inl hd
    · right
      have h' : lines ++ [l] = (a ++ k :: b') ++ [z] := by rw [h]; simp
      have := List.append_inj' h' rfl
      have h2 := this.2
      simp only [List.cons.injEq, and_true] at h2
      subst h2
      exact ⟨fun v => hb l (by simp) v, a, k, b', this.1, hd, fun x hx => hb x (by simp [hx])⟩
  · rintro (hd | ⟨hn, a, k, b, rfl, hd, hb⟩)
    · exact ⟨lines, l, [], rfl, hd, by simp⟩
    · refine ⟨a, k, b ++ [l], by simp, hd, ?_⟩
      intro x hx v
      rcases List.mem_append.1 hx with hx | hx
      · exact hb x hx v
      · rw [List.mem_singleton.1 hx]; exact hn v

/-- **C79** (partial).  A tag has the value that the last line defining it gives it. -/
theorem C79_definitions (o : Opts) (extra : Str) (lines : List Str) (name value : Str) :
    Dict.get? (prepareTags o extra lines) (o.start ++ extra ++ name ++ o.stop) = some value ↔
      LastDefines lines name value := by
  induction lines using snoc_ind generalizing value with
  | h0 =>
    refine ⟨fun h => by simp [prepareTags, Dict.get?] at h, ?_⟩
    rintro ⟨a, l, b, h, _⟩
    simp at h
  | hs lines l ih =>
    rw [prepareTags_snoc, lastDefines_snoc]
    split
    · rename_i n v hn
      have hd : Defines l n v := (splitNone_defines _ _ _).1 hn
      rw [Dict.get?_set]
      have hinj : o.start ++ extra ++ n ++ o.stop = o.start ++ extra ++ name ++ o.stop ↔ n = name := by
        constructor
        · intro h
          have := List.append_inj_left' h rfl
          exact List.append_cancel_left this
        · rintro rfl; rfl
      by_cases he : n = name
      · subst he
        rw [if_pos rfl]
        constructor
        · intro h; injection h with h; subst h; exact Or.inl hd
        · rintro (h | ⟨h, _⟩)
          · have := ((splitNone_defines _ _ _).2 h).symm.trans hn
            simp only [List.cons.injEq, and_true, true_and] at this
            rw [this]
          · exact absurd hd (h v)
      · rw [if_neg (fun h => he (hinj.1 h)), ih]
        constructor
        · intro h
          refine Or.inr ⟨fun w hw => ?_, h⟩
          have := ((splitNone_defines _ _ _).2 hw).symm.trans hn
          simp only [List.cons.injEq, and_true] at this
          exact he this.1.symm
        · rintro (h | ⟨_, h⟩)
          · have := ((splitNone_defines _ _ _).2 h).symm.trans hn
            simp only [List.cons.injEq, and_true] at this
            exact absurd this.1.symm he
          · exact h
    · rename_i hn
      rw [ih]
      have hno : ∀ n v, ¬ Defines l n v := fun n v h => hn n v ((splitNone_defines _ _ _).2 h)
      constructor
      · intro h; exact Or.inr ⟨fun v => hno name v, h⟩
      · rintro (h | ⟨_, h⟩)
        · exact absurd h (hno _ _)
        · exact h

/-- The names in a dictionary of tags are those of the lines. -/
theorem prepareTags_keys (o : Opts) (extra : Str) (lines : List Str) (k : Str)
    (h : k ∈ Dict.keys (prepareTags o extra lines)) :
    ∃ l ∈ lines, ∃ n v, Defines l n v ∧ k = o.start ++ extra ++ n ++ o.stop := by
  induction lines using snoc_ind with
  | h0 => simp [prepareTags, Dict.keys] at h
  | hs lines l ih =>
    rw [prepareTags_snoc] at h
    have old : k ∈ Dict.keys (prepareTags o extra lines) →
        ∃ l' ∈ lines ++ [l], ∃ n v, Defines l' n v ∧ k = o.start ++ extra ++ n ++ o.stop := by
      intro h
      obtain ⟨l', hl, r⟩ := ih h
      exact ⟨l', by simp [hl], r⟩
    split at h
    · rename_i n v hn
      by_cases hk : o.start ++ extra ++ n ++ o.stop ∈ Dict.keys (prepareTags o extra lines)
      · rw [Dict.keys_set_of_mem _ _ hk] at h; exact old h
      · rw [Dict.keys_set_of_not_mem _ _ hk] at h
        rcases List.mem_append.1 h with h | h
        · exact old h
        · exact ⟨l, by simp, n, v, (splitNone_defines _ _ _).1 hn, List.mem_singleton.1 h⟩
    · exact old h

/-! ## Patterns -/

theorem isTag_cut {t u : Str} (ht : IsTag t) (hu : IsTag u) {s : Str} (h : t <+: u ++ s) : t = u := by
  obtain ⟨x, _, hx1, hx2, rfl⟩ := ht
  obtain ⟨y, _, hy1, hy2, rfl⟩ := hu
  obtain ⟨r, hr⟩ := h
  have : ∀ (x y r s : Str), '>' ∉ x → '>' ∉ y → x ++ '>' :: r = y ++ '>' :: s → x = y := by
    intro x
    induction x with
    | nil =>
      intro y r s _ hy h
      cases y with
      | nil => rfl
      | cons c cs => simp only [List.nil_append, List.cons_append, List.cons.injEq] at h; exact absurd (h.1 ▸ List.mem_cons_self) hy
    | cons c cs ih =>
      intro y r s hx hy h
      cases y with
      | nil => simp only [List.nil_append, List.cons_append, List.cons.injEq] at h; exact absurd (h.1 ▸ List.mem_cons_self) hx
      | cons d ds =>
        simp only [List.cons_append, List.cons.injEq] at h
        rw [h.1, ih ds r s (fun hm => hx (by simp [hm])) (fun hm => hy (by simp [hm])) h.2]
  have e := this x y r s hx2 hy2 (by simpa using hr)
  rw [e]

/-- A tag occurs where it begins, or later. -/
theorem infix_pass {o : Char} {old p s : Str} (hp : o ∉ p) : o :: old <:+: p ++ s ↔ o :: old <:+: s := by
  induction p with
  | nil => rfl
  | cons c cs ih =>
    simp only [List.mem_cons, not_or] at hp
    rw [List.cons_append, List.infix_cons_iff, ih hp.2]
    constructor
    · rintro (⟨r, h⟩ | h)
      · simp only [List.cons_append, List.cons.injEq] at h
        exact absurd h.1 hp.1
      · exact h
    · exact Or.inr

theorem plain_cons {p : Piece} {ps : List Piece} (h : Plain (p :: ps)) : Plain ps :=
  fun q hq => h q (List.mem_cons_of_mem _ hq)

theorem infix_render {t : Str} (ht : IsTag t) {ps : List Piece} (hp : Plain ps) : t <:+: render ps ↔ Piece.tag t ∈ ps := by
  have ht' := ht
  obtain ⟨x, hx0, hx1, hx2, e⟩ := ht'
  have et : t = '<' :: (x ++ c!">") := by simp [e]
  induction ps with
  | nil => simp [render, et]
  | cons p ps ih =>
    have ihp := ih (plain_cons hp)
    cases p with
    | text s =>
      have hs := hp (.text s) (by simp)
      simp only at hs
      rw [render, et, infix_pass hs.2.1, ← et]
      refine ihp.trans ?_
      simp
    | tag u =>
      have hu : IsTag u := hp (.tag u) (by simp)
      obtain ⟨y, hy0, hy1, hy2, eu⟩ := id hu
      rw [render]
      have e1 : u ++ render ps = '<' :: ((y ++ c!">") ++ render ps) := by simp [eu]
      rw [e1, List.infix_cons_iff, ← e1]
      have hny : '<' ∉ y ++ c!">" := by simp [hy1]
      constructor
      · rintro (h | h)
        · rw [isTag_cut ht hu h]; simp
        · rw [et, infix_pass hny, ← et] at h
          simp [ihp.1 h]
      · intro h
        rcases List.mem_cons.1 h with h | h
        · injection h with h
          subst h
          exact Or.inl (List.prefix_append _ _)
        · right
          rw [et, infix_pass hny, ← et]; exact ihp.2 h

theorem replace_render {t : Str} (ht : IsTag t) {ps : List Piece} (hp : Plain ps) :
    replace t [] (render ps) = render (ps.filter fun p => decide (p ≠ .tag t)) := by
  obtain ⟨x, hx0, hx1, hx2, e⟩ := id ht
  have et : t = '<' :: (x ++ c!">") := by simp [e]
  induction ps with
  | nil => rfl
  | cons p ps ih =>
    have ihp := ih (plain_cons hp)
    cases p with
    | text s =>
      have hs := hp (.text s) (by simp)
      simp only at hs
      rw [render, List.filter_cons_of_pos (by simp), render, et, replace_pass _ _ _ _ _ hs.2.1, ← et, ihp]
    | tag u =>
      have hu : IsTag u := hp (.tag u) (by simp)
      obtain ⟨y, hy0, hy1, hy2, eu⟩ := id hu
      rw [render]
      have e1 : u ++ render ps = '<' :: ((y ++ c!">") ++ render ps) := by simp [eu]
      have hny : '<' ∉ y ++ c!">" := by simp [hy1]
      rw [e1, replace_cons _ _ (by simp [et])]
      by_cases h : u = t
      · rw [← e1, h, if_pos (List.isPrefixOf_iff_prefix.2 (List.prefix_append _ _)), List.filter_cons_of_neg (by simp)]
        simp [ihp]
      · rw [← e1, if_neg (fun hh => h (isTag_cut ht hu (List.isPrefixOf_iff_prefix.1 hh)).symm),
          List.filter_cons_of_pos (by simp [h]), render]
        have : replace t [] (y ++ c!">" ++ render ps) = y ++ c!">" ++ replace t [] (render ps) := by
          rw [et]; exact replace_pass _ _ _ _ _ hny
        rw [this, ihp, eu]
        simp

theorem plain_filter {ps : List Piece} (hp : Plain ps) (f : Piece → Bool) : Plain (ps.filter f) :=
  fun q hq => hp q (List.mem_filter.1 hq).1

theorem getMetatags_render (d : Dict Str Str) (hd : ∀ k ∈ Dict.keys d, IsTag k) (hn : (Dict.keys d).Nodup)
    (ps : List Piece) (hp : Plain ps) :
    getMetatags d (render ps) = (metaText d ps, render (without d ps)) := by
  induction d generalizing ps with
  | nil =>
    have : ps.filter (fun p => decide (∀ d ∈ ([] : Dict Str Str), p ≠ .tag d.1)) = ps := by
      rw [List.filter_eq_self]; simp
    unfold getMetatags metaText without
    rw [this]; rfl
  | cons e d ih =>
    obtain ⟨t, v⟩ := e
    have ht : IsTag t := hd t (by simp [Dict.keys])
    have hd' : ∀ k ∈ Dict.keys d, IsTag k := fun k hk => hd k (by simp [Dict.keys] at hk ⊢; exact Or.inr hk)
    simp only [Dict.keys, List.map_cons, List.nodup_cons] at hn
    have hm : ∀ q : List Piece, (∀ d' ∈ d, (Piece.tag d'.1 ∈ q ↔ Piece.tag d'.1 ∈ ps)) → metaText d q = metaText d ps := by
      intro q hq
      unfold metaText
      congr 1
      apply List.filter_congr
      intro x hx
      simp [hq x hx]
    unfold getMetatags
    by_cases hs : hasSub t (render ps) = true
    · have hin : Piece.tag t ∈ ps := (infix_render ht hp).1 ((hasSub_iff _ _).1 hs)
      rw [if_pos hs, replace_render ht hp, ih hd' hn.2 _ (plain_filter hp _)]
      simp only
      have e1 : metaText ((t, v) :: d) ps = v ++ metaText d ps := by
        unfold metaText
        rw [List.filter_cons_of_pos (by simpa using hin)]
        simp
      rw [e1, hm]
      · congr 1
        congr 1
        unfold without
        rw [List.filter_filter]
        apply List.filter_congr
        intro p _
        simp only [List.mem_cons, forall_eq_or_imp]
        rw [← Bool.decide_and]
        exact decide_eq_decide.2 and_comm
      · intro d' hd2
        rw [List.mem_filter]
        have : d'.1 ≠ t := fun h => hn.1 (h ▸ List.mem_map_of_mem hd2)
        simp [this]
    · have hin : Piece.tag t ∉ ps := fun h => hs ((hasSub_iff _ _).2 ((infix_render ht hp).2 h))
      rw [if_neg hs, ih hd' hn.2 _ hp]
      congr 1
      · unfold metaText
        rw [List.filter_cons_of_neg (by simpa using hin)]
      · congr 1
        unfold without
        apply List.filter_congr
        intro p hp'
        have : p ≠ .tag t := fun h => hin (h ▸ hp')
        simp [this]

/-! ## Splitting -/

theorem splitTags_skip : ∀ (n : Nat) (a s : Str), a.length = n → splitTags n (a ++ s) = splitTags 0 s
  | 0, a, s, h => by rw [List.length_eq_zero_iff.1 h]; rfl
  | n + 1, a, s, h => by
    cases a with
    | nil => simp at h
    | cons c cs =>
      rw [List.cons_append, splitTags]
      exact splitTags_skip n cs s (by simpa using h)

theorem tagAt_tag {t : Str} (ht : IsTag t) (s : Str) : tagAt (t ++ s) = some t := by
  obtain ⟨x, hx0, hx1, hx2, rfl⟩ := ht
  have e : (c!"<" ++ x ++ c!">") ++ s = '<' :: (x ++ '>' :: s) := by simp
  rw [e, tagAt]
  have := takeWhile_stop (p := fun c => c ≠ '<' && c ≠ '>') (a := x) (fun c hc => by
    have h1 : c ≠ '<' := fun h => hx1 (h ▸ hc)
    have h2 : c ≠ '>' := fun h => hx2 (h ▸ hc)
    simp [h1, h2]) (c := '>') (by simp) s
  simp only [this.1]
  simp [hx0]

theorem splitTags_tag {t : Str} (ht : IsTag t) (s : Str) : splitTags 0 (t ++ s) = [] :: t :: splitTags 0 s := by
  have h := tagAt_tag ht s
  obtain ⟨x, hx0, hx1, hx2, e⟩ := id ht
  have e1 : t = '<' :: (x ++ c!">") := by simp [e]
  have e2 : t ++ s = '<' :: ((x ++ c!">") ++ s) := by simp [e]
  rw [e2] at h ⊢
  rw [splitTags]
  simp only [h]
  rw [splitTags_skip _ _ _ (by rw [e1]; simp)]

/-- Where a tag begins in a text. -/
theorem tagAt_some {s t : Str} (h : tagAt s = some t) : IsTag t ∧ t <+: s := by
  unfold tagAt at h
  split at h
  · rename_i cs
    simp only at h
    generalize hx : cs.takeWhile (fun c => c ≠ '<' && c ≠ '>') = x at h
    have hp : x <+: cs := hx ▸ List.takeWhile_prefix _
    obtain ⟨r, rfl⟩ := hp
    rw [List.drop_left] at h
    split at h
    · rename_i r'
      split at h
      · simp at h
      · rename_i hne
        injection h with h
        subst h
        have hm : ∀ c ∈ x, c ≠ '<' ∧ c ≠ '>' := by
          intro c hc
          rw [← hx] at hc
          have := takeWhile_true_mem _ hc
          simpa using this
        exact ⟨⟨x, hne, fun h => (hm _ h).1 rfl, fun h => (hm _ h).2 rfl, by simp⟩, r', by simp⟩
    · simp at h
  · simp at h

theorem splitTags_ne : ∀ (n : Nat) (s : Str), splitTags n s ≠ []
  | n, [] => by cases n <;> simp [splitTags]
  | n + 1, _ :: cs => by rw [splitTags]; exact splitTags_ne n cs
  | 0, c :: cs => by
    rw [splitTags]
    split
    · simp
    · split <;> simp

/-- A text without tags, followed by nothing or by a tag. -/
theorem splitTags_text (t s : Str) (ht : ∀ u, IsTag u → ¬ u <:+: t) (hs : s = [] ∨ ∃ r, s = '<' :: r)
    (w : Str) (ws : List Str) (h : splitTags 0 s = w :: ws) : splitTags 0 (t ++ s) = (t ++ w) :: ws := by
  induction t with
  | nil => exact h
  | cons c cs ih =>
    have ih' := ih fun u hu hi => ht u hu (hi.trans (List.infix_cons_iff.2 (Or.inr (List.infix_refl _))))
    rw [List.cons_append, splitTags]
    have hno : tagAt (c :: (cs ++ s)) = none := by
      cases hh : tagAt (c :: (cs ++ s)) with
      | none => rfl
      | some u =>
        exfalso
        obtain ⟨hu, r, hr⟩ := tagAt_some hh
        rcases hs with rfl | ⟨r', rfl⟩
        · apply ht u hu
          rw [List.append_nil] at hr
          exact ⟨[], r, by simpa using hr⟩
        · -- the tag ends before the next bracket
          have : u <+: c :: cs := by
            rw [← List.cons_append] at hr
            by_cases hl : u.length ≤ (c :: cs).length
            · exact List.prefix_of_prefix_length_le ⟨r, hr⟩ (List.prefix_append _ _) hl
            · exfalso
              have hp2 : (c :: cs) ++ c!"<" <+: u := by
                apply List.prefix_of_prefix_length_le (l₃ := c :: cs ++ '<' :: r')
                · exact ⟨r', by simp⟩
                · exact ⟨r, hr⟩
                · simp at hl ⊢; omega
              obtain ⟨q, hq⟩ := hp2
              obtain ⟨x, _, hx1, hx2, rfl⟩ := hu
              simp only [List.cons_append, List.nil_append, List.cons.injEq] at hq
              have : '<' ∈ x ++ c!">" := by
                rw [← hq.2]; simp
              simp [hx1] at this
          exact ht u hu this.isInfix
    simp only [hno, ih', List.cons_append]

theorem render_head {ps : List Piece} (hp : Proper ps) (h : ∀ u, ps.head? ≠ some (.text u)) :
    render ps = [] ∨ ∃ r, render ps = '<' :: r := by
  cases ps with
  | nil => exact Or.inl rfl
  | cons p ps =>
    cases p with
    | text t => exact absurd rfl (h t)
    | tag t =>
      obtain ⟨x, _, _, _, rfl⟩ := hp.1
      exact Or.inr ⟨x ++ c!">" ++ render ps, by simp [render]⟩

/-- The parts of a pattern are its texts and tags in turn. -/
theorem expandParts_render (tags : Dict Str Str) (hk : ∀ k ∈ Dict.keys tags, IsTag k) (pre inter post : Str)
    (ps : List Piece) (hp : Proper ps) :
    ∃ w ws, splitTags 0 (render ps) = w :: ws ∧
      (∀ u q, ps = .tag u :: q → w = [] ∧ ws.head? = some u) ∧ (∀ t q, ps = .text t :: q → w ≠ []) ∧
      (ps = [] → w = [] ∧ ws = []) ∧ (∀ u, IsTag u → ¬ u <:+: w) ∧
      expandParts tags pre inter post (w :: ws) = expand (Dict.get? tags) pre inter post ps := by
  have hnone : ∀ w : Str, (∀ u, IsTag u → ¬ u <:+: w) → Dict.get? tags w = none := by
    intro w hw
    rw [Dict.get?_eq_none_iff]
    intro hm
    exact hw w (hk w hm) (List.infix_refl _)
  have hempty : ∀ u, IsTag u → ¬ u <:+: ([] : Str) := by
    rintro u ⟨x, _, _, _, rfl⟩ h
    simp at h
  induction ps with
  | nil =>
    refine ⟨[], [], rfl, by simp, by simp, by simp, hempty, ?_⟩
    simp [expandParts, expand, hnone [] hempty]
  | cons p ps ih =>
    cases p with
    | tag t =>
      obtain ⟨w, ws, h1, h2, h3, h4, h5, h6⟩ := ih hp.2
      refine ⟨[], t :: w :: ws, ?_, ?_, by simp, by simp, hempty, ?_⟩
      · rw [render, splitTags_tag hp.1, h1]
      · intro u q h
        injection h with h _
        injection h with h
        simp [h]
      · have h6' := h6
        rw [expandParts, hnone [] hempty, List.nil_append, expandParts, expand]
        cases hv : Dict.get? tags t with
        | none => simp only [h6]
        | some v =>
          simp only [h6]
          have hb : tagFollows tags (w :: ws) = followed (Dict.get? tags) ps := by
            cases ps with
            | nil =>
              obtain ⟨e1, e2⟩ := h4 rfl
              subst e2; rfl
            | cons p' q =>
              cases p' with
              | text t' =>
                have := h3 t' q rfl
                cases ws with
                | nil => rfl
                | cons x xs => simp [this, tagFollows, followed]
              | tag u =>
                obtain ⟨e1, e2⟩ := h2 u q rfl
                cases ws with
                | nil => simp at e2
                | cons x xs =>
                  simp only [List.head?_cons, Option.some.injEq] at e2
                  subst e2
                  simp [e1, Dict.has, tagFollows, followed]
          rw [hb]
    | text t =>
      obtain ⟨ht0, ht1, ht2, hp'⟩ := hp
      obtain ⟨w, ws, h1, h2, h3, h4, h5, h6⟩ := ih hp'
      have hw : w = [] := by
        cases ps with
        | nil => exact (h4 rfl).1
        | cons p' q =>
          cases p' with
          | text t' => exact absurd rfl (ht2 t')
          | tag u => exact (h2 u q rfl).1
      subst hw
      refine ⟨t, ws, ?_, by simp, ?_, by simp, ht1, ?_⟩
      · rw [render, splitTags_text t _ ht1 (render_head hp' ht2) [] ws h1, List.append_nil]
      · intro _ _ _; exact ht0
      · rw [expandParts, hnone t ht1, expand, ← h6, expandParts, hnone [] hempty, List.nil_append]

/-! ## Joining texts -/

/-- Texts that follow each other are one text. -/
def joined : List Piece → List Piece
  | [] => []
  | .tag t :: ps => .tag t :: joined ps
  | .text t :: ps =>
    match joined ps with
    | .text u :: q => .text (t ++ u) :: q
    | q => .text t :: q

theorem joined_spec (val : Str → Option Str) (pre inter post : Str) (ps : List Piece) (hp : Plain ps) :
    render (joined ps) = render ps ∧ Proper (joined ps) ∧ Plain (joined ps) ∧
      followed val (joined ps) = followed val ps ∧
      expand val pre inter post (joined ps) = expand val pre inter post ps := by
  induction ps with
  | nil => simp [joined, Proper, Plain]
  | cons p ps ih =>
    obtain ⟨h1, h2, h3, h4, h5⟩ := ih (plain_cons hp)
    cases p with
    | tag t =>
      have ht : IsTag t := hp (.tag t) (by simp)
      refine ⟨by simp [joined, render, h1], ⟨ht, h2⟩, ?_, rfl, ?_⟩
      · intro q hq
        rcases List.mem_cons.1 hq with rfl | hq
        · exact ht
        · exact h3 q hq
      · simp only [joined, expand, h4, h5]
    | text t =>
      have ht := hp (.text t) (by simp)
      simp only at ht
      have free : ∀ x : Str, '<' ∉ x → ∀ u, IsTag u → ¬ u <:+: x := by
        rintro x hx u ⟨y, _, _, _, rfl⟩ hi
        exact hx (hi.subset (by simp))
      rw [joined]
      split
      · rename_i u q hq
        rw [hq] at h1 h2 h3 h4 h5
        have hu := h3 (.text u) (by simp)
        simp only at hu
        refine ⟨by rw [render, render, ← h1, render]; simp, ?_, ?_, rfl, ?_⟩
        · refine ⟨by simp [ht.1], free _ (by simp [ht.2.1, hu.2.1]), h2.2.2.1, h2.2.2.2⟩
        · intro x hx
          rcases List.mem_cons.1 hx with rfl | hx
          · exact ⟨by simp [ht.1], by simp [ht.2.1, hu.2.1], by simp [ht.2.2, hu.2.2]⟩
          · exact h3 x (List.mem_cons_of_mem _ hx)
        · rw [expand, expand, ← h5, expand]; simp
      · rename_i q hq
        refine ⟨by rw [render, render, h1], ⟨ht.1, free _ ht.2.1, ?_, h2⟩, ?_, rfl, by rw [expand, expand, h5]⟩
        · intro u hu
          cases hj : joined ps with
          | nil => simp [hj] at hu
          | cons x xs =>
            simp only [hj, List.head?_cons, Option.some.injEq] at hu
            exact hq u xs (by rw [hj, hu])
        · intro x hx
          rcases List.mem_cons.1 hx with rfl | hx
          · exact ht
          · exact h3 x hx

/-! ## The property -/

/-- Tags are written in angle brackets, and the names defined have none. -/
def Usual (o : Opts) : Prop :=
  o.start = c!"<" ∧ o.stop = c!">" ∧
    ∀ l ∈ o.pre ++ o.inter ++ o.post ++ o.tag, ∀ n v, Defines l n v → '<' ∉ n ∧ '>' ∉ n

theorem prepareTags_nodup (o : Opts) (extra : Str) (lines : List Str) : (Dict.keys (prepareTags o extra lines)).Nodup := by
  induction lines using snoc_ind with
  | h0 => simp [prepareTags, Dict.keys]
  | hs lines l ih =>
    rw [prepareTags_snoc]
    split
    · exact Dict.nodup_set _ _ _ ih
    · exact ih

theorem prepareTags_isTag (o : Opts) (hu : Usual o) (extra : Str) (he : '<' ∉ extra ∧ '>' ∉ extra) (lines : List Str)
    (hl : ∀ l ∈ lines, l ∈ o.pre ++ o.inter ++ o.post ++ o.tag) :
    ∀ k ∈ Dict.keys (prepareTags o extra lines), IsTag k ∧ ∃ n, (∀ c ∈ n, isSpace c = false) ∧ k = c!"<" ++ extra ++ n ++ c!">" := by
  intro k hk
  obtain ⟨l, hl1, n, v, hd, rfl⟩ := prepareTags_keys _ _ _ _ hk
  have hn := hu.2.2 l (hl l hl1) n v hd
  obtain ⟨_, _, _, _, _, hne, hsp, _, _⟩ := hd
  rw [hu.1, hu.2.1]
  refine ⟨⟨extra ++ n, by simp [hne], by simp [he.1, hn.1], by simp [he.2, hn.2], by simp⟩, n, hsp, rfl⟩

theorem without_mem (d : Dict Str Str) (ps : List Piece) (p : Piece) (h : ∀ e ∈ d, p ≠ .tag e.1) :
    p ∈ without d ps ↔ p ∈ ps := by
  unfold without
  rw [List.mem_filter]
  simp only [decide_eq_true_eq]
  exact ⟨fun h => h.1, fun h' => ⟨h', h⟩⟩

theorem metaText_without (d e : Dict Str Str) (ps : List Piece) (h : ∀ a ∈ d, ∀ b ∈ e, a.1 ≠ b.1) :
    metaText d (without e ps) = metaText d ps := by
  unfold metaText
  congr 1
  apply List.filter_congr
  intro x hx
  have := without_mem e ps (.tag x.1) (fun b hb he => h x hx b hb (by injection he))
  exact decide_eq_decide.2 this

/-- **C79** (partial).  In a pattern whose texts have no angle brackets, every defined tag is replaced by its value,
with the values of the `pre` and `post` tags of the pattern around it and those of the `inter` tags between two tags
that follow each other; everything else stays as it is. -/
theorem C79_expand_partial (o : Opts) (hu : Usual o) (ps : List Piece) (hp : Plain ps) :
    let pre := prepareTags o c!"pre " o.pre
    let inter := prepareTags o c!"inter " o.inter
    let post := prepareTags o c!"post " o.post
    replaceTags o (render ps) =
      expand (Dict.get? (prepareTags o [] o.tag)) (metaText pre ps) (metaText inter ps) (metaText post ps)
        (without post (without inter (without pre ps))) := by
  intro pre inter post
  have k1 := prepareTags_isTag o hu c!"pre " (by decide) o.pre (by simp +contextual)
  have k2 := prepareTags_isTag o hu c!"inter " (by decide) o.inter (by simp +contextual)
  have k3 := prepareTags_isTag o hu c!"post " (by decide) o.post (by simp +contextual)
  have k4 := prepareTags_isTag o hu [] (by decide) o.tag (by simp +contextual)
  have key : ∀ {d : Dict Str Str} {a : Str × Str}, a ∈ d → a.1 ∈ Dict.keys d := fun h => List.mem_map_of_mem h
  have d12 : ∀ a ∈ inter, ∀ b ∈ pre, a.1 ≠ b.1 := by
    intro a ha b hb he
    obtain ⟨n, _, e1⟩ := (k2 a.1 (key ha)).2
    obtain ⟨m, _, e2⟩ := (k1 b.1 (key hb)).2
    rw [e1, e2] at he
    simp at he
  have d13 : ∀ a ∈ post, ∀ b ∈ pre, a.1 ≠ b.1 := by
    intro a ha b hb he
    obtain ⟨n, _, e1⟩ := (k3 a.1 (key ha)).2
    obtain ⟨m, _, e2⟩ := (k1 b.1 (key hb)).2
    rw [e1, e2] at he
    simp at he
  have d23 : ∀ a ∈ post, ∀ b ∈ inter, a.1 ≠ b.1 := by
    intro a ha b hb he
    obtain ⟨n, _, e1⟩ := (k3 a.1 (key ha)).2
    obtain ⟨m, _, e2⟩ := (k2 b.1 (key hb)).2
    rw [e1, e2] at he
    simp at he
  have p1 : Plain (without pre ps) := plain_filter hp _
  have p2 : Plain (without inter (without pre ps)) := plain_filter p1 _
  have p3 : Plain (without post (without inter (without pre ps))) := plain_filter p2 _
  unfold replaceTags
  rw [getMetatags_render pre (fun k hk => (k1 k hk).1) (prepareTags_nodup _ _ _) ps hp]
  simp only
  rw [getMetatags_render inter (fun k hk => (k2 k hk).1) (prepareTags_nodup _ _ _) _ p1]
  simp only
  rw [getMetatags_render post (fun k hk => (k3 k hk).1) (prepareTags_nodup _ _ _) _ p2]
  simp only
  rw [metaText_without inter pre ps d12, metaText_without post inter _ d23, metaText_without post pre ps d13]
  obtain ⟨j1, j2, _, _, j5⟩ := joined_spec (Dict.get? (prepareTags o [] o.tag)) (metaText pre ps) (metaText inter ps)
    (metaText post ps) _ p3
  obtain ⟨w, ws, h1, _, _, _, _, h6⟩ := expandParts_render (prepareTags o [] o.tag) (fun k hk => (k4 k hk).1)
    (metaText pre ps) (metaText inter ps) (metaText post ps) _ j2
  rw [j1] at h1
  rw [h1, h6, j5]

theorem getMetatags_none (d : Dict Str Str) (s : Str) (h : ∀ k ∈ Dict.keys d, ¬ k <:+: s) : getMetatags d s = ([], s) := by
  induction d with
  | nil => rfl
  | cons e d ih =>
    obtain ⟨t, v⟩ := e
    unfold getMetatags
    have ht := h t (by simp [Dict.keys])
    rw [if_neg (fun hh => ht ((hasSub_iff _ _).1 hh)), ih (fun k hk => h k (by simp [Dict.keys] at hk ⊢; exact Or.inr hk))]

/-- **C79** (partial).  In a pattern without `pre`, `inter` and `post` tags, texts can also have angle brackets, as
in `(?<!a)`, if they do not contain a tag: only the tags are replaced. -/
theorem C79_lookbehind_partial (o : Opts) (hu : Usual o) (ps : List Piece) (hp : Proper ps)
    (hm : ∀ k, k ∈ Dict.keys (prepareTags o c!"pre " o.pre) ∨ k ∈ Dict.keys (prepareTags o c!"inter " o.inter) ∨
      k ∈ Dict.keys (prepareTags o c!"post " o.post) → ¬ k <:+: render ps) :
    replaceTags o (render ps) = expand (Dict.get? (prepareTags o [] o.tag)) [] [] [] ps := by
  have k4 := prepareTags_isTag o hu [] (by decide) o.tag (by simp +contextual)
  unfold replaceTags
  rw [getMetatags_none _ _ (fun k hk => hm k (Or.inl hk))]
  simp only
  rw [getMetatags_none _ _ (fun k hk => hm k (Or.inr (Or.inl hk)))]
  simp only
  rw [getMetatags_none _ _ (fun k hk => hm k (Or.inr (Or.inr hk)))]
  simp only
  obtain ⟨w, ws, h1, _, _, _, _, h6⟩ := expandParts_render (prepareTags o [] o.tag) (fun k hk => (k4 k hk).1) [] [] [] _ hp
  rw [h1, h6]

/-- **C79** is violated: other brackets can be configured with `replace_start` and `replace_end`, but tags written
in them are not replaced: a pattern without `<` stays as it is, unless it is nothing but a tag. -/
theorem C79_brackets_violated (o : Opts) (v : Str) (hv : '<' ∉ v) (h0 : ∀ k ∈ Dict.keys (prepareTags o [] o.tag), k ≠ v)
    (hm : ∀ k, k ∈ Dict.keys (prepareTags o c!"pre " o.pre) ∨ k ∈ Dict.keys (prepareTags o c!"inter " o.inter) ∨
      k ∈ Dict.keys (prepareTags o c!"post " o.post) → ¬ k <:+: v) : replaceTags o v = v := by
  have hs : ∀ v : Str, '<' ∉ v → splitTags 0 v = [v] := by
    intro v
    induction v with
    | nil => intro _; rfl
    | cons c cs ih =>
      intro h
      simp only [List.mem_cons, not_or] at h
      rw [splitTags]
      have : tagAt (c :: cs) = none := by
        unfold tagAt
        split
        · rename_i heq; injection heq with h1 _; exact absurd h1.symm h.1
        · rfl
      simp only [this, ih h.2]
  unfold replaceTags
  rw [getMetatags_none _ _ (fun k hk => hm k (Or.inl hk))]
  simp only
  rw [getMetatags_none _ _ (fun k hk => hm k (Or.inr (Or.inl hk)))]
  simp only
  rw [getMetatags_none _ _ (fun k hk => hm k (Or.inr (Or.inr hk)))]
  simp only
  rw [hs v hv, expandParts, (Dict.get?_eq_none_iff _ _).2 (fun hk => h0 v hk rfl)]
  simp [expandParts]

/-- What a rule's data become: its value has been treated as often as the rule is listed. -/
theorem replaceRules_spec (o : Opts) (names : List Str) (results out : Dict Str (Dict Str Parser.PVal))
    (h : replaceRules o names results = some out) (rule : Str) :
    Dict.get? out rule = (Dict.get? results rule).map fun data =>
      (List.range (names.count rule)).foldl (fun (d : Dict Str Parser.PVal) _ =>
        match Dict.get? d c!"value" with
        | some (.str v) => Dict.set d c!"value" (.str (replaceTags o v))
        | _ => d) data := by
  induction names generalizing results with
  | nil =>
    injection h with h; subst h
    simp
  | cons n ns ih =>
    unfold replaceRules at h
    cases hr : Dict.get? results n with
    | none =>
      simp only [hr] at h
      rw [ih results h]
      by_cases he : n = rule
      · subst he; simp [hr]
      · rw [List.count_cons_of_ne he]
    | some data =>
      simp only [hr] at h
      split at h
      · rename_i v hv
        rw [ih _ h, Dict.get?_set]
        by_cases he : n = rule
        · subst he
          rw [if_pos rfl, hr, List.count_cons_self, List.range_succ_eq_map]
          simp only [Option.map_some, List.foldl_cons, hv, List.foldl_map]
        · rw [if_neg he, List.count_cons_of_ne he]
      · simp at h

/-- **C79** (partial).  Rules that are not listed keep their data; the value of a rule listed once is replaced, and
its other data stay. -/
theorem C79_rules_partial (o : Opts) (results out : Dict Str (Dict Str Parser.PVal))
    (h : finishParsingStart o results = some out) (rule : Str) :
    (rule ∉ o.rules → Dict.get? out rule = Dict.get? results rule) ∧
    (o.rules.count rule = 1 → ∀ data v, Dict.get? results rule = some data → Dict.get? data c!"value" = some (.str v) →
      ∃ data', Dict.get? out rule = some data' ∧ Dict.get? data' c!"value" = some (.str (replaceTags o v)) ∧
        ∀ key, key ≠ c!"value" → Dict.get? data' key = Dict.get? data key) := by
  have hs := replaceRules_spec o _ _ _ h rule
  constructor
  · intro hn
    rw [hs, List.count_eq_zero_of_not_mem hn]
    cases Dict.get? results rule <;> simp
  · intro h1 data v hd hv
    rw [h1, hd] at hs
    simp only [Option.map_some] at hs
    have e : (List.range 1) = [0] := rfl
    rw [e] at hs
    simp only [List.foldl_cons, List.foldl_nil, hv] at hs
    refine ⟨_, hs, ?_, ?_⟩
    · rw [Dict.get?_set, if_pos rfl]
    · intro key hk
      rw [Dict.get?_set, if_neg (Ne.symm hk)]

/-- **C79** is violated: a rule that is listed twice is treated twice, so that tags in the values of tags are then
replaced as well. -/
theorem C79_twice_violated (o : Opts) (results out : Dict Str (Dict Str Parser.PVal))
    (h : finishParsingStart o results = some out) (rule : Str) (h2 : o.rules.count rule = 2)
    (data : Dict Str Parser.PVal) (v : Str) (hd : Dict.get? results rule = some data)
    (hv : Dict.get? data c!"value" = some (.str v)) :
    ∃ data', Dict.get? out rule = some data' ∧
      Dict.get? data' c!"value" = some (.str (replaceTags o (replaceTags o v))) := by
  have hs := replaceRules_spec o _ _ _ h rule
  rw [h2, hd] at hs
  have e : (List.range 2) = [0, 1] := rfl
  simp only [Option.map_some, e, List.foldl_cons, List.foldl_nil, hv] at hs
  rw [Dict.get?_set, if_pos rfl] at hs
  simp only at hs
  exact ⟨_, hs, by rw [Dict.get?_set, if_pos rfl]⟩

/-- **C79** (partial).  Loading the configuration does not fail if every listed rule that is mentioned has a
definition. -/
theorem C79_total_partial (o : Opts) (results : Dict Str (Dict Str Parser.PVal))
    (h : ∀ r ∈ o.rules, ∀ data, Dict.get? results r = some data → ∃ v, Dict.get? data c!"value" = some (.str v)) :
    ∃ out, finishParsingStart o results = some out := by
  unfold finishParsingStart
  generalize o.rules = names at h
  induction names generalizing results with
  | nil => exact ⟨results, rfl⟩
  | cons n ns ih =>
    unfold replaceRules
    cases hr : Dict.get? results n with
    | none => exact ih results fun r hr' => h r (List.mem_cons_of_mem _ hr')
    | some data =>
      obtain ⟨v, hv⟩ := h n (by simp) data hr
      simp only [hv]
      apply ih
      intro r hr' d hd
      rw [Dict.get?_set] at hd
      by_cases he : n = r
      · rw [if_pos he] at hd
        injection hd with hd
        subst hd
        exact ⟨_, by rw [Dict.get?_set, if_pos rfl]⟩
      · rw [if_neg he] at hd
        exact h r (List.mem_cons_of_mem _ hr') d hd

/-- **C79** is violated: a listed rule that is only mentioned, say in a `score` line, without being defined, makes
loading the configuration fail, in tolerant mode too. -/
theorem C79_undefined_violated (o : Opts) (results : Dict Str (Dict Str Parser.PVal)) (rule : Str) (hr : rule ∈ o.rules)
    (data : Dict Str Parser.PVal) (hd : Dict.get? results rule = some data) (hv : Dict.get? data c!"value" = none) :
    finishParsingStart o results = none := by
  unfold finishParsingStart
  generalize o.rules = names at hr
  induction names generalizing results with
  | nil => simp at hr
  | cons n ns ih =>
    unfold replaceRules
    by_cases he : n = rule
    · subst he
      simp only [hd, hv]
    · have hr' : rule ∈ ns := by
        rcases List.mem_cons.1 hr with h | h
        · exact absurd h.symm he
        · exact h
      cases hn : Dict.get? results n with
      | none => exact ih results hd hr'
      | some d =>
        simp only
        split
        · apply ih _ _ hr'
          rw [Dict.get?_set, if_neg he, hd]
        · rfl

/-! ## Instances -/

def exOpts : Opts :=
  { pre := [c!"P (?:"], inter := [c!"I [ ]?"], post := [c!"P3 ){3}"], tag := [c!"A [a4@]", c!"B x", c!"B [b8]"], rules := [c!"R"] }

theorem exOpts_usual : Usual exOpts := by
  refine ⟨rfl, rfl, ?_⟩
  intro l hl n v hd
  have h1 := (splitNone_defines _ _ _).2 hd
  have hl' : l ∈ [c!"P (?:", c!"I [ ]?", c!"P3 ){3}", c!"A [a4@]", c!"B x", c!"B [b8]"] := hl
  have : ∀ l ∈ [c!"P (?:", c!"I [ ]?", c!"P3 ){3}", c!"A [a4@]", c!"B x", c!"B [b8]"],
      '<' ∉ (splitNone 1 l).headD [] ∧ '>' ∉ (splitNone 1 l).headD [] := by decide +kernel
  have := this l hl'
  rw [h1] at this
  exact this

example : replaceTags exOpts c!"/<inter I><pre P><post P3>c<A><B>d<C>/" = c!"/c(?:[a4@]){3}[ ]?(?:[b8]){3}d<C>/" := by
  decide +kernel
example : Plain [.text c!"/", .tag c!"<inter I>", .text c!"c", .tag c!"<A>", .tag c!"<B>", .text c!"/"] := by
  intro p hp
  simp only [List.mem_cons, List.not_mem_nil, or_false] at hp
  rcases hp with rfl | rfl | rfl | rfl | rfl | rfl
  · decide
  · exact ⟨c!"inter I", by decide, by decide, by decide, rfl⟩
  · decide
  · exact ⟨c!"A", by decide, by decide, by decide, rfl⟩
  · exact ⟨c!"B", by decide, by decide, by decide, rfl⟩
  · decide
example : replaceTags exOpts c!"/(?<!x)<A>/" = c!"/(?<!x)[a4@]/" := by decide +kernel
example : replaceTags { exOpts with start := c!"{", stop := c!"}" } c!"/{A}/" = c!"/{A}/" := by decide +kernel
example : finishParsingStart exOpts [(c!"R", [(c!"value", .str c!"/<A>/"), (c!"score", .str c!"1")])] =
    some [(c!"R", [(c!"value", .str c!"/[a4@]/"), (c!"score", .str c!"1")])] := by decide +kernel
example : replaceTags { exOpts with tag := [c!"A <B>", c!"B b"] } c!"/<A>/" = c!"/<B>/" ∧
    replaceTags { exOpts with tag := [c!"A <B>", c!"B b"] } c!"/<B>/" = c!"/b/" := by decide +kernel
example : finishParsingStart exOpts [(c!"R", [(c!"score", .str c!"1")])] = none := by decide +kernel

end Verif.Props
