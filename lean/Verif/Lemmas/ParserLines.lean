import Verif.Lemmas.Parser

namespace Verif.Parser
open Verif Py

variable {C : Type}

/-! ### Lines keep the section state -/

theorem store_ignore (E : Env C) (t n : Str) (v : PVal) (s : State C) :
    (store E t n v s).1.ignore = s.ignore := by
  unfold store
  simp only
  split
  · split <;> rfl
  · rfl

theorem config_ignore (E : Env C) (k v : Str) (s : State C) :
    (handleConfig E k v s).1.ignore = s.ignore := by
  unfold handleConfig
  split <;> rfl

theorem two_ignore (E : Env C) (line : Str) (s : State C) :
    (handleTwo E line s).1.ignore = s.ignore := by
  unfold handleTwo
  repeat' split
  all_goals first | rfl | exact store_ignore .. | exact config_ignore ..

theorem load_ignore (E : Env C) (v : Str) (s : State C) :
    (handleLoadplugin E v s).1.ignore = s.ignore := by
  unfold handleLoadplugin
  simp only
  repeat' split
  all_goals rfl

theorem plain_ignore (E : Env C) (inc : Inc C) (f raw : Str) (s : State C) (hp : Plain raw)
    (hi : s.ignore = false) : (handleLine E inc f raw s).1.ignore = false := by
  by_cases hs : Skipped raw
  · rw [hl_skipped _ _ _ _ _ hp.1 (Or.inl hs)]; exact hi
  · rw [hl_main _ _ _ _ _ hp.1 hs hi]
    obtain ⟨h1, h2⟩ := hp.2 hs
    unfold dispatch
    rw [if_neg h1, if_neg h2]
    repeat' split
    all_goals first
      | (rw [load_ignore]; exact hi)
      | (rw [two_ignore]; exact hi)
      | (rw [config_ignore]; exact hi)

theorem andThen_ignore (p : Bool) (r : State C × Option Err) (k : State C → State C × Option Err)
    (hr : r.1.ignore = false) (hk : ∀ s, s.ignore = false → (k s).1.ignore = false) :
    (andThen p r k).1.ignore = false := by
  unfold andThen
  split
  · exact hk _ hr
  · split
    · exact hr
    · exact hk _ hr
  · exact hk _ hr
  · exact hr

theorem plain_lines_ignore (E : Env C) (inc : Inc C) (f : Str) (ls : List Str) (h : ∀ l ∈ ls, Plain l) :
    ∀ s : State C, s.ignore = false → (parseLines E inc f ls s).1.ignore = false := by
  induction ls with
  | nil => intro s hi; exact hi
  | cons l ls ih =>
    intro s hi
    rw [parseLines_cons]
    exact andThen_ignore _ _ _ (plain_ignore E inc f l s (h l (by simp)) hi)
      (ih (fun x hx => h x (List.mem_cons_of_mem _ hx)))

theorem plain_lines_skipped (E : Env C) (inc : Inc C) (f : Str) (ls : List Str) (h : ∀ l ∈ ls, Plain l)
    (s : State C) (hi : s.ignore = true) : parseLines E inc f ls s = (s, none) := by
  induction ls with
  | nil => rfl
  | cons l ls ih =>
    rw [parseLines_cons, hl_skipped _ _ _ _ _ (h l (by simp)).1 (Or.inr hi)]
    exact ih (fun x hx => h x (List.mem_cons_of_mem _ hx))

theorem hl_ifplugin (E : Env C) (inc : Inc C) (f raw : Str) (s : State C) (h1 : ¬ Closer raw)
    (h2 : ¬ Skipped raw) (h3 : keyword raw = c!"ifplugin") (hi : s.ignore = false) :
    handleLine E inc f raw s =
      (if E.hasPlugin s.ctx (pluginClass E (argument raw)) = true then s else { s with ignore := true }, none) := by
  rw [hl_main _ _ _ _ _ h1 h2 hi]
  unfold dispatch
  rw [h3]
  rfl

/-- One block. -/
theorem block_text (E : Env C) (inc : Inc C) (f : Str) (b : Block) (hb : b.WellFormed) (s : State C)
    (hi : s.ignore = false) :
    (parseLines E inc f b.text s).2 = (parseLines E inc f (b.chosen E s.ctx) s).2 ∧
    ((parseLines E inc f b.text s).1 = (parseLines E inc f (b.chosen E s.ctx) s).1) ∧
    (parseLines E inc f (b.chosen E s.ctx) s).1.ignore = false := by
  have hset : ∀ x : State C, x.ignore = false → ({ x with ignore := false } : State C) = x := by
    intro x hx; cases x; simp_all
  cases b with
  | line l =>
    refine ⟨rfl, rfl, ?_⟩
    exact plain_lines_ignore E inc f [l] (by intro x hx; simp at hx; exact hx ▸ hb) s hi
  | cond o t other e =>
    cases other with
    | none =>
      obtain ⟨h1, h2, h3, h4, h5⟩ := hb
      simp only [Block.text, Block.chosen, List.cons_append]
      rw [parseLines_cons, hl_ifplugin E inc f o s h1 h2 h3 hi]
      by_cases hp : E.hasPlugin s.ctx (pluginClass E (argument o)) = true
      · rw [if_pos hp, if_pos hp]
        simp only [andThen]
        rw [parseLines_append]
        have hg := plain_lines_ignore E inc f t h4 s hi
        cases hr : parseLines E inc f t s with
        | mk s1 err =>
          rw [hr] at hg
          simp only at hg
          cases err with
          | some err => exact ⟨rfl, rfl, hg⟩
          | none =>
            simp only
            rw [parseLines_cons, hl_endif _ _ _ _ _ h5, hset s1 hg]
            exact ⟨rfl, rfl, hg⟩
      · rw [if_neg hp, if_neg hp]
        simp only [andThen]
        rw [parseLines_append, plain_lines_skipped E inc f t h4 _ rfl]
        simp only
        rw [parseLines_cons, hl_endif _ _ _ _ _ h5]
        simp [andThen, parseLines, hset s hi, hi]
    | some p =>
      obtain ⟨el, ls⟩ := p
      obtain ⟨h1, h2, h3, h4, h5, h6, h7⟩ := hb
      simp only [Block.text, Block.chosen, List.cons_append, List.append_assoc]
      rw [parseLines_cons, hl_ifplugin E inc f o s h1 h2 h3 hi]
      by_cases hp : E.hasPlugin s.ctx (pluginClass E (argument o)) = true
      · rw [if_pos hp, if_pos hp]
        simp only [andThen]
        rw [parseLines_append]
        have hg := plain_lines_ignore E inc f t h4 s hi
        cases hr : parseLines E inc f t s with
        | mk s1 err =>
          rw [hr] at hg
          simp only at hg
          cases err with
          | some err => exact ⟨rfl, rfl, hg⟩
          | none =>
            simp only
            rw [parseLines_cons, hl_else _ _ _ _ _ h5]
            simp only [andThen, hg, Bool.not_false]
            rw [parseLines_append, plain_lines_skipped E inc f ls h6 _ rfl]
            simp only
            rw [parseLines_cons, hl_endif _ _ _ _ _ h7]
            simp [andThen, parseLines, hset s1 hg, hg]
      · rw [if_neg hp, if_neg hp]
        simp only [andThen]
        rw [parseLines_append, plain_lines_skipped E inc f t h4 _ rfl]
        simp only
        rw [parseLines_cons, hl_else _ _ _ _ _ h5]
        simp only [andThen, Bool.not_true]
        rw [hset s hi, parseLines_append]
        have hg := plain_lines_ignore E inc f ls h6 s hi
        cases hr : parseLines E inc f ls s with
        | mk s1 err =>
          rw [hr] at hg
          simp only at hg
          cases err with
          | some err => exact ⟨rfl, rfl, hg⟩
          | none =>
            simp only
            rw [parseLines_cons, hl_endif _ _ _ _ _ h7, hset s1 hg]
            exact ⟨rfl, rfl, hg⟩

/-! ### Comments -/

theorem dropWhile_append_of_exists (p : Char → Bool) (l r : Str) (h : ∃ c ∈ l, p c = false) :
    (l ++ r).dropWhile p = l.dropWhile p ++ r := by
  induction l with
  | nil => obtain ⟨c, hc, _⟩ := h; cases hc
  | cons a as ih =>
    simp only [List.cons_append, List.dropWhile_cons]
    by_cases ha : p a = true
    · rw [if_pos ha, if_pos ha]
      apply ih
      obtain ⟨c, hc, hp⟩ := h
      rcases List.mem_cons.1 hc with rfl | hc
      · rw [ha] at hp; cases hp
      · exact ⟨c, hc, hp⟩
    · rw [if_neg ha, if_neg ha]; rfl

theorem dropWhile_nil (p : Char → Bool) (l : Str) (h : ∀ c ∈ l, p c = true) : l.dropWhile p = [] := by
  induction l with
  | nil => rfl
  | cons a as ih =>
    rw [List.dropWhile_cons, if_pos (h a (by simp))]
    exact ih (fun c hc => h c (List.mem_cons_of_mem _ hc))

theorem exists_of_dropWhile_ne_nil (p : Char → Bool) (l : Str) (h : l.dropWhile p ≠ []) :
    ∃ c ∈ l, p c = false := by
  apply Classical.byContradiction
  intro hn
  apply h
  apply dropWhile_nil
  intro c hc
  cases hp : p c with
  | true => rfl
  | false => exact absurd ⟨c, hc, hp⟩ hn

/-- `rstrip` cuts off a run of whitespace. -/
theorem rstripBy_split (p : Char → Bool) (l : Str) :
    ∃ w, l = rstripBy p l ++ w ∧ (∀ c ∈ w, p c = true) := by
  refine ⟨(l.reverse.takeWhile p).reverse, ?_, ?_⟩
  · unfold rstripBy
    rw [← List.reverse_append, List.takeWhile_append_dropWhile, List.reverse_reverse]
  · intro c hc
    rw [List.mem_reverse] at hc
    have : ∀ (l : Str), ∀ c ∈ l.takeWhile p, p c = true := by
      intro l
      induction l with
      | nil => simp
      | cons a as ih =>
        intro c hc
        rw [List.takeWhile_cons] at hc
        split at hc
        · rcases List.mem_cons.1 hc with rfl | hc
          · assumption
          · exact ih c hc
        · cases hc
    exact this _ c hc

theorem rstripBy_append (p : Char → Bool) (l r : Str) (h : ∃ c ∈ r, p c = false) :
    rstripBy p (l ++ r) = l ++ rstripBy p r := by
  unfold rstripBy
  rw [List.reverse_append, dropWhile_append_of_exists p r.reverse l.reverse (by simpa using h)]
  simp

theorem rstripBy_append_ws (p : Char → Bool) (l w : Str) (h : ∀ c ∈ w, p c = true) :
    rstripBy p (l ++ w) = rstripBy p l := by
  unfold rstripBy
  rw [List.reverse_append]
  congr 1
  induction w using snocInd' with
  | h0 => rfl
  | h1 w x ih =>
    rw [List.reverse_append]
    simp only [List.reverse_cons, List.reverse_nil, List.nil_append, List.singleton_append,
      List.cons_append, List.dropWhile_cons]
    rw [if_pos (h x (by simp))]
    exact ih (fun c hc => h c (List.mem_append_left _ hc))
where
  snocInd' {P : Str → Prop} (h0 : P []) (h1 : ∀ l x, P l → P (l ++ [x])) (l : Str) : P l := by
    have : ∀ l, P (List.reverse l) := by
      intro l
      induction l with
      | nil => exact h0
      | cons x xs ih => simpa using h1 _ x ih
    simpa using this l.reverse

theorem rstripBy_eq_nil (p : Char → Bool) (l : Str) (h : ∀ c ∈ l, p c = true) : rstripBy p l = [] := by
  unfold rstripBy
  rw [dropWhile_nil p l.reverse (by simpa using h)]
  rfl

theorem prefix_before {p r t : Str} {x : Char} (hx : x ∉ p) (h : p <+: r ++ x :: t) : p <+: r := by
  induction p generalizing r with
  | nil => exact List.nil_prefix
  | cons a as ih =>
    cases r with
    | nil =>
      obtain ⟨u, hu⟩ := h
      simp only [List.nil_append, List.cons_append, List.cons.injEq] at hu
      exact absurd (by simp [hu.1]) hx
    | cons b bs =>
      obtain ⟨u, hu⟩ := h
      simp only [List.cons_append, List.cons.injEq] at hu
      obtain ⟨rfl, hu⟩ := hu
      have := ih (fun hh => hx (List.mem_cons_of_mem _ hh)) ⟨u, hu⟩
      obtain ⟨v, hv⟩ := this
      exact ⟨v, by simp [hv]⟩

/-- The character before the rest, when `prev` comes before `r`. -/
def lastOr (prev : Option Char) (r : Str) : Option Char :=
  match r.getLast? with
  | some c => some c
  | none => prev

theorem cut_append (prev : Option Char) (r rest : Str) :
    cutComment prev (r ++ rest) =
      if cutComment prev r = r then r ++ cutComment (lastOr prev r) rest else cutComment prev r := by
  induction r generalizing prev with
  | nil => simp [cutComment, lastOr]
  | cons c cs ih =>
    by_cases h : c = '#' ∧ prev ≠ none ∧ prev ≠ some '\\'
    · have e1 : ∀ x, cutComment prev (c :: x) = [] := fun x => by simp only [cutComment]; rw [if_pos h]
      rw [List.cons_append, e1, e1]; simp
    · have e1 : ∀ x, cutComment prev (c :: x) = c :: cutComment (some c) x :=
        fun x => by simp only [cutComment]; rw [if_neg h]
      rw [List.cons_append, e1, e1, ih]
      have hl : lastOr (some c) cs = lastOr prev (c :: cs) := by
        unfold lastOr
        cases cs with
        | nil => simp
        | cons d ds =>
          rw [List.getLast?_cons_cons]
          have : ((d :: ds).getLast?).isSome = true := by simp
          cases hg : (d :: ds).getLast? with
          | none => rw [hg] at this; cases this
          | some x => rfl
      rw [hl]
      by_cases h2 : cutComment (some c) cs = cs
      · simp [h2]
      · simp [h2]

theorem cut_ws (prev : Option Char) (w j : Str) (hw : ∀ c ∈ w, isSpace c = true)
    (h : lastOr prev w ≠ none ∧ lastOr prev w ≠ some '\\') :
    cutComment prev (w ++ '#' :: j) = w := by
  rw [cut_append]
  have hcw : cutComment prev w = w := by
    clear h
    induction w generalizing prev with
    | nil => rfl
    | cons c cs ih =>
      simp only [cutComment]
      rw [if_neg, ih _ (fun x hx => hw x (List.mem_cons_of_mem _ hx))]
      rintro ⟨rfl, _⟩
      have := hw '#' (by simp)
      exact absurd this (by decide)
  rw [if_pos hcw]
  simp only [cutComment]
  rw [if_pos ⟨trivial, h.1, h.2⟩]
  simp

theorem strip_append_ws (l w : Str) (h : ∀ c ∈ w, isSpace c = true) : strip (l ++ w) = strip l := by
  unfold strip stripBy
  by_cases hl : ∃ c ∈ l, isSpace c = false
  · have : lstripBy isSpace (l ++ w) = lstripBy isSpace l ++ w := dropWhile_append_of_exists _ _ _ hl
    rw [this, rstripBy_append_ws _ _ _ h]
  · have hl' : ∀ c ∈ l, isSpace c = true := by
      intro c hc
      cases hp : isSpace c with
      | true => rfl
      | false => exact absurd ⟨c, hc, hp⟩ hl
    have h1 : lstripBy isSpace (l ++ w) = [] := by
      apply dropWhile_nil
      intro c hc
      rcases List.mem_append.1 hc with hc | hc
      · exact hl' c hc
      · exact h c hc
    have h2 : lstripBy isSpace l = [] := dropWhile_nil _ _ hl'
    rw [h1, h2]

/-- What a trailing comment does to the text of a line. -/
theorem comment_text (l junk : Str) (hne : strip l ≠ []) (hbs : l.getLast? ≠ some '\\') :
    ∃ w j, strip (l ++ '#' :: junk) = strip l ++ (w ++ '#' :: j) ∧ (∀ c ∈ w, isSpace c = true) ∧
      logical (l ++ '#' :: junk) = logical l := by
  have hex : ∃ c ∈ l, isSpace c = false := by
    apply exists_of_dropWhile_ne_nil
    intro h
    apply hne
    unfold strip stripBy lstripBy
    rw [h]
    rfl
  have h1 : lstripBy isSpace (l ++ '#' :: junk) = lstripBy isSpace l ++ '#' :: junk :=
    dropWhile_append_of_exists _ _ _ hex
  obtain ⟨w, hw1, hw2⟩ := rstripBy_split isSpace (lstripBy isSpace l)
  have h2 : strip (l ++ '#' :: junk) = lstripBy isSpace l ++ rstripBy isSpace ('#' :: junk) := by
    unfold strip stripBy
    rw [h1, rstripBy_append]
    exact ⟨'#', by simp, by decide⟩
  have h3 : ∃ j, rstripBy isSpace ('#' :: junk) = '#' :: j := by
    by_cases hj : ∃ c ∈ junk, isSpace c = false
    · exact ⟨rstripBy isSpace junk, rstripBy_append isSpace ['#'] junk hj⟩
    · refine ⟨[], ?_⟩
      have hj' : ∀ c ∈ junk, isSpace c = true := by
        intro c hc
        cases hp : isSpace c with
        | true => rfl
        | false => exact absurd ⟨c, hc, hp⟩ hj
      have := rstripBy_append_ws isSpace ['#'] junk hj'
      exact this.trans (by decide)
  obtain ⟨j, hj⟩ := h3
  have htext : strip (l ++ '#' :: junk) = strip l ++ (w ++ '#' :: j) := by
    rw [h2, hj]
    show lstripBy isSpace l ++ '#' :: j = rstripBy isSpace (lstripBy isSpace l) ++ (w ++ '#' :: j)
    rw [← List.append_assoc, ← hw1]
  refine ⟨w, j, htext, hw2, ?_⟩
  unfold logical
  rw [htext, cut_append]
  by_cases hcut : cutComment none (strip l) = strip l
  · rw [if_pos hcut]
    have hlast : lastOr none (strip l ++ w) ≠ none ∧ lastOr none (strip l ++ w) ≠ some '\\' := by
      have he : strip l ++ w = lstripBy isSpace l := hw1.symm
      rw [he]
      have hne' : lstripBy isSpace l ≠ [] := by
        intro h; apply hne; unfold strip stripBy; rw [h]; rfl
      have hg : (lstripBy isSpace l).getLast? = l.getLast? := by
        obtain ⟨pre, hpre⟩ : ∃ pre, l = pre ++ lstripBy isSpace l :=
          ⟨l.takeWhile isSpace, (List.takeWhile_append_dropWhile).symm⟩
        conv => rhs; rw [hpre]
        rw [List.getLast?_append]
        cases hgl : (lstripBy isSpace l).getLast? with
        | none => rw [List.getLast?_eq_none_iff] at hgl; exact absurd hgl hne'
        | some x => rfl
      unfold lastOr
      cases hgl : (lstripBy isSpace l).getLast? with
      | none => rw [List.getLast?_eq_none_iff] at hgl; exact absurd hgl hne'
      | some x =>
        simp only
        refine ⟨by simp, ?_⟩
        intro hx
        apply hbs
        rw [← hg, hgl, hx]
    have hcw : cutComment (lastOr none (strip l)) (w ++ '#' :: j) = w := by
      apply cut_ws _ _ _ hw2
      have : lastOr (lastOr none (strip l)) w = lastOr none (strip l ++ w) := by
        unfold lastOr
        rw [List.getLast?_append]
        cases w.getLast? with
        | none => simp
        | some x => simp
      rw [this]
      exact hlast
    rw [hcw, hcut, strip_append_ws _ _ hw2]
  · rw [if_neg hcut]

theorem startsWith_comment {word l : Str} {w j : Str} (hw : ∀ c ∈ w, isSpace c = true)
    (h1 : '#' ∉ word) (h2 : ∀ c ∈ word, isSpace c = false) :
    startsWith word (l ++ (w ++ '#' :: j)) = startsWith word l := by
  have : word <+: l ++ (w ++ '#' :: j) ↔ word <+: l := by
    constructor
    · intro h
      cases w with
      | nil => exact prefix_before h1 h
      | cons x xs =>
        refine prefix_before (x := x) (t := xs ++ '#' :: j) ?_ (by simpa using h)
        intro hx
        have a := h2 x hx
        rw [hw x (by simp)] at a
        cases a
    · intro h
      exact h.trans (List.prefix_append _ _)
  rw [Bool.eq_iff_iff, startsWith_iff, startsWith_iff]
  exact this

theorem hl_comment (E : Env C) (inc : Inc C) (f l junk : Str) (s : State C) (hne : strip l ≠ [])
    (hbs : l.getLast? ≠ some '\\') :
    handleLine E inc f (l ++ '#' :: junk) s = handleLine E inc f l s := by
  obtain ⟨w, j, ht, hw, hlog⟩ := comment_text l junk hne hbs
  unfold logical at hlog
  unfold handleLine
  simp only
  rw [hlog, ht]
  rw [startsWith_comment hw (by decide) (by decide), startsWith_comment hw (by decide) (by decide),
    startsWith_comment hw (by decide) (by decide)]
  have hsharp : startsWith c!"#" (strip l ++ (w ++ '#' :: j)) = startsWith c!"#" (strip l) := by
    cases hs : strip l with
    | nil => exact absurd hs hne
    | cons a as => simp [startsWith, List.isPrefixOf]
  have hemp : (strip l ++ (w ++ '#' :: j) = []) = (strip l = []) := by simp [hne]
  rw [hsharp]
  simp only [hemp]

/-! ### Assignments -/

theorem attr_set (C : Type) (res : Dict Str (Dict Str PVal)) (ig : Bool) (ctx : C) (name a : Str)
    (d : Dict Str PVal) (v : PVal) (n' a' : Str) (hd : d = (Dict.get? res name).getD []) :
    (State.attr ⟨Dict.set res name (Dict.set d a v), ig, ctx⟩ n' a' : Option PVal) =
      if name = n' ∧ a = a' then some v else State.attr ⟨res, ig, ctx⟩ n' a' := by
  unfold State.attr
  simp only
  rw [Dict.get?_set]
  by_cases h : name = n'
  · subst h
    simp only [if_true, Option.bind_some, true_and]
    rw [Dict.get?_set]
    by_cases h2 : a = a'
    · simp [h2]
    · simp only [h2, if_false]
      rw [hd]
      cases Dict.get? res name with
      | none => simp
      | some x => simp
  · simp [h]

/-- Apply one assignment to the results. -/
def assign (res : Dict Str (Dict Str PVal)) (x : Str × Str × PVal) : Dict Str (Dict Str PVal) :=
  Dict.set res x.1 (Dict.set ((Dict.get? res x.1).getD []) x.2.1 x.2.2)

theorem set_set {V : Type} (d : Dict Str V) (k : Str) (v w : V) :
    Dict.set (Dict.set d k v) k w = Dict.set d k w := by
  induction d with
  | nil => simp [Dict.set]
  | cons p ps ih =>
    simp only [Dict.set]
    split
    · simp [Dict.set, *]
    · simp [Dict.set, *]

theorem store_results (E : Env C) (t name : Str) (v : Str) (s : State C) :
    (store E t name (.str v) s).2 = none ∧ (store E t name (.str v) s).1.ctx = s.ctx ∧
    (store E t name (.str v) s).1.results =
      (if t ∈ ruleTypes ∨ E.isCmd s.ctx t = true then
        if c!"eval:" <+: v then
          [(name, c!"target", .str t), (name, c!"type", .str c!"eval"), (name, c!"value", .str v)]
        else [(name, c!"type", .str t), (name, c!"value", .str v)]
      else [(name, t, .str v)]).foldl assign s.results := by
  have hres : ∀ x, Dict.set (if Dict.has s.results name = true then s.results else Dict.set s.results name []) name x =
      Dict.set s.results name x := by
    intro x
    split
    · rfl
    · exact set_set _ _ _ _
  have hdata : (Dict.get? (if Dict.has s.results name = true then s.results else Dict.set s.results name []) name).getD [] =
      (Dict.get? s.results name).getD [] := by
    split
    · rfl
    · rename_i h
      rw [Dict.get?_set_self]
      unfold Dict.has at h
      cases hg : Dict.get? s.results name with
      | none => rfl
      | some x => rw [hg] at h; simp at h
  unfold store
  simp only [hdata]
  by_cases hr : t ∈ ruleTypes ∨ E.isCmd s.ctx t = true
  · rw [if_pos hr, if_pos hr]
    refine ⟨rfl, rfl, ?_⟩
    simp only [hres]
    by_cases he : c!"eval:" <+: v
    · rw [if_pos ((startsWith_iff _ _).2 he), if_pos he]
      simp only [List.foldl_cons, List.foldl_nil, assign, Dict.get?_set_self, Option.getD_some, set_set]
    · have : startsWith c!"eval:" v = false := by
        cases h : startsWith c!"eval:" v with
        | false => rfl
        | true => exact absurd ((startsWith_iff _ _).1 h) he
      rw [if_neg he]
      simp only [this, Bool.false_eq_true, if_false]
      simp only [List.foldl_cons, List.foldl_nil, assign, Dict.get?_set_self, Option.getD_some, set_set]
  · rw [if_neg hr, if_neg hr]
    refine ⟨rfl, rfl, ?_⟩
    simp only [hres]
    simp only [List.foldl_cons, List.foldl_nil, assign]

theorem store_list_results (E : Env C) (t name : Str) (v : List Str) (s : State C)
    (h : ¬ (t ∈ ruleTypes ∨ E.isCmd s.ctx t = true)) :
    (store E t name (.list v) s).2 = none ∧ (store E t name (.list v) s).1.ctx = s.ctx ∧
    (store E t name (.list v) s).1.results = assign s.results (name, t, .list v) := by
  unfold store
  simp only
  rw [if_neg h]
  refine ⟨rfl, rfl, ?_⟩
  unfold assign
  simp only
  by_cases hh : Dict.has s.results name = true
  · simp only [hh, if_true]
  · simp only [hh, if_false, Bool.false_eq_true]
    rw [set_set, Dict.get?_set_self]
    unfold Dict.has at hh
    cases hg : Dict.get? s.results name with
    | none => rfl
    | some x => rw [hg] at hh; simp at hh

/-- The words of a line that has at least one word. -/
theorem keyword_of_three {raw t n v : Str} (h : splitNone 2 (logical raw) = [t, n, v]) :
    keyword raw = t := by
  unfold keyword splitHead
  simp only [splitNone] at h ⊢
  split at h
  · cases h
  · rename_i h1
    rw [if_neg h1]
    simp only [List.cons.injEq] at h
    obtain ⟨h2, h3⟩ := h
    split at h3
    · cases h3
    · rename_i h4
      rw [if_neg h4]
      exact h2

theorem dict_keys_assign (res : Dict Str (Dict Str PVal)) (x : Str × Str × PVal) :
    Dict.keys (assign res x) = if x.1 ∈ Dict.keys res then Dict.keys res else Dict.keys res ++ [x.1] := by
  unfold assign
  by_cases h : x.1 ∈ Dict.keys res
  · rw [if_pos h, Dict.keys_set_of_mem _ _ h]
  · rw [if_neg h, Dict.keys_set_of_not_mem _ _ h]


/-! ### Sections in sections and in included files -/

theorem lines_skipped (E : Env C) (inc : Inc C) (f : Str) (ls : List Str) (h : ∀ l ∈ ls, ¬ Closer l)
    (s : State C) (hi : s.ignore = true) : parseLines E inc f ls s = (s, none) := by
  induction ls with
  | nil => rfl
  | cons l ls ih =>
    rw [parseLines_cons, hl_skipped _ _ _ _ _ (h l (by simp)) (Or.inr hi)]
    exact ih (fun x hx => h x (List.mem_cons_of_mem _ hx))

end Verif.Parser
