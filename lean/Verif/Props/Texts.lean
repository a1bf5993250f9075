import Verif.Spec.Texts
import Verif.Lemmas.Py
import Verif.Lemmas.Strip
import Mathlib.Tactic.Linarith
import Mathlib.Algebra.Order.Field.Rat

/-!
# C109 to C111: languages, subjects and capital letters
-/

namespace Verif.Props
open Verif Py Texts

/-! ## C109: languages -/

/-- **C109**.  After lines `ok_languages` of which the last gives the words `ws`, the rule holds exactly if no word is `all`, not too
many languages are found and one of them is none of the words. -/
theorem C109_holds (s : Settings) (values : List Str) (last : Str) (rs : List (Str × Rat)) :
    (checkLanguage ((values ++ [last]).foldl setOk s) (some rs)).1 = some true ↔
      c!"all" ∉ splitWs last ∧ ((rs.filter (fun r => decide (s.prob < r.2))).length : Int) ≤ s.maxLangs ∧
        ∃ l, Found rs s.prob l ∧ l ∉ splitWs last := by
  have hk : ∀ (values : List Str) (s : Settings), ((values.foldl setOk s).maxLangs = s.maxLangs ∧
      (values.foldl setOk s).prob = s.prob) := by
    intro values
    induction values with
    | nil => intro s; exact ⟨rfl, rfl⟩
    | cons v values ih => intro s; exact ih (setOk s v)
  obtain ⟨h1, h2⟩ := hk (values ++ [last]) s
  have h3 : ((values ++ [last]).foldl setOk s).ok = .list (splitWs last) := by
    rw [List.foldl_append]; rfl
  generalize (values ++ [last]).foldl setOk s = t at h1 h2 h3
  unfold checkLanguage
  simp only [h1, h2, h3, Ok.has, List.length_map]
  by_cases hm : ((rs.filter (fun r => decide (r.2 > s.prob))).length : Int) > s.maxLangs
  · have : ¬ ((rs.filter (fun r => decide (s.prob < r.2))).length : Int) ≤ s.maxLangs := not_le.mpr hm
    rw [if_pos hm]
    simp [this]
  · have hm' : ((rs.filter (fun r => decide (s.prob < r.2))).length : Int) ≤ s.maxLangs := not_lt.mp hm
    rw [if_neg hm]
    by_cases ha : c!"all" ∈ splitWs last
    · have : (splitWs last).contains c!"all" = true := by simpa using ha
      rw [if_pos this]
      simp [ha]
    · have : ¬ (splitWs last).contains c!"all" = true := by simpa using ha
      rw [if_neg this]
      simp only [ha, hm', not_false_eq_true, true_and, Option.some.injEq, List.any_eq_true, List.mem_map, List.mem_filter,
        decide_eq_true_eq, Found, Prod.exists]
      constructor
      · rintro ⟨l, ⟨a, p, ⟨h4, h5⟩, rfl⟩, h6⟩
        exact ⟨_, ⟨p, h4, h5⟩, by simpa using h6⟩
      · rintro ⟨l, ⟨p, h4, h5⟩, h6⟩
        exact ⟨l, ⟨l, p, ⟨h4, h5⟩, rfl⟩, by simpa using h6⟩

/-- **C109**.  The rule says no, and never yes, if no line has been given. -/
theorem C109_default (rs : List (Str × Rat)) : (checkLanguage .default (some rs)).1 = some false := by
  unfold checkLanguage
  dsimp only
  split
  · rfl
  · rfl

/-- **C109**.  The tag is set to the languages found, in the order of the library, unless there are too many. -/
theorem C109_tag (s : Settings) (rs : List (Str × Rat)) :
    (checkLanguage s (some rs)).2 =
      if ((rs.filter (fun r => decide (s.prob < r.2))).length : Int) ≤ s.maxLangs then
        some (join c!" " ((rs.filter (fun r => decide (s.prob < r.2))).map Prod.fst))
      else none := by
  unfold checkLanguage
  dsimp only
  rw [List.length_map]
  by_cases hm : ((rs.filter (fun r => decide (s.prob < r.2))).length : Int) ≤ s.maxLangs
  · rw [if_pos hm, if_neg (not_lt.mpr hm)]
    split <;> rfl
  · rw [if_neg hm, if_pos (not_le.mp hm)]

/-- **C109**.  If nothing is set, a language counts if its probability is above seven tenths, and more than five are too many. -/
theorem C109_default_tag (rs : List (Str × Rat)) :
    (checkLanguage .default (some rs)).2 =
      if (rs.filter (fun r => decide (7 / 10 < r.2))).length ≤ 5 then
        some (join c!" " ((rs.filter (fun r => decide (7 / 10 < r.2))).map Prod.fst))
      else none := by
  rw [C109_tag]
  exact if_congr ⟨Int.ofNat_le.mp, Int.ofNat_le.mpr⟩ rfl rfl

/-- **C109**.  If the library finds nothing to go by, the rule does not hold. -/
theorem C109_nothing (s : Settings) : Texts.holds (checkLanguage s none).1 = false := rfl

-- German is found, English and French are accepted; with German accepted the rule does not hold
example : (checkLanguage (setOk .default c!"en fr") (some [(c!"de", 9 / 10)])).1 = some true := by decide +kernel
example : (checkLanguage (setOk .default c!"en  de") (some [(c!"de", 9 / 10)])) = (some false, some c!"de") := by decide +kernel

/-! ## C110: subjects -/

theorem parseAll_lists (valid : Str → Bool) (lines : List (Nat × Str × Str)) (s : Lists) :
    (∀ item, item ∈ (parseAll valid s lines).white ↔
      item ∈ s.white ∨ given valid (fun _ => True) c!"whitelist_subject" lines item) ∧
    (∀ item, item ∈ (parseAll valid s lines).black ↔
      item ∈ s.black ∨ given valid (fun _ => True) c!"blacklist_subject" lines item) := by
  induction lines generalizing s with
  | nil => simp [parseAll, given]
  | cons l lines ih =>
    obtain ⟨c, key, value⟩ := l
    have e : parseAll valid s ((c, key, value) :: lines) = parseAll valid (parseLine valid s key value).1 lines := rfl
    rw [e]
    obtain ⟨i1, i2⟩ := ih (parseLine valid s key value).1
    refine ⟨fun item => (i1 item).trans ?_, fun item => (i2 item).trans ?_⟩
    · unfold parseLine given
      by_cases hk : key = c!"whitelist_subject"
      · cases hv : valid (strip value)
        · simp only [hk, if_true]
          refine or_congr Iff.rfl ⟨fun ⟨c', h⟩ => ⟨c', by simp [h.1], h.2⟩, ?_⟩
          rintro ⟨c', h, h2⟩
          rcases List.mem_cons.mp h with h | h
          · cases h; rw [hv] at h2; cases h2.2
          · exact ⟨c', h, h2⟩
        · simp only [hk, if_true, List.mem_append, List.mem_singleton]
          rw [or_assoc]
          refine or_congr Iff.rfl ⟨?_, ?_⟩
          · rintro (rfl | ⟨c', h⟩)
            · exact ⟨c, by simp, trivial, hv⟩
            · exact ⟨c', by simp [h.1], h.2⟩
          · rintro ⟨c', h, h2⟩
            rcases List.mem_cons.mp h with h | h
            · cases h; exact Or.inl rfl
            · exact Or.inr ⟨c', h, h2⟩
      · have : ∀ x : Lists × Bool, (if key = c!"whitelist_subject" then x else
          if key = c!"blacklist_subject" then
            if valid (strip value) = true then ({ s with black := s.black ++ [value] }, true) else (s, false)
          else (s, false)).1.white = s.white := by
          intro x; rw [if_neg hk]; split
          · split <;> rfl
          · rfl
        rw [this]
        refine or_congr Iff.rfl ⟨fun ⟨c', h⟩ => ⟨c', by simp [h.1], h.2⟩, ?_⟩
        rintro ⟨c', h, h2⟩
        rcases List.mem_cons.mp h with h | h
        · cases h; exact absurd rfl hk
        · exact ⟨c', h, h2⟩
    · unfold parseLine given
      by_cases hk : key = c!"blacklist_subject"
      · have hw : ¬ key = c!"whitelist_subject" := by rw [hk]; decide
        cases hv : valid (strip value)
        · simp only [hw, hk, if_true]
          refine or_congr (by simp) ⟨fun ⟨c', h⟩ => ⟨c', by simp [h.1], h.2⟩, ?_⟩
          rintro ⟨c', h, h2⟩
          rcases List.mem_cons.mp h with h | h
          · cases h; rw [hv] at h2; cases h2.2
          · exact ⟨c', h, h2⟩
        · rw [if_neg hw, if_pos hk]
          simp only [if_true, List.mem_append, List.mem_singleton]
          rw [or_assoc]
          refine or_congr Iff.rfl ⟨?_, ?_⟩
          · rintro (rfl | ⟨c', h⟩)
            · exact ⟨c, by simp [hk], trivial, hv⟩
            · exact ⟨c', by simp [h.1], h.2⟩
          · rintro ⟨c', h, h2⟩
            rcases List.mem_cons.mp h with h | h
            · cases h; exact Or.inl rfl
            · exact Or.inr ⟨c', h, h2⟩
      · have : (if key = c!"whitelist_subject" then
            if valid (strip value) = true then ({ s with white := s.white ++ [value] }, true) else (s, false)
          else if key = c!"blacklist_subject" then
            if valid (strip value) = true then ({ s with black := s.black ++ [value] }, true) else (s, false)
          else (s, false)).1.black = s.black := by
          rw [if_neg hk]; split
          · split <;> rfl
          · rfl
        rw [this]
        refine or_congr Iff.rfl ⟨fun ⟨c', h⟩ => ⟨c', by simp [h.1], h.2⟩, ?_⟩
        rintro ⟨c', h, h2⟩
        rcases List.mem_cons.mp h with h | h
        · cases h; exact absurd rfl hk
        · exact ⟨c', h, h2⟩

theorem checkSubject_iff (re : Str → Str → Bool) (subject : Option Str) (l : List Str) :
    Texts.holds (checkSubject re subject l) = true ↔ ∃ s, subject = some s ∧ ∃ item ∈ l, re item s = true := by
  cases subject with
  | none => cases l <;> simp [checkSubject, Texts.holds]
  | some s =>
    simp only [Option.some.injEq, exists_eq_left']
    induction l with
    | nil => simp [checkSubject, Texts.holds]
    | cons item l ih =>
      unfold checkSubject
      dsimp only
      cases h : re item s with
      | true => simp [Texts.holds, h]
      | false => simpa [h] using ih

/-- **C110** (partial).  The rules hold exactly if there is a subject and one of the expressions that have been given in the process,
to whatever context, matches it at its start. -/
theorem C110_process_partial (valid : Str → Bool) (re : Str → Str → Bool) (lines : List (Nat × Str × Str)) (subject : Option Str) :
    (Texts.holds (inWhitelist re (parseAll valid ⟨[], []⟩ lines) subject) = true ↔
      ∃ s, subject = some s ∧ ∃ item, given valid (fun _ => True) c!"whitelist_subject" lines item ∧ re item s = true) ∧
    (Texts.holds (inBlacklist re (parseAll valid ⟨[], []⟩ lines) subject) = true ↔
      ∃ s, subject = some s ∧ ∃ item, given valid (fun _ => True) c!"blacklist_subject" lines item ∧ re item s = true) := by
  obtain ⟨h1, h2⟩ := parseAll_lists valid lines ⟨[], []⟩
  refine ⟨(checkSubject_iff _ _ _).trans ?_, (checkSubject_iff _ _ _).trans ?_⟩
  · simp [h1]
  · simp [h2]

/-- **C110** (partial).  In a process with one context the rules go by the expressions of that context. -/
theorem C110_alone_partial (valid : Str → Bool) (re : Str → Str → Bool) (lines : List (Nat × Str × Str)) (me : Nat)
    (h : ∀ l ∈ lines, l.1 = me) (subject : Option Str) :
    (Texts.holds (inWhitelist re (parseAll valid ⟨[], []⟩ lines) subject) = true ↔
      ∃ s, subject = some s ∧ ∃ item, given valid (· = me) c!"whitelist_subject" lines item ∧ re item s = true) ∧
    (Texts.holds (inBlacklist re (parseAll valid ⟨[], []⟩ lines) subject) = true ↔
      ∃ s, subject = some s ∧ ∃ item, given valid (· = me) c!"blacklist_subject" lines item ∧ re item s = true) := by
  have e : ∀ key item, given valid (fun _ => True) key lines item ↔ given valid (· = me) key lines item := by
    intro key item
    exact ⟨fun ⟨c, h1, _, h2⟩ => ⟨c, h1, h _ h1, h2⟩, fun ⟨c, h1, _, h2⟩ => ⟨c, h1, trivial, h2⟩⟩
  simpa only [e] using C110_process_partial valid re lines subject

/-- **C110** is violated: a context without lines has the lists of every other context. -/
theorem C110_shared_violated (valid : Str → Bool) (re : Str → Str → Bool) (me other : Nat) (item s : Str)
    (hv : valid (strip item) = true) (hr : re item s = true) (hne : other ≠ me) :
    (¬ ∃ i, given valid (· = me) c!"whitelist_subject" [(other, c!"whitelist_subject", item)] i) ∧
      Texts.holds (inWhitelist re (parseAll valid ⟨[], []⟩ [(other, c!"whitelist_subject", item)]) (some s)) = true := by
  refine ⟨?_, ?_⟩
  · rintro ⟨i, c, h1, h2, _⟩
    rw [List.mem_singleton] at h1
    cases h1
    exact hne h2
  · rw [(C110_process_partial valid re _ _).1]
    exact ⟨s, rfl, item, ⟨other, by simp, trivial, hv⟩, hr⟩

/-- **C110**: a line with a key of the plugin and an expression that compiles is taken, and no other. -/
theorem C110_taken (valid : Str → Bool) (s : Lists) (key value : Str) :
    (parseLine valid s key value).2 = true ↔
      (key = c!"whitelist_subject" ∨ key = c!"blacklist_subject") ∧ valid (strip value) = true := by
  unfold parseLine
  by_cases h1 : key = c!"whitelist_subject" <;> by_cases h2 : key = c!"blacklist_subject" <;>
    cases hv : valid (strip value) <;> simp [h1, h2]

example : inWhitelist (fun i s => startsWith i s) (parseAll (fun _ => true) ⟨[], []⟩ [(0, c!"whitelist_subject", c!"Order")])
    (some c!"Order 17") = some true := by decide +kernel

/-! ## C111: capital letters -/

theorem nn_cons {c : Char} {s : Str} (h : ¬ c!"\n\n" <:+: c :: s) : ¬ c!"\n\n" <:+: s :=
  fun ⟨a, b, e⟩ => h ⟨c :: a, b, by rw [← e]; rfl⟩

theorem paragraphs_one (p : Str) (h : ¬ c!"\n\n" <:+: p) : paragraphs p = [p] := by
  induction p with
  | nil => rfl
  | cons c p ih =>
    cases p with
    | nil => rfl
    | cons d p =>
      have hcd : ¬ (c = '\n' ∧ d = '\n') := by
        rintro ⟨rfl, rfl⟩
        exact h ⟨[], p, rfl⟩
      unfold paragraphs
      rw [if_neg hcd, ih (nn_cons h)]

theorem paragraphs_cons (p s : Str) (h : ¬ c!"\n\n" <:+: p) (hl : p.getLast? ≠ some '\n') :
    paragraphs (p ++ ('\n' :: '\n' :: s)) = p :: paragraphs s := by
  induction p with
  | nil => simp [paragraphs]
  | cons c p ih =>
    cases p with
    | nil =>
      have hc : c ≠ '\n' := fun e => hl (by rw [e]; rfl)
      simp [paragraphs, hc]
    | cons d p =>
      have hcd : ¬ (c = '\n' ∧ d = '\n') := by
        rintro ⟨rfl, rfl⟩
        exact h ⟨[], p, rfl⟩
      have := ih (nn_cons h) (by simpa using hl)
      simp only [List.cons_append] at this ⊢
      conv => lhs; unfold paragraphs
      rw [if_neg hcd, this]

theorem paragraphs_join (ps : List Str) (h0 : ps ≠ []) (h1 : ∀ p ∈ ps, ¬ c!"\n\n" <:+: p)
    (h2 : ∀ p ∈ ps.dropLast, p.getLast? ≠ some '\n') : paragraphs (join c!"\n\n" ps) = ps := by
  induction ps with
  | nil => exact absurd rfl h0
  | cons p ps ih =>
    cases ps with
    | nil => exact paragraphs_one p (h1 p (by simp))
    | cons q ps =>
      have e : join c!"\n\n" (p :: q :: ps) = p ++ ('\n' :: '\n' :: join c!"\n\n" (q :: ps)) := by
        simp [join]
      rw [e, paragraphs_cons p _ (h1 p (by simp)) (h2 p (by simp)),
        ih (by simp) (fun p hp => h1 p (by simp [hp])) (fun p hp => h2 p (by simp [hp]))]

theorem paragraphs_of (s : Str) : Paragraphs s (paragraphs s) := by
  match s with
  | [] => exact ⟨by simp [paragraphs], rfl, by simp [paragraphs], by simp [paragraphs]⟩
  | [c] =>
    refine ⟨by simp [paragraphs], rfl, ?_, by simp [paragraphs]⟩
    intro p hp h
    simp only [paragraphs, List.mem_singleton] at hp
    subst hp
    have := h.length_le
    simp at this
  | c :: d :: cs =>
    unfold paragraphs
    by_cases hcd : c = '\n' ∧ d = '\n'
    · obtain ⟨rfl, rfl⟩ := hcd
      rw [if_pos ⟨rfl, rfl⟩]
      obtain ⟨h0, h1, h2, h3⟩ := paragraphs_of cs
      cases hp : paragraphs cs with
      | nil => exact absurd hp h0
      | cons q qs =>
        rw [hp] at h1 h2 h3
        refine ⟨by simp, ?_, ?_, ?_⟩
        · rw [show join c!"\n\n" ([] :: q :: qs) = '\n' :: '\n' :: join c!"\n\n" (q :: qs) by simp [join], h1]
        · intro p hp
          rcases List.mem_cons.mp hp with rfl | hp
          · intro h; have := h.length_le; simp at this
          · exact h2 p hp
        · intro p hp
          rw [List.dropLast_cons₂] at hp
          rcases List.mem_cons.mp hp with rfl | hp
          · simp
          · exact h3 p hp
    · rw [if_neg hcd]
      obtain ⟨h0, h1, h2, h3⟩ := paragraphs_of (d :: cs)
      cases hp : paragraphs (d :: cs) with
      | nil => exact absurd hp h0
      | cons q qs =>
        rw [hp] at h1 h2 h3
        dsimp only
        have hq : ¬ (c = '\n' ∧ q.head? = some '\n') := by
          rintro ⟨rfl, hq⟩
          cases q with
          | nil => cases hq
          | cons x q =>
            cases hq
            apply hcd
            refine ⟨rfl, ?_⟩
            cases qs <;> simp [join] at h1 <;> exact h1.1.symm
        refine ⟨by simp, ?_, ?_, ?_⟩
        · rw [← h1]
          cases qs <;> simp [join]
        · intro p hp
          rcases List.mem_cons.mp hp with rfl | hp
          · rintro ⟨a, b, e⟩
            cases a with
            | nil =>
              simp only [List.nil_append, List.cons_append] at e
              cases e
              exact hq ⟨rfl, rfl⟩
            | cons y a =>
              simp only [List.cons_append] at e
              cases e
              exact h2 (a ++ c!"\n\n" ++ b) (by simp) ⟨a, b, rfl⟩
          · exact h2 p (by simp [hp])
        · intro p hp
          cases qs with
          | nil => simp at hp
          | cons r qs =>
            rw [List.dropLast_cons₂] at hp
            rcases List.mem_cons.mp hp with rfl | hp
            · cases q with
              | nil =>
                intro h
                simp only [List.getLast?_singleton, Option.some.injEq] at h
                subst h
                apply hcd
                refine ⟨rfl, ?_⟩
                simp [join] at h1
                exact h1.1.symm
              | cons x q =>
                have := h3 (x :: q) (by simp)
                simpa using this
            · exact h3 p (by rw [List.dropLast_cons₂]; simp [hp])
termination_by s.length

theorem paragraphs_iff (s : Str) (ps : List Str) : paragraphs s = ps ↔ Paragraphs s ps := by
  constructor
  · rintro rfl; exact paragraphs_of s
  · rintro ⟨h0, rfl, h1, h2⟩; exact paragraphs_join ps h0 h1 h2

theorem mem_stripBy {p : Char → Bool} {x : Char} (h : p x = false) (s : Str) : x ∈ stripBy p s ↔ x ∈ s := by
  have key : ∀ s : Str, x ∈ s.dropWhile p ↔ x ∈ s := by
    intro s
    induction s with
    | nil => rfl
    | cons y s ih =>
      rw [List.dropWhile_cons]
      split
      · rename_i hy
        rw [ih, List.mem_cons]
        refine ⟨Or.inr, fun hx => hx.resolve_left ?_⟩
        rintro rfl
        rw [h] at hy; cases hy
      · rfl
  unfold stripBy rstripBy lstripBy
  rw [List.mem_reverse, key, List.mem_reverse, key]

theorem counted_iff (line : Str) : (spaced (stripChars c!"\n" line)).contains ' ' = counted line := by
  have h : ' ' ∈ stripChars c!"\n" line ↔ ' ' ∈ line := mem_stripBy (by decide) line
  rw [Bool.eq_iff_iff]
  unfold counted spaced
  simp only [List.contains_eq_mem, decide_eq_true_eq, List.mem_map, Bool.or_eq_true]
  rw [← h]
  constructor
  · rintro ⟨c, hc, e⟩
    by_cases hn : c = '\n'
    · right; subst hn; exact hc
    · rw [if_neg hn] at e; left; rw [← e]; exact hc
  · rintro (h | h)
    · exact ⟨' ', h, by decide⟩
    · exact ⟨'\n', h, by decide⟩

theorem letters_spaced (u : Chars) (hs : u.word ' ' = false) (hn : u.word '\n' = false) (line : Str) :
    letters u (spaced line) = line.filter (isLetter u) := by
  unfold letters spaced
  induction line with
  | nil => rfl
  | cons c line ih =>
    rw [List.map_cons, List.filter_cons, List.filter_cons, ih]
    by_cases hc : c = '\n'
    · subst hc
      simp [hs, hn, isLetter]
    · cases hw : u.word c <;> by_cases h : c = '_' <;> simp [hc, hw, h, isLetter]

theorem countLower_single (u : Chars) (text : Str) (h : ∀ c ∈ text, (u.upper c).length = 1) :
    countLower u text = (text.filter (isSmall u)).length := by
  unfold countLower
  induction text with
  | nil => rfl
  | cons c text ih =>
    obtain ⟨d, hd⟩ := List.length_eq_one_iff.mp (h c (by simp))
    have := ih (fun x hx => h x (by simp [hx]))
    rw [List.flatMap_cons, hd, List.singleton_append, List.zip_cons_cons, List.filter_cons, List.filter_cons]
    have e : (c != d || u.digit c) = isSmall u c := by
      unfold isSmall
      rw [hd]
      by_cases hcd : c = d
      · subst hcd; simp
      · have : ¬ [d] = [c] := fun e => hcd (by cases e; rfl)
        simp [this, hcd]
    rw [e]
    split
    · simp [this]
    · exact this

theorem filter_count (p : Char → Bool) (s : Str) : s.length - (s.filter p).length = (s.filter (fun c => !p c)).length := by
  have : (s.filter p).length + (s.filter (fun c => !p c)).length = s.length := by
    induction s with
    | nil => rfl
    | cons c s ih =>
      rw [List.filter_cons, List.filter_cons]
      cases p c <;> simp <;> omega
  omega

theorem tally_eq (u : Chars) (hs : u.word ' ' = false) (hn : u.word '\n' = false) (ps : List Str)
    (h : ∀ p ∈ ps, ∀ c ∈ p, (u.upper c).length = 1) :
    tally u ps = (((((ps.filter counted).flatten).filter (isLetter u)).filter (isSmall u)).length,
      ((((ps.filter counted).flatten).filter (isLetter u)).filter (fun c => !isSmall u c)).length,
      ((ps.filter counted).flatten).length) := by
  induction ps with
  | nil => rfl
  | cons p ps ih =>
    have ih := ih (fun q hq => h q (by simp [hq]))
    unfold tally
    simp only [counted_iff]
    cases hc : counted p with
    | false => simp [hc, ih]
    | true =>
      have hl : (spaced p).length = p.length := by simp [spaced]
      rw [letters_spaced u hs hn, hl, countLower_single u _ (fun c hc => h p (by simp) c ((List.mem_filter.mp hc).1)),
        filter_count, List.filter_cons, if_pos hc, ih]
      simp only [Bool.not_true, Bool.false_eq_true, if_false, List.flatten_cons, List.filter_append, List.length_append]
      refine Prod.ext ?_ (Prod.ext ?_ ?_) <;> simp only <;> omega

theorem mem_join_of (sep : Str) (ps : List Str) (p : Str) (hp : p ∈ ps) (c : Char) (hc : c ∈ p) : c ∈ join sep ps := by
  induction ps with
  | nil => cases hp
  | cons q ps ih =>
    cases ps with
    | nil =>
      rw [List.mem_singleton] at hp
      subst hp
      exact hc
    | cons r ps =>
      have e : join sep (q :: r :: ps) = q ++ sep ++ join sep (r :: ps) := rfl
      rw [e]
      rcases List.mem_cons.mp hp with rfl | hp
      · simp [hc]
      · exact List.mem_append_right _ (ih hp)

/-- **C111** (partial).  For texts whose characters have a single character as their upper case: of the paragraphs of more than one
word, 200 or more characters in all, the share of letters that are not small (nor digits) lies between the bounds, the upper one
included. -/
theorem C111_exact_partial (u : Chars) (raw : Str) (ps : List Str) (hps : Paragraphs raw ps) (hs : u.word ' ' = false)
    (hn : u.word '\n' = false) (h : ∀ c ∈ raw, (u.upper c).length = 1) (lo hi : Rat) :
    uppercase u raw (some lo) (some hi) = some true ↔
      ∃ text ls, text = (ps.filter counted).flatten ∧ ls = text.filter (isLetter u) ∧ 200 ≤ text.length ∧ ls ≠ [] ∧
        lo < ((ls.filter (fun c => !isSmall u c)).length : Rat) / (ls.length : Rat) * 100 ∧
        ((ls.filter (fun c => !isSmall u c)).length : Rat) / (ls.length : Rat) * 100 ≤ hi := by
  have hp : paragraphs raw = ps := (paragraphs_iff raw ps).mpr hps
  have ht := tally_eq u hs hn ps (fun p hp c hc => h c (by rw [← hps.2.1]; exact mem_join_of _ ps p hp c hc))
  unfold uppercase
  rw [hp, ht]
  generalize htext : (ps.filter counted).flatten = text
  have hsum : ((text.filter (isLetter u)).filter (isSmall u)).length + ((text.filter (isLetter u)).filter (fun c => !isSmall u c)).length =
      (text.filter (isLetter u)).length := by
    have h1 := filter_count (isSmall u) (text.filter (isLetter u))
    have h2 := List.length_filter_le (isSmall u) (text.filter (isLetter u))
    omega
  simp only [hsum]
  generalize hls : text.filter (isLetter u) = ls
  have e : (∃ t l, t = text ∧ l = t.filter (isLetter u) ∧ 200 ≤ t.length ∧ l ≠ [] ∧
        lo < ((l.filter (fun c => !isSmall u c)).length : Rat) / (l.length : Rat) * 100 ∧
        ((l.filter (fun c => !isSmall u c)).length : Rat) / (l.length : Rat) * 100 ≤ hi) ↔
      (200 ≤ text.length ∧ ls ≠ [] ∧ lo < ((ls.filter (fun c => !isSmall u c)).length : Rat) / (ls.length : Rat) * 100 ∧
        ((ls.filter (fun c => !isSmall u c)).length : Rat) / (ls.length : Rat) * 100 ≤ hi) := by
    constructor
    · rintro ⟨t, l, rfl, rfl, hh⟩
      rw [hls] at hh
      exact hh
    · intro hh
      exact ⟨text, ls, rfl, hls.symm, hh⟩
  rw [e]
  by_cases h2 : text.length < 200
  · rw [if_pos h2]
    have : ¬ 200 ≤ text.length := by omega
    simp [this]
  · rw [if_neg h2]
    have h2' : 200 ≤ text.length := by omega
    by_cases h3 : ls = []
    · simp [h3]
    · have h3' : ¬ ls.length = 0 := by simpa using h3
      rw [if_neg h3']
      simp only [h2', h3, ne_eq, not_false_eq_true, true_and]
      split
      · rename_i hlt
        simp [hlt]
      · rename_i hlt
        simp [hlt]

/-- **C111**: bounds do not matter for short texts and for texts without letters. -/
theorem C111_short (u : Chars) (raw : Str) (lo hi : Option Rat) (h : raw.length < 200) : uppercase u raw lo hi = some false := by
  have hl : ∀ (ps : List Str), (tally u ps).2.2 ≤ (join c!"\n\n" ps).length := by
    intro ps
    induction ps with
    | nil => simp [tally, join]
    | cons p ps ih =>
      have hj : p.length + (join c!"\n\n" ps).length ≤ (join c!"\n\n" (p :: ps)).length := by
        cases ps <;> simp [join] <;> omega
      unfold tally
      dsimp only
      split
      · omega
      · have : (spaced p).length = p.length := by simp [spaced]
        dsimp only
        omega
  have := hl (paragraphs raw)
  rw [(paragraphs_of raw).2.1] at this
  unfold uppercase
  exact if_pos (Nat.lt_of_le_of_lt this h)

/-- **C111** is violated: letters of scripts that know no capital letters count as capital letters, so that a text of such letters
only is all in capital letters. -/
theorem C111_uncased_violated (u : Chars) (raw : Str) (hs : u.word ' ' = false) (hn : u.word '\n' = false)
    (h : ∀ c ∈ raw, (c = ' ' ∧ u.upper c = [c]) ∨ (c ≠ '\n' ∧ c ≠ '_' ∧ u.word c = true ∧ u.upper c = [c] ∧ u.digit c = false))
    (h1 : ' ' ∈ raw) (h2 : ∃ c ∈ raw, c ≠ ' ') (h3 : 200 ≤ raw.length) (lo hi : Rat) (hlo : lo < 100) (hhi : 100 ≤ hi) :
    uppercase u raw (some lo) (some hi) = some true := by
  have hnl : '\n' ∉ raw := by
    intro hm
    rcases h _ hm with ⟨e, _⟩ | ⟨e, _⟩
    · exact absurd e (by decide)
    · exact e rfl
  have hps : Paragraphs raw [raw] := by
    refine ⟨by simp, rfl, ?_, by simp⟩
    intro p hp
    rw [List.mem_singleton] at hp
    subst hp
    exact fun hi => hnl (hi.subset (by simp))
  rw [C111_exact_partial u raw [raw] hps hs hn (fun c hc => by rcases h c hc with ⟨_, e⟩ | ⟨_, _, _, e, _⟩ <;> rw [e] <;> rfl)]
  have hc : counted raw = true := by simp [counted, h1]
  have hsm : ∀ c ∈ raw.filter (isLetter u), isSmall u c = false := by
    intro c hc
    obtain ⟨hm, hl⟩ := List.mem_filter.mp hc
    rcases h c hm with ⟨rfl, _⟩ | ⟨_, _, _, e, hd⟩
    · simp [isLetter, hs] at hl
    · simp [isSmall, e, hd]
  have hls : raw.filter (isLetter u) ≠ [] := by
    obtain ⟨c, hm, hne⟩ := h2
    rcases h c hm with ⟨rfl, _⟩ | ⟨_, h4, h5, _⟩
    · exact absurd rfl hne
    · have : c ∈ raw.filter (isLetter u) := List.mem_filter.mpr ⟨hm, by simp [isLetter, h4, h5]⟩
      intro e; rw [e] at this; cases this
  have hall : (raw.filter (isLetter u)).filter (fun c => !isSmall u c) = raw.filter (isLetter u) := by
    rw [List.filter_eq_self]
    intro c hc; simp [hsm c hc]
  have hne : ((raw.filter (isLetter u)).length : Rat) ≠ 0 := by
    have : 0 < (raw.filter (isLetter u)).length := List.length_pos_iff.mpr hls
    exact_mod_cast (Nat.pos_iff_ne_zero.mp this)
  refine ⟨raw, _, by simp [hc], rfl, h3, hls, ?_⟩
  rw [hall, div_self hne]
  constructor <;> linarith

/-- **C111** is violated: after a letter such as the German sharp s, whose upper case is two characters, capital letters are compared
with their neighbours, and count as small letters. -/
theorem C111_shift_violated (u : Chars) (raw : Str) (c x y : Char) (w : Str) (hr : raw.filter (isLetter u) = c :: w)
    (hs : u.word ' ' = false) (hn : u.word '\n' = false) (h1 : ' ' ∈ raw) (h2 : '\n' ∉ raw) (hc : u.upper c = [x, y]) (hcx : c ≠ x)
    (hw : ∀ k ∈ w, u.upper k = [k]) (hadj : (y :: w).IsChain (· ≠ ·)) (lo hi : Rat) (hlo : 0 ≤ lo) :
    uppercase u raw (some lo) (some hi) = some false := by
  have hp : paragraphs raw = [raw] := paragraphs_one raw (fun hi => h2 (hi.subset (by simp)))
  have key : ∀ (w : Str) (y : Char), (∀ k ∈ w, u.upper k = [k]) → (y :: w).IsChain (· ≠ ·) →
      ((w.zip (y :: w.flatMap u.upper)).filter (fun p => p.1 != p.2 || u.digit p.1)).length = w.length := by
    intro w
    induction w with
    | nil => intros; rfl
    | cons k w ih =>
      intro y hw ha
      rw [List.isChain_cons_cons] at ha
      have := ih k (fun z hz => hw z (by simp [hz])) ha.2
      rw [List.flatMap_cons, hw k (by simp), List.singleton_append, List.zip_cons_cons, List.filter_cons]
      have hky : (k != y) = true := by simpa using fun e : k = y => ha.1 e.symm
      simp only [hky, Bool.true_or, if_true, List.length_cons, this]
  have hcl : countLower u (c :: w) = (c :: w).length := by
    unfold countLower
    rw [List.flatMap_cons, hc]
    simp only [List.cons_append, List.nil_append, List.zip_cons_cons, List.filter_cons]
    have : (c != x) = true := by simpa using hcx
    simp only [this, Bool.true_or, if_true, List.length_cons, key w y hw hadj]
  have hco : counted raw = true := by simp [counted, h1]
  have ht : tally u [raw] = ((c :: w).length, 0, raw.length) := by
    unfold tally
    simp only [counted_iff, hco, Bool.not_true, Bool.false_eq_true, if_false, tally]
    rw [letters_spaced u hs hn, hr, hcl]
    simp [spaced]
  unfold uppercase
  rw [hp, ht]
  dsimp only
  split
  · rfl
  · split
    · rfl
    · rw [if_neg]
      simp
      exact hlo

/-- Letters of ASCII and the sharp s. -/
def toyChars : Chars :=
  ⟨fun c => if c = 'ß' then c!"SS" else [c.toUpper], Char.isDigit, fun c => c.isAlphanum || c = '_' || c = 'ß' || c = 'あ'⟩

-- a text in capital letters, and one in small letters
example : uppercase toyChars ((List.replicate 60 c!"BUY ").flatten) (some 50) (some 100) = some true := by decide +kernel
example : uppercase toyChars ((List.replicate 60 c!"buy ").flatten) (some 50) (some 100) = some false := by decide +kernel
-- one in letters without case
example : uppercase toyChars ((List.replicate 60 c!"あああ ").flatten) (some 50) (some 100) = some true := by decide +kernel
-- capital letters behind a sharp s
example : uppercase toyChars (c!"ß " ++ (List.replicate 60 c!"BUY ").flatten) (some 0) (some 100) = some false := by decide +kernel
example : Paragraphs c!"a\n\n\nb c" [c!"a", c!"\nb c"] := (paragraphs_iff _ _).mp (by decide +kernel)

end Verif.Props
