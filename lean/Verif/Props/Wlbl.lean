import Verif.Spec.Wlbl
import Verif.Lemmas.Py
import Verif.Lemmas.Headers
import Verif.Lemmas.Split

/-!
# C66, C68, C69, C70: white and black lists
-/

namespace Verif.Props
open Verif Py Wlbl

/-! ## Expressions -/

theorem pm_lit (c : Char) (ts : List Tok) (s : Str) :
    pm (.lit c :: ts) s = true ↔ ∃ u, s = c :: u ∧ pm ts u = true := by
  cases s with
  | nil => simp [pm]
  | cons x xs =>
    rw [pm]
    simp only [Bool.and_eq_true, beq_iff_eq]
    constructor
    · rintro ⟨rfl, h⟩; exact ⟨xs, rfl, h⟩
    · rintro ⟨u, e, h⟩; cases e; exact ⟨rfl, h⟩

theorem pm_one (ts : List Tok) (s : Str) :
    pm (.one :: ts) s = true ↔ ∃ c u, s = c :: u ∧ c ≠ '\n' ∧ pm ts u = true := by
  cases s with
  | nil => simp [pm]
  | cons x xs =>
    rw [pm]
    simp only [Bool.and_eq_true, bne_iff_ne, ne_eq]
    constructor
    · rintro ⟨h, h'⟩; exact ⟨x, xs, rfl, h, h'⟩
    · rintro ⟨c, u, e, h, h'⟩; cases e; exact ⟨h, h'⟩

theorem pm_opt (ts : List Tok) (s : Str) :
    pm (.opt :: ts) s = true ↔ pm ts s = true ∨ ∃ c u, s = c :: u ∧ c ≠ '\n' ∧ pm ts u = true := by
  cases s with
  | nil => simp [pm]
  | cons x xs =>
    rw [pm]
    simp only [Bool.or_eq_true, Bool.and_eq_true, bne_iff_ne, ne_eq]
    constructor
    · rintro (h | ⟨h, h'⟩)
      · exact Or.inl h
      · exact Or.inr ⟨x, xs, rfl, h, h'⟩
    · rintro (h | ⟨c, u, e, h, h'⟩)
      · exact Or.inl h
      · cases e; exact Or.inr ⟨h, h'⟩

theorem pm_star (ts : List Tok) (s : Str) :
    pm (.star :: ts) s = true ↔ ∃ t u, s = t ++ u ∧ '\n' ∉ t ∧ pm ts u = true := by
  rw [pm]
  induction s with
  | nil =>
    rw [starPm]
    constructor
    · intro h; exact ⟨[], [], rfl, by simp, h⟩
    · rintro ⟨t, u, e, _, h⟩
      have := List.append_eq_nil_iff.mp e.symm
      rw [this.2] at h; exact h
  | cons x xs ih =>
    rw [starPm]
    simp only [Bool.or_eq_true, Bool.and_eq_true, bne_iff_ne, ne_eq, ih]
    constructor
    · rintro (h | ⟨hx, t, u, e, hn, h⟩)
      · exact ⟨[], x :: xs, rfl, by simp, h⟩
      · refine ⟨x :: t, u, by rw [e]; rfl, ?_, h⟩
        intro hm
        rcases List.mem_cons.mp hm with h1 | h1
        · exact hx h1.symm
        · exact hn h1
    · rintro ⟨t, u, e, hn, h⟩
      cases t with
      | nil => left; rw [List.nil_append] at e; rw [e]; exact h
      | cons y t =>
        cases e
        right
        exact ⟨fun hx => hn (by simp [hx]), t, u, rfl, fun hm => hn (by simp [hm]), h⟩

theorem search_iff (ts : List Tok) (s : Str) : search ts s = true ↔ ∃ a b, s = a ++ b ∧ pm ts b = true := by
  induction s with
  | nil =>
    rw [search]
    constructor
    · intro h; exact ⟨[], [], rfl, h⟩
    · rintro ⟨a, b, e, h⟩
      have := List.append_eq_nil_iff.mp e.symm
      rw [this.2] at h; exact h
  | cons x xs ih =>
    rw [search]
    simp only [Bool.or_eq_true, ih]
    constructor
    · rintro (h | ⟨a, b, e, h⟩)
      · exact ⟨[], x :: xs, rfl, h⟩
      · exact ⟨x :: a, b, by rw [e]; rfl, h⟩
    · rintro ⟨a, b, e, h⟩
      cases a with
      | nil => left; rw [List.nil_append] at e; rw [e]; exact h
      | cons y a => cases e; exact Or.inr ⟨a, b, rfl, h⟩

theorem pm_escape (p s : Str) : pm (escapeAddr p) s = true ↔ ∃ t u, s = t ++ u ∧ Loose 0 p t := by
  induction p generalizing s with
  | nil =>
    constructor
    · intro _; exact ⟨[], s, rfl, .nil⟩
    · intro _; simp [escapeAddr, pm]
  | cons c p ih =>
    have hc : escapeAddr (c :: p) =
        (if c = '*' then Tok.star else if c = '?' then .opt else .lit c) :: escapeAddr p := rfl
    rw [hc]
    by_cases h1 : c = '*'
    · rw [if_pos h1, pm_star, h1]
      constructor
      · rintro ⟨t, u, e, hn, h⟩
        obtain ⟨t', u', e', h'⟩ := (ih u).mp h
        exact ⟨t ++ t', u', by rw [e, e', List.append_assoc], .star p t t' (Nat.zero_le _) hn h'⟩
      · rintro ⟨t, u, e, h⟩
        cases h with
        | star _ t u' _ hn h =>
          exact ⟨t, u' ++ u, by rw [e, List.append_assoc], hn, (ih _).mpr ⟨u', u, rfl, h⟩⟩
        | lit _ _ _ h => exact absurd rfl h
    · rw [if_neg h1]
      by_cases h2 : c = '?'
      · rw [if_pos h2, pm_opt, h2]
        constructor
        · rintro (h | ⟨x, u, e, hx, h⟩)
          · obtain ⟨t', u', e', h'⟩ := (ih s).mp h
            exact ⟨t', u', e', .none p t' h'⟩
          · obtain ⟨t', u', e', h'⟩ := (ih u).mp h
            exact ⟨x :: t', u', by rw [e, e']; rfl, .one p t' x hx h'⟩
        · rintro ⟨t, u, e, h⟩
          cases h with
          | none _ _ h => exact Or.inl ((ih s).mpr ⟨t, u, e, h⟩)
          | one _ t' x hx h => exact Or.inr ⟨x, t' ++ u, by rw [e]; rfl, hx, (ih _).mpr ⟨t', u, rfl, h⟩⟩
          | lit _ _ _ _ h => exact absurd rfl h
      · rw [if_neg h2, pm_lit]
        constructor
        · rintro ⟨u, e, h⟩
          obtain ⟨t', u', e', h'⟩ := (ih u).mp h
          exact ⟨c :: t', u', by rw [e, e']; rfl, .lit p t' c h1 h2 h'⟩
        · rintro ⟨t, u, e, h⟩
          cases h with
          | star => exact absurd rfl h1
          | none => exact absurd rfl h2
          | one => exact absurd rfl h2
          | lit _ t' _ _ _ h => exact ⟨t' ++ u, by rw [e]; rfl, (ih _).mpr ⟨t', u, rfl, h⟩⟩

theorem pm_rcvd (p s : Str) : pm (rcvdExpr p) s = true ↔ ∃ t u, s = t ++ u ∧ Loose 1 p t := by
  induction p generalizing s with
  | nil =>
    constructor
    · intro _; exact ⟨[], s, rfl, .nil⟩
    · intro _; simp [rcvdExpr, escapeAddr, pm]
  | cons c p ih =>
    have hc : rcvdExpr (c :: p) =
        (if (if c = '*' then Tok.star else if c = '?' then .opt else .lit c) = .star then [.one, .star]
          else [if c = '*' then Tok.star else if c = '?' then .opt else .lit c]) ++ rcvdExpr p := rfl
    rw [hc]
    by_cases h1 : c = '*'
    · simp only [h1, if_true, List.cons_append, List.nil_append]
      rw [pm_one]
      constructor
      · rintro ⟨x, v, e, hx, h⟩
        obtain ⟨t, u, e2, hn, h⟩ := (pm_star _ _).mp h
        obtain ⟨t', u', e', h'⟩ := (ih u).mp h
        refine ⟨(x :: t) ++ t', u', by rw [e, e2, e']; simp, .star p (x :: t) t' (by simp) ?_ h'⟩
        intro hm
        rcases List.mem_cons.mp hm with h1 | h1
        · exact hx h1.symm
        · exact hn h1
      · rintro ⟨t, u, e, h⟩
        cases h with
        | star _ t u' hl hn h =>
          cases t with
          | nil => simp at hl
          | cons x t =>
            refine ⟨x, t ++ (u' ++ u), by rw [e]; simp, fun hx => hn (by simp [hx]), ?_⟩
            exact (pm_star _ _).mpr ⟨t, u' ++ u, rfl, fun hm => hn (by simp [hm]), (ih _).mpr ⟨u', u, rfl, h⟩⟩
        | lit _ _ _ h => exact absurd rfl h
    · simp only [if_neg h1]
      by_cases h2 : c = '?'
      · simp only [h2, if_true, List.cons_append, List.nil_append, reduceCtorEq, if_false]
        rw [pm_opt]
        constructor
        · rintro (h | ⟨x, u, e, hx, h⟩)
          · obtain ⟨t', u', e', h'⟩ := (ih s).mp h
            exact ⟨t', u', e', .none p t' h'⟩
          · obtain ⟨t', u', e', h'⟩ := (ih u).mp h
            exact ⟨x :: t', u', by rw [e, e']; rfl, .one p t' x hx h'⟩
        · rintro ⟨t, u, e, h⟩
          cases h with
          | none _ _ h => exact Or.inl ((ih s).mpr ⟨t, u, e, h⟩)
          | one _ t' x hx h => exact Or.inr ⟨x, t' ++ u, by rw [e]; rfl, hx, (ih _).mpr ⟨t', u, rfl, h⟩⟩
          | lit _ _ _ _ h => exact absurd rfl h
      · simp only [if_neg h2, List.cons_append, List.nil_append, reduceCtorEq, if_false]
        rw [pm_lit]
        constructor
        · rintro ⟨u, e, h⟩
          obtain ⟨t', u', e', h'⟩ := (ih u).mp h
          exact ⟨c :: t', u', by rw [e, e']; rfl, .lit p t' c h1 h2 h'⟩
        · rintro ⟨t, u, e, h⟩
          cases h with
          | star => exact absurd rfl h1
          | none => exact absurd rfl h2
          | one => exact absurd rfl h2
          | lit _ t' _ _ _ h => exact ⟨t' ++ u, by rw [e]; rfl, (ih _).mpr ⟨t', u, rfl, h⟩⟩

theorem search_escape (p s : Str) : search (escapeAddr p) s = true ↔ Within 0 p s := by
  rw [search_iff]
  constructor
  · rintro ⟨a, b, e, h⟩
    obtain ⟨t, u, e', h'⟩ := (pm_escape p b).mp h
    exact ⟨a, t, u, by rw [e, e']; simp, h'⟩
  · rintro ⟨x, y, z, e, h⟩
    exact ⟨x, y ++ z, by rw [e]; simp, (pm_escape _ _).mpr ⟨y, z, rfl, h⟩⟩

theorem search_rcvd (p s : Str) : search (rcvdExpr p) s = true ↔ Within 1 p s := by
  rw [search_iff]
  constructor
  · rintro ⟨a, b, e, h⟩
    obtain ⟨t, u, e', h'⟩ := (pm_rcvd p b).mp h
    exact ⟨a, t, u, by rw [e, e']; simp, h'⟩
  · rintro ⟨x, y, z, e, h⟩
    exact ⟨x, y ++ z, by rw [e]; simp, (pm_rcvd _ _).mpr ⟨y, z, rfl, h⟩⟩

theorem checkInput_iff (e : Str) : checkInput e = true ↔ Usable e := by
  unfold checkInput Usable
  simp only [Bool.or_eq_true, decide_eq_true_eq]
  constructor
  · rintro (((h | h) | h) | h)
    · exact Or.inl h
    · exact Or.inr (Or.inl h)
    · exact Or.inr (Or.inr h)
    · rw [hasSub_iff] at h
      exact Or.inr (Or.inl (h.subset (by simp)))
  · rintro (h | h | h)
    · exact Or.inl (Or.inl (Or.inl h))
    · exact Or.inl (Or.inl (Or.inr h))
    · exact Or.inl (Or.inr h)

theorem parseEntry_iff (e : Str) (ts : List Tok) : parseEntry e = some ts ↔ Usable e ∧ ts = escapeAddr (whole e) := by
  unfold parseEntry whole
  rw [← checkInput_iff]
  by_cases h : checkInput e = true
  · by_cases h' : '@' ∈ e
    · simp [h, h', eq_comm]
    · have : escapeAddr (c!"*@" ++ e) = .star :: .lit '@' :: escapeAddr e := rfl
      simp only [h, if_true, if_neg h', Option.some.injEq, this, true_and]
      exact eq_comm
  · simp [h]

/-- Exactly what the address rules do (`check_from_in_blacklist`, `check_to_in_whitelist` and so on): an address is on
a list if a part of it is what an entry stands for.  Missing: that the entry must stand for the whole address
(`C66_part_violated`), and for exactly one character where it has `?` (`C66_question_violated`). -/
theorem C66_exact_partial (addresses entries : List Str) :
    addressInList addresses (parseList entries) = true ↔
      ∃ a ∈ addresses, ∃ e ∈ entries, Usable e ∧ Within 0 (whole e) a := by
  unfold addressInList parseList
  simp only [List.any_eq_true, List.mem_filterMap]
  constructor
  · rintro ⟨a, ha, ts, ⟨e, he, hp⟩, hs⟩
    obtain ⟨hu, rfl⟩ := (parseEntry_iff e ts).mp hp
    exact ⟨a, ha, e, he, hu, (search_escape _ _).mp hs⟩
  · rintro ⟨a, ha, e, he, hu, hw⟩
    exact ⟨a, ha, _, ⟨e, he, (parseEntry_iff e _).mpr ⟨hu, rfl⟩⟩, (search_escape _ _).mpr hw⟩

theorem covers_loose (p a : Str) (h : Covers p a) : '\n' ∉ a → Loose 0 p a := by
  induction h with
  | nil => intro _; exact .nil
  | star p t u _ ih =>
    intro hn
    exact .star p t u (Nat.zero_le _) (fun h => hn (by simp [h])) (ih (fun h => hn (by simp [h])))
  | one p u c _ ih =>
    intro hn
    exact .one p u c (fun h => hn (by simp [h])) (ih (fun h => hn (by simp [h])))
  | lit p u c h1 h2 _ ih => intro hn; exact .lit p u c h1 h2 (ih (fun h => hn (by simp [h])))

/-- Every address an entry stands for is on the list, if the entry is one the code does not skip.  Missing: the
converse (`C66_exact_partial`) and entries without `?`, `@` and `.` (`C66_skipped_violated`). -/
theorem C66_covered_partial (addresses entries : List Str) (a e : Str) (ha : a ∈ addresses) (he : e ∈ entries)
    (hu : Usable e) (hn : '\n' ∉ a) (hc : Covers (whole e) a) : addressInList addresses (parseList entries) = true :=
  (C66_exact_partial addresses entries).mpr ⟨a, ha, e, he, hu, [], a, [], by simp, covers_loose _ _ hc hn⟩

theorem covers_plain (p : Str) (h1 : '*' ∉ p) (h2 : '?' ∉ p) : Covers p p := by
  induction p with
  | nil => exact .nil
  | cons c p ih =>
    exact .lit p p c (fun e => h1 (by simp [e])) (fun e => h2 (by simp [e])) (ih (fun h => h1 (by simp [h]))
      (fun h => h2 (by simp [h])))

example : Usable c!"*@example.com" ∧ Covers (whole c!"*@example.com") c!"joe@example.com" :=
  ⟨by unfold Usable; decide, .star c!"@example.com" c!"joe" c!"@example.com" (covers_plain _ (by decide) (by decide))⟩

/-- The rules look for the entry anywhere in the address: whatever stands before and after an address the entry
stands for, the longer address is on the list too. -/
theorem C66_part_violated (e a before after : Str) (hu : Usable e) (hn : '\n' ∉ a) (hc : Covers (whole e) a) :
    addressInList [before ++ a ++ after] (parseList [e]) = true :=
  (C66_exact_partial _ _).mpr ⟨_, List.mem_singleton.mpr rfl, e, List.mem_singleton.mpr rfl, hu, before, a, after, rfl,
    covers_loose _ _ hc hn⟩

theorem covers_only_plain (p t : Str) (h : Covers p t) (h1 : '*' ∉ p) (h2 : '?' ∉ p) : t = p := by
  induction h with
  | nil => rfl
  | star => exact absurd (List.mem_cons_self ..) h1
  | one => exact absurd (List.mem_cons_self ..) h2
  | lit p u c _ _ _ ih => rw [ih (fun h => h1 (by simp [h])) (fun h => h2 (by simp [h]))]

example : addressInList [c!"joe@example.com.evil.org"] (parseList [c!"joe@example.com"]) = true ∧
    ¬ Covers (whole c!"joe@example.com") c!"joe@example.com.evil.org" := by
  refine ⟨by decide +kernel, fun h => ?_⟩
  have := covers_only_plain _ _ h (by decide) (by decide)
  revert this
  decide

/-- `?` stands for no character as well. -/
theorem C66_question_violated (u v : Str) (hu : '@' ∈ u ∨ '@' ∈ v) (h1 : '*' ∉ u ++ v) (h2 : '?' ∉ u ++ v) :
    addressInList [u ++ v] (parseList [u ++ '?' :: v]) = true ∧ ¬ Covers (whole (u ++ '?' :: v)) (u ++ v) := by
  have hat : '@' ∈ u ++ '?' :: v := by
    rcases hu with h | h <;> simp [h]
  have hw : whole (u ++ '?' :: v) = u ++ '?' :: v := by unfold whole; rw [if_pos hat]
  constructor
  · refine (C66_exact_partial _ _).mpr ⟨_, List.mem_singleton.mpr rfl, _, List.mem_singleton.mpr rfl,
      Or.inr (Or.inl hat), [], u ++ v, [], by simp, ?_⟩
    rw [hw]
    have hv : ∀ v : Str, '*' ∉ v → '?' ∉ v → Loose 0 v v := by
      intro v
      induction v with
      | nil => intro _ _; exact .nil
      | cons c v ih =>
        intro h1 h2
        exact .lit v v c (fun e => h1 (by simp [e])) (fun e => h2 (by simp [e]))
          (ih (fun h => h1 (by simp [h])) (fun h => h2 (by simp [h])))
    clear hu hat hw
    induction u with
    | nil => exact .none _ _ (hv v h1 h2)
    | cons c u ih =>
      refine .lit _ _ c (fun e => h1 (by simp [e])) (fun e => h2 (by simp [e])) (ih ?_ ?_)
      · intro h; exact h1 (List.mem_cons_of_mem _ h)
      · intro h; exact h2 (List.mem_cons_of_mem _ h)
  · rw [hw]
    intro h
    have len : ∀ p t : Str, Covers p t → '*' ∉ p → p.length = t.length := by
      intro p t h
      induction h with
      | nil => intro _; rfl
      | star => intro h; exact absurd (List.mem_cons_self ..) h
      | one p u c _ ih => intro h; simp [ih (fun h' => h (by simp [h']))]
      | lit p u c _ _ _ ih => intro h; simp [ih (fun h' => h (by simp [h']))]
    have := len _ _ h (by
      intro hm
      rcases List.mem_append.mp hm with h | h
      · exact h1 (by simp [h])
      · rcases List.mem_cons.mp h with h | h
        · exact absurd h (by decide)
        · exact h1 (by simp [h]))
    simp at this

example : addressInList [c!"joe@x.org"] (parseList [c!"joe?@x.org"]) = true := by decide +kernel

/-- Entries without `?`, `@` and `.` have no effect. -/
theorem C66_skipped_violated (addresses entries : List Str) (e : Str) (h : ¬ Usable e) :
    addressInList addresses (parseList (e :: entries)) = addressInList addresses (parseList entries) := by
  have : parseEntry e = none := by
    cases hp : parseEntry e with
    | none => rfl
    | some ts => exact absurd ((parseEntry_iff e ts).mp hp).1 h
  unfold parseList
  rw [List.filterMap_cons_none this]

example : ¬ Usable c!"localhost" ∧ Covers (whole c!"localhost") c!"root@localhost" := by
  refine ⟨by unfold Usable; decide, ?_⟩
  exact .star c!"@localhost" c!"root" c!"@localhost" (covers_plain _ (by decide) (by decide))

/-- Exactly what the SPF whitelists do: the message passes SPF and the sender begins with what an entry stands for.
Missing: that the entry must stand for the whole sender (`C66_spf_violated`). -/
theorem C66_spf_partial (pass : Bool) (entries : List Str) (sender : Str) :
    spfWhitelist pass entries sender = true ↔
      pass = true ∧ ∃ e ∈ entries, Usable e ∧ ∃ y z, sender = y ++ z ∧ Loose 0 (whole e) y := by
  unfold spfWhitelist parseList
  cases entries with
  | nil => simp
  | cons e0 es =>
    cases pass with
    | false => simp
    | true =>
      simp only [List.isEmpty_cons, Bool.not_false, Bool.not_true, Bool.and_false, Bool.false_eq_true, if_false,
        List.any_eq_true, List.mem_filterMap, true_and]
      constructor
      · rintro ⟨ts, ⟨e, he, hp⟩, hs⟩
        obtain ⟨hu, rfl⟩ := (parseEntry_iff e ts).mp hp
        exact ⟨e, he, hu, (pm_escape _ _).mp hs⟩
      · rintro ⟨e, he, hu, hw⟩
        exact ⟨_, ⟨e, he, (parseEntry_iff e _).mpr ⟨hu, rfl⟩⟩, (pm_escape _ _).mpr hw⟩

/-- The sender may go on after what the entry stands for. -/
theorem C66_spf_violated (e a after : Str) (hu : Usable e) (hn : '\n' ∉ a) (hc : Covers (whole e) a) :
    spfWhitelist true [e] (a ++ after) = true :=
  (C66_spf_partial _ _ _).mpr ⟨rfl, e, List.mem_singleton.mpr rfl, hu, a, after, rfl, covers_loose _ _ hc hn⟩

example : spfWhitelist true [c!"*@example.com"] c!"joe@example.com.evil.org" = true ∧
    spfWhitelist false [c!"*@example.com"] c!"joe@example.com" = false := by decide +kernel

/-! ## Whitelists with relays -/

theorem endsWith_under (d h : Str) : (d == h || endsWith ('.' :: d) h) = true ↔ Under d h := by
  unfold endsWith Under
  rw [Bool.or_eq_true, beq_iff_eq, List.isSuffixOf_iff_suffix]
  constructor
  · rintro (h | ⟨x, h⟩)
    · exact Or.inl h.symm
    · exact Or.inr ⟨x, h.symm⟩
  · rintro (h | ⟨x, h⟩)
    · exact Or.inl h.symm
    · exact Or.inr ⟨x, h.symm⟩

theorem relayMatches_iff (N : InNet) (d : Str) (r : WRelay) : relayMatches N d r = true ↔ FromDomain N d r := by
  unfold relayMatches FromDomain
  simp only
  cases hx : N (bareDomain d) r.ip with
  | some b => simp
  | none => simp [← endsWith_under]

theorem mem_relaysOf (m : WMsg) (r : WRelay) : r ∈ relaysOf m ↔ Considered m r := by
  unfold relaysOf Considered
  cases hm : m.untrusted with
  | nil => simp
  | cons x xs => simp [eq_comm]

theorem checkRcvd_iff (N : InNet) (m : WMsg) (d : Str) :
    checkRcvd N d (relaysOf m) = 1 ↔ ∃ r, Considered m r ∧ FromDomain N d r := by
  unfold checkRcvd
  have : (relaysOf m).any (relayMatches N d) = true ↔ ∃ r, Considered m r ∧ FromDomain N d r := by
    rw [List.any_eq_true]
    constructor
    · rintro ⟨r, h1, h2⟩; exact ⟨r, (mem_relaysOf m r).mp h1, (relayMatches_iff N d r).mp h2⟩
    · rintro ⟨r, h1, h2⟩; exact ⟨r, (mem_relaysOf m r).mpr h1, (relayMatches_iff N d r).mpr h2⟩
  rw [← this]
  cases (relaysOf m).any (relayMatches N d) <;> simp

theorem rcvdLoop_none (N : InNet) (m : WMsg) (a : Str) (list : List (Str × Str)) (v : Int) :
    rcvdLoop N (relaysOf m) (lower a) list v = none ↔ Accepts N m list a := by
  induction list generalizing v with
  | nil => simp [rcvdLoop, Accepts]
  | cons p rest ih =>
    obtain ⟨e, d⟩ := p
    rw [rcvdLoop]
    have hc : (search (rcvdExpr e) (lower a) = true ∧ checkRcvd N d (relaysOf m) = 1) ↔
        (Within 1 e (lower a) ∧ ∃ r, Considered m r ∧ FromDomain N d r) := by rw [search_rcvd, checkRcvd_iff]
    by_cases h : Within 1 e (lower a) ∧ ∃ r, Considered m r ∧ FromDomain N d r
    · rw [if_pos (hc.mpr h)]
      obtain ⟨h1, r, h2, h3⟩ := h
      simp only [true_iff]
      exact ⟨e, d, r, by simp, h1, h2, h3⟩
    · rw [if_neg (fun y => h (hc.mp y)), ih]
      constructor
      · rintro ⟨e', d', r, hm, h1, h2, h3⟩
        exact ⟨e', d', r, by simp [hm], h1, h2, h3⟩
      · rintro ⟨e', d', r, hm, h1, h2, h3⟩
        rcases List.mem_cons.mp hm with h' | h'
        · cases h'; exact absurd ⟨h1, r, h2, h3⟩ h
        · exact ⟨e', d', r, h', h1, h2, h3⟩

theorem rcvdLoop_some (N : InNet) (rs : List WRelay) (a : Str) (list : List (Str × Str)) (v w : Int)
    (h : rcvdLoop N rs a list v = some w) : w = if list = [] then v else -1 := by
  induction list generalizing v with
  | nil => simp [rcvdLoop] at h; simp [h]
  | cons p rest ih =>
    obtain ⟨e, d⟩ := p
    rw [rcvdLoop] at h
    split at h
    · cases h
    · have := ih _ h
      rw [this]
      simp

theorem considered_exists (m : WMsg) : (∃ r, Considered m r) ↔ ¬ m.untrusted.length + m.trusted.length = 0 := by
  unfold Considered
  cases hu : m.untrusted with
  | cons x xs => simp; 
  | nil =>
    cases ht : m.trusted with
    | nil => simp
    | cons y ys => simp

/-- An entry accepts an address exactly if it says 1; otherwise it says -1 ("forged") if there is a relay, the list is
not empty and `whitelist_allow_relays` does not name the address. -/
theorem whitelistRcvd_eq (N : InNet) (m : WMsg) (list : List (Str × Str)) (allow : List (List Tok)) (a : Str) :
    (whitelistRcvd N m list allow a = 1 ↔ Accepts N m list a) ∧
    (whitelistRcvd N m list allow a = -1 ↔ ¬ Accepts N m list a ∧ list ≠ [] ∧ (∃ r, Considered m r) ∧
      allow.any (fun r => search r (lower a)) = false) ∧
    (whitelistRcvd N m list allow a = 1 ∨ whitelistRcvd N m list allow a = 0 ∨ whitelistRcvd N m list allow a = -1) := by
  unfold whitelistRcvd
  by_cases hr : m.untrusted.length + m.trusted.length = 0
  · rw [if_pos hr]
    have hno : ¬ ∃ r, Considered m r := fun h => (considered_exists m).mp h hr
    have hna : ¬ Accepts N m list a := fun ⟨_, _, r, _, _, h, _⟩ => hno ⟨r, h⟩
    simp [hno, hna]
  · rw [if_neg hr]
    have hyes := (considered_exists m).mpr hr
    simp only
    cases hl : rcvdLoop N (relaysOf m) (lower a) list 0 with
    | none =>
      have := (rcvdLoop_none N m a list 0).mp hl
      simp [this]
    | some w =>
      have hna : ¬ Accepts N m list a := fun h => by rw [(rcvdLoop_none N m a list 0).mpr h] at hl; cases hl
      have hw := rcvdLoop_some _ _ _ _ _ _ hl
      simp only
      unfold foundForged
      by_cases hn : list = []
      · rw [if_pos hn] at hw
        subst hn
        rw [hw]
        simp [hna]
      · rw [if_neg hn] at hw
        cases hal : allow.any (fun r => search r (lower a)) <;> simp [hw, hna, hn, hyes]

theorem checkInList_pos (N : InNet) (L : Lists) (m : WMsg) (as : List Str) (v : Int) (hv : v ≠ 1) :
    checkInList N L m as v = 1 ↔
      ∃ a ∈ as, (L.from_.any fun r => search r a) = true ∨ Accepts N m L.rcvd a := by
  induction as generalizing v with
  | nil => simp [checkInList, hv]
  | cons a as ih =>
    rw [checkInList]
    by_cases h1 : (L.from_.any fun r => search r a) = true
    · rw [if_pos h1]
      exact ⟨fun _ => ⟨a, List.mem_cons_self .., Or.inl h1⟩, fun _ => rfl⟩
    · simp only [h1]
      obtain ⟨e1, e2, e3⟩ := whitelistRcvd_eq N m L.rcvd L.allow a
      by_cases h2 : whitelistRcvd N m L.rcvd L.allow a = 1
      · simp [h2, e1.mp h2]
      · have h3 : ¬ Accepts N m L.rcvd a := fun h => h2 (e1.mpr h)
        simp only [h2, Bool.false_eq_true, if_false]
        rw [ih]
        · constructor
          · rintro ⟨x, hx, hh⟩; exact ⟨x, by simp [hx], hh⟩
          · rintro ⟨x, hx, hh⟩
            rcases List.mem_cons.mp hx with rfl | hx
            · exact absurd hh (by rintro (h | h); exact h1 h; exact h3 h)
            · exact ⟨x, hx, hh⟩
        · split
          · decide
          · exact hv

theorem checkInList_range (N : InNet) (L : Lists) (m : WMsg) (as : List Str) (v : Int) (hv : v = 0 ∨ v = -1) :
    checkInList N L m as v = 1 ∨ checkInList N L m as v = 0 ∨ checkInList N L m as v = -1 := by
  induction as generalizing v with
  | nil => rw [checkInList]; rcases hv with h | h <;> simp [h]
  | cons a as ih =>
    rw [checkInList]
    split
    · simp
    · simp only
      split
      · simp
      · apply ih
        split
        · simp
        · exact hv

/-- Exactly when the sender is on the whitelist: an address in From and the like is on `whitelist_from`, or
`whitelist_from_rcvd` accepts it together with the relay the message came from.  Missing: that an entry should stand
for the whole address in either case (`C68_case_violated`, `C66_part_violated`). -/
theorem C68_whitelisted_partial (N : InNet) (m : WMsg) (entries rcvd defRcvd allow : List Str) :
    let L : Lists := ⟨parseList entries, parseInput rcvd, parseInput defRcvd, parseList allow⟩
    (fromInWhitelist N L m WSt.init).1 = true ↔
      ∃ a ∈ m.froms, (∃ e ∈ entries, Usable e ∧ Within 0 (whole e) a) ∨ Accepts N m (parseInput rcvd) a := by
  intro L
  have h : ∀ a, (L.from_.any fun r => search r a) = true ↔ ∃ e ∈ entries, Usable e ∧ Within 0 (whole e) a := by
    intro a
    have := C66_exact_partial [a] entries
    unfold addressInList at this
    simpa using this
  have hr := checkInList_range N L m m.froms 0 (Or.inl rfl)
  have hp := checkInList_pos N L m m.froms 0 (by decide)
  show decide (checkInList N L m m.froms 0 > 0) = true ↔ _
  rw [decide_eq_true_iff]
  have : checkInList N L m m.froms 0 > 0 ↔ checkInList N L m m.froms 0 = 1 := by omega
  rw [this, hp]
  simp only [h]
  rfl

theorem checkInList_neg (N : InNet) (L : Lists) (m : WMsg) (as : List Str) (v : Int) (hv : v ≠ 1) :
    checkInList N L m as v = -1 ↔
      checkInList N L m as v ≠ 1 ∧ (v = -1 ∨ ∃ a ∈ as, whitelistRcvd N m L.rcvd L.allow a = -1) := by
  induction as generalizing v with
  | nil =>
    simp only [checkInList]
    constructor
    · intro h; exact ⟨by omega, Or.inl h⟩
    · rintro ⟨_, h | ⟨a, h, _⟩⟩
      · exact h
      · cases h
  | cons a as ih =>
    rw [checkInList]
    by_cases h1 : (L.from_.any fun r => search r a) = true
    · simp [h1]
    · simp only [h1]
      obtain ⟨e1, e2, e3⟩ := whitelistRcvd_eq N m L.rcvd L.allow a
      by_cases h2 : whitelistRcvd N m L.rcvd L.allow a = 1
      · simp [h2]
      · simp only [h2, Bool.false_eq_true, if_false]
        rw [ih]
        · by_cases h3 : whitelistRcvd N m L.rcvd L.allow a = -1
          · simp [h3]
          · simp [h3]
        · split
          · decide
          · exact hv

theorem checkInDefault_eq (N : InNet) (L : Lists) (m : WMsg) (as : List Str) (v : Int) :
    checkInDefault N L m as v = checkInList N ⟨[], L.defRcvd, L.defRcvd, L.allow⟩ m as v := by
  induction as generalizing v with
  | nil => rfl
  | cons a as ih => simp [checkInDefault, checkInList, ih]

/-- Likewise for the default whitelist. -/
theorem C68_default_partial (N : InNet) (m : WMsg) (L : Lists) :
    (fromInDefault N L m WSt.init).1 = true ↔ ∃ a ∈ m.froms, Accepts N m L.defRcvd a := by
  have hr := checkInList_range N ⟨[], L.defRcvd, L.defRcvd, L.allow⟩ m m.froms 0 (Or.inl rfl)
  have hp := checkInList_pos N ⟨[], L.defRcvd, L.defRcvd, L.allow⟩ m m.froms 0 (by decide)
  show decide (checkInDefault N L m m.froms 0 > 0) = true ↔ _
  rw [decide_eq_true_iff, checkInDefault_eq]
  have : checkInList N ⟨[], L.defRcvd, L.defRcvd, L.allow⟩ m m.froms 0 > 0 ↔
    checkInList N ⟨[], L.defRcvd, L.defRcvd, L.allow⟩ m m.froms 0 = 1 := by omega
  rw [this, hp]
  simp

/-- A message that is whitelisted, by either list, is never called forged. -/
theorem C68_whitelisted_not_forged (N : InNet) (m : WMsg) (L : Lists)
    (h : (fromInWhitelist N L m WSt.init).1 = true ∨ (fromInDefault N L m WSt.init).1 = true) :
    (forgedInWhitelist N L m WSt.init).1 = false ∧ (forgedInDefault N L m WSt.init).1 = false := by
  unfold forgedInWhitelist forgedInDefault
  unfold fromInWhitelist fromInDefault WSt.init at *
  simp only [if_true, decide_eq_true_eq] at *
  constructor
  · rw [Bool.eq_false_iff]
    intro hh
    simp only [Bool.and_eq_true, decide_eq_true_eq] at hh
    omega
  · rw [Bool.eq_false_iff]
    intro hh
    simp only [Bool.and_eq_true, decide_eq_true_eq] at hh
    omega

/-- A message without relays, or with no entry in `whitelist_from_rcvd`, or with all its addresses named by
`whitelist_allow_relays`, is not called forged.  Missing: addresses no entry stands for (`C68_forged_violated`). -/
theorem C68_not_forged_partial (N : InNet) (m : WMsg) (L : Lists)
    (h : (¬ ∃ r, Considered m r) ∨ L.rcvd = [] ∨
      ∀ a ∈ m.froms, ∃ ts ∈ L.allow, search ts (lower a) = true) :
    (forgedInWhitelist N L m WSt.init).1 = false := by
  have hneg : checkInList N L m m.froms 0 ≠ -1 := by
    intro hh
    rw [checkInList_neg _ _ _ _ _ (by decide)] at hh
    rcases hh.2 with h0 | ⟨a, ha, hw⟩
    · exact absurd h0 (by decide)
    · obtain ⟨_, h2, h3, h4⟩ := (whitelistRcvd_eq N m L.rcvd L.allow a).2.1.mp hw
      rcases h with h | h | h
      · exact h h3
      · exact h2 h
      · obtain ⟨ts, h5, h6⟩ := h a ha
        rw [List.any_eq_false] at h4
        exact h4 ts h5 h6
  have hr := checkInList_range N L m m.froms 0 (Or.inl rfl)
  unfold forgedInWhitelist fromInWhitelist fromInDefault WSt.init
  simp only [if_true]
  rw [Bool.eq_false_iff]
  intro hh
  simp only [Bool.and_eq_true, decide_eq_true_eq] at hh
  omega

/-- Likewise for the default whitelist. -/
theorem C68_not_forged_default_partial (N : InNet) (m : WMsg) (L : Lists)
    (h : (¬ ∃ r, Considered m r) ∨ L.defRcvd = [] ∨
      ∀ a ∈ m.froms, ∃ ts ∈ L.allow, search ts (lower a) = true) :
    (forgedInDefault N L m WSt.init).1 = false := by
  have hneg : checkInList N ⟨[], L.defRcvd, L.defRcvd, L.allow⟩ m m.froms 0 ≠ -1 := by
    intro hh
    rw [checkInList_neg _ _ _ _ _ (by decide)] at hh
    rcases hh.2 with h0 | ⟨a, ha, hw⟩
    · exact absurd h0 (by decide)
    · obtain ⟨_, h2, h3, h4⟩ := (whitelistRcvd_eq N m L.defRcvd L.allow a).2.1.mp hw
      rcases h with h | h | h
      · exact h h3
      · exact h2 h
      · obtain ⟨ts, h5, h6⟩ := h a ha
        rw [List.any_eq_false] at h4
        exact h4 ts h5 h6
  have hr := checkInList_range N ⟨[], L.defRcvd, L.defRcvd, L.allow⟩ m m.froms 0 (Or.inl rfl)
  unfold forgedInDefault fromInWhitelist fromInDefault WSt.init
  simp only [if_true, checkInDefault_eq]
  rw [Bool.eq_false_iff]
  intro hh
  simp only [Bool.and_eq_true, decide_eq_true_eq] at hh
  omega

/-- Every other message is called forged, whoever it is from: as soon as `whitelist_from_rcvd` has any entry, a
message from an address that no list names counts as forged. -/
theorem C68_forged_violated (N : InNet) (m : WMsg) (rcvd : List (Str × Str)) (entries : List (List Tok))
    (hlist : rcvd ≠ []) (hrel : ∃ r, Considered m r) (hfrom : m.froms ≠ [])
    (hno : ∀ a ∈ m.froms, (∀ ts ∈ entries, search ts a = false) ∧ ∀ e d, (e, d) ∈ rcvd → ¬ Within 1 e (lower a)) :
    (forgedInWhitelist N ⟨entries, rcvd, [], []⟩ m WSt.init).1 = true := by
  have hacc : ∀ a ∈ m.froms, ¬ Accepts N m rcvd a :=
    fun a ha ⟨e, d, _, hm, hw, _⟩ => (hno a ha).2 e d hm hw
  have hone : checkInList N ⟨entries, rcvd, [], []⟩ m m.froms 0 ≠ 1 := by
    intro hh
    rw [checkInList_pos _ _ _ _ _ (by decide)] at hh
    obtain ⟨a, ha, h1 | h1⟩ := hh
    · rw [List.any_eq_true] at h1
      obtain ⟨ts, h2, h3⟩ := h1
      rw [(hno a ha).1 ts h2] at h3
      cases h3
    · exact hacc a ha h1
  have hneg : checkInList N ⟨entries, rcvd, [], []⟩ m m.froms 0 = -1 := by
    rw [checkInList_neg _ _ _ _ _ (by decide)]
    refine ⟨hone, Or.inr ?_⟩
    cases hf : m.froms with
    | nil => exact absurd hf hfrom
    | cons a as =>
      exact ⟨a, by simp, (whitelistRcvd_eq N m rcvd [] a).2.1.mpr ⟨hacc a (by rw [hf]; simp), hlist, hrel, rfl⟩⟩
  have hd : ∀ as, checkInDefault N ⟨entries, rcvd, [], []⟩ m as 0 = 0 := by
    intro as
    induction as with
    | nil => rfl
    | cons a as ih =>
      obtain ⟨h1, h2, h3⟩ := whitelistRcvd_eq N m [] [] a
      have n1 : whitelistRcvd N m [] [] a ≠ 1 := fun h => by
        obtain ⟨_, _, _, h, _⟩ := h1.mp h
        cases h
      have n2 : whitelistRcvd N m [] [] a ≠ -1 := fun h => (h2.mp h).2.1 rfl
      simp only [checkInDefault, n1, n2, if_false]
      exact ih
  unfold forgedInWhitelist fromInWhitelist fromInDefault WSt.init
  simp only [if_true, hneg, hd]
  decide

def wNet : InNet := fun _ _ => none
def wMsg : WMsg := ⟨[c!"ann@example.org"], [⟨c!"1.2.3.4", c!"mx.example.org"⟩], []⟩
def wRcvd : List (Str × Str) := parseInput [c!"*@bank.com bank.com"]

/-- A message of someone who has nothing to do with the bank is called forged; one from the bank is whitelisted. -/
example : wRcvd = [(c!"*@bank.com", c!"bank.com")] ∧
    (forgedInWhitelist wNet ⟨[], wRcvd, [], []⟩ wMsg WSt.init).1 = true ∧
    (fromInWhitelist wNet ⟨[], wRcvd, [], []⟩
      ⟨[c!"joe@bank.com"], [⟨c!"1.2.3.4", c!"MX.bank.com"⟩], []⟩ WSt.init).1 = true ∧
    (fromInWhitelist wNet ⟨[], wRcvd, [], []⟩
      ⟨[c!"joe@bank.com"], [⟨c!"1.2.3.4", c!"notbank.com"⟩], []⟩ WSt.init).1 = false := by
  decide +kernel

/-- An entry with a capital letter never accepts anything: the address is put in lower case, the entry is not. -/
theorem C68_case_violated (N : InNet) (m : WMsg) (a e d : Str) (c : Char) (hc : c ∈ e) (hu : c.toLower ≠ c) :
    whitelistRcvd N m [(e, d)] [] a ≠ 1 := by
  intro h
  obtain ⟨e', d', r, hm, ⟨x, y, z, he, hl⟩, _⟩ := (whitelistRcvd_eq N m [(e, d)] [] a).1.mp h
  cases List.mem_singleton.mp hm
  have hy : c ∈ y := by
    have hcs : c ≠ '*' ∧ c ≠ '?' := by
      constructor <;> (intro e; rw [e] at hu; exact hu (by decide))
    clear he hm h
    induction hl with
    | nil => cases hc
    | star p t u _ _ _ ih =>
      rcases List.mem_cons.mp hc with h | h
      · exact absurd h hcs.1
      · simp [ih h]
    | none p u _ ih =>
      rcases List.mem_cons.mp hc with h | h
      · exact absurd h hcs.2
      · exact ih h
    | one p u c' _ _ ih =>
      rcases List.mem_cons.mp hc with h | h
      · exact absurd h hcs.2
      · simp [ih h]
    | lit p u c' _ _ _ ih =>
      rcases List.mem_cons.mp hc with h | h
      · simp [h]
      · simp [ih h]
  have hlow : c ∈ lower a := by rw [he]; simp [hy]
  unfold lower at hlow
  obtain ⟨b, _, hb⟩ := List.mem_map.mp hlow
  rw [← hb, Mail.toLower_idem] at hu
  exact hu rfl

example : 'J' ∈ c!"Joe@bank.com" ∧ 'J'.toLower ≠ 'J' := by decide

theorem rstripBy_id (p : Char → Bool) (s : Str) (h : ∀ c, s.getLast? = some c → p c = false) : rstripBy p s = s := by
  unfold rstripBy
  cases hs : s.reverse with
  | nil => rw [List.reverse_eq_nil_iff.mp hs]; rfl
  | cons c cs =>
    have : s.getLast? = some c := by
      rw [← List.head?_reverse, hs]; rfl
    rw [dropWhile_head _ (h c this), ← hs, List.reverse_reverse]

/-- What the lines of `whitelist_from_rcvd` say: an address pattern and one or more domains, where a domain may stand
in brackets. -/
theorem C68_lines (lines : List (List Str)) (hw : ∀ l ∈ lines, ∀ w ∈ l, Word w) (e d : Str) :
    (e, d) ∈ parseInput (lines.map (join c!" ")) ↔ Usable e ∧ ∃ l ds, l ∈ lines ∧ l = e :: ds ∧ d ∈ ds := by
  unfold parseInput
  rw [List.mem_flatMap]
  have key : ∀ l ∈ lines, (e, d) ∈ (match splitNone 1 (join c!" " l) with
      | [entry, doms] => if checkInput entry then (splitWs doms).map fun d => (entry, d) else []
      | _ => []) ↔ Usable e ∧ ∃ ds, l = e :: ds ∧ d ∈ ds := by
    intro l hl
    cases l with
    | nil => simp [join, splitNone]
    | cons w ws =>
      by_cases h0 : ws = []
      · subst h0
        have : join c!" " [w] = w := rfl
        rw [this, splitNone_word w (hw _ hl w (by simp))]
        simp
      · rw [splitNone_join w ws h0 (hw _ hl)]
        simp only
        rw [splitWs_join ws (fun x hx => hw _ hl x (List.mem_cons_of_mem _ hx))]
        by_cases hc : checkInput w = true
        · rw [if_pos hc, List.mem_map]
          constructor
          · rintro ⟨x, hx, e'⟩; cases e'; exact ⟨(checkInput_iff _).mp hc, ws, rfl, hx⟩
          · rintro ⟨_, ds, e', hx⟩; cases e'; exact ⟨d, hx, rfl⟩
        · rw [if_neg hc]
          constructor
          · intro h; cases h
          · rintro ⟨hu, ds, e', _⟩; cases e'; exact absurd ((checkInput_iff _).mpr hu) hc
  constructor
  · rintro ⟨line, hl, hm⟩
    obtain ⟨l, hl', rfl⟩ := List.mem_map.mp hl
    obtain ⟨hu, ds, h1, h2⟩ := (key l hl').mp hm
    exact ⟨hu, l, ds, hl', h1, h2⟩
  · rintro ⟨hu, l, ds, hl, h1, h2⟩
    exact ⟨_, List.mem_map.mpr ⟨l, hl, rfl⟩, (key l hl).mpr ⟨hu, ds, h1, h2⟩⟩

theorem C68_brackets (name : Str) (h1 : ∀ c, name.head? = some c → c ≠ '[' ∧ c ≠ ' ')
    (h2 : ∀ c, name.getLast? = some c → c ≠ '[' ∧ c ≠ ' ' ∧ c ≠ ']') (h0 : name ≠ []) :
    bareDomain name = name ∧ bareDomain ('[' :: (name ++ [']'])) = name := by
  have l1 : ∀ s : Str, (∀ c, s.head? = some c → c ≠ '[' ∧ c ≠ ' ') → lstripBy (fun c => c!"[ ".contains c) s = s := by
    intro s hs
    unfold lstripBy
    cases s with
    | nil => rfl
    | cons c s =>
      obtain ⟨a, b⟩ := hs c rfl
      exact dropWhile_head _ (by simp [a, b])
  have hl : lstripBy (fun c => c!"[ ".contains c) name = name := l1 name h1
  have hl2 : lstripBy (fun c => c!"[ ".contains c) ('[' :: (name ++ [']'])) = name ++ [']'] := by
    have : ∀ c, (name ++ [']']).head? = some c → c ≠ '[' ∧ c ≠ ' ' := by
      intro c hc
      cases name with
      | nil => exact absurd rfl h0
      | cons x xs => exact h1 c hc
    have := l1 _ this
    unfold lstripBy at this ⊢
    rw [List.dropWhile_cons_of_pos (by decide), this]
  unfold bareDomain stripChars stripBy
  rw [hl, hl2]
  have r1 : rstripBy (fun c => c!"[ ".contains c) name = name :=
    rstripBy_id _ _ (fun c hc => by obtain ⟨a, b, _⟩ := h2 c hc; simp [a, b])
  have r2 : rstripBy (fun c => c!"[ ".contains c) (name ++ [']']) = name ++ [']'] :=
    rstripBy_id _ _ (fun c hc => by
      rw [List.getLast?_append] at hc
      simp at hc
      rw [← hc]
      decide)
  have r3 : rstripBy (fun c => c == ' ' || c == ']') name = name :=
    rstripBy_id _ _ (fun c hc => by obtain ⟨_, a, b⟩ := h2 c hc; simp [a, b])
  rw [r1, r2, r3]
  refine ⟨rfl, ?_⟩
  rw [rstripBy_all _ (by intro c hc; cases List.mem_singleton.mp hc; decide), r3]

example : bareDomain c!"[1.2.3.4]" = c!"1.2.3.4" ∧
    parseInput [c!"*@bank.com bank.com [10.0.0.0/8]", c!"nodomain@x.org"] =
      [(c!"*@bank.com", c!"bank.com"), (c!"*@bank.com", c!"[10.0.0.0/8]")] := by decide +kernel

/-! ## The sender's domain and the relay -/

/-- The base domain of a name: its last two labels, or three or four of them if the last two or three are a
configured top-level domain. -/
theorem C69_base (tlds : List Str) (ps : List Str) (a b c d : Str) (h : ∀ w ∈ ps ++ [a, b, c, d], '.' ∉ w)
    (hd : isDigits d = false) :
    let name := join c!"." (ps ++ [a, b, c, d])
    baseDomain tlds name =
      if join c!"." [b, c, d] ∈ tlds then join c!"." [a, b, c, d]
      else if join c!"." [c, d] ∈ tlds then join c!"." [b, c, d]
      else join c!"." [c, d] := by
  intro name
  have e : splitChar '.' name = ps ++ [a, b, c, d] := splitChar_join '.' _ (by simp) h
  unfold baseDomain lastN
  simp only [e]
  have h1 : ¬ (ps ++ [a, b, c, d]).length < 3 := by simp
  have h2 : (ps ++ [a, b, c, d]).all isDigits = false := by simp [hd]
  have h3 : (ps ++ [a, b, c, d]).drop ((ps ++ [a, b, c, d]).length - 3) = [b, c, d] := by
    have : (ps ++ [a, b, c, d]).length - 3 = ps.length + 1 := by simp
    rw [this, List.drop_append]
    simp
  have h4 : (ps ++ [a, b, c, d]).drop ((ps ++ [a, b, c, d]).length - 2) = [c, d] := by
    have : (ps ++ [a, b, c, d]).length - 2 = ps.length + 2 := by simp
    rw [this, List.drop_append]
    simp
  have h5 : (ps ++ [a, b, c, d]).drop ((ps ++ [a, b, c, d]).length - 4) = [a, b, c, d] := by
    have : (ps ++ [a, b, c, d]).length - 4 = ps.length := by simp
    rw [this, List.drop_append]
    simp
  rw [if_neg h1, h2, h3, h4, h5]
  rfl

/-- The base domain of an address is the address with its numbers in reverse. -/
theorem C69_address_base (tlds : List Str) (a b c d : Str) (h : ∀ w ∈ [a, b, c, d], w ≠ [] ∧ ∀ x ∈ w, '0' ≤ x ∧ x ≤ '9') :
    baseDomain tlds (join c!"." [a, b, c, d]) = join c!"." [d, c, b, a] := by
  have hd : ∀ w ∈ [a, b, c, d], isDigits w = true := by
    intro w hw
    obtain ⟨h0, h1⟩ := h w hw
    unfold isDigits
    have : w.all Char.isDigit = true := by
      rw [List.all_eq_true]
      intro x hx
      obtain ⟨p, q⟩ := h1 x hx
      simp only [Char.isDigit, Bool.and_eq_true, decide_eq_true_eq]
      exact ⟨p, q⟩
    cases w with
    | nil => exact absurd rfl h0
    | cons x w => simpa using this
  have e : splitChar '.' (join c!"." [a, b, c, d]) = [a, b, c, d] := splitChar_join '.' _ (by simp) (by
    intro w hw hm
    have := (h w hw).2 '.' hm
    revert this
    decide)
  unfold baseDomain
  simp only [e]
  rw [if_neg (by simp), if_pos (by rw [List.all_eq_true]; exact hd)]
  rfl

/-- If a label is not a number, it is a name. -/
theorem C69_name_base (tlds : List Str) (ps : List Str) (a b c d : Str) (h : ∀ w ∈ ps ++ [a, b, c, d], '.' ∉ w)
    (x : Char) (hx : x ∈ d) (hn : ¬ ('0' ≤ x ∧ x ≤ '9')) :
    let name := join c!"." (ps ++ [a, b, c, d])
    baseDomain tlds name =
      if join c!"." [b, c, d] ∈ tlds then join c!"." [a, b, c, d]
      else if join c!"." [c, d] ∈ tlds then join c!"." [b, c, d]
      else join c!"." [c, d] := by
  refine C69_base tlds ps a b c d h ?_
  unfold isDigits
  have : d.all Char.isDigit = false := by
    rw [List.all_eq_false]
    refine ⟨x, hx, ?_⟩
    simp only [Char.isDigit, Bool.and_eq_true, decide_eq_true_eq]
    exact hn
  rw [this, Bool.and_false]

example : baseDomain [c!"co.uk"] c!"1.2.3.4" = c!"4.3.2.1" ∧ baseDomain [c!"co.uk"] c!"mail.4u.co.uk" = c!"4u.co.uk" := by decide +kernel

/-- If the relay the message came from is in the sender's base domain, the rule is true; without a sender, or without
relays, it is false.  Missing: that it is true only then (`C69_tail_violated`). -/
theorem C69_match_partial (tlds : List Str) (user dom : Str) (m : WMsg) (h1 : '@' ∉ user) (h2 : '@' ∉ dom) :
    ((∃ r, Considered m r ∧ Under (baseDomain tlds dom) r.rdns) →
      mailfromMatches tlds (user ++ '@' :: dom) m = some true) ∧
    ((¬ ∃ r, Considered m r) → mailfromMatches tlds (user ++ '@' :: dom) m = some false) ∧
    mailfromMatches tlds [] m = some false := by
  have e : splitChar '@' (user ++ '@' :: dom) = [user, dom] := by
    have := splitChar_join '@' [user, dom] (by simp) (by simp [h1, h2])
    simpa [join] using this
  have hne : (user ++ '@' :: dom).isEmpty = false := by simp
  unfold mailfromMatches
  rw [e, hne]
  simp only [Bool.false_eq_true, if_false, List.isEmpty_nil, if_true, and_true, Option.some.injEq]
  constructor
  · rintro ⟨r, hr, hu⟩
    rw [List.any_eq_true]
    refine ⟨r, (mem_relaysOf m r).mpr hr, ?_⟩
    unfold endsWith
    rw [List.isSuffixOf_iff_suffix]
    rcases hu with hu | ⟨x, hu⟩
    · rw [hu]; exact ⟨[], rfl⟩
    · exact ⟨x ++ ['.'], by rw [hu]; simp⟩
  · intro hno
    rw [List.any_eq_false]
    intro r hr
    exact absurd ⟨r, (mem_relaysOf m r).mp hr⟩ hno

/-- Any name that ends in the letters of the sender's base domain will do. -/
theorem C69_tail_violated (tlds : List Str) (user dom x : Str) (ip : Str) (rest trusted : List WRelay)
    (froms : List Str) (h1 : '@' ∉ user) (h2 : '@' ∉ dom) :
    mailfromMatches tlds (user ++ '@' :: dom) ⟨froms, ⟨ip, x ++ baseDomain tlds dom⟩ :: rest, trusted⟩ = some true := by
  have e : splitChar '@' (user ++ '@' :: dom) = [user, dom] := by
    have := splitChar_join '@' [user, dom] (by simp) (by simp [h1, h2])
    simpa [join] using this
  have hne : (user ++ '@' :: dom).isEmpty = false := by simp
  unfold mailfromMatches relaysOf endsWith
  rw [e, hne]
  simp [List.isSuffixOf_iff_suffix]

example : baseDomain [c!"co.uk"] c!"mail.shop.bank.co.uk" = c!"bank.co.uk" ∧
    mailfromMatches [] c!"joe@bank.com" ⟨[], [⟨c!"1.2.3.4", c!"www.evilbank.com"⟩], []⟩ = some true ∧
    mailfromMatches [] c!"joe@bank.com" ⟨[], [⟨c!"1.2.3.4", c!"mx.bank.com"⟩], []⟩ = some true ∧
    mailfromMatches [] c!"joe@bank.com" ⟨[], [⟨c!"1.2.3.4", c!"mx.bank.org"⟩], []⟩ = some false := by decide +kernel

/-- A sender without `@` makes the rule fail with an exception. -/
theorem C69_no_at_violated (tlds : List Str) (s : Str) (m : WMsg) (h0 : s ≠ []) (h : '@' ∉ s) :
    mailfromMatches tlds s m = none := by
  have e : splitChar '@' s = [s] := by
    have := splitChar_join '@' [s] (by simp) (by simp [h])
    simpa [join] using this
  have hne : s.isEmpty = false := by cases s <;> simp_all
  unfold mailfromMatches
  rw [e, hne]
  rfl

/-! ## Lists of URI hosts -/

/-- The name of a list is what stands between the parentheses. -/
theorem C70_name (name : Str) (h1 : ∀ c, name.head? = some c → c ≠ '(' ∧ c ≠ ' ')
    (h2 : ∀ c, name.getLast? = some c → c ≠ '(' ∧ c ≠ ' ' ∧ c ≠ ')') (h0 : name ≠ []) :
    listName name = name ∧ listName ('(' :: (name ++ [')'])) = name := by
  have l1 : ∀ s : Str, (∀ c, s.head? = some c → c ≠ '(' ∧ c ≠ ' ') → lstripBy (fun c => c!"( ".contains c) s = s := by
    intro s hs
    unfold lstripBy
    cases s with
    | nil => rfl
    | cons c s =>
      obtain ⟨a, b⟩ := hs c rfl
      exact dropWhile_head _ (by simp [a, b])
  have hl : lstripBy (fun c => c!"( ".contains c) name = name := l1 name h1
  have hl2 : lstripBy (fun c => c!"( ".contains c) ('(' :: (name ++ [')'])) = name ++ [')'] := by
    have : ∀ c, (name ++ [')']).head? = some c → c ≠ '(' ∧ c ≠ ' ' := by
      intro c hc
      cases name with
      | nil => exact absurd rfl h0
      | cons x xs => exact h1 c hc
    have := l1 _ this
    unfold lstripBy at this ⊢
    rw [List.dropWhile_cons_of_pos (by decide), this]
  unfold listName stripChars stripBy
  rw [hl, hl2]
  have r1 : rstripBy (fun c => c!"( ".contains c) name = name :=
    rstripBy_id _ _ (fun c hc => by obtain ⟨a, b, _⟩ := h2 c hc; simp [a, b])
  have r2 : rstripBy (fun c => c!"( ".contains c) (name ++ [')']) = name ++ [')'] :=
    rstripBy_id _ _ (fun c hc => by
      rw [List.getLast?_append] at hc
      simp at hc
      rw [← hc]
      decide)
  have r3 : rstripBy (fun c => c == ' ' || c == ')') name = name :=
    rstripBy_id _ _ (fun c hc => by obtain ⟨_, a, b⟩ := h2 c hc; simp [a, b])
  rw [r1, r2, r3]
  refine ⟨rfl, ?_⟩
  rw [rstripBy_all _ (by intro c hc; cases List.mem_singleton.mp hc; decide), r3]

theorem parseUris_iff (c : UriConf) (list h : Str) :
    (list, h) ∈ parseUris c ↔ Enlisted c list h ∧ ¬ Delisted c list h := by
  have hd : ∀ k x, (k, x) ∈ parseDelist c.delist ↔
      (∃ line k' hosts h, line ∈ c.delist ∧ '(' ∈ line ∧ splitWs line = k' :: hosts ∧ listName k' = k ∧ h ∈ hosts ∧
        x = stripChars c!"." h) ∨
      (k = c!"ALL" ∧ ∃ line h, line ∈ c.delist ∧ '(' ∉ line ∧ h ∈ splitWs line ∧ x = stripChars c!"!" h) := by
    intro k x
    unfold parseDelist
    rw [List.mem_flatMap]
    constructor
    · rintro ⟨line, hl, hm⟩
      simp only at hm
      by_cases hp : '(' ∈ line
      · rw [if_pos hp] at hm
        left
        cases hw : splitWs line with
        | nil => rw [hw] at hm; cases hm
        | cons k' hosts =>
          rw [hw] at hm
          simp only [List.mem_map] at hm
          obtain ⟨a, ha, e⟩ := hm
          cases e
          exact ⟨line, k', hosts, a, hl, hp, hw, rfl, ha, rfl⟩
      · rw [if_neg hp] at hm
        right
        obtain ⟨a, ha, e⟩ := List.mem_map.mp hm
        cases e
        exact ⟨rfl, line, a, hl, hp, ha, rfl⟩
    · rintro (⟨line, k', hosts, a, hl, hp, hw, e1, ha, e2⟩ | ⟨e1, line, a, hl, hp, ha, e2⟩)
      · refine ⟨line, hl, ?_⟩
        simp only [if_pos hp, hw, List.mem_map]
        exact ⟨a, ha, by rw [e1, e2]⟩
      · refine ⟨line, hl, ?_⟩
        simp only [if_neg hp, List.mem_map]
        exact ⟨a, ha, by rw [e1, e2]⟩
  have hdel : ((list, h) ∈ parseDelist c.delist ∨ (c!"ALL", h) ∈ parseDelist c.delist) ↔ Delisted c list h := by
    rw [hd, hd]
    unfold Delisted
    constructor
    · rintro ((⟨l, k, hs, a, h1, h2, h3, h4, h5⟩ | ⟨_, h⟩) | (⟨l, k, hs, a, h1, h2, h3, h4, h5⟩ | ⟨_, h⟩))
      · exact Or.inl ⟨l, k, hs, a, h1, h2, h3, Or.inl h4, h5⟩
      · exact Or.inr h
      · exact Or.inl ⟨l, k, hs, a, h1, h2, h3, Or.inr h4, h5⟩
      · exact Or.inr h
    · rintro (⟨l, k, hs, a, h1, h2, h3, h4 | h4, h5⟩ | h)
      · exact Or.inl (Or.inl ⟨l, k, hs, a, h1, h2, h3, h4, h5⟩)
      · exact Or.inr (Or.inl ⟨l, k, hs, a, h1, h2, h3, h4, h5⟩)
      · exact Or.inr (Or.inr ⟨rfl, h⟩)
  unfold parseUris
  simp only [List.mem_filter, decide_eq_true_eq]
  have hen : (list, h) ∈ (c.enlist.flatMap fun x => match splitWs x with
        | k :: hosts => hosts.map fun h => (listName k, h)
        | [] => []) ++
      (c.white.flatMap splitWs).map (fun h => (c!"WHITE", h)) ++
      (c.black.flatMap splitWs).map (fun h => (c!"BLACK", h)) ↔ Enlisted c list h := by
    unfold Enlisted
    rw [List.mem_append, List.mem_append, or_assoc]
    refine or_congr ?_ (or_congr ?_ ?_)
    · rw [List.mem_flatMap]
      constructor
      · rintro ⟨line, hl, hm⟩
        cases hw : splitWs line with
        | nil => rw [hw] at hm; cases hm
        | cons k' hosts =>
          rw [hw] at hm
          obtain ⟨a, ha, e⟩ := List.mem_map.mp hm
          cases e
          exact ⟨line, k', hosts, hl, hw, rfl, ha⟩
      · rintro ⟨line, k', hosts, hl, hw, e1, ha⟩
        refine ⟨line, hl, ?_⟩
        rw [hw]
        exact List.mem_map.mpr ⟨h, ha, by rw [e1]⟩
    · rw [List.mem_map]
      constructor
      · rintro ⟨a, ha, e⟩
        cases e
        exact ⟨rfl, List.mem_flatMap.mp ha⟩
      · rintro ⟨e, ha⟩
        exact ⟨h, List.mem_flatMap.mpr ha, by rw [e]⟩
    · rw [List.mem_map]
      constructor
      · rintro ⟨a, ha, e⟩
        cases e
        exact ⟨rfl, List.mem_flatMap.mp ha⟩
      · rintro ⟨e, ha⟩
        exact ⟨h, List.mem_flatMap.mpr ha, by rw [e]⟩
  rw [← hdel, not_or]
  exact and_congr hen Iff.rfl

/-- Exactly what the URI host rules do: a URI counts if it ends in the letters of an enlisted word that is not
delisted, and is not itself an excluded word.  Missing: that the *host* must be the enlisted one or below it
(`C70_tail_violated`, `C70_path_violated`), and that exclusions are for hosts (`C70_excluded_violated`). -/
theorem C70_exact_partial (c : UriConf) (list : Str) (uris : List Str) :
    uriListed c list uris = true ↔
      ∃ u ∈ uris, (∃ h, startsWith c!"!" h = false ∧ Enlisted c list h ∧ ¬ Delisted c list h ∧ ∃ x, u = x ++ h) ∧
        ¬ ∃ w, startsWith c!"!" w = true ∧ Enlisted c list w ∧ ¬ Delisted c list w ∧ u = stripChars c!"!" w := by
  unfold uriListed
  have hl : ∀ h, h ∈ listed c list ↔ startsWith c!"!" h = false ∧ Enlisted c list h ∧ ¬ Delisted c list h := by
    intro h
    unfold listed
    rw [List.mem_filterMap, ← parseUris_iff]
    constructor
    · rintro ⟨⟨k, x⟩, hm, hx⟩
      split at hx
      · rename_i hk; cases hx; simp only at hk; rw [← hk.1]; exact ⟨hk.2, hm⟩
      · cases hx
    · rintro ⟨h1, h2⟩
      exact ⟨(list, h), h2, by simp [h1]⟩
  have hx : ∀ u, u ∈ excluded c list ↔
      ∃ w, startsWith c!"!" w = true ∧ Enlisted c list w ∧ ¬ Delisted c list w ∧ u = stripChars c!"!" w := by
    intro u
    unfold excluded
    rw [List.mem_filterMap]
    constructor
    · rintro ⟨⟨k, x⟩, hm, hx⟩
      split at hx
      · rename_i hk; cases hx; simp only at hk; rw [← hk.1]
        have := (parseUris_iff c k x).mp hm
        exact ⟨x, hk.2, this.1, this.2, rfl⟩
      · cases hx
    · rintro ⟨w, h1, h2, h3, h4⟩
      exact ⟨(list, w), (parseUris_iff c list w).mpr ⟨h2, h3⟩, by simp [h1, h4]⟩
  simp only [List.any_eq_true, Bool.and_eq_true, decide_eq_true_eq, hx, hl]
  constructor
  · rintro ⟨u, hu, h1, h, ⟨h2, h3, h4⟩, h5⟩
    unfold endsWith at h5
    rw [List.isSuffixOf_iff_suffix] at h5
    obtain ⟨x, h5⟩ := h5
    exact ⟨u, hu, ⟨h, h2, h3, h4, x, h5.symm⟩, h1⟩
  · rintro ⟨u, hu, ⟨h, h2, h3, h4, x, h5⟩, h1⟩
    refine ⟨u, hu, h1, h, ⟨h2, h3, h4⟩, ?_⟩
    unfold endsWith
    rw [List.isSuffixOf_iff_suffix]
    exact ⟨x, h5.symm⟩

/-- A URI of another host counts if it ends in the letters of an enlisted host, such as `http://evil.org/?bank.com`. -/
theorem C70_tail_violated (c : UriConf) (list h u : Str) (hs : startsWith c!"!" h = false) (he : Enlisted c list h)
    (hd : ¬ Delisted c list h) (hno : ∀ w, Enlisted c list w → startsWith c!"!" w = false) :
    uriListed c list [u ++ h] = true := by
  rw [C70_exact_partial]
  refine ⟨u ++ h, by simp, ⟨h, hs, he, hd, u, rfl⟩, ?_⟩
  rintro ⟨w, h1, h2, _⟩
  rw [hno w h2] at h1
  cases h1

/-- A URI with anything after the host, even a single `/`, does not count. -/
theorem C70_path_violated (c : UriConf) (list u : Str) (hp : ∀ h, Enlisted c list h → '/' ∉ h ∧ h ≠ []) :
    uriListed c list [u ++ ['/']] = false := by
  rw [Bool.eq_false_iff]
  intro hh
  rw [C70_exact_partial] at hh
  obtain ⟨v, hv, ⟨h, _, he, _, x, hx⟩, _⟩ := hh
  cases List.mem_singleton.mp hv
  obtain ⟨h1, h2⟩ := hp h he
  have hg := congrArg List.getLast? hx
  rw [List.getLast?_append, List.getLast?_append] at hg
  cases hl : h.getLast? with
  | none => exact h2 (List.getLast?_eq_none_iff.mp hl)
  | some z =>
    rw [hl] at hg
    simp at hg
    have := List.mem_of_getLast? hl
    rw [← hg] at this
    exact h1 this

/-- Excluding a host with `!` has no effect on URIs, which contain a `/` or are longer than the host: only an excluded
word that is the whole URI counts. -/
theorem C70_excluded_violated (c : UriConf) (list h u : Str) (hs : startsWith c!"!" h = false)
    (he : Enlisted c list h) (hd : ¬ Delisted c list h) (hw : ∀ w, Enlisted c list w → '/' ∉ w) :
    uriListed c list [c!"http://" ++ u ++ h] = true := by
  rw [C70_exact_partial]
  refine ⟨_, List.mem_singleton.mpr rfl, ⟨h, hs, he, hd, _, rfl⟩, ?_⟩
  rintro ⟨w, _, h2, _, h4⟩
  have hsub : ∀ (p : Char → Bool) (s : Str) (x : Char), x ∈ stripBy p s → x ∈ s := by
    intro p s x hx
    unfold stripBy rstripBy lstripBy at hx
    rw [List.mem_reverse] at hx
    have := (List.dropWhile_suffix p).subset hx
    rw [List.mem_reverse] at this
    exact (List.dropWhile_suffix p).subset this
  refine hw w h2 (hsub (fun c => c!"!".contains c) w '/' ?_)
  show '/' ∈ stripChars c!"!" w
  rw [← h4]
  simp

def uriConf : UriConf where
  enlist := [c!"(MY) bank.com other.com !www.bank.com gone.com"]
  delist := [c!"gone.com"]
  white := [c!"good.com"]
  black := []

example : uriListed uriConf c!"MY" [c!"http://bank.com"] = true ∧
    uriListed uriConf c!"MY" [c!"http://evil.org/?bank.com"] = true ∧
    uriListed uriConf c!"MY" [c!"http://bank.com/"] = false ∧
    uriListed uriConf c!"MY" [c!"http://www.bank.com"] = true ∧
    uriListed uriConf c!"MY" [c!"http://gone.com"] = false ∧
    uriListed uriConf c!"WHITE" [c!"http://good.com"] = true ∧
    uriListed uriConf c!"BLACK" [c!"http://good.com"] = false := by decide +kernel

/-- A host that is taken off a list does not count, whatever else the list says, unless it ends in the letters of
another word of the list. -/
theorem C70_delisted (c : UriConf) (list u : Str)
    (h : ∀ h, Enlisted c list h → (∃ x, u = x ++ h) → Delisted c list h) : uriListed c list [u] = false := by
  rw [Bool.eq_false_iff]
  intro hh
  rw [C70_exact_partial] at hh
  obtain ⟨v, hv, ⟨w, _, he, hd, hx⟩, _⟩ := hh
  cases List.mem_singleton.mp hv
  exact hd (h w he hx)

end Verif.Props
