import Verif.Spec.Recipients
import Verif.Lemmas.Server
import Verif.Lemmas.Strip
import Verif.Lemmas.Context

/-!
# C82: rules about recipients
-/

namespace Verif.Props
open Verif Py Server Recipients

theorem sortedStr_fix (l : List Str) : sortedStr l = l ↔ l.Pairwise (fun a b => a ≤ b) := by
  constructor
  · intro h
    have := sortedStr_sorted l
    rwa [h] at this
  · intro h
    unfold sortedStr
    induction l with
    | nil => rfl
    | cons x xs ih =>
      rw [List.pairwise_cons] at h
      simp only [sortedBy, ih h.2]
      cases xs with
      | nil => rfl
      | cons y ys =>
        have : strLt y x = false := (strLt_false _ _).2 (h.1 y List.mem_cons_self)
        simp [insertBy, this]

theorem dedupe_collapsed (l : List Str) : dedupe l = collapsed l := by
  have key : ∀ (a : Str) (l : List Str),
      a :: ((((a :: l).zip l).filter fun p => !decide (p.1 = p.2)).map Prod.snd) = collapsed (a :: l) := by
    intro a l
    induction l generalizing a with
    | nil => rfl
    | cons b r ih =>
      unfold collapsed
      rw [← ih b]
      by_cases h : a = b
      · subst h; simp
      · simp [h]
  cases l with
  | nil => rfl
  | cons a l => exact key a l

theorem checkRecipients_similar (rs : List Str) (l : Locals) : ∃ r, (checkRecipients rs l).2.similar = some r := by
  unfold checkRecipients
  split
  · rename_i r h; exact ⟨r, h⟩
  · split
    · exact ⟨_, rfl⟩
    · simp only
      split
      · exact ⟨_, rfl⟩
      · exact ⟨_, rfl⟩

theorem checkRecipients_again (rs : List Str) (l : Locals) :
    checkRecipients rs (checkRecipients rs l).2 = ((checkRecipients rs l).2.similar, (checkRecipients rs l).2) := by
  obtain ⟨r, hr⟩ := checkRecipients_similar rs l
  generalize (checkRecipients rs l).2 = l' at hr
  unfold checkRecipients
  rw [hr]

theorem after_eq (rs : List Str) (calls : List Call) :
    after rs calls = fresh ∧ calls = [] ∨ after rs calls = (checkRecipients rs fresh).2 ∧ calls ≠ [] := by
  have step : ∀ (l : Locals) (c : Call), c.keep rs l = (checkRecipients rs l).2 := by
    intro l c; cases c <;> rfl
  have key : ∀ (cs : List Call), cs.foldl (Call.keep rs) (checkRecipients rs fresh).2 = (checkRecipients rs fresh).2 := by
    intro cs
    induction cs with
    | nil => rfl
    | cons c cs ih => rw [List.foldl_cons, step, checkRecipients_again, ih]
  cases calls with
  | nil => exact Or.inl ⟨rfl, rfl⟩
  | cons c cs =>
    refine Or.inr ⟨?_, by simp⟩
    unfold after
    rw [List.foldl_cons, step, key]

theorem sorted_fresh (rs : List Str) :
    (checkRecipients rs fresh).2.sorted = some (decide (rs ≠ [] ∧ rs.Pairwise (fun a b => a ≤ b))) := by
  have hs : (checkRecipients rs fresh).2.sorted = some (decide (rs ≠ [] ∧ sortedStr rs = rs)) := by
    unfold checkRecipients fresh
    by_cases h : rs = []
    · simp [h]
    · simp only [h, if_false]
      split <;> simp [h]
  rw [hs]
  congr 1
  rw [decide_eq_decide, sortedStr_fix]

/-- **C82** (partial).  Whatever rules were evaluated before, recipients are sorted exactly if there are any and each is
at most the next one. -/
theorem C82_sorted_partial (rs : List Str) (calls : List Call) :
    (sortedRecipients rs (after rs calls)).1 = some (decide (rs ≠ [] ∧ rs.Pairwise (fun a b => a ≤ b))) := by
  unfold sortedRecipients
  rcases after_eq rs calls with ⟨h, _⟩ | ⟨h, _⟩
  · rw [h]; exact sorted_fresh rs
  · rw [h]
    simp only [checkRecipients_again]
    exact sorted_fresh rs

/-- **C82** is violated: a single recipient counts as sorted. -/
theorem C82_single_violated (a : Str) (calls : List Call) : (sortedRecipients [a] (after [a] calls)).1 = some true := by
  rw [C82_sorted_partial]
  simp

theorem isHost_parse (a : Str) : IsHost a (parseRcpt a).2.1 := by
  unfold parseRcpt
  simp only
  cases h : rsplit1 '@' a with
  | none =>
    refine Or.inr ⟨?_, rfl⟩
    intro hm
    have := (Context.rsplit1_isSome '@' a).2 hm
    rw [h] at this; cases this
  | some p =>
    obtain ⟨x, y⟩ := p
    exact Or.inl ⟨x, rsplit1_mem h⟩

theorem isHost_unique {a h h' : Str} (h1 : IsHost a h) (h2 : IsHost a h') : h = h' := by
  rcases h1 with ⟨u, rfl, hn⟩ | ⟨hn, rfl⟩
  · rcases h2 with ⟨u', he, hn'⟩ | ⟨hn', _⟩
    · have h3 := rsplit1_append (c := '@') u hn
      rw [he, rsplit1_append (c := '@') u' hn'] at h3
      injection h3 with h3
      exact (congrArg Prod.snd h3).symm
    · exact absurd (by simp) hn'
  · rcases h2 with ⟨u', he, hn'⟩ | ⟨_, rfl⟩
    · rw [he] at hn; exact absurd (by simp) hn
    · rfl

theorem hits_alike (a b : Str) : Alike a b (hitsOf (a, b)) := by
  intro ha hb h1 h2
  rw [isHost_unique h1 (isHost_parse a), isHost_unique h2 (isHost_parse b)]
  rfl

theorem alike_unique {a b : Str} {n k : Nat} (h1 : Alike a b n) (h2 : Alike a b k) : n = k :=
  (h1 _ _ (isHost_parse a) (isHost_parse b)).trans (h2 _ _ (isHost_parse a) (isHost_parse b)).symm

theorem pairSum_hits (l : List Str) : PairSum Alike l ((combinations l).map hitsOf).sum := by
  induction l with
  | nil => exact PairSum.nil
  | cons a as ih =>
    have : ((combinations (a :: as)).map hitsOf).sum =
        (as.map fun b => hitsOf (a, b)).sum + ((combinations as).map hitsOf).sum := by
      simp only [combinations, List.map_append, List.sum_append, List.map_map]
      rfl
    rw [this]
    exact PairSum.cons (fun b _ => hits_alike a b) ih

theorem pairSum_unique {l : List Str} {n k : Nat} (h1 : PairSum Alike l n) (h2 : PairSum Alike l k) : n = k := by
  induction h1 generalizing k with
  | nil => cases h2; rfl
  | @cons a as n f hf _ ih =>
    cases h2 with
    | @cons _ _ m g hg h =>
      rw [ih h]
      congr 2
      apply List.map_congr_left
      intro b hb
      exact alike_unique (hf b hb) (hg b hb)

theorem combinations_length (l : List Str) : 2 * (combinations l).length = l.length * (l.length - 1) := by
  induction l with
  | nil => rfl
  | cons a as ih =>
    simp only [combinations, List.length_append, List.length_map, List.length_cons, Nat.add_sub_cancel]
    rw [Nat.mul_add, ih]
    cases as.length with
    | zero => rfl
    | succ n => simp only [Nat.add_sub_cancel]; rw [Nat.mul_comm 2, ← Nat.mul_add, Nat.mul_comm]; congr 1; omega

theorem inside_iff (minr maxr : Option (Option Rat)) (q : Rat) :
    ((match minr, some q with
      | none, _ => true
      | some (some r), some q => decide (r < q)
      | _, _ => false) && (match maxr, some q with
      | none, _ => true
      | some (some r), some q => decide (q < r)
      | _, _ => false)) = true ↔ Inside minr maxr q := by
  unfold Inside
  rcases minr with _ | _ | r <;> rcases maxr with _ | _ | r' <;> simp

theorem similar_of (minr maxr : Option (Option Rat)) (rs : List Str) (l : Locals) (q : Rat)
    (h : (checkRecipients rs l).1 = some q) : (similarRecipients minr maxr rs l).1 = true ↔ Inside minr maxr q := by
  unfold similarRecipients
  simp only [h]
  exact inside_iff minr maxr q

/-- **C82** (partial).  With five recipients or more, and whatever rules were evaluated before, the answer is whether the
points for likeness divided by the number of pairs lie within the bounds. -/
theorem C82_ratio_partial (rs : List Str) (calls : List Call) (minr maxr : Option (Option Rat))
    (h5 : 5 ≤ (collapsed rs).length) :
    ∃ n, PairSum Alike (collapsed rs) n ∧ ∀ q : Rat,
      q * (((collapsed rs).length * ((collapsed rs).length - 1) : Nat) : Rat) = ((2 * n : Nat) : Rat) →
      ((similarRecipients minr maxr rs (after rs calls)).1 = true ↔ Inside minr maxr q) := by
  refine ⟨((combinations (collapsed rs)).map hitsOf).sum, pairSum_hits _, ?_⟩
  intro q hq
  have hne : rs ≠ [] := fun h => by subst h; simp [collapsed] at h5
  have hl := combinations_length (collapsed rs)
  have hpos : 0 < (combinations (collapsed rs)).length := by
    have : 5 * 4 ≤ (collapsed rs).length * ((collapsed rs).length - 1) := Nat.mul_le_mul h5 (by omega)
    omega
  rw [← hl] at hq
  have hq' : q = ((((combinations (collapsed rs)).map hitsOf).sum : Nat) : Rat) / ((combinations (collapsed rs)).length : Rat) := by
    have h0 : ((combinations (collapsed rs)).length : Rat) ≠ 0 := by
      have : (0 : Rat) < ((combinations (collapsed rs)).length : Rat) := by exact_mod_cast hpos
      exact fun h => by rw [h] at this; exact absurd this (by decide)
    have h2 : q * ((combinations (collapsed rs)).length : Rat) = ((((combinations (collapsed rs)).map hitsOf).sum : Nat) : Rat) := by
      push_cast at hq
      grind
    rw [← h2]
    rw [Rat.mul_div_cancel h0]
  have hf : checkRecipients rs fresh = (some q, { similar := some q, sorted := some (decide (sortedStr rs = rs)) }) := by
    unfold checkRecipients fresh
    simp only [hne, if_false, dedupe_collapsed]
    rw [if_neg (by omega), hq']
  apply similar_of
  rcases after_eq rs calls with ⟨h, _⟩ | ⟨h, _⟩
  · rw [h, hf]
  · rw [h, checkRecipients_again, hf]

theorem few_fresh (rs : List Str) (h5 : (collapsed rs).length < 5) :
    (checkRecipients rs fresh).1 = none ∧ (checkRecipients rs fresh).2.similar = some 0 := by
  unfold checkRecipients fresh
  simp only [dedupe_collapsed]
  by_cases h : rs = []
  · simp [h]
  · simp only [h, if_false]
    rw [if_pos h5]
    exact ⟨rfl, rfl⟩

/-- **C82** is violated: with less than five recipients, the answer to the first rule differs from that to the same
rule later: the first time no bound is met, afterwards the ratio counts as zero. -/
theorem C82_history_violated (rs : List Str) (h5 : (collapsed rs).length < 5) (minr maxr : Option (Option Rat))
    (calls : List Call) (hc : calls ≠ []) :
    ((similarRecipients minr maxr rs (after rs [])).1 = true ↔ minr = none ∧ maxr = none) ∧
    ((similarRecipients minr maxr rs (after rs calls)).1 = true ↔ Inside minr maxr 0) := by
  obtain ⟨h1, h2⟩ := few_fresh rs h5
  constructor
  · have : after rs [] = fresh := rfl
    rw [this]
    unfold similarRecipients
    simp only [h1]
    rcases minr with _ | _ | r <;> rcases maxr with _ | _ | r' <;> simp
  · apply similar_of
    rcases after_eq rs calls with ⟨_, h⟩ | ⟨h, _⟩
    · exact absurd h hc
    · rw [h, checkRecipients_again, h2]

/-- **C82** (partial).  With bounds that do not contain zero the order of rules does not matter. -/
theorem C82_stable_partial (rs : List Str) (calls : List Call) (minr maxr : Option (Option Rat))
    (hz : (minr = none ∧ maxr = none) ∨ ¬ Inside minr maxr 0) :
    (similarRecipients minr maxr rs (after rs calls)).1 = (similarRecipients minr maxr rs fresh).1 := by
  by_cases h5 : (collapsed rs).length < 5
  · by_cases hc : calls = []
    · subst hc; rfl
    · obtain ⟨h1, h2⟩ := C82_history_violated rs h5 minr maxr calls hc
      rw [Bool.eq_iff_iff]
      have : after rs [] = fresh := rfl
      rw [this] at h1
      rw [h1, h2]
      rcases hz with ⟨rfl, rfl⟩ | hz
      · simp [Inside]
      · constructor
        · intro h; exact absurd h hz
        · rintro ⟨rfl, rfl⟩; exact absurd (by simp [Inside]) hz
  · rcases after_eq rs calls with ⟨h, _⟩ | ⟨h, _⟩
    · rw [h]
    · rw [h]
      have hq : ∃ q, checkRecipients rs fresh = (some q, { similar := some q, sorted := some (decide (sortedStr rs = rs)) }) := by
        have hne : rs ≠ [] := fun h => by subst h; simp [collapsed] at h5
        refine ⟨?_, ?_⟩
        rotate_left
        · unfold checkRecipients fresh
          simp only [hne, if_false, dedupe_collapsed]
          rw [if_neg h5]
      obtain ⟨q, hq⟩ := hq
      have h1 : (checkRecipients rs (checkRecipients rs fresh).2).1 = some q := by rw [checkRecipients_again, hq]
      have h2 : (checkRecipients rs fresh).1 = some q := by rw [hq]
      rw [Bool.eq_iff_iff, similar_of _ _ _ _ q h1, similar_of _ _ _ _ q h2]

/-- **C82** is violated: the ratio of similar pairs can be two, when every pair counts twice. -/
theorem C82_double_violated (rs : List Str) (calls : List Call) (h5 : 5 ≤ (collapsed rs).length)
    (hp : ∀ a ∈ collapsed rs, ∀ b ∈ collapsed rs, a.take 5 = b.take 5)
    (hh : (collapsed rs).Pairwise fun a b => ∀ ha hb, IsHost a ha → IsHost b hb → ha.take 2 = hb.take 2 ∧ ha ≠ hb) :
    ∀ minr maxr, (similarRecipients minr maxr rs (after rs calls)).1 = true ↔ Inside minr maxr 2 := by
  intro minr maxr
  obtain ⟨n, hn, hq⟩ := C82_ratio_partial rs calls minr maxr h5
  apply hq
  have hsum : ∀ l : List Str, (∀ a ∈ l, ∀ b ∈ l, a.take 5 = b.take 5) →
      (l.Pairwise fun a b => ∀ ha hb, IsHost a ha → IsHost b hb → ha.take 2 = hb.take 2 ∧ ha ≠ hb) →
      ((combinations l).map hitsOf).sum = 2 * (combinations l).length := by
    intro l
    induction l with
    | nil => intros; rfl
    | cons a as ih =>
      intro h1 h2
      rw [List.pairwise_cons] at h2
      simp only [combinations, List.map_append, List.sum_append, List.map_map, List.length_append, List.length_map]
      rw [ih (fun x hx y hy => h1 x (by simp [hx]) y (by simp [hy])) h2.2]
      have : as.map (hitsOf ∘ fun b => (a, b)) = as.map (fun _ => 2) := by
        apply List.map_congr_left
        intro b hb
        have := hits_alike a b _ _ (isHost_parse a) (isHost_parse b)
        have h3 := h2.1 b hb _ _ (isHost_parse a) (isHost_parse b)
        simp only [Function.comp_apply]
        rw [this, if_pos (h1 a (by simp) b (by simp [hb])), if_pos h3]
      rw [this]
      simp [List.map_const']
      omega
  rw [pairSum_unique hn (pairSum_hits _), hsum _ hp hh, combinations_length]
  push_cast
  rfl

example : collapsed [c!"a@x", c!"a@x", c!"b@y", c!"a@x"] = [c!"a@x", c!"b@y", c!"a@x"] := by decide
example : let rs := [c!"sales@a1.com", c!"sales@a1.net", c!"sales@a1.org", c!"sales@a1.biz", c!"sales@a1.info"]
    (similarRecipients (some (some 1)) none rs fresh).1 = true ∧ (collapsed rs).length = 5 := by decide +kernel
example : (similarRecipients (some (some (-1))) none [c!"a@x"] fresh).1 = false ∧
    (similarRecipients (some (some (-1))) none [c!"a@x"] (after [c!"a@x"] [.sorted])).1 = true := by decide +kernel
example : (sortedRecipients [c!"a@x", c!"b@y"] fresh).1 = some true ∧ (sortedRecipients [c!"b@x", c!"a@y"] fresh).1 = some false := by
  decide +kernel

end Verif.Props
