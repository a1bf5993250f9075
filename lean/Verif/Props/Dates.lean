import Verif.Spec.Dates
import Verif.Lemmas.Py

/-!
# C83: rules about dates
-/

namespace Verif.Props
open Verif Py Dates

theorem isBound_iff (b : Option Str) : (∀ x, bound b = some x → ∃ y, IsBound b y ∧ ∀ z, IsBound b z → z = y) := by
  intro x h
  unfold bound at h
  rcases b with _ | s
  · exact ⟨none, .absent, fun z hz => by cases hz; rfl⟩
  · simp only at h
    by_cases h1 : s = c!"undef"
    · subst h1
      exact ⟨none, .undef, fun z hz => by cases hz <;> first | rfl | contradiction⟩
    · by_cases h2 : s = []
      · subst h2
        exact ⟨none, .empty, fun z hz => by cases hz <;> first | rfl | contradiction⟩
      · simp only [h1, h2, if_false] at h
        cases h3 : int? s with
        | none => simp [h3] at h
        | some n =>
          by_cases hn : n = 0
          · subst hn
            refine ⟨none, .zero h1 h3, ?_⟩
            intro z hz
            cases hz with
            | undef => rfl
            | empty => rfl
            | zero => rfl
            | num _ _ h4 h5 => rw [h3] at h4; injection h4 with h4; exact absurd h4.symm h5
          · refine ⟨some n, .num h1 h2 h3 hn, ?_⟩
            intro z hz
            cases hz with
            | undef => exact absurd rfl h1
            | empty => exact absurd rfl h2
            | zero _ h4 => rw [h3] at h4; injection h4 with h4; exact absurd h4 hn
            | num _ _ h4 _ => rw [h3] at h4; exact h4.symm

theorem bound_of {b : Option Str} {y : Option Int} (h : IsBound b y) :
    ∃ x, bound b = some x ∧ (x = y ∨ x = some 0 ∧ y = none) := by
  cases h with
  | absent => exact ⟨none, rfl, Or.inl rfl⟩
  | undef => exact ⟨none, rfl, Or.inl rfl⟩
  | empty => exact ⟨none, rfl, Or.inl rfl⟩
  | zero h1 h2 =>
    rename_i s
    have h3 : s ≠ [] := fun h => by subst h; exact absurd h2 (by decide)
    exact ⟨some 0, by simp [bound, h1, h2, h3], Or.inr ⟨rfl, rfl⟩⟩
  | num h1 h2 h3 h4 => exact ⟨some _, by simp [bound, h1, h2, h3], Or.inl rfl⟩

theorem within_iff {a b : Option Str} {x y x' y' : Option Int} (n : Int) (h1 : IsBound a x') (h2 : IsBound b y')
    (ha : x = x' ∨ x = some 0 ∧ x' = none) (hb : y = y' ∨ y = some 0 ∧ y' = none) :
    within x y n = true ↔ Within x' y' n := by
  have hx : ∀ v, x' = some v → v ≠ 0 := by
    intro v hv; subst hv; cases h1; assumption
  have hy : ∀ v, y' = some v → v ≠ 0 := by
    intro v hv; subst hv; cases h2; assumption
  unfold within Within
  rw [Bool.and_eq_true]
  apply and_congr
  · rcases ha with rfl | ⟨rfl, rfl⟩
    · cases x with
      | none => simp
      | some v => simp [hx v rfl]
    · simp
  · rcases hb with rfl | ⟨rfl, rfl⟩
    · cases y with
      | none => simp
      | some v => simp [hy v rfl]
    · simp

section good
variable {L : DateLib} {m : Mail} {t : Int} {ts : List Int}

theorem loopReceived_of {rs : List (Option Str)} (h : Stamps L rs ts) (acc : List Int) :
    loopReceived L acc rs = (true, acc ++ ts) := by
  induction h generalizing acc with
  | nil => simp [loopReceived]
  | skip h1 _ ih => unfold loopReceived; simp only [h1]; exact ih acc
  | cons h1 h2 h3 _ ih =>
    unfold loopReceived
    simp only [h1, parseDate, h2, h3]
    rw [ih]; simp

theorem loopDates_ok (ds : List (Option Str)) (x : Option Int)
    (h : ∀ d ∈ ds, ∃ w o r, L.parsedateTz d = some (w, o) ∧ L.mktime w = .ok r) : ∃ y, loopDates L x ds = some y := by
  cases ds with
  | nil => exact ⟨x, rfl⟩
  | cons d ds =>
    obtain ⟨w, o, r, h1, h2⟩ := h d (by simp)
    exact ⟨some r, by simp [loopDates, parseDate, h1, h2]⟩

theorem headerTime_fresh (g : Dated L m t ts) (l : Locals) (h : l.header = none) :
    headerTime L m l = (some (.at t), { l with header := some (.at t) }) := by
  obtain ⟨y, hy⟩ := loopDates_ok (L := L) m.resent none g.resent
  obtain ⟨d, rest, w, o, h1, h2, h3⟩ := g.date
  have : loopDates L y m.date = some (some t) := by rw [h1]; simp [loopDates, parseDate, h2, h3]
  unfold headerTime
  simp only [h, hy, this]

/-- What is kept of a message whose dates are understood. -/
structure Kept (L : DateLib) (m : Mail) (t : Int) (ts : List Int) (l : Locals) : Prop where
  header : l.header = none ∨ l.header = some (.at t)
  received : l.received = none ∨ l.received = some ts
  diff : l.diff = none ∨ ∃ d, l.diff = some d ∧ Shift t ts d
  median : l.median = none ∨ ∃ x, l.median = some (.at x) ∧ Median (ts ++ [t]) x

theorem headerTime_kept (g : Dated L m t ts) {l : Locals} (k : Kept L m t ts l) :
    headerTime L m l = (some (.at t), { l with header := some (.at t) }) := by
  rcases k.header with h | h
  · exact headerTime_fresh g l h
  · unfold headerTime
    obtain ⟨a, b, c, d⟩ := l
    simp only at h
    simp only [h]

theorem receivedTimes_kept (g : Dated L m t ts) {l : Locals} (k : Kept L m t ts l) :
    receivedTimes L m l = (some ts, { l with received := some ts }) := by
  unfold receivedTimes
  rcases k.received with h | h
  · simp only [h, loopReceived_of g.received, List.nil_append]
  · obtain ⟨a, b, c, d⟩ := l
    simp only at h
    simp only [h]

theorem natAbs_max (a b : Int) : ((a - b).natAbs : Int) = max (a - b) (b - a) := by omega

theorem sorted_diffs (t : Int) (ts : List Int) :
    (∃ d r, sortedBy (fun (a b : Int) => decide (a < b)) (diffs t ts) = d :: r ∧ Shift t ts d) ∨
    (sortedBy (fun (a b : Int) => decide (a < b)) (diffs t ts) = [] ∧ Shift t ts 0) := by
  have hp := sortedBy_perm (fun (a b : Int) => decide (a < b)) (diffs t ts)
  have hw := sortedBy_pairwise (fun (a b : Int) => decide (a < b))
    (fun a b c h1 h2 => by simp at *; omega) (fun a b h => by simp at *; omega) (diffs t ts)
  have hmem : ∀ d, d ∈ diffs t ts ↔ ∃ r ∈ ts, r ≠ t ∧ d = max (r - t) (t - r) := by
    intro d
    unfold diffs
    rw [List.mem_filter, List.mem_map]
    constructor
    · rintro ⟨⟨r, hr, rfl⟩, h⟩
      simp at h
      exact ⟨r, hr, fun h' => by subst h'; omega, natAbs_max _ _⟩
    · rintro ⟨r, hr, hn, rfl⟩
      exact ⟨⟨r, hr, natAbs_max _ _⟩, by simp; omega⟩
  cases hs : sortedBy (fun (a b : Int) => decide (a < b)) (diffs t ts) with
  | nil =>
    refine Or.inr ⟨rfl, Or.inr ⟨rfl, ?_⟩⟩
    intro r hr
    rw [hs] at hp
    have hnil : diffs t ts = [] := hp.symm.eq_nil
    by_cases h : r = t
    · exact h
    · have := (hmem _).2 ⟨r, hr, h, rfl⟩
      rw [hnil] at this; simp at this
  | cons d r =>
    refine Or.inl ⟨d, r, rfl, Or.inl ⟨?_, ?_⟩⟩
    · have : d ∈ diffs t ts := hp.subset (by rw [hs]; simp)
      exact (hmem d).1 this
    · intro x hx hn
      have hm : max (x - t) (t - x) ∈ sortedBy (fun (a b : Int) => decide (a < b)) (diffs t ts) :=
        hp.symm.subset ((hmem _).2 ⟨x, hx, hn, rfl⟩)
      rw [hs] at hm hw
      rcases List.mem_cons.1 hm with h | h
      · omega
      · have := (List.pairwise_cons.1 hw).1 _ h
        simp at this; omega

theorem dateDiff_kept (g : Dated L m t ts) {l : Locals} (k : Kept L m t ts l) :
    ∃ d, (dateDiff L m l).1 = some d ∧ Shift t ts d ∧ Kept L m t ts (dateDiff L m l).2 := by
  unfold dateDiff
  rcases k.diff with h | ⟨d, h, hd⟩
  · simp only [h]
    have e1 : headerTime L m { l with diff := some 0 } = (some (.at t), { l with diff := some 0, header := some (.at t) }) := by
      rcases k.header with h' | h'
      · exact headerTime_fresh g { l with diff := some 0 } h'
      · unfold headerTime
        simp only [h']
    have e2 : receivedTimes L m { l with diff := some 0, header := some (.at t) } =
        (some ts, { l with diff := some 0, header := some (.at t), received := some ts }) := by
      unfold receivedTimes
      rcases k.received with h' | h'
      · simp only [h', loopReceived_of g.received, List.nil_append]
      · simp only [h']
    simp only [e1, e2]
    cases ts with
    | nil =>
      have hs : Shift t [] 0 := Or.inr ⟨rfl, by simp⟩
      exact ⟨0, rfl, hs, Or.inr rfl, Or.inr rfl, Or.inr ⟨0, rfl, hs⟩, k.median⟩
    | cons a as =>
      simp only
      rcases sorted_diffs t (a :: as) with ⟨d, r, hs, hd⟩ | ⟨hs, hd⟩
      · simp only [hs]
        exact ⟨d, rfl, hd, Or.inr rfl, Or.inr rfl, Or.inr ⟨d, rfl, hd⟩, k.median⟩
      · simp only [hs]
        exact ⟨0, rfl, hd, Or.inr rfl, Or.inr rfl, Or.inr ⟨0, rfl, hd⟩, k.median⟩
  · simp only [h]
    exact ⟨d, rfl, hd, k⟩

theorem dateReceived_kept (g : Dated L m t ts) {l : Locals} (k : Kept L m t ts l) :
    ∃ x, (dateReceived L m l).1 = some (.at x) ∧ Median (ts ++ [t]) x ∧ Kept L m t ts (dateReceived L m l).2 := by
  unfold dateReceived
  rcases k.median with h | ⟨d, h, hd⟩
  · simp only [h]
    rw [receivedTimes_kept g k]
    have k1 : Kept L m t ts { l with received := some ts } := ⟨k.header, Or.inr rfl, k.diff, k.median⟩
    simp only [headerTime_kept g k1]
    cases ts with
    | nil =>
      have hm : Median ([] ++ [t]) t := ⟨[t], List.Perm.refl _, by simp, by simp⟩
      exact ⟨t, rfl, hm, Or.inr rfl, Or.inr rfl, k.diff, Or.inr ⟨t, rfl, hm⟩⟩
    | cons a as =>
      simp only
      have hp := sortedBy_perm (fun (a b : Int) => decide (b < a)) (a :: as ++ [t])
      have hw := sortedBy_pairwise (fun (a b : Int) => decide (b < a))
        (fun a b c h1 h2 => by simp at *; omega) (fun a b h => by simp at *; omega) (a :: as ++ [t])
      have hlen := hp.length_eq
      have hlt : (a :: as ++ [t]).length / 2 < (sortedBy (fun (a b : Int) => decide (b < a)) (a :: as ++ [t])).length := by
        rw [hlen]; simp only [List.length_append, List.length_cons, List.length_nil]; omega
      rw [List.getElem?_eq_getElem hlt]
      simp only
      refine ⟨_, rfl, ?_, Or.inr rfl, Or.inr rfl, k.diff, Or.inr ⟨_, rfl, ?_⟩⟩ <;>
        exact ⟨_, hp, hw.imp (fun h => by simp at h; exact h), List.getElem?_eq_getElem hlt⟩
  · simp only [h]
    exact ⟨d, rfl, hd, k⟩

theorem shifted_kept (g : Dated L m t ts) {l : Locals} (k : Kept L m t ts l) (a b : Option Str) :
    Kept L m t ts (shiftedDate L a b m l).2 ∧ ∀ x y, IsBound a x → IsBound b y → ∃ d, Shift t ts d ∧
      ∃ r, (shiftedDate L a b m l).1 = some r ∧ (r = true ↔ Within x y (d / 3600)) := by
  obtain ⟨d, h1, h2, h3⟩ := dateDiff_kept g k
  constructor
  · unfold shiftedDate
    split
    · rw [show dateDiff L m l = (some d, (dateDiff L m l).2) from Prod.ext h1 rfl]
      exact h3
    · exact k
  · intro x y hx hy
    obtain ⟨x', hx', hx2⟩ := bound_of hx
    obtain ⟨y', hy', hy2⟩ := bound_of hy
    refine ⟨d, h2, within x' y' (d / 3600), ?_, within_iff _ hx hy hx2 hy2⟩
    unfold shiftedDate
    rw [hx', hy']
    simp only
    rw [show dateDiff L m l = (some d, (dateDiff L m l).2) from Prod.ext h1 rfl]

theorem months_kept (g : Dated L m t ts) {l : Locals} (k : Kept L m t ts l) (now : Int) (a b : Option Str) :
    Kept L m t ts (withinMonths L now a b m l).2 ∧ ∀ x y, IsBound a x → IsBound b y → ∃ d, Median (ts ++ [t]) d ∧
      ∃ r, (withinMonths L now a b m l).1 = some r ∧ (r = true ↔ Within x y (monthsField (L.months now d))) := by
  obtain ⟨d, h1, h2, h3⟩ := dateReceived_kept g k
  constructor
  · unfold withinMonths
    split
    · rw [show dateReceived L m l = (some (.at d), (dateReceived L m l).2) from Prod.ext h1 rfl]
      exact h3
    · exact k
  · intro x y hx hy
    obtain ⟨x', hx', hx2⟩ := bound_of hx
    obtain ⟨y', hy', hy2⟩ := bound_of hy
    refine ⟨d, h2, within x' y' (monthsField (L.months now d)), ?_, within_iff _ hx hy hx2 hy2⟩
    unfold withinMonths
    rw [hx', hy']
    simp only
    rw [show dateReceived L m l = (some (.at d), (dateReceived L m l).2) from Prod.ext h1 rfl]
    simp

theorem after_kept (g : Dated L m t ts) (calls : List Call) : Kept L m t ts (after L m calls) := by
  have key : ∀ (cs : List Call) (l : Locals), Kept L m t ts l → Kept L m t ts (cs.foldl (Call.keep L m) l) := by
    intro cs
    induction cs with
    | nil => intro l k; exact k
    | cons c cs ih =>
      intro l k
      rw [List.foldl_cons]
      apply ih
      cases c with
      | shifted a b => exact (shifted_kept g k a b).1
      | months now a b => exact (months_kept g k now a b).1
  exact key calls fresh ⟨Or.inl rfl, Or.inl rfl, Or.inl rfl, Or.inl rfl⟩

end good

/-- **C83** (partial).  If the dates of a message are understood, then whatever rules were evaluated before, the rule
about a shifted date holds exactly if the smallest non-zero distance of `Date` from a `Received` date, in whole hours,
is within the bounds. -/
theorem C83_shifted_partial {L : DateLib} {m : Mail} {t : Int} {ts : List Int} (g : Dated L m t ts) (calls : List Call)
    (a b : Option Str) (x y : Option Int) (hx : IsBound a x) (hy : IsBound b y) :
    ∃ d, Shift t ts d ∧ ∃ r, (shiftedDate L a b m (after L m calls)).1 = some r ∧ (r = true ↔ Within x y (d / 3600)) :=
  (shifted_kept g (after_kept g calls) a b).2 x y hx hy

/-- **C83** (partial).  The same for the age of a message in months, if it is less than a year. -/
theorem C83_months_partial {L : DateLib} {m : Mail} {t : Int} {ts : List Int} (g : Dated L m t ts) (calls : List Call)
    (now : Int) (a b : Option Str) (x y : Option Int) (hx : IsBound a x) (hy : IsBound b y) :
    ∃ d, Median (ts ++ [t]) d ∧ ∃ r, (withinMonths L now a b m (after L m calls)).1 = some r ∧
      (-12 < L.months now d → L.months now d < 12 → (r = true ↔ Within x y (L.months now d))) := by
  obtain ⟨d, h1, r, h2, h3⟩ := (months_kept g (after_kept g calls) now a b).2 x y hx hy
  refine ⟨d, h1, r, h2, ?_⟩
  intro h4 h5
  rw [h3]
  have : monthsField (L.months now d) = L.months now d := by unfold monthsField; split <;> omega
  rw [this]

/-- **C83** is violated: whole years do not count, so that no message is twelve months old or older, and one that is
exactly some years old is as good as new. -/
theorem C83_years_violated {L : DateLib} {m : Mail} {t : Int} {ts : List Int} (g : Dated L m t ts) (calls : List Call)
    (now : Int) (a b : Option Str) (x y : Option Int) (hx : IsBound a x) (hy : IsBound b y) :
    ((∃ n, x = some n ∧ 12 ≤ n) → (withinMonths L now a b m (after L m calls)).1 = some false) ∧
    ((∀ d, Median (ts ++ [t]) d → ∃ k, L.months now d = 12 * k) →
      ∃ r, (withinMonths L now a b m (after L m calls)).1 = some r ∧ (r = true ↔ Within x y 0)) := by
  obtain ⟨d, h1, r, h2, h3⟩ := (months_kept g (after_kept g calls) now a b).2 x y hx hy
  constructor
  · rintro ⟨n, rfl, hn⟩
    rw [h2]
    congr 1
    cases hr : r
    · rfl
    · exfalso
      have := (h3.1 hr).1 n rfl
      unfold monthsField at this
      split at this <;> omega
  · intro hk
    obtain ⟨k, hk⟩ := hk d h1
    refine ⟨r, h2, ?_⟩
    rw [h3]
    have : monthsField (L.months now d) = 0 := by rw [hk]; unfold monthsField; split <;> omega
    rw [this]

/-- **C83** is violated: the offsets from UTC are dropped, so that dates that are the same moment, written in different
zones, count as shifted by the difference of the zones. -/
theorem C83_zone_violated {L : DateLib} {m : Mail} (k w₁ w₂ o₁ o₂ : Int) (hk : ∀ w, L.mktime w = .ok (w + k))
    (same : w₁ - o₁ = w₂ - o₂) (hr : m.resent = []) {d : Option Str} (hd : m.date = [d])
    (h1 : L.parsedateTz d = some (w₁, some o₁)) {r : Option Str} {c : Char} {s : Str} (hm : m.received = [r])
    (hi : L.dateIn r = some (c :: s)) (h2 : L.parsedateTz (some (c :: s)) = some (w₂, some o₂)) (calls : List Call)
    (a b : Option Str) (x y : Option Int) (hx : IsBound a x) (hy : IsBound b y) :
    ∃ v, (shiftedDate L a b m (after L m calls)).1 = some v ∧
      (v = true ↔ Within x y (max (o₁ - o₂) (o₂ - o₁) / 3600)) := by
  have g : Dated L m (w₁ + k) [w₂ + k] :=
    { resent := by rw [hr]; simp
      date := ⟨d, [], w₁, some o₁, hd, h1, hk w₁⟩
      received := by rw [hm]; exact .cons hi h2 (hk w₂) .nil }
  obtain ⟨e, he, v, hv, hw⟩ := C83_shifted_partial g calls a b x y hx hy
  refine ⟨v, hv, ?_⟩
  rw [hw]
  have : e = max (o₁ - o₂) (o₂ - o₁) := by
    rcases he with ⟨⟨r', hr', hn, he⟩, _⟩ | ⟨he, ht⟩
    · simp only [List.mem_singleton] at hr'
      subst hr'; omega
    · have := ht (w₂ + k) (by simp)
      omega
  rw [this]

/-- **C83** is violated: a `Received` date equal to `Date` is passed over for one further away. -/
theorem C83_exact_violated {L : DateLib} {m : Mail} {t u : Int} (g : Dated L m t [t, u]) (hu : u ≠ t) (calls : List Call)
    (a b : Option Str) (x y : Option Int) (hx : IsBound a x) (hy : IsBound b y) :
    ∃ v, (shiftedDate L a b m (after L m calls)).1 = some v ∧ (v = true ↔ Within x y (max (u - t) (t - u) / 3600)) := by
  obtain ⟨e, he, v, hv, hw⟩ := C83_shifted_partial g calls a b x y hx hy
  refine ⟨v, hv, ?_⟩
  rw [hw]
  have : e = max (u - t) (t - u) := by
    rcases he with ⟨⟨r', hr', hn, he⟩, _⟩ | ⟨he, ht⟩
    · simp only [List.mem_cons, List.not_mem_nil, or_false] at hr'
      rcases hr' with rfl | rfl
      · exact absurd rfl hn
      · exact he
    · exact absurd (ht u (by simp)) hu
  rw [this]

theorem headerTime_diff (L : DateLib) (m : Mail) (l : Locals) : (headerTime L m l).2.diff = l.diff := by
  unfold headerTime
  split
  · rfl
  · split
    · rfl
    · split <;> rfl

theorem receivedTimes_diff (L : DateLib) (m : Mail) (l : Locals) : (receivedTimes L m l).2.diff = l.diff := by
  unfold receivedTimes
  split
  · rfl
  · split <;> rfl

theorem dateDiff_nonneg (L : DateLib) (m : Mail) (l : Locals) (h : ∀ d, l.diff = some d → 0 ≤ d) :
    (∀ d, (dateDiff L m l).1 = some d → 0 ≤ d) ∧ ∀ d, (dateDiff L m l).2.diff = some d → 0 ≤ d := by
  unfold dateDiff
  split
  · rename_i d hd
    have := h d hd
    constructor
    · intro e he; injection he with he; omega
    · intro e he; exact h e he
  · have e1 := headerTime_diff L m { l with diff := some 0 }
    simp only
    split
    · rename_i h1
      rw [h1] at e1
      refine ⟨by simp, fun d hd => ?_⟩
      simp only at hd e1
      rw [e1] at hd; injection hd with hd; omega
    · rename_i t' l1 h1
      rw [h1] at e1
      simp only at e1
      have e2 := receivedTimes_diff L m l1
      split
      · rename_i h2
        rw [h2] at e2
        refine ⟨by simp, fun d hd => ?_⟩
        simp only at hd e2
        rw [e2, e1] at hd; injection hd with hd; omega
      · rename_i ts l2 h2
        rw [h2] at e2
        simp only at e2
        split
        · constructor <;> (intro d hd; injection hd with hd; omega)
        · rename_i u _
          split
          · rename_i d rest hs
            have : d ∈ diffs u ts := (sortedBy_perm _ _).subset (by rw [hs]; simp)
            have hd0 : 0 ≤ d := by
              unfold diffs at this
              rw [List.mem_filter, List.mem_map] at this
              obtain ⟨⟨r, _, rfl⟩, _⟩ := this
              omega
            constructor <;> (intro e he; injection he with he; omega)
          · constructor <;> (intro e he; injection he with he; omega)
        · refine ⟨by simp, fun d hd => ?_⟩
          rw [e2, e1] at hd; injection hd with hd; omega

theorem dateReceived_diff (L : DateLib) (m : Mail) (l : Locals) : (dateReceived L m l).2.diff = l.diff := by
  unfold dateReceived
  split
  · rfl
  · have e1 := receivedTimes_diff L m l
    split
    · rename_i h1; rw [h1] at e1; exact e1
    · rename_i ts l1 h1
      rw [h1] at e1
      have e2 := headerTime_diff L m l1
      split
      · rename_i h2; rw [h2] at e2; exact e2.trans e1
      · rename_i t' l2 h2
        rw [h2] at e2
        split
        · exact e2.trans e1
        · simp only
          split
          · exact e2.trans e1
          · exact e2.trans e1
        · exact e2.trans e1

theorem after_nonneg (L : DateLib) (m : Mail) (calls : List Call) : ∀ d, (after L m calls).diff = some d → 0 ≤ d := by
  have key : ∀ (cs : List Call) (l : Locals), (∀ d, l.diff = some d → 0 ≤ d) →
      ∀ d, (cs.foldl (Call.keep L m) l).diff = some d → 0 ≤ d := by
    intro cs
    induction cs with
    | nil => intro l h; exact h
    | cons c cs ih =>
      intro l h
      rw [List.foldl_cons]
      apply ih
      cases c with
      | shifted a b =>
        show ∀ d, (shiftedDate L a b m l).2.diff = some d → 0 ≤ d
        unfold shiftedDate
        split
        · have := (dateDiff_nonneg L m l h).2
          split
          · rename_i h1; rw [h1] at this; exact this
          · rename_i h1; rw [h1] at this; exact this
        · exact h
      | months now a b =>
        have hd := dateReceived_diff L m l
        show ∀ d, (withinMonths L now a b m l).2.diff = some d → 0 ≤ d
        unfold withinMonths
        split
        · split <;> (rename_i h1; rw [h1] at hd; simp only at hd ⊢; rw [hd]; exact h)
        · exact h
  exact key calls fresh (by intro d h; cases h)

/-- **C83** is violated: a rule with a negative upper bound, for dates in the past that is, holds of no message. -/
theorem C83_past_violated (L : DateLib) (m : Mail) (calls : List Call) (a b : Option Str) (n : Int) (hb : IsBound b (some n))
    (hn : n < 0) : (shiftedDate L a b m (after L m calls)).1 ≠ some true := by
  have h := (dateDiff_nonneg L m _ (after_nonneg L m calls)).1
  obtain ⟨y, hy, hy2⟩ := bound_of hb
  have hy3 : y = some n := by
    rcases hy2 with h | ⟨_, h⟩
    · exact h
    · cases h
  subst hy3
  unfold shiftedDate
  rw [hy]
  cases bound a with
  | none => simp
  | some x =>
    simp only
    split
    · simp
    · rename_i d l' h1
      have hd := h d (by rw [h1])
      intro hh
      injection hh with hh
      unfold within at hh
      rw [Bool.and_eq_true] at hh
      have := hh.2
      simp only [Bool.or_eq_true, decide_eq_true_eq] at this
      omega

/-- **C83** is violated: zero as upper bound is no bound. -/
theorem C83_zero_violated (L : DateLib) (m : Mail) (l : Locals) (a : Option Str) :
    (shiftedDate L a (some c!"0") m l).1 = (shiftedDate L a none m l).1 := by
  have h0 : bound (some c!"0") = some (some 0) := by decide
  unfold shiftedDate
  rw [h0]
  have h1 : bound none = some none := rfl
  rw [h1]
  cases bound a with
  | none => rfl
  | some x =>
    simp only
    split
    · rfl
    · simp [within]

theorem shifted_later {L : DateLib} {m : Mail} {l : Locals} (h : l.diff = some 0) {a b : Option Str} {x y : Option Int}
    (hx : IsBound a x) (hy : IsBound b y) :
    ∃ v, (shiftedDate L a b m l).1 = some v ∧ (v = true ↔ Within x y 0) := by
  obtain ⟨x', hx', hx2⟩ := bound_of hx
  obtain ⟨y', hy', hy2⟩ := bound_of hy
  refine ⟨within x' y' 0, ?_, within_iff _ hx hy hx2 hy2⟩
  unfold shiftedDate dateDiff
  simp only [hx', hy', h]
  rfl

/-- **C83** is violated: a message with `Received` dates but no `Date` makes the first rule about shifted dates raise,
and for the rules after it the shift is zero. -/
theorem C83_nodate_violated {L : DateLib} {m : Mail} {t : Int} {ts : List Int} (hr : m.resent = []) (hd : m.date = [])
    (hs : Stamps L m.received (t :: ts)) (a b a' b' : Option Str) (x y x' y' : Option Int) (hx : IsBound a x) (hy : IsBound b y)
    (hx' : IsBound a' x') (hy' : IsBound b' y') :
    (shiftedDate L a b m fresh).1 = none ∧
    ∃ v, (shiftedDate L a' b' m (shiftedDate L a b m fresh).2).1 = some v ∧ (v = true ↔ Within x' y' 0) := by
  obtain ⟨p, hp, _⟩ := bound_of hx
  obtain ⟨q, hq, _⟩ := bound_of hy
  have e : shiftedDate L a b m fresh =
      (none, { header := some .minusOne, received := some (t :: ts), diff := some 0, median := none }) := by
    unfold shiftedDate dateDiff headerTime receivedTimes fresh
    simp only [hp, hq, hr, hd, loopDates, loopReceived_of hs, List.nil_append]
  rw [e]
  exact ⟨rfl, shifted_later rfl hx' hy'⟩

/-- **C83** is violated: a `Date` that is not understood makes the first rule raise, and for the rules after it the
shift is zero. -/
theorem C83_bad_violated {L : DateLib} {m : Mail} (hr : m.resent = []) {d : Option Str} {rest : List (Option Str)}
    (hd : m.date = d :: rest) (hp : L.parsedateTz d = none) (a b a' b' : Option Str) (x y x' y' : Option Int)
    (hx : IsBound a x) (hy : IsBound b y) (hx' : IsBound a' x') (hy' : IsBound b' y') :
    (shiftedDate L a b m fresh).1 = none ∧
    ∃ v, (shiftedDate L a' b' m (shiftedDate L a b m fresh).2).1 = some v ∧ (v = true ↔ Within x' y' 0) := by
  obtain ⟨p, hp', _⟩ := bound_of hx
  obtain ⟨q, hq, _⟩ := bound_of hy
  have e : shiftedDate L a b m fresh = (none, { header := none, received := none, diff := some 0, median := none }) := by
    unfold shiftedDate dateDiff headerTime fresh
    simp only [hp', hq, hr, hd, loopDates, parseDate, hp]
  rw [e]
  exact ⟨rfl, shifted_later rfl hx' hy'⟩

theorem loopReceived_bad {L : DateLib} {rs rest : List (Option Str)} {ts : List Int} (h : Stamps L rs ts) {r : Option Str} {c : Char}
    {s : Str} (h1 : L.dateIn r = some (c :: s)) (h2 : L.parsedateTz (some (c :: s)) = none) (acc : List Int) :
    loopReceived L acc (rs ++ r :: rest) = (false, acc ++ ts) := by
  induction h generalizing acc with
  | nil => simp [loopReceived, h1, parseDate, h2]
  | skip g1 _ ih => rw [List.cons_append]; unfold loopReceived; simp only [g1]; exact ih acc
  | cons g1 g2 g3 _ ih =>
    rw [List.cons_append]
    unfold loopReceived
    simp only [g1, parseDate, g2, g3]
    rw [ih]; simp

/-- **C83** is violated: a date in a `Received` header that is not understood makes the first rule raise, and for the rules after it
the shift is zero, whatever the other dates are. -/
theorem C83_received_violated {L : DateLib} {m : Mail} {rs rest : List (Option Str)} {ts : List Int} (hr : m.resent = [])
    {d : Option Str} {ds : List (Option Str)} {w : Int} {o : Option Int} {t : Int} (hd : m.date = d :: ds)
    (hp : L.parsedateTz d = some (w, o)) (ht : L.mktime w = .ok t)
    (hs : Stamps L rs ts) {r : Option Str} {c : Char} {s : Str} (h1 : L.dateIn r = some (c :: s))
    (h2 : L.parsedateTz (some (c :: s)) = none) (hm : m.received = rs ++ r :: rest) (a b a' b' : Option Str)
    (x y x' y' : Option Int) (hx : IsBound a x) (hy : IsBound b y) (hx' : IsBound a' x') (hy' : IsBound b' y') :
    (shiftedDate L a b m fresh).1 = none ∧
    (∃ v, (shiftedDate L a' b' m (shiftedDate L a b m fresh).2).1 = some v ∧ (v = true ↔ Within x' y' 0)) ∧
    ∀ now, (withinMonths L now a b m fresh).1 = none := by
  obtain ⟨p, hp', _⟩ := bound_of hx
  obtain ⟨q, hq, _⟩ := bound_of hy
  have e : shiftedDate L a b m fresh =
      (none, { header := some (.at t), received := some ts, diff := some 0, median := none }) := by
    unfold shiftedDate dateDiff headerTime receivedTimes fresh
    simp only [hp', hq, hr, hd, loopDates, parseDate, hp, ht, hm, loopReceived_bad hs h1 h2, List.nil_append]
  rw [e]
  refine ⟨rfl, shifted_later rfl hx' hy', fun now => ?_⟩
  unfold withinMonths dateReceived receivedTimes fresh
  simp only [hp', hq, hm, loopReceived_bad hs h1 h2]

/-- **C83** is violated: for a message without dates, the rule about months has an answer, but raises if a rule about
shifted dates was evaluated before. -/
theorem C83_order_violated {L : DateLib} {m : Mail} (hr : m.resent = []) (hd : m.date = []) (hs : m.received = [])
    (now : Int) (a b a' b' : Option Str) (x y x' y' : Option Int) (hx : IsBound a x) (hy : IsBound b y)
    (hx' : IsBound a' x') (hy' : IsBound b' y') :
    (∃ v, (withinMonths L now a b m fresh).1 = some v ∧ (v = true ↔ Within x y 0)) ∧
    (withinMonths L now a b m (shiftedDate L a' b' m fresh).2).1 = none := by
  obtain ⟨p, hp, hp2⟩ := bound_of hx
  obtain ⟨q, hq, hq2⟩ := bound_of hy
  obtain ⟨p', hp', _⟩ := bound_of hx'
  obtain ⟨q', hq', _⟩ := bound_of hy'
  constructor
  · refine ⟨within p q 0, ?_, within_iff _ hx hy hp2 hq2⟩
    unfold withinMonths dateReceived receivedTimes headerTime fresh
    simp only [hp, hq, hr, hd, hs, loopDates, loopReceived]
  · have e : (shiftedDate L a' b' m fresh).2 =
        { header := some .minusOne, received := some [], diff := some 0, median := none } := by
      unfold shiftedDate dateDiff headerTime receivedTimes fresh
      simp only [hp', hq', hr, hd, hs, loopDates, loopReceived]
    rw [e]
    unfold withinMonths dateReceived receivedTimes headerTime
    simp only [hp, hq]

/-- A library that understands dates of one letter: the hour of day, `+` for an offset of an hour. -/
def toyDates : DateLib :=
  { parsedateTz := fun d => match d with
      | some [c] => some (3600 * (c.toNat - 97), some 0)
      | some [c, '+'] => some (3600 * (c.toNat - 97), some 3600)
      | _ => none
    mktime := fun w => .ok (w + 7200)
    dateIn := fun r => r
    months := fun a b => (a - b) / 2592000 }

example : Dated toyDates { resent := [], date := [some c!"b"], received := [some c!"d", some c!"c"] } 10800 [18000, 14400] :=
  { resent := by simp
    date := ⟨_, _, _, _, rfl, rfl, rfl⟩
    received := .cons rfl rfl rfl (.cons rfl rfl rfl .nil) }
example : (shiftedDate toyDates (some c!"1") (some c!"2") { resent := [], date := [some c!"b"], received := [some c!"c+"] }
    fresh).1 = some true := by decide +kernel
example : IsBound (some c!"undef") none ∧ IsBound (some c!"-6") (some (-6)) := ⟨.undef, .num (by decide) (by decide) rfl (by decide)⟩
example : (shiftedDate toyDates none none { resent := [], date := [], received := [some c!"c"] } fresh).1 = none := by
  decide +kernel

end Verif.Props
