import Verif.Spec.Attachments
import Verif.Lemmas.Py

/-!
# C107 and C108: images and PDF documents
-/

namespace Verif.Props
open Verif Py Attachments

theorem bump_get (d : Dict Str Nat) (k j : Str) (n : Nat) :
    (Dict.get? (bump d k n) j).getD 0 = (Dict.get? d j).getD 0 + if j = k then n else 0 := by
  unfold bump
  rw [Dict.get?_set]
  by_cases h : j = k
  · subst h; simp
  · simp [h, Ne.symm h]

theorem bumpBoth_get (d : Dict Str Nat) (k j : Str) (n : Nat) (h : k ≠ c!"all") :
    (Dict.get? (bumpBoth d k n) j).getD 0 = (Dict.get? d j).getD 0 + if j = c!"all" ∨ k = j then n else 0 := by
  unfold bumpBoth
  rw [bump_get, bump_get]
  by_cases h1 : j = c!"all"
  · subst h1; simp [Ne.symm h]
  · by_cases h2 : k = j
    · subst h2; simp [h]
    · simp [h1, h2, Ne.symm h2]

theorem saveStats_rest (lib : ImageLib) (s s' : Images) (pl : List Nat) (t : Str) (h : saveStats lib s pl t = some s') :
    s'.names = s.names ∧ s'.counts = s.counts := by
  unfold saveStats at h
  split at h
  · cases h; exact ⟨rfl, rfl⟩
  · split at h
    · cases h
    · cases h; exact ⟨rfl, rfl⟩
    · cases h; exact ⟨rfl, rfl⟩

/-! ## C107: images -/

theorem images_names (lib : ImageLib) (ps : List Part) (s s' : Images) (h : extractImages lib s ps = some s') (n : Option Str) :
    n ∈ s'.names ↔ n ∈ s.names ∨ ∃ p ∈ ps, p.maintype = c!"image" ∧ p.name = n := by
  induction ps generalizing s with
  | nil => cases h; simp
  | cons p ps ih =>
    unfold extractImages at h
    split at h
    · cases h
    · rename_i s1 h1
      rw [ih s1 h]
      unfold extractImage at h1
      split at h1
      · rename_i hi
        rw [(saveStats_rest _ _ _ _ _ h1).1]
        simp only [List.mem_cons, exists_eq_or_imp, hi, true_and]
        constructor
        · rintro ((rfl | h) | h)
          · exact Or.inr (Or.inl rfl)
          · exact Or.inl h
          · exact Or.inr (Or.inr h)
        · rintro (h | rfl | h)
          · exact Or.inl (Or.inr h)
          · exact Or.inl (Or.inl rfl)
          · exact Or.inr h
      · rename_i hi
        cases h1
        simp [hi]

/-- **C107**, names.  The rule about names holds exactly if an image of the message has the name. -/
theorem C107_named (lib : ImageLib) (ps : List Part) (s : Images) (h : extractImages lib .none ps = some s) (n : Str) :
    imageNamed s n = true ↔ ∃ p ∈ ps, p.maintype = c!"image" ∧ p.name = some n := by
  unfold imageNamed
  rw [List.contains_iff_mem, images_names lib ps _ s h]
  simp [Images.none]

/-- What has been kept after the parts `seen`. -/
structure ImagesKept (lib : ImageLib) (seen : List Part) (s : Images) : Prop where
  counts : ∀ t, (Dict.get? s.counts t).getD 0 = (seen.filter (ofType t)).length
  coverage : ∀ t, (Dict.get? s.coverage t).getD 0 = ((seen.filter (ofType t)).map fun p => areaOf (lib.opened p.payload)).sum
  sizes : ∀ id v, Dict.get? (sizesOf s c!"all") id = some v ↔
    ∃ p ∈ seen, p.maintype = c!"image" ∧ lib.digest p.payload = id ∧ lib.opened p.payload = .size v.1 v.2

/-- The part may be added: its type is not `all`, and it has the digest of another image only if it is the same. -/
structure Fresh (lib : ImageLib) (seen : List Part) (p : Part) : Prop where
  type : p.maintype = c!"image" → p.subtype ≠ c!"all"
  same : ∀ q ∈ seen, lib.digest q.payload = lib.digest p.payload → q.payload = p.payload

theorem ofType_image (t : Str) (p : Part) (h : p.maintype = c!"image") :
    ofType t p = decide (t = c!"all" ∨ p.subtype = t) := by
  simp [ofType, h]

theorem ofType_other (t : Str) (p : Part) (h : p.maintype ≠ c!"image") : ofType t p = false := by
  simp [ofType, h]

theorem sizesOf_set (s : Images) (t k : Str) (id : Str) (v : Nat × Nat) (h : t ≠ c!"all") :
    (Dict.get? (Dict.set (Dict.set s.sizes c!"all" (Dict.set (sizesOf s c!"all") id v)) t
      (Dict.set ((Dict.get? (Dict.set s.sizes c!"all" (Dict.set (sizesOf s c!"all") id v)) t).getD []) id v)) k).getD [] =
    if k = c!"all" ∨ t = k then Dict.set (sizesOf s k) id v else sizesOf s k := by
  rw [Dict.get?_set_ne _ _ (Ne.symm h)]
  by_cases h1 : t = k
  · subst h1; simp [sizesOf]
  · rw [Dict.get?_set_ne _ _ h1]
    by_cases h2 : k = c!"all"
    · subst h2; simp
    · rw [Dict.get?_set_ne _ _ (Ne.symm h2)]
      simp [h1, h2, sizesOf]

theorem kept_step (lib : ImageLib) (seen : List Part) (p : Part) (s s' : Images) (hf : Fresh lib seen p) (hk : ImagesKept lib seen s)
    (h : extractImage lib s p = some s') : ImagesKept lib (seen ++ [p]) s' := by
  unfold extractImage at h
  split at h
  · rename_i hi
    have ht := hf.type hi
    have hc : ∀ t, (Dict.get? s'.counts t).getD 0 = ((seen ++ [p]).filter (ofType t)).length := by
      intro t
      rw [(saveStats_rest _ _ _ _ _ h).2, bumpBoth_get _ _ _ _ ht, hk.counts t, List.filter_append, List.length_append]
      by_cases hx : t = c!"all" ∨ p.subtype = t
      · simp [ofType_image t p hi, hx]
      · simp [ofType_image t p hi, hx]
    have hcov : ∀ a, lib.opened p.payload = a → s'.coverage = bumpBoth s.coverage p.subtype (areaOf a) →
        ∀ t, (Dict.get? s'.coverage t).getD 0 =
          (((seen ++ [p]).filter (ofType t)).map fun p => areaOf (lib.opened p.payload)).sum := by
      intro a ha he t
      rw [he, bumpBoth_get _ _ _ _ ht, hk.coverage t, List.filter_append, List.map_append, List.sum_append]
      by_cases hx : t = c!"all" ∨ p.subtype = t
      · simp [ofType_image t p hi, hx, ha]
      · simp [ofType_image t p hi, hx]
    unfold saveStats at h
    split at h
    · rename_i w hh hg
      cases h
      obtain ⟨q, hq, hqi, hd, ho⟩ := (hk.sizes _ _).mp hg
      have hp := hf.same q hq hd
      rw [hp] at ho
      refine ⟨hc, hcov _ ho rfl, fun id v => ?_⟩
      refine (hk.sizes id v).trans ?_
      simp only [List.mem_append, List.mem_singleton, or_and_right, exists_or, exists_eq_left]
      constructor
      · exact Or.inl
      · rintro (h | ⟨_, h1, h2⟩)
        · exact h
        · exact ⟨q, hq, hqi, hp ▸ h1, hp ▸ h2⟩
    · rename_i hg
      split at h
      · cases h
      · rename_i ho
        cases h
        refine ⟨hc, ?_, fun id v => ?_⟩
        · intro t
          refine (hk.coverage t).trans ?_
          rw [List.filter_append, List.map_append, List.sum_append]
          by_cases hx : ofType t p = true
          · simp [hx, ho, areaOf]
          · simp [hx]
        · refine (hk.sizes id v).trans ?_
          simp only [List.mem_append, List.mem_singleton, or_and_right, exists_or, exists_eq_left]
          constructor
          · exact Or.inl
          · rintro (h | ⟨_, _, h2⟩)
            · exact h
            · rw [ho] at h2; cases h2
      · rename_i w hh ho
        cases h
        refine ⟨hc, hcov _ ho rfl, fun id v => ?_⟩
        have e := sizesOf_set s p.subtype c!"all" (lib.digest p.payload) (w, hh) ht
        simp only [true_or, if_true] at e
        have e' : sizesOf { s with
            names := p.name :: s.names, counts := bumpBoth s.counts p.subtype 1,
            sizes := Dict.set (Dict.set s.sizes c!"all" (Dict.set (sizesOf s c!"all") (lib.digest p.payload) (w, hh))) p.subtype
              (Dict.set ((Dict.get? (Dict.set s.sizes c!"all" (Dict.set (sizesOf s c!"all") (lib.digest p.payload) (w, hh)))
                p.subtype).getD []) (lib.digest p.payload) (w, hh)),
            coverage := bumpBoth s.coverage p.subtype (w * hh) } c!"all" =
            Dict.set (sizesOf s c!"all") (lib.digest p.payload) (w, hh) := e
        refine Iff.trans (Eq.to_iff (congrArg (fun x => Dict.get? x id = some v) e')) ?_
        rw [Dict.get?_set]
        simp only [List.mem_append, List.mem_singleton, or_and_right, exists_or, exists_eq_left, hi, ho, true_and]
        have hg' : ∀ v, ¬ Dict.get? (sizesOf s c!"all") (lib.digest p.payload) = some v := by
          intro v hv
          have hg0 : Dict.get? (sizesOf s c!"all") (lib.digest p.payload) = none := hg
          rw [hg0] at hv; cases hv
        by_cases hid : lib.digest p.payload = id
        · subst hid
          simp only [if_true, Option.some.injEq, true_and]
          have := fun v => (not_congr (hk.sizes (lib.digest p.payload) v)).mp (hg' v)
          constructor
          · rintro rfl; exact Or.inr rfl
          · rintro (h | h)
            · exact absurd h (this v)
            · cases v; cases h; rfl
        · rw [if_neg (fun e => hid e)]
          simp only [hid, false_and, or_false]
          exact hk.sizes id v
  · rename_i hi
    cases h
    refine ⟨fun t => ?_, fun t => ?_, fun id v => ?_⟩
    · rw [hk.counts t, List.filter_append]; simp [ofType_other t p hi]
    · rw [hk.coverage t, List.filter_append]; simp [ofType_other t p hi]
    · rw [hk.sizes id v]
      simp [or_and_right, exists_or, hi]

/-- The conditions under which the partial theorems are proved: no image is of a type called `all`, and images with the same
digest are the same. -/
structure Proper (lib : ImageLib) (ps : List Part) : Prop where
  types : ∀ p ∈ ps, p.maintype = c!"image" → p.subtype ≠ c!"all"
  digests : ∀ p ∈ ps, ∀ q ∈ ps, lib.digest p.payload = lib.digest q.payload → p.payload = q.payload

theorem kept_all (lib : ImageLib) (ps seen : List Part) (s s' : Images) (hp : Proper lib (seen ++ ps)) (hk : ImagesKept lib seen s)
    (h : extractImages lib s ps = some s') : ImagesKept lib (seen ++ ps) s' := by
  induction ps generalizing s seen with
  | nil => cases h; simpa using hk
  | cons p ps ih =>
    unfold extractImages at h
    split at h
    · cases h
    · rename_i s1 h1
      have := ih (seen ++ [p]) s1 (by simpa using hp) (kept_step lib seen p s s1
        ⟨hp.types p (by simp), fun q hq => hp.digests q (by simp [hq]) p (by simp)⟩ hk h1) h
      simpa using this

theorem kept_none (lib : ImageLib) : ImagesKept lib [] .none := by
  refine ⟨fun t => rfl, fun t => rfl, fun id v => ?_⟩
  simp [Images.none, sizesOf]

theorem kept_of (lib : ImageLib) (ps : List Part) (s : Images) (hp : Proper lib ps) (h : extractImages lib .none ps = some s) :
    ImagesKept lib ps s := kept_all lib ps [] .none s hp (kept_none lib) h

theorem written_int (a : Arg) (x : Int) (h : Written a x) : a.int = some x := by
  cases a with
  | num n => exact congrArg some h
  | text t => exact h

theorem int_truthy (a : Arg) (x : Int) (h : a.int = some x) (h0 : a ≠ .num 0) : a.truthy = true := by
  cases a with
  | num n => simp [Arg.truthy]; rintro rfl; exact h0 rfl
  | text s =>
    cases s with
    | nil =>
      have : (Arg.text []).int = none := by decide
      rw [this] at h; cases h
    | cons => rfl

theorem inRange_exact (n : Nat) (lo : Arg) (hi : Option Arg) (l : Int) (h : Option Int) (hb : Bounds lo hi l h) :
    inRange n lo hi = some (decide (Within n l h)) := by
  unfold inRange
  rw [written_int _ _ hb.low]
  have hh := hb.high
  cases hi with
  | none =>
    cases h with
    | none => simp [Within]
    | some => exact hh.elim
  | some a =>
    cases h with
    | none => exact hh.elim
    | some x =>
      simp only [int_truthy a x (written_int _ _ hh.1) hh.2, written_int _ _ hh.1, if_true]
      simp [Within]

/-- **C107** (partial), numbers.  The rule holds exactly if the number of images of the type is in the range, bounds included. -/
theorem C107_count_partial (lib : ImageLib) (ps : List Part) (s : Images) (hp : Proper lib ps)
    (h : extractImages lib .none ps = some s) (t : Str) (lo : Arg) (hi : Option Arg) (l : Int) (u : Option Int) (hb : Bounds lo hi l u) :
    imageCount s t lo hi = some (decide (Within (ps.filter (ofType t)).length l u)) := by
  unfold imageCount
  rw [inRange_exact _ lo hi l u hb, (kept_of lib ps s hp h).counts t]

/-- **C107** (partial), areas.  The rule holds exactly if the sum of the areas of the images of the type is in the range. -/
theorem C107_coverage_partial (lib : ImageLib) (ps : List Part) (s : Images) (hp : Proper lib ps)
    (h : extractImages lib .none ps = some s) (t : Str) (lo : Arg) (hi : Option Arg) (l : Int) (u : Option Int) (hb : Bounds lo hi l u) :
    pixelCoverage s t lo hi =
      some (decide (Within (((ps.filter (ofType t)).map fun p => areaOf (lib.opened p.payload)).sum : Nat) l u)) := by
  unfold pixelCoverage
  rw [inRange_exact _ lo hi l u hb, (kept_of lib ps s hp h).coverage t]

theorem written_float (parse : Str → Option Rat) (a : Arg) (x : Rat) (h : WrittenRatio parse a x) : a.float parse = some x := by
  cases a with
  | num n => exact congrArg some h
  | text t => exact h

/-- **C107** (partial), ratio.  Length of the text by the area of the images, or the length if there are none; the bounds are written as
numbers or in quotes, the greatest not as the number zero and not as an empty text. -/
theorem C107_ratio_partial (parse : Str → Option Rat) (lib : ImageLib) (ps : List Part) (s : Images) (hp : Proper lib ps)
    (h : extractImages lib .none ps = some s) (t : Str) (len : Nat) (a b : Arg) (lo hi : Rat) (ha : WrittenRatio parse a lo)
    (hb : WrittenRatio parse b hi) (h0 : b ≠ .num 0) (h1 : b ≠ .text []) :
    ∃ area : Nat, area = ((ps.filter (ofType t)).map fun p => areaOf (lib.opened p.payload)).sum ∧
      (area ≠ 0 → imageRatio parse s t len a (some b) =
        some (decide (lo ≤ (len : Rat) / area ∧ (len : Rat) / area ≤ hi))) ∧
      (area = 0 → imageRatio parse s t len a (some b) =
        some (decide (lo ≤ (len : Rat) ∧ (len : Rat) ≤ hi))) ∧
      (area ≠ 0 → imageRatio parse s t len a none = some (decide (lo ≤ (len : Rat) / area))) ∧
      (area = 0 → imageRatio parse s t len a none = some (decide (lo ≤ (len : Rat)))) := by
  refine ⟨_, rfl, ?_⟩
  rw [← (kept_of lib ps s hp h).coverage t]
  have hu : b.truthy = true := by
    cases b with
    | num n =>
      simp only [Arg.truthy]
      by_cases hn : n = 0
      · exact absurd (congrArg Arg.num hn) h0
      · simpa using hn
    | text s =>
      cases s with
      | nil => exact absurd rfl h1
      | cons => rfl
  refine ⟨fun hc => ?_, fun hc => ?_, fun hc => ?_, fun hc => ?_⟩ <;>
    simp [imageRatio, hc, written_float parse a lo ha, written_float parse b hi hb, hu]

/-- The sizes kept for a type. -/
structure Sized (lib : ImageLib) (t : Str) (seen : List Part) (s : Images) : Prop where
  nodup : (Dict.keys (sizesOf s t)).Nodup
  exact : ∀ id v, Dict.get? (sizesOf s t) id = some v ↔
    ∃ p ∈ seen, ofType t p = true ∧ lib.digest p.payload = id ∧ lib.opened p.payload = .size v.1 v.2

theorem sized_step (lib : ImageLib) (t : Str) (seen : List Part) (p : Part) (s s' : Images) (hf : Fresh lib seen p)
    (hc : t = c!"all" ∨ ∀ q ∈ seen, q.maintype = c!"image" → p.maintype = c!"image" → q.payload = p.payload →
      q.subtype = p.subtype)
    (hk : ImagesKept lib seen s) (hs : Sized lib t seen s) (h : extractImage lib s p = some s') : Sized lib t (seen ++ [p]) s' := by
  unfold extractImage at h
  split at h
  · rename_i hi
    have ht := hf.type hi
    unfold saveStats at h
    split at h
    · rename_i w hh hg
      cases h
      obtain ⟨q, hq, hqi, hd, ho⟩ := (hk.sizes _ _).mp hg
      have hp := hf.same q hq hd
      refine ⟨hs.nodup, fun id v => (hs.exact id v).trans ?_⟩
      simp only [List.mem_append, List.mem_singleton, or_and_right, exists_or, exists_eq_left]
      constructor
      · exact Or.inl
      · rintro (h | ⟨h0, h1, h2⟩)
        · exact h
        · refine ⟨q, hq, ?_, hp ▸ h1, hp ▸ h2⟩
          rw [ofType_image t p hi, decide_eq_true_eq] at h0
          rw [ofType_image t q hqi, decide_eq_true_eq]
          rcases h0 with h0 | h0
          · exact Or.inl h0
          · rcases hc with hc | hc
            · exact Or.inl hc
            · exact Or.inr ((hc q hq hqi hi hp).trans h0)
    · rename_i hg
      split at h
      · cases h
      · rename_i ho
        cases h
        refine ⟨hs.nodup, fun id v => (hs.exact id v).trans ?_⟩
        simp only [List.mem_append, List.mem_singleton, or_and_right, exists_or, exists_eq_left]
        constructor
        · exact Or.inl
        · rintro (h | ⟨_, _, h2⟩)
          · exact h
          · rw [ho] at h2; cases h2
      · rename_i w hh ho
        cases h
        have e := sizesOf_set s p.subtype t (lib.digest p.payload) (w, hh) ht
        generalize hS : Dict.set (Dict.set s.sizes c!"all" (Dict.set (sizesOf s c!"all") (lib.digest p.payload) (w, hh))) p.subtype
          (Dict.set ((Dict.get? (Dict.set s.sizes c!"all" (Dict.set (sizesOf s c!"all") (lib.digest p.payload) (w, hh)))
            p.subtype).getD []) (lib.digest p.payload) (w, hh)) = S at e
        have hS' : sizesOf { s with
            names := p.name :: s.names, counts := bumpBoth s.counts p.subtype 1,
            sizes := Dict.set (Dict.set s.sizes c!"all" (Dict.set (sizesOf s c!"all") (lib.digest p.payload) (w, hh))) p.subtype
              (Dict.set ((Dict.get? (Dict.set s.sizes c!"all" (Dict.set (sizesOf s c!"all") (lib.digest p.payload) (w, hh)))
                p.subtype).getD []) (lib.digest p.payload) (w, hh)),
            coverage := bumpBoth s.coverage p.subtype (w * hh) } t = (Dict.get? S t).getD [] := by
          rw [hS]; rfl
        have hg0 : Dict.get? (sizesOf s c!"all") (lib.digest p.payload) = none := hg
        have hnone : ∀ v : Nat × Nat, ¬ ∃ q ∈ seen, ofType t q = true ∧ lib.digest q.payload = lib.digest p.payload ∧
            lib.opened q.payload = .size v.1 v.2 := by
          rintro v ⟨q, hq, h0, h1, h2⟩
          have hqi : q.maintype = c!"image" := Classical.byContradiction fun hn => by
            rw [ofType_other t q hn] at h0; cases h0
          have := (hk.sizes _ v).mpr ⟨q, hq, hqi, h1, h2⟩
          rw [hg0] at this; cases this
        have key : Sized lib t (seen ++ [p]) { s with sizes := S } := by
          have e2 : sizesOf { s with sizes := S } t = (Dict.get? S t).getD [] := rfl
          by_cases hx : t = c!"all" ∨ p.subtype = t
          · rw [if_pos hx] at e
            refine ⟨by rw [e2, e]; exact Dict.nodup_set _ _ _ hs.nodup, fun id v => ?_⟩
            rw [e2, e, Dict.get?_set]
            have hox : ofType t p = true := by rw [ofType_image t p hi, decide_eq_true_eq]; exact hx
            simp only [List.mem_append, List.mem_singleton, or_and_right, exists_or, exists_eq_left, ho, hox, true_and]
            by_cases hid : lib.digest p.payload = id
            · subst hid
              simp only [if_true, Option.some.injEq, true_and]
              constructor
              · rintro rfl; exact Or.inr rfl
              · rintro (h | h)
                · exact absurd h (hnone v)
                · cases v; cases h; rfl
            · rw [if_neg (fun e => hid e)]
              simp only [hid, false_and, or_false]
              exact hs.exact id v
          · rw [if_neg hx] at e
            refine ⟨by rw [e2, e]; exact hs.nodup, fun id v => ?_⟩
            rw [e2, e, hs.exact id v]
            have hox : ofType t p = false := by rw [ofType_image t p hi, decide_eq_false_iff_not]; exact hx
            simp [or_and_right, exists_or, hox]
        refine ⟨?_, fun id v => ?_⟩
        · refine Eq.mpr (congrArg (fun x => (Dict.keys x).Nodup) hS') key.nodup
        · exact Iff.trans (Eq.to_iff (congrArg (fun x => Dict.get? x id = some v) hS')) (key.exact id v)
  · rename_i hi
    cases h
    refine ⟨hs.nodup, fun id v => (hs.exact id v).trans ?_⟩
    simp [or_and_right, exists_or, ofType_other t p hi]

theorem sized_all (lib : ImageLib) (t : Str) (ps seen : List Part) (s s' : Images) (hp : Proper lib (seen ++ ps))
    (hc : t = c!"all" ∨ ∀ p ∈ seen ++ ps, ∀ q ∈ seen ++ ps, p.maintype = c!"image" → q.maintype = c!"image" →
      p.payload = q.payload → p.subtype = q.subtype)
    (hk : ImagesKept lib seen s) (hs : Sized lib t seen s) (h : extractImages lib s ps = some s') : Sized lib t (seen ++ ps) s' := by
  induction ps generalizing s seen with
  | nil => cases h; simpa using hs
  | cons p ps ih =>
    unfold extractImages at h
    split at h
    · cases h
    · rename_i s1 h1
      have hf : Fresh lib seen p := ⟨hp.types p (by simp), fun q hq => hp.digests q (by simp [hq]) p (by simp)⟩
      have := ih (seen ++ [p]) s1 (by simpa using hp) (by simpa using hc) (kept_step lib seen p s s1 hf hk h1)
        (sized_step lib t seen p s s1 hf (hc.imp id fun hc q hq h1 h2 h3 => hc q (by simp [hq]) p (by simp) h1 h2 h3) hk hs h1) h
      simpa using this

theorem sized_values (lib : ImageLib) (t : Str) (ps : List Part) (s : Images) (hs : Sized lib t ps s) (v : Nat × Nat) :
    v ∈ Dict.values (sizesOf s t) ↔ ∃ p ∈ ps, ofType t p = true ∧ lib.opened p.payload = .size v.1 v.2 := by
  constructor
  · intro h
    obtain ⟨⟨id, v'⟩, hm, rfl⟩ := List.mem_map.mp h
    obtain ⟨p, hp, h1, _, h2⟩ := (hs.exact id v').mp (Dict.get?_of_mem _ hs.nodup hm)
    exact ⟨p, hp, h1, h2⟩
  · rintro ⟨p, hp, h1, h2⟩
    have := (hs.exact (lib.digest p.payload) v).mpr ⟨p, hp, h1, rfl, h2⟩
    exact List.mem_map.mpr ⟨_, Dict.mem_of_get? _ this, rfl⟩

theorem sized_of (lib : ImageLib) (t : Str) (ps : List Part) (s : Images) (hp : Proper lib ps)
    (hc : t = c!"all" ∨ ∀ p ∈ ps, ∀ q ∈ ps, p.maintype = c!"image" → q.maintype = c!"image" →
      p.payload = q.payload → p.subtype = q.subtype)
    (h : extractImages lib .none ps = some s) : Sized lib t ps s := by
  refine sized_all lib t ps [] .none s hp hc (kept_none lib) ⟨by simp [Images.none, sizesOf, Dict.keys], fun id v => ?_⟩ h
  simp [Images.none, sizesOf]

/-- **C107** (partial), sizes.  The rule holds exactly if an image of the type has the height and the width. -/
theorem C107_size_partial (lib : ImageLib) (t : Str) (ps : List Part) (s : Images) (hp : Proper lib ps)
    (hc : t = c!"all" ∨ ∀ p ∈ ps, ∀ q ∈ ps, p.maintype = c!"image" → q.maintype = c!"image" →
      p.payload = q.payload → p.subtype = q.subtype)
    (h : extractImages lib .none ps = some s) (height width : Arg) (hh ww : Nat) (h1 : Written height hh)
    (h2 : Written width ww) :
    imageSizeExact s t height width = some true ↔ ∃ p ∈ ps, ofType t p = true ∧ lib.opened p.payload = .size ww hh := by
  unfold imageSizeExact
  rw [written_int _ _ h1, written_int _ _ h2]
  have hv := sized_values lib t ps s (sized_of lib t ps s hp hc h)
  simp only [Option.some.injEq, List.any_eq_true, Bool.and_eq_true, decide_eq_true_eq]
  constructor
  · rintro ⟨⟨w, k⟩, hm, e1, e2⟩
    have e1 : w = ww := by exact_mod_cast e1
    have e2 : k = hh := by exact_mod_cast e2
    subst e1 e2
    exact (hv _).mp hm
  · intro hx
    exact ⟨(ww, hh), (hv _).mpr hx, rfl, rfl⟩

theorem over_exact (n : Nat) (a : Option Arg) (h : Option Int) (hb : match a, h with
    | none, none => True
    | some a, some x => Written a x ∧ a ≠ .num 0
    | _, _ => False) : over n a = some (decide (∃ x, h = some x ∧ x < (n : Int))) := by
  unfold over
  cases a with
  | none =>
    cases h with
    | none => simp
    | some => exact hb.elim
  | some a =>
    cases h with
    | none => exact hb.elim
    | some x =>
      simp only [int_truthy a x (written_int _ _ hb.1) hb.2, written_int _ _ hb.1, if_true]
      simp

theorem rangeLoop_exact (mh mw : Arg) (xh xw : Option Arg) (a b : Int) (c d : Option Int) (h1 : Bounds mh xh a c)
    (h2 : Bounds mw xw b d) (l : List (Nat × Nat)) :
    rangeLoop mh mw xh xw l = some (decide (∃ i ∈ l, Within i.1 b d ∧ Within i.2 a c)) := by
  have neg : ∀ (n lo : Int) (u : Option Int), ¬ n < lo → (¬ ∃ x, u = some x ∧ x < n) → Within n lo u := by
    intro n lo u h1 h2
    exact ⟨by omega, fun x hx => by
      have : ¬ x < n := fun hlt => h2 ⟨x, hx, hlt⟩
      omega⟩
  induction l with
  | nil => simp [rangeLoop]
  | cons i l ih =>
    unfold rangeLoop
    rw [written_int _ _ h1.low, written_int _ _ h2.low, over_exact i.1 xw d h2.high, over_exact i.2 xh c h1.high]
    simp only [List.mem_cons, exists_eq_or_imp]
    by_cases hw : (i.1 : Int) < b
    · have : ¬ Within i.1 b d := fun hh => by have := hh.1; omega
      simp only [hw, if_true, ih, this, false_and, false_or]
    · by_cases hh : (i.2 : Int) < a
      · have : ¬ Within i.2 a c := fun h' => by have := h'.1; omega
        simp only [hw, if_false, hh, if_true, ih, this, and_false, false_or]
      · simp only [hw, hh, if_false]
        by_cases ho : ∃ x, d = some x ∧ x < (i.1 : Int)
        · have : ¬ Within i.1 b d := fun hx => by
            obtain ⟨x, e, hlt⟩ := ho; have := hx.2 x e; omega
          rw [decide_eq_true ho]
          simp only [ih, this, false_and, false_or]
        · rw [decide_eq_false ho]
          have g1 := neg _ _ _ hw ho
          by_cases ho' : ∃ x, c = some x ∧ x < (i.2 : Int)
          · have : ¬ Within i.2 a c := fun hx => by
              obtain ⟨x, e, hlt⟩ := ho'; have := hx.2 x e; omega
            rw [decide_eq_true ho']
            simp only [ih, this, and_false, false_or]
          · rw [decide_eq_false ho']
            have g2 := neg _ _ _ hh ho'
            simp [g1, g2]

/-- **C107** (partial), ranges of sizes.  The rule holds exactly if an image of the type has a height and a width in the ranges. -/
theorem C107_range_partial (lib : ImageLib) (t : Str) (ps : List Part) (s : Images) (hp : Proper lib ps)
    (hc : t = c!"all" ∨ ∀ p ∈ ps, ∀ q ∈ ps, p.maintype = c!"image" → q.maintype = c!"image" →
      p.payload = q.payload → p.subtype = q.subtype)
    (h : extractImages lib .none ps = some s) (mh mw : Arg) (xh xw : Option Arg) (a b : Int) (c d : Option Int)
    (h1 : Bounds mh xh a c) (h2 : Bounds mw xw b d) :
    imageSizeRange s t mh mw xh xw = some true ↔
      ∃ p ∈ ps, ofType t p = true ∧ ∃ width height, lib.opened p.payload = .size width height ∧ Within width b d ∧
        Within height a c := by
  unfold imageSizeRange
  rw [rangeLoop_exact mh mw xh xw a b c d h1 h2]
  have hv := sized_values lib t ps s (sized_of lib t ps s hp hc h)
  simp only [Option.some.injEq, decide_eq_true_eq, hv]
  constructor
  · rintro ⟨⟨w, k⟩, ⟨p, hp, h1, h2⟩, h3, h4⟩
    exact ⟨p, hp, h1, w, k, h2, h3, h4⟩
  · rintro ⟨p, hp, h1, w, k, h2, h3, h4⟩
    exact ⟨(w, k), ⟨p, hp, h1, h2⟩, h3, h4⟩

/-- **C107** is violated: a greatest number of zero is not a limit, so that a rule for messages without images holds for all
messages. -/
theorem C107_zero_violated (s : Images) (t : Str) (lo : Arg) :
    imageCount s t lo (some (.num 0)) = imageCount s t lo none ∧ imageCount s t (.num 0) (some (.num 0)) = some true ∧
    pixelCoverage s t (.num 0) (some (.num 0)) = some true ∧
    (∀ mh mw, imageSizeRange s t mh mw (some (.num 0)) (some (.num 0)) = imageSizeRange s t mh mw none none) ∧
    ∀ parse len, imageRatio parse s t len lo (some (.num 0)) = imageRatio parse s t len lo none := by
  refine ⟨rfl, ?_, ?_, fun mh mw => ?_, fun parse len => ?_⟩
  · simp [imageCount, inRange, Arg.int, Arg.truthy]
  · simp [pixelCoverage, inRange, Arg.int, Arg.truthy]
  · unfold imageSizeRange
    generalize Dict.values (sizesOf s t) = l
    induction l with
    | nil => rfl
    | cons i l ih => unfold rangeLoop; rw [ih]; rfl
  · unfold imageRatio
    cases lo.float parse <;> rfl

/-- **C107** is violated: images that say that they are of a type called `all` are counted twice. -/
theorem C107_all_violated (lib : ImageLib) (ps : List Part) (s : Images)
    (hp : ∀ p ∈ ps, p.maintype = c!"image" ∧ p.subtype = c!"all") (h : extractImages lib .none ps = some s) (lo : Int) :
    imageCount s c!"all" (.num lo) none = some (decide (lo ≤ 2 * (ps.length : Int))) := by
  have key : ∀ (ps : List Part) (s s' : Images), (∀ p ∈ ps, p.maintype = c!"image" ∧ p.subtype = c!"all") →
      extractImages lib s ps = some s' →
      (Dict.get? s'.counts c!"all").getD 0 = (Dict.get? s.counts c!"all").getD 0 + 2 * ps.length := by
    intro ps
    induction ps with
    | nil => intro s s' _ h; cases h; simp
    | cons p ps ih =>
      intro s s' hp h
      unfold extractImages at h
      split at h
      · cases h
      · rename_i s1 h1
        rw [ih s1 s' (fun q hq => hp q (by simp [hq])) h]
        unfold extractImage at h1
        rw [if_pos (hp p (by simp)).1, (hp p (by simp)).2] at h1
        rw [(saveStats_rest _ _ _ _ _ h1).2]
        simp only [bumpBoth, bump_get, if_true, List.length_cons]
        omega
  have := key ps .none s hp h
  simp only [imageCount, inRange, Arg.int, this]
  simp [Images.none]

/-- **C107** is violated: the size of an image is kept for the type of its first copy only.  If there is a copy of another type,
rules about sizes of that type do not see it. -/
theorem C107_copy_violated (lib : ImageLib) (p q : Part) (w h : Nat) (hp : p.maintype = c!"image") (hq : q.maintype = c!"image")
    (he : p.payload = q.payload) (ht : p.subtype ≠ q.subtype) (h1 : q.subtype ≠ c!"all")
    (ho : lib.opened q.payload = .size w h) :
    ∃ s, extractImages lib .none [p, q] = some s ∧ imageSizeExact s q.subtype (.num h) (.num w) = some false ∧
      imageSizeRange s q.subtype (.num 0) (.num 0) none none = some false := by
  have e1 : ∃ s, extractImage lib .none p = some s ∧ Dict.get? (sizesOf s c!"all") (lib.digest q.payload) = some (w, h) ∧
      sizesOf s q.subtype = [] := by
    unfold extractImage
    rw [if_pos hp]
    unfold saveStats
    simp only [Images.none, sizesOf, Dict.get?_nil, Option.getD_none, he, ho]
    refine ⟨_, rfl, ?_, ?_⟩
    · dsimp only
      by_cases ha : p.subtype = c!"all"
      · rw [ha]; simp
      · rw [Dict.get?_set_ne _ _ ha]; simp
    · dsimp only
      rw [Dict.get?_set_ne _ _ ht, Dict.get?_set_ne _ _ (Ne.symm h1)]
      rfl
  obtain ⟨s1, h2, h3, h4⟩ := e1
  have e2 : ∃ s, extractImage lib s1 q = some s ∧ sizesOf s q.subtype = [] := by
    unfold extractImage
    rw [if_pos hq]
    unfold saveStats
    have h3' : Dict.get? (sizesOf { s1 with names := q.name :: s1.names, counts := bumpBoth s1.counts q.subtype 1 } c!"all")
      (lib.digest q.payload) = some (w, h) := h3
    rw [h3']
    exact ⟨_, rfl, h4⟩
  obtain ⟨s2, h5, h6⟩ := e2
  refine ⟨s2, ?_, ?_, ?_⟩
  · simp only [extractImages, h2, h5]
  · simp [imageSizeExact, Arg.int, h6, Dict.values]
  · simp [imageSizeRange, h6, Dict.values, rangeLoop]

/-- **C107** is violated: an image that makes the library raise an exception other than the ones that are caught makes it
impossible to check the message. -/
theorem C107_raises_violated (lib : ImageLib) (a b : List Part) (p : Part) (hp : p.maintype = c!"image")
    (ho : lib.opened p.payload = .raises)
    (hd : ∀ q ∈ a, lib.digest q.payload ≠ lib.digest p.payload) : extractImages lib .none (a ++ p :: b) = none := by
  have inv : ∀ (a : List Part) (s s' : Images), extractImages lib s a = some s' →
      (∀ q ∈ a, lib.digest q.payload ≠ lib.digest p.payload) →
      Dict.get? (sizesOf s c!"all") (lib.digest p.payload) = none →
      Dict.get? (sizesOf s' c!"all") (lib.digest p.payload) = none := by
    intro a
    induction a with
    | nil => intro s s' h _ h0; cases h; exact h0
    | cons q a ih =>
      intro s s' h hq h0
      unfold extractImages at h
      split at h
      · cases h
      · rename_i s1 h1
        refine ih s1 s' h (fun r hr => hq r (by simp [hr])) ?_
        have hne := hq q (by simp)
        unfold extractImage at h1
        split at h1
        · unfold saveStats at h1
          split at h1
          · cases h1; exact h0
          · split at h1
            · cases h1
            · cases h1; exact h0
            · cases h1
              simp only [sizesOf]
              by_cases ha : q.subtype = c!"all"
              · rw [ha]
                simp only [Dict.get?_set_self, Option.getD_some]
                rw [Dict.get?_set_ne _ _ hne, Dict.get?_set_ne _ _ hne]
                exact h0
              · rw [Dict.get?_set_ne _ _ ha]
                simp only [Dict.get?_set_self, Option.getD_some]
                rw [Dict.get?_set_ne _ _ hne]
                exact h0
        · cases h1; exact h0
  have app : ∀ (a : List Part) (s : Images), extractImages lib s (a ++ p :: b) =
      (extractImages lib s a).bind fun s' => extractImages lib s' (p :: b) := by
    intro a
    induction a with
    | nil => intro s; rfl
    | cons q a ih =>
      intro s
      simp only [List.cons_append, extractImages]
      cases extractImage lib s q with
      | none => rfl
      | some s1 => exact ih s1
  rw [app]
  cases hx : extractImages lib .none a with
  | none => rfl
  | some s' =>
    have := inv a .none s' hx hd (by simp [Images.none, sizesOf])
    have e : extractImage lib s' p = none := by
      unfold extractImage
      rw [if_pos hp]
      unfold saveStats
      have h' : Dict.get? (sizesOf { s' with names := p.name :: s'.names, counts := bumpBoth s'.counts p.subtype 1 } c!"all")
        (lib.digest p.payload) = none := this
      rw [h', ho]
    simp [extractImages, e]

/-- **C107** is violated: the rule about expressions for names cannot be used: it is not registered, unlike the others. -/
theorem C107_regex_violated : c!"image_name_regex" ∉ imageRules ∧
    ∀ r ∈ [c!"image_named", c!"image_count", c!"pixel_coverage", c!"image_size_exact", c!"image_size_range", c!"image_to_text_ratio"],
      r ∈ imageRules := by decide +kernel

/-- A library for the examples: the digest is the payload, and the size is its first two bytes. -/
def toyImages : ImageLib where
  digest p := p.map (fun n => Char.ofNat (n + 97))
  opened p := match p with
    | [0] => .raises
    | [w, h] => .size w h
    | _ => .bad

-- a message with two images, a copy and one that cannot be opened
example : ∃ s, extractImages toyImages .none [⟨c!"image", c!"png", some c!"a.png", [2, 3]⟩, ⟨c!"text", c!"plain", none, [1]⟩,
      ⟨c!"image", c!"gif", none, [4, 5]⟩, ⟨c!"image", c!"png", some c!"b.png", [2, 3]⟩, ⟨c!"image", c!"png", none, [7]⟩] = some s ∧
    imageNamed s c!"b.png" = true ∧ imageCount s c!"png" (.num 3) (some (.text c!"3")) = some true ∧
    pixelCoverage s c!"png" (.num 12) (some (.num 12)) = some true ∧ imageSizeExact s c!"gif" (.num 5) (.text c!"4") = some true ∧
    imageSizeRange s c!"all" (.num 3) (.num 2) (some (.num 3)) (some (.num 3)) = some true ∧
    imageRatio (fun _ => none) s c!"all" 64 (.num 2) (some (.num 2)) = some true ∧
    imageRatio (fun t => if t = c!"2.5" then some (5 / 2) else none) s c!"all" 64 (.num 2) (some (.text c!"2.5")) = some true := by
  refine ⟨_, rfl, ?_⟩
  decide +kernel

/-! ## C108: PDF documents -/

theorem objects_exact (os : List XObject) (s : Pdfs) : os.foldl addObject s =
    { s with
      images := s.images + (os.filter (fun o => decide (o.subtype = c!"/Image"))).length,
      coverage := s.coverage + ((os.filter (fun o => decide (o.subtype = c!"/Image"))).map fun o => o.width * o.height).sum } := by
  induction os generalizing s with
  | nil => simp
  | cons o os ih =>
    rw [List.foldl_cons, ih]
    unfold addObject
    by_cases h : o.subtype = c!"/Image"
    · simp [h]; omega
    · simp [h]

theorem pages_exact (lib : PdfLib) (pages : List Page) (s : Pdfs) : ∃ f, pages.foldl (addPage lib) s =
    { s with
      fuzzy := f
      images := s.images + ((pages.flatMap fun p => p.objects.getD []).filter (fun o => decide (o.subtype = c!"/Image"))).length
      coverage := s.coverage +
        (((pages.flatMap fun p => p.objects.getD []).filter (fun o => decide (o.subtype = c!"/Image"))).map
          fun o => o.width * o.height).sum } := by
  induction pages generalizing s with
  | nil => exact ⟨s.fuzzy, by simp⟩
  | cons p pages ih =>
    rw [List.foldl_cons]
    obtain ⟨f, e⟩ := ih (addPage lib s p)
    refine ⟨f, ?_⟩
    rw [e]
    have : ∃ g, addPage lib s p = { s with
        fuzzy := g
        images := s.images + ((p.objects.getD []).filter (fun o => decide (o.subtype = c!"/Image"))).length
        coverage := s.coverage +
          (((p.objects.getD []).filter (fun o => decide (o.subtype = c!"/Image"))).map fun o => o.width * o.height).sum } := by
      unfold addPage
      dsimp only
      split
      · rename_i ho
        rw [ho]
        split
        · exact ⟨_, by simp; rfl⟩
        · exact ⟨s.fuzzy, by simp⟩
      · rename_i os ho
        rw [ho, objects_exact]
        split
        · exact ⟨_, rfl⟩
        · exact ⟨_, rfl⟩
    obtain ⟨g, e⟩ := this
    rw [e]
    simp [List.flatMap_cons, List.filter_append, List.length_append, List.map_append, List.sum_append, Nat.add_assoc]

/-- The details of a document. -/
def infoDict (i : Info) : Dict Str Str :=
  [(c!"author", i.author.getD []), (c!"creator", i.creator.getD []), (c!"producer", i.producer.getD []),
    (c!"title", i.title.getD [])]

theorem addInfo_get (d : Dict Str (Dict Str Str)) (id j : Str) (i : Info)
    (h : Dict.get? d id = none ∨ Dict.get? d id = some (infoDict i)) :
    Dict.get? (addInfo d id i) j = if id = j then some (infoDict i) else Dict.get? d j := by
  unfold addInfo addDetail
  by_cases hj : id = j
  · subst hj
    simp only [Dict.get?_set_self, Option.getD_some, if_true]
    rcases h with h | h <;> rw [h]
    · simp [Dict.set, infoDict]
    · simp [Dict.set, infoDict]
  · rw [if_neg hj]
    simp only [Dict.get?_set_ne _ _ hj]

theorem addInfo_nodup (d : Dict Str (Dict Str Str)) (id : Str) (i : Info) (h : (Dict.keys d).Nodup) :
    (Dict.keys (addInfo d id i)).Nodup :=
  Dict.nodup_set _ _ _ (Dict.nodup_set _ _ _ (Dict.nodup_set _ _ _ (Dict.nodup_set _ _ _ h)))

/-- What has been kept after the parts `seen`. -/
structure PdfKept (lib : PdfLib) (seen : List Part) (s : Pdfs) : Prop where
  names : ∀ n, n ∈ s.names ↔ ∃ p ∈ seen, isPdf p = true ∧ p.name = n
  count : s.count = (seen.filter isPdf).length
  images : s.images = ((seen.filter isPdf).map fun p => (imagesOf (lib.read p.payload)).length).sum
  coverage : s.coverage = ((seen.filter isPdf).map fun p => ((imagesOf (lib.read p.payload)).map fun o => o.width * o.height).sum).sum
  hashes : ∀ h, h ∈ s.hashes ↔ ∃ p ∈ seen, isPdf p = true ∧ lib.digest p.payload = h
  encrypted : true ∈ s.encrypted ↔ ∃ p ∈ seen, isPdf p = true ∧ lib.read p.payload = .encrypted
  bytes : s.bytes = if (seen.filter isPdf) = [] then none else some ((seen.filter isPdf).map fun p => p.payload.length).sum
  nodup : (Dict.keys s.details).Nodup

/-- The details kept, for documents that are the same if their digests are. -/
def DetailsKept (lib : PdfLib) (seen : List Part) (s : Pdfs) : Prop :=
  ∀ id d, Dict.get? s.details id = some d ↔ ∃ p ∈ seen, isPdf p = true ∧ lib.digest p.payload = id ∧
    ∃ i pages, lib.read p.payload = .document (some i) pages ∧ d = infoDict i

theorem isPdf_iff (p : Part) : isPdf p = true ↔ p.maintype = c!"application" ∧ p.subtype = c!"pdf" := by
  simp [isPdf]

theorem savePdf_exact (lib : PdfLib) (s s' : Pdfs) (pl : List Nat) (h : savePdf lib s pl = some s') :
    lib.read pl ≠ .broken ∧ s'.names = s.names ∧ s'.count = s.count ∧
    s'.images = s.images + (imagesOf (lib.read pl)).length ∧
    s'.coverage = s.coverage + ((imagesOf (lib.read pl)).map fun o => o.width * o.height).sum ∧
    s'.hashes = lib.digest pl :: s.hashes ∧ s'.bytes = some (s.bytes.getD 0 + pl.length) ∧
    (true ∈ s'.encrypted ↔ true ∈ s.encrypted ∨ lib.read pl = .encrypted) ∧
    (∀ i pages, lib.read pl = .document (some i) pages → s'.details = addInfo s.details (lib.digest pl) i) ∧
    ((∀ i pages, lib.read pl ≠ .document (some i) pages) → s'.details = s.details) := by
  unfold savePdf at h
  dsimp only at h
  split at h
  · cases h
  · rename_i hr
    cases h
    simp [hr, imagesOf]
  · rename_i info pages hr
    cases info with
    | none =>
      dsimp only at h
      obtain ⟨f, e⟩ := pages_exact lib pages
        { s with hashes := lib.digest pl :: s.hashes, bytes := some (s.bytes.getD 0 + pl.length), encrypted := false :: s.encrypted }
      rw [e] at h
      cases h
      simp [hr, imagesOf]
    | some i =>
      dsimp only at h
      obtain ⟨f, e⟩ := pages_exact lib pages
        { s with
          hashes := lib.digest pl :: s.hashes, bytes := some (s.bytes.getD 0 + pl.length), encrypted := false :: s.encrypted,
          details := addInfo s.details (lib.digest pl) i }
      rw [e] at h
      cases h
      refine ⟨by simp [hr], rfl, rfl, by simp [hr, imagesOf], by simp [hr, imagesOf], rfl, rfl, by simp [hr], ?_, ?_⟩
      · intro i' pages' hx
        rw [hr] at hx
        cases hx; rfl
      · intro hx
        exact absurd hr (hx i pages)

theorem pdf_step (lib : PdfLib) (seen : List Part) (p : Part) (s s' : Pdfs) (hk : PdfKept lib seen s)
    (h : extractPdf lib s p = some s') : PdfKept lib (seen ++ [p]) s' := by
  unfold extractPdf at h
  split at h
  · rename_i hi
    have hi := (isPdf_iff p).mpr hi
    obtain ⟨h1, h2, h3, h4, h5, h6, h7, h8, h9, h10⟩ := savePdf_exact _ _ _ _ h
    refine ⟨fun n => ?_, ?_, ?_, ?_, fun x => ?_, ?_, ?_, ?_⟩
    · rw [h2, List.mem_cons, hk.names n]
      simp only [List.mem_append, List.mem_singleton, or_and_right, exists_or, exists_eq_left, hi, true_and]
      rw [or_comm, eq_comm]
    · rw [h3, List.filter_append]
      simp [hi, hk.count]
    · rw [h4, List.filter_append]
      simp [hi, hk.images]
    · rw [h5, List.filter_append]
      simp [hi, hk.coverage]
    · rw [h6, List.mem_cons, hk.hashes x]
      simp only [List.mem_append, List.mem_singleton, or_and_right, exists_or, exists_eq_left, hi, true_and]
      rw [or_comm, eq_comm]
    · rw [h8, hk.encrypted]
      simp only [List.mem_append, List.mem_singleton, or_and_right, exists_or, exists_eq_left, hi, true_and]
    · rw [h7, List.filter_append, if_neg (by simp [hi])]
      have := hk.bytes
      dsimp only at *
      rw [this]
      by_cases he : seen.filter isPdf = []
      · simp [he, hi]
      · simp [he, hi]
    · by_cases hd : ∃ i pages, lib.read p.payload = .document (some i) pages
      · obtain ⟨i, pages, hd⟩ := hd
        rw [h9 i pages hd]
        exact addInfo_nodup _ _ _ hk.nodup
      · rw [h10 fun i pages e => hd ⟨i, pages, e⟩]
        exact hk.nodup
  · rename_i hi
    have hi : isPdf p = false := by
      rw [← Bool.not_eq_true, isPdf_iff]; exact hi
    cases h
    refine ⟨fun n => ?_, ?_, ?_, ?_, fun x => ?_, ?_, ?_, hk.nodup⟩
    · rw [hk.names n]; simp [or_and_right, exists_or, hi]
    · rw [hk.count, List.filter_append]; simp [hi]
    · rw [hk.images, List.filter_append]; simp [hi]
    · rw [hk.coverage, List.filter_append]; simp [hi]
    · rw [hk.hashes x]; simp [or_and_right, exists_or, hi]
    · rw [hk.encrypted]; simp [or_and_right, exists_or, hi]
    · rw [hk.bytes, List.filter_append]; simp [hi]

theorem details_step (lib : PdfLib) (seen : List Part) (p : Part) (s s' : Pdfs)
    (hf : ∀ q ∈ seen, lib.digest q.payload = lib.digest p.payload → q.payload = p.payload) (hk : DetailsKept lib seen s)
    (h : extractPdf lib s p = some s') : DetailsKept lib (seen ++ [p]) s' := by
  intro id d
  unfold extractPdf at h
  split at h
  · rename_i hi
    have hi := (isPdf_iff p).mpr hi
    obtain ⟨_, _, _, _, _, _, _, _, h9, h10⟩ := savePdf_exact _ _ _ _ h
    simp only [List.mem_append, List.mem_singleton, or_and_right, exists_or, exists_eq_left, hi, true_and]
    by_cases hd : ∃ i pages, lib.read p.payload = .document (some i) pages
    · obtain ⟨i, pages, hd⟩ := hd
      have hold : Dict.get? s.details (lib.digest p.payload) = none ∨ Dict.get? s.details (lib.digest p.payload) = some (infoDict i) := by
        cases hg : Dict.get? s.details (lib.digest p.payload) with
        | none => exact Or.inl rfl
        | some d' =>
          right
          obtain ⟨q, hq, _, hdig, i', pages', hr, rfl⟩ := (hk _ _).mp hg
          rw [hf q hq hdig, hd] at hr
          cases hr; rfl
      rw [h9 i pages hd]
      refine Iff.trans (Eq.to_iff (congrArg (· = some d) (addInfo_get s.details (lib.digest p.payload) id i hold))) ?_
      by_cases hid : lib.digest p.payload = id
      · subst hid
        simp only [if_true, Option.some.injEq, true_and]
        constructor
        · rintro rfl; exact Or.inr ⟨i, pages, hd, rfl⟩
        · rintro (⟨q, hq, _, hdig, i', pages', hr, rfl⟩ | ⟨i', pages', hr, rfl⟩)
          · rw [hf q hq hdig, hd] at hr; cases hr; rfl
          · rw [hd] at hr; cases hr; rfl
      · rw [if_neg hid, hk id d]
        simp [hid]
    · rw [h10 fun i pages e => hd ⟨i, pages, e⟩]
      refine (hk id d).trans ⟨Or.inl, ?_⟩
      rintro (h | ⟨_, i, pages, hr, _⟩)
      · exact h
      · exact absurd ⟨i, pages, hr⟩ hd
  · rename_i hi
    have hi : isPdf p = false := by
      rw [← Bool.not_eq_true, isPdf_iff]; exact hi
    cases h
    rw [hk id d]
    simp [or_and_right, exists_or, hi]

theorem pdf_of (lib : PdfLib) (ps : List Part) (s : Pdfs) (h : extractPdfs lib .none ps = some s) : PdfKept lib ps s := by
  have key : ∀ (ps seen : List Part) (s s' : Pdfs), PdfKept lib seen s → extractPdfs lib s ps = some s' →
      PdfKept lib (seen ++ ps) s' := by
    intro ps
    induction ps with
    | nil => intro seen s s' hk h; cases h; simpa using hk
    | cons p ps ih =>
      intro seen s s' hk h
      unfold extractPdfs at h
      split at h
      · cases h
      · rename_i s1 h1
        have := ih (seen ++ [p]) s1 s' (pdf_step lib seen p s s1 hk h1) h
        simpa using this
  refine key ps [] .none s ⟨?_, rfl, rfl, rfl, ?_, ?_, rfl, List.nodup_nil⟩ h <;> simp [Pdfs.none]

theorem details_of (lib : PdfLib) (ps : List Part)
    (hd : ∀ p ∈ ps, ∀ q ∈ ps, lib.digest p.payload = lib.digest q.payload → p.payload = q.payload) (s : Pdfs)
    (h : extractPdfs lib .none ps = some s) : DetailsKept lib ps s := by
  have key : ∀ (ps seen : List Part) (s s' : Pdfs),
      (∀ p ∈ seen ++ ps, ∀ q ∈ seen ++ ps, lib.digest p.payload = lib.digest q.payload → p.payload = q.payload) →
      DetailsKept lib seen s → extractPdfs lib s ps = some s' → DetailsKept lib (seen ++ ps) s' := by
    intro ps
    induction ps with
    | nil => intro seen s s' _ hk h; cases h; simpa using hk
    | cons p ps ih =>
      intro seen s s' hd hk h
      unfold extractPdfs at h
      split at h
      · cases h
      · rename_i s1 h1
        have := ih (seen ++ [p]) s1 s' (by simpa using hd)
          (details_step lib seen p s s1 (fun q hq => hd q (by simp [hq]) p (by simp)) hk h1) h
        simpa using this
  refine key ps [] .none s hd (fun id d => ?_) h
  simp [Pdfs.none]

theorem between_exact (n : Nat) (lo : Int) (hi : Option Int) (h : hi ≠ some 0) :
    between n (.num lo) (hi.map .num) = some (decide (Within n lo hi)) := by
  unfold between
  cases hi with
  | none =>
    by_cases hl : lo ≤ (n : Int) <;> simp [Within, hl]
  | some x =>
    have hx : x ≠ 0 := fun e => h (by rw [e])
    by_cases hl : lo ≤ (n : Int) <;> simp [Within, hl, Arg.truthy, hx]

/-- **C108** (partial), numbers.  With bounds written as numbers, the upper one not zero, the rules hold exactly if the number of
documents, the number of images in them, and the sum of the areas of these are in the range. -/
theorem C108_numbers_partial (lib : PdfLib) (ps : List Part) (s : Pdfs) (h : extractPdfs lib .none ps = some s) (lo : Int)
    (hi : Option Int) (h0 : hi ≠ some 0) :
    pdfCount s (.num lo) (hi.map .num) = some (decide (Within (ps.filter isPdf).length lo hi)) ∧
    pdfImageCount s (.num lo) (hi.map .num) =
      some (decide (Within (((ps.filter isPdf).map fun p => (imagesOf (lib.read p.payload)).length).sum : Nat) lo hi)) ∧
    pdfCoverage s (.num lo) (hi.map .num) =
      some (decide (Within (((ps.filter isPdf).map fun p =>
        ((imagesOf (lib.read p.payload)).map fun o => o.width * o.height).sum).sum : Nat) lo hi)) := by
  have hk := pdf_of lib ps s h
  refine ⟨?_, ?_, ?_⟩
  · unfold pdfCount; rw [between_exact _ lo hi h0, hk.count]
  · unfold pdfImageCount; rw [between_exact _ lo hi h0, hk.images]
  · unfold pdfCoverage; rw [between_exact _ lo hi h0, hk.coverage]

/-- **C108** (partial).  The rules about names, digests, encryption and small documents: each holds exactly if a document of the
message is what it says; the last if there are documents and they are not longer than the limit. -/
theorem C108_documents_partial (lib : PdfLib) (ps : List Part) (s : Pdfs) (h : extractPdfs lib .none ps = some s) :
    (∀ n, pdfNamed s n = true ↔ ∃ p ∈ ps, isPdf p = true ∧ p.name = some n) ∧
    (∀ x, pdfMd5 s x = true ↔ ∃ p ∈ ps, isPdf p = true ∧ lib.digest p.payload = x) ∧
    (pdfEncrypted s = true ↔ ∃ p ∈ ps, isPdf p = true ∧ lib.read p.payload = .encrypted) ∧
    (∀ l : Int, pdfEmpty s (.num l) = some true ↔ (∃ p ∈ ps, isPdf p = true) ∧
      (((ps.filter isPdf).map fun p => p.payload.length).sum : Nat) ≤ l) := by
  have hk := pdf_of lib ps s h
  refine ⟨fun n => ?_, fun x => ?_, ?_, fun l => ?_⟩
  · unfold pdfNamed; rw [List.contains_iff_mem, hk.names]
  · unfold pdfMd5; rw [List.contains_iff_mem, hk.hashes]
  · unfold pdfEncrypted; rw [List.contains_iff_mem, hk.encrypted]
  · unfold pdfEmpty
    rw [hk.bytes]
    have hf : ps.filter isPdf = [] ↔ ¬ ∃ p ∈ ps, isPdf p = true := by simp
    by_cases he : ps.filter isPdf = []
    · rw [if_pos he]
      simp [hf.mp he]
    · rw [if_neg he]
      have hx : ∃ p ∈ ps, isPdf p = true := Classical.byContradiction fun hn => he (hf.mpr hn)
      simp [hx]

/-- **C108** (partial), details.  The rule holds exactly if one of the four details of a document, whichever is asked for, is
matched; a detail that a document does not give is an empty text. -/
theorem C108_details_partial (lib : PdfLib) (ps : List Part)
    (hd : ∀ p ∈ ps, ∀ q ∈ ps, lib.digest p.payload = lib.digest q.payload → p.payload = q.payload) (s : Pdfs)
    (h : extractPdfs lib .none ps = some s) (re : Str → Bool) (detail : Str) :
    pdfDetails re s detail = true ↔ ∃ p ∈ ps, isPdf p = true ∧ ∃ i pages, lib.read p.payload = .document (some i) pages ∧
      ∃ x ∈ [i.author, i.creator, i.producer, i.title], re (x.getD []) = true := by
  have hk := pdf_of lib ps s h
  have hdk := details_of lib ps hd s h
  have hi : ∀ i, (Dict.values (infoDict i)).any re = true ↔ ∃ x ∈ [i.author, i.creator, i.producer, i.title], re (x.getD []) = true := by
    intro i
    simp [Dict.values, infoDict]
  unfold pdfDetails
  rw [List.any_eq_true]
  constructor
  · rintro ⟨d, hm, hr⟩
    obtain ⟨⟨id, d'⟩, hm', rfl⟩ := List.mem_map.mp hm
    obtain ⟨p, hp, h1, _, i, pages, h3, h4⟩ := (hdk id d').mp (Dict.get?_of_mem _ hk.nodup hm')
    dsimp only at hr
    rw [h4] at hr
    exact ⟨p, hp, h1, i, pages, h3, (hi i).mp hr⟩
  · rintro ⟨p, hp, h1, i, pages, h3, hr⟩
    have := (hdk (lib.digest p.payload) (infoDict i)).mpr ⟨p, hp, h1, rfl, i, pages, h3, rfl⟩
    exact ⟨_, List.mem_map.mpr ⟨_, Dict.mem_of_get? _ this, rfl⟩, (hi i).mpr hr⟩

/-- **C108** (partial), expressions for names.  If all documents have names, the rule holds exactly if one of the names is matched, in
whatever order Python goes through the set of names. -/
theorem C108_regex_partial (lib : PdfLib) (ps : List Part) (s : Pdfs) (h : extractPdfs lib .none ps = some s) (re : Str → Bool)
    (hn : ∀ p ∈ ps, isPdf p = true → p.name ≠ none) (order : List (Option Str)) (ho : ∀ n, n ∈ order ↔ n ∈ s.names) :
    nameLoop re order ≠ none ∧
      (nameLoop re order = some true ↔ ∃ p ∈ ps, isPdf p = true ∧ ∃ n, p.name = some n ∧ re n = true) := by
  have hk := pdf_of lib ps s h
  have loop : ∀ l : List (Option Str), none ∉ l →
      nameLoop re l ≠ none ∧ (nameLoop re l = some true ↔ ∃ n, some n ∈ l ∧ re n = true) := by
    intro l
    induction l with
    | nil => intro _; simp [nameLoop]
    | cons a l ih =>
      intro hl
      cases a with
      | none => simp at hl
      | some n =>
        obtain ⟨h1, h2⟩ := ih fun hh => hl (by simp [hh])
        simp only [nameLoop]
        split
        · rename_i hr
          exact ⟨by simp, ⟨fun _ => ⟨n, by simp, hr⟩, fun _ => rfl⟩⟩
        · rename_i hr
          refine ⟨h1, h2.trans ⟨?_, ?_⟩⟩
          · rintro ⟨m, h1, h2⟩; exact ⟨m, by simp [h1], h2⟩
          · rintro ⟨m, h1, h2⟩
            rcases List.mem_cons.mp h1 with h1 | h1
            · cases h1; exact absurd h2 hr
            · exact ⟨m, h1, h2⟩
  have hnone : none ∉ order := by
    intro hh
    obtain ⟨p, hp, h3, h4⟩ := (hk.names _).mp ((ho _).mp hh)
    exact hn p hp h3 h4
  obtain ⟨l1, l2⟩ := loop order hnone
  refine ⟨l1, l2.trans ⟨?_, ?_⟩⟩
  · rintro ⟨n, h1, h2⟩
    obtain ⟨p, hp, h3, h4⟩ := (hk.names _).mp ((ho _).mp h1)
    exact ⟨p, hp, h3, n, h4, h2⟩
  · rintro ⟨p, hp, h3, n, h4, h2⟩
    exact ⟨n, (ho _).mpr ((hk.names _).mpr ⟨p, hp, h3, h4⟩), h2⟩

/-- **C108** is violated: if one document has no name, whether the rule about expressions for names holds depends on the order in
which Python goes through a set. -/
theorem C108_order_violated (re : Str → Bool) (n : Str) (h : re n = true) :
    ∃ o o' : List (Option Str), (∀ x, x ∈ o ↔ x ∈ o') ∧ nameLoop re o = some true ∧ nameLoop re o' = none := by
  refine ⟨[some n, none], [none, some n], fun x => ?_, by simp [nameLoop, h], rfl⟩
  simp [or_comm]

/-- **C108** is violated: the detail that the rule asks for makes no difference, so that a rule about authors holds for a title. -/
theorem C108_detail_violated (re : Str → Bool) (s : Pdfs) (d d' : Str) : pdfDetails re s d = pdfDetails re s d' := rfl

/-- **C108** is violated: an upper bound of zero is no bound, and with bounds written as texts, which rules about images accept, no
rule ever holds. -/
theorem C108_bounds_violated (s : Pdfs) (lo : Arg) (t : Str) (hi : Option Arg) :
    pdfCount s lo (some (.num 0)) = pdfCount s lo none ∧ pdfCount s (.text t) hi = none ∧ pdfImageCount s (.text t) hi = none ∧
      pdfCoverage s (.text t) hi = none := by
  refine ⟨?_, rfl, rfl, rfl⟩
  cases lo with
  | num l => simp [pdfCount, between, Arg.truthy]
  | text t => rfl

/-- **C108** is violated: a document that cannot be read makes it impossible to check the message. -/
theorem C108_broken_violated (lib : PdfLib) (ps : List Part) (p : Part) (hp : p ∈ ps) (hi : isPdf p = true)
    (hb : lib.read p.payload = .broken) : extractPdfs lib .none ps = none := by
  have key : ∀ (ps : List Part) (s : Pdfs), p ∈ ps → extractPdfs lib s ps = none := by
    intro ps
    induction ps with
    | nil => intro s h; cases h
    | cons q ps ih =>
      intro s h
      unfold extractPdfs
      rcases List.mem_cons.mp h with rfl | h
      · have : extractPdf lib s p = none := by
          unfold extractPdf
          rw [if_pos ((isPdf_iff p).mp hi)]
          unfold savePdf
          rw [hb]
        rw [this]
      · cases extractPdf lib s q with
        | none => rfl
        | some s1 => exact ih s1 h
  exact key ps _ hp

/-- **C108** is violated: the rule about the digests of texts cannot be used: it is not registered, unlike the others. -/
theorem C108_fuzzy_violated : c!"pdf_match_fuzzy_md5" ∉ pdfRules ∧
    ∀ r ∈ [c!"pdf_count", c!"pdf_image_count", c!"pdf_pixel_coverage", c!"pdf_named", c!"pdf_name_regex", c!"pdf_match_md5",
      c!"pdf_match_details", c!"pdf_is_encrypted", c!"pdf_is_empty_body"], r ∈ pdfRules := by decide +kernel

/-- A library for the examples. -/
def toyPdf : PdfLib where
  digest p := p.map (fun n => Char.ofNat (n + 97))
  textDigest t := t
  read p := match p with
    | [] => .broken
    | [_] => .encrypted
    | w :: h :: _ => .document (some ⟨some c!"Ann", none, none, some c!"Offer"⟩)
      [⟨c!"buy", none⟩, ⟨[], some [⟨c!"/Image", w, h⟩, ⟨c!"/Form", 9, 9⟩]⟩]

-- a message with two documents, one of them encrypted, and one with a document that cannot be read
example : (∃ s, extractPdfs toyPdf .none [⟨c!"application", c!"pdf", some c!"a.pdf", [2, 3, 4]⟩, ⟨c!"text", c!"plain", none, []⟩,
      ⟨c!"application", c!"pdf", none, [7]⟩] = some s ∧
    pdfCount s (.num 2) (some (.num 2)) = some true ∧ pdfImageCount s (.num 1) none = some true ∧
    pdfCoverage s (.num 7) none = some false ∧ pdfNamed s c!"a.pdf" = true ∧ pdfMd5 s c!"h" = true ∧ pdfEncrypted s = true ∧
    pdfEmpty s (.num 4) = some true ∧ pdfEmpty s (.num 3) = some false ∧
    pdfDetails (fun t => decide (t = c!"Offer")) s c!"author" = true) ∧
    extractPdfs toyPdf .none [⟨c!"application", c!"pdf", none, []⟩] = none := by
  refine ⟨⟨_, rfl, ?_⟩, ?_⟩ <;> decide +kernel

end Verif.Props
