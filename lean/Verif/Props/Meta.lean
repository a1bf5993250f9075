import Verif.Lemmas.Py
import Verif.Spec.Meta

/-!
# C09, C57: meta rule resolution
-/

namespace Verif
open Py Spec

/-- `rs` is obtained from `rs0` by deleting rules. -/
def DefSet.Le (rs rs0 : DefSet) : Prop := ∀ n d, rs.get n = some d → rs0.get n = some d

/-- The processed rules are meta rules whose references all existed and are processed. -/
def DoneOk (rs0 : DefSet) (done : List Str) : Prop := ∀ n ∈ done, Usable rs0.get n

theorem resolve_sound (rs rs0 : DefSet) (hle : rs.Le rs0) (k : Nat) :
    ∀ n d done, rs0.get n = some d → DoneOk rs0 done →
      DoneOk rs0 (resolve rs k n d done).2 ∧
      ((resolve rs k n d done).1 = .ok → Usable rs0.get n) ∧
      (∀ m ∈ done, m ∈ (resolve rs k n d done).2) ∧
      ((resolve rs k n d done).1 = .ok → d = .plain ∨ n ∈ (resolve rs k n d done).2) := by
  induction k with
  | zero =>
    intro n d done hn hd
    cases d with
    | plain => exact ⟨by simpa [resolve] using hd, fun _ => .plain hn, by simp [resolve], by simp⟩
    | metaR subs c => exact ⟨by simpa [resolve] using hd, by simp [resolve], by simp [resolve], by simp [resolve]⟩
  | succ k ih =>
    intro n d done hn hd
    cases d with
    | plain => exact ⟨by simpa [resolve] using hd, fun _ => .plain hn, by simp [resolve], by simp⟩
    | metaR subs c =>
      simp only [resolve]
      split
      · rename_i hmem; exact ⟨hd, fun _ => hd n hmem, fun m h => h, fun _ => Or.inr hmem⟩
      · split
        · exact ⟨hd, by simp, fun m h => h, by simp⟩
        · have hsubs : ∀ subs done, DoneOk rs0 done →
              DoneOk rs0 (resolveSubs rs (resolve rs k) subs done).2 ∧
              ((resolveSubs rs (resolve rs k) subs done).1 = .ok → ∀ m ∈ subs, Usable rs0.get m) ∧
              (∀ m ∈ done, m ∈ (resolveSubs rs (resolve rs k) subs done).2) := by
            intro subs
            induction subs with
            | nil => intro done hd; exact ⟨hd, by simp [resolveSubs], fun m h => h⟩
            | cons m ms ihs =>
              intro done hd
              simp only [resolveSubs]
              cases hg : rs.get m with
              | none => exact ⟨hd, by simp, fun m h => h⟩
              | some dm =>
                have hm := ih m dm done (hle m dm hg) hd
                simp only
                split
                · rename_i done' heq
                  rw [heq] at hm
                  have h2 := ihs done' hm.1
                  refine ⟨h2.1, ?_, fun x hx => h2.2.2 x (hm.2.2.1 x hx)⟩
                  intro hok x hx
                  rcases List.mem_cons.1 hx with hx | hx
                  · subst hx; exact hm.2.1 rfl
                  · exact h2.2.1 hok x hx
                · rename_i e done' hne heq
                  rw [heq] at hm
                  refine ⟨hm.1, ?_, hm.2.2.1⟩
                  intro hok; exact absurd hok (by simpa using hne)
          have hs := hsubs subs done hd
          split
          · rename_i done' heq
            rw [heq] at hs
            have hu : Usable rs0.get n := .metaR hn (hs.2.1 rfl)
            refine ⟨?_, fun _ => hu, fun m hm => List.mem_cons_of_mem _ (hs.2.2 m hm),
              fun _ => Or.inr (List.mem_cons_self)⟩
            intro m hm
            rcases List.mem_cons.1 hm with hm | hm
            · subst hm; exact hu
            · exact hs.1 m hm
          · rename_i e done' hne heq
            rw [heq] at hs
            refine ⟨hs.1, ?_, hs.2.2, ?_⟩ <;> intro hok <;> exact absurd hok (by simpa using hne)

theorem resolve_no_syntax (rs rs0 : DefSet) (hle : rs.Le rs0) (hc : AllCompile rs0.get) (k : Nat) :
    ∀ n d done, rs0.get n = some d → (resolve rs k n d done).1 ≠ .syntaxErr := by
  induction k with
  | zero => intro n d done hn; cases d <;> simp [resolve]
  | succ k ih =>
    intro n d done hn
    cases d with
    | plain => simp [resolve]
    | metaR subs c =>
      have hct := hc n subs c hn
      subst hct
      simp only [resolve]
      split
      · simp
      · simp only [Bool.not_true, Bool.false_eq_true, if_false]
        have : ∀ subs done, (resolveSubs rs (resolve rs k) subs done).1 ≠ .syntaxErr := by
          intro subs
          induction subs with
          | nil => intro done; simp [resolveSubs]
          | cons m ms ihs =>
            intro done
            simp only [resolveSubs]
            cases hg : rs.get m with
            | none => simp
            | some dm =>
              have hm := ih m dm done (hle m dm hg)
              simp only
              split
              · exact ihs _
              · rename_i heq; rw [heq] at hm; exact hm
        have h := this subs done
        split
        · simp
        · rename_i heq; rw [heq] at h; exact h

/-- A rule usable within `k` levels in the current ruleset resolves. -/
theorem resolve_complete (rs : DefSet) (hc : AllCompile rs.get) (k : Nat) :
    ∀ n d done, rs.get n = some d → UsableWithin rs.get k n → (resolve rs k n d done).1 = .ok := by
  induction k with
  | zero =>
    intro n d done hn hu
    cases hu with
    | plain h => rw [hn] at h; cases h; rfl
  | succ k ih =>
    intro n d done hn hu
    cases d with
    | plain => rfl
    | metaR subs c =>
      have hct := hc n subs c hn
      subst hct
      simp only [resolve]
      split
      · rfl
      · simp only [Bool.not_true, Bool.false_eq_true, if_false]
        have hsub : ∀ m ∈ subs, UsableWithin rs.get k m := by
          cases hu with
          | plain h => rw [hn] at h; cases h
          | metaR h h2 => rw [hn] at h; cases h; exact h2
        have : ∀ subs done, (∀ m ∈ subs, UsableWithin rs.get k m) →
            (resolveSubs rs (resolve rs k) subs done).1 = .ok := by
          intro subs
          induction subs with
          | nil => intro done _; rfl
          | cons m ms ihs =>
            intro done hms
            simp only [resolveSubs]
            have hum := hms m (by simp)
            have hex : ∃ dm, rs.get m = some dm := by cases hum with
              | plain h => exact ⟨_, h⟩
              | metaR h _ => exact ⟨_, h⟩
            obtain ⟨dm, hdm⟩ := hex
            simp only [hdm]
            have hm := ih m dm done hdm hum
            split
            · exact ihs _ (fun x hx => hms x (List.mem_cons_of_mem _ hx))
            · rename_i hne heq; rw [heq] at hm; exact absurd hm (by simpa using hne)
        have h := this subs done hsub
        split
        · rfl
        · rename_i hne heq; rw [heq] at h; exact absurd h (by simpa using hne)

theorem reaches_trans {f : Str → Option Def} {a b c : Str} (h1 : Reaches f a b)
    (h2 : Reaches f b c) : Reaches f a c := by
  induction h1 with
  | step hs => exact .trans hs h2
  | trans hs _ ih => exact .trans hs (ih h2)

theorem usable_no_cycle {f : Str → Option Def} {n : Str} (h : Usable f n) : ¬ Reaches f n n := by
  have key : ∀ n, Usable f n → ∀ m, Reaches f n m → Usable f m ∧ m ≠ n := by
    intro n hn
    induction hn with
    | plain h =>
      intro m hr
      cases hr with
      | step hs => obtain ⟨s, c, h1, _⟩ := hs; rw [h] at h1; cases h1
      | trans hs _ => obtain ⟨s, c, h1, _⟩ := hs; rw [h] at h1; cases h1
    | @metaR n subs c h hsub ih =>
      intro m hr
      -- n itself cannot be reached from any of its references
      have hnot : ∀ b ∈ subs, ¬ Reaches f b n ∧ b ≠ n := by
        intro b hb
        have hb1 : ∀ m, Reaches f b m → m ≠ b := fun m hm => (ih b hb m hm).2
        have hne : b ≠ n := by
          intro he; subst he
          exact hb1 b (.step ⟨subs, c, h, hb⟩) rfl
        refine ⟨?_, hne⟩
        intro hbn
        -- b → … → n → b
        have : Reaches f b b := by
          exact reaches_trans hbn (.step ⟨subs, c, h, hb⟩)
        exact hb1 b this rfl
      cases hr with
      | step hs =>
        obtain ⟨s, c', h1, hm⟩ := hs
        rw [h] at h1; cases h1
        exact ⟨hsub m hm, (hnot m hm).2⟩
      | @trans _ b _ hs hr2 =>
        obtain ⟨s, c', h1, hb⟩ := hs
        rw [h] at h1; cases h1
        refine ⟨(ih b hb m hr2).1, ?_⟩
        intro he; subst he
        exact (hnot b hb).1 hr2
  intro hr
  exact (key n h n hr).2 rfl

theorem usable_reaches {f : Str → Option Def} {n m : Str} (h : Usable f n) (hr : Reaches f n m) :
    Usable f m := by
  induction hr with
  | step hs =>
    obtain ⟨s, c, h1, hm⟩ := hs
    cases h with
    | plain h => rw [h] at h1; cases h1
    | metaR h h2 => rw [h] at h1; cases h1; exact h2 _ hm
  | trans hs _ ih =>
    obtain ⟨s, c, h1, hm⟩ := hs
    apply ih
    cases h with
    | plain h => rw [h] at h1; cases h1
    | metaR h h2 => rw [h] at h1; cases h1; exact h2 _ hm

theorem reaches_mono {f g : Str → Option Def} (hle : ∀ n d, f n = some d → g n = some d)
    {a b : Str} (h : Reaches f a b) : Reaches g a b := by
  induction h with
  | step hs => obtain ⟨s, c, h1, h2⟩ := hs; exact .step ⟨s, c, hle _ _ h1, h2⟩
  | trans hs _ ih => obtain ⟨s, c, h1, h2⟩ := hs; exact .trans ⟨s, c, hle _ _ h1, h2⟩ ih

/-- Every processed rule is a meta rule of the ruleset, and what it refers to is there:
plain, or processed as well. -/
def DoneClosed (rs : DefSet) (done : List Str) : Prop :=
  ∀ n ∈ done, ∃ subs c, rs.get n = some (.metaR subs c) ∧
    ∀ m ∈ subs, rs.get m = some .plain ∨ m ∈ done

theorem resolve_closed (rs : DefSet) (k : Nat) :
    ∀ n d done, rs.get n = some d → DoneClosed rs done →
      DoneClosed rs (resolve rs k n d done).2 ∧
      ((resolve rs k n d done).1 = .ok → d = .plain ∨ n ∈ (resolve rs k n d done).2) ∧
      (∀ m ∈ done, m ∈ (resolve rs k n d done).2) ∧
      (∀ x ∈ (resolve rs k n d done).2, x ∈ done ∨
        ((resolve rs k n d done).1 = .ok ∧ x = n) ∨ Reaches rs.get n x) := by
  induction k with
  | zero =>
    intro n d done hn hd
    cases d <;> exact ⟨by simpa [resolve] using hd, by simp [resolve], by simp [resolve],
      fun x hx => Or.inl (by simpa [resolve] using hx)⟩
  | succ k ih =>
    intro n d done hn hd
    cases d with
    | plain => exact ⟨by simpa [resolve] using hd, by simp [resolve], by simp [resolve],
      fun x hx => Or.inl (by simpa [resolve] using hx)⟩
    | metaR subs c =>
      simp only [resolve]
      split
      · rename_i hmem; exact ⟨hd, fun _ => Or.inr hmem, fun m h => h, fun x hx => Or.inl hx⟩
      · split
        · exact ⟨hd, by simp, fun m h => h, fun x hx => Or.inl hx⟩
        · have hsubs : ∀ ss done, (∀ m ∈ ss, m ∈ subs) → DoneClosed rs done →
              DoneClosed rs (resolveSubs rs (resolve rs k) ss done).2 ∧
              ((resolveSubs rs (resolve rs k) ss done).1 = .ok → ∀ m ∈ ss,
                rs.get m = some .plain ∨ m ∈ (resolveSubs rs (resolve rs k) ss done).2) ∧
              (∀ m ∈ done, m ∈ (resolveSubs rs (resolve rs k) ss done).2) ∧
              (∀ x ∈ (resolveSubs rs (resolve rs k) ss done).2, x ∈ done ∨ Reaches rs.get n x) := by
            intro ss
            induction ss with
            | nil => intro done _ hd; exact ⟨hd, by simp [resolveSubs], fun m h => h, fun x hx => Or.inl hx⟩
            | cons m ms ihs =>
              intro done hin hd
              have href : Refers rs.get n m := ⟨subs, c, hn, hin m (by simp)⟩
              simp only [resolveSubs]
              cases hg : rs.get m with
              | none => exact ⟨hd, by simp, fun m h => h, fun x hx => Or.inl hx⟩
              | some dm =>
                have hm := ih m dm done hg hd
                simp only
                split
                · rename_i done' heq
                  rw [heq] at hm
                  have h2 := ihs done' (fun x hx => hin x (List.mem_cons_of_mem _ hx)) hm.1
                  refine ⟨h2.1, ?_, fun x hx => h2.2.2.1 x (hm.2.2.1 x hx), ?_⟩
                  · intro hok x hx
                    rcases List.mem_cons.1 hx with hx | hx
                    · subst hx
                      rcases hm.2.1 rfl with h | h
                      · exact Or.inl (by rw [hg, h])
                      · exact Or.inr (h2.2.2.1 _ h)
                    · exact h2.2.1 hok x hx
                  · intro x hx
                    rcases h2.2.2.2 x hx with h | h
                    · rcases hm.2.2.2 x h with h | ⟨_, h⟩ | h
                      · exact Or.inl h
                      · exact Or.inr (h ▸ .step href)
                      · exact Or.inr (.trans href h)
                    · exact Or.inr h
                · rename_i e done' hne heq
                  rw [heq] at hm
                  refine ⟨hm.1, ?_, hm.2.2.1, ?_⟩
                  · intro hok; exact absurd hok (by simpa using hne)
                  · intro x hx
                    rcases hm.2.2.2 x hx with h | ⟨h, _⟩ | h
                    · exact Or.inl h
                    · exact absurd h (by simpa using hne)
                    · exact Or.inr (.trans href h)
          have hs := hsubs subs done (fun m h => h) hd
          split
          · rename_i done' heq
            rw [heq] at hs
            refine ⟨?_, fun _ => Or.inr (List.mem_cons_self),
              fun m hm => List.mem_cons_of_mem _ (hs.2.2.1 m hm), ?_⟩
            · intro x hx
              rcases List.mem_cons.1 hx with hx | hx
              · subst hx
                refine ⟨subs, c, hn, fun m hm => ?_⟩
                rcases hs.2.1 rfl m hm with h | h
                · exact Or.inl h
                · exact Or.inr (List.mem_cons_of_mem _ h)
              · obtain ⟨s, c', h1, h2⟩ := hs.1 x hx
                refine ⟨s, c', h1, fun m hm => ?_⟩
                rcases h2 m hm with h | h
                · exact Or.inl h
                · exact Or.inr (List.mem_cons_of_mem _ h)
            · intro x hx
              rcases List.mem_cons.1 hx with hx | hx
              · exact Or.inr (Or.inl ⟨rfl, hx⟩)
              · rcases hs.2.2.2 x hx with h | h
                · exact Or.inl h
                · exact Or.inr (Or.inr h)
          · rename_i e done' hne heq
            rw [heq] at hs
            refine ⟨hs.1, ?_, hs.2.2.1, ?_⟩
            · intro hok; exact absurd hok (by simpa using hne)
            · intro x hx
              rcases hs.2.2.2 x hx with h | h
              · exact Or.inl h
              · exact Or.inr (Or.inr h)

/-- `resolve` at top level does not fail on a processed rule. -/
theorem resolve_done (rs : DefSet) (k : Nat) (n : Str) (d : Def) (done : List Str) (h : n ∈ done) :
    (resolve rs (k + 1) n d done).1 = .ok := by
  cases d <;> simp [resolve, h]

end Verif

namespace Verif
open Py Spec

/-- keys of the two dictionaries are distinct -/
def DefSet.Distinct (rs : DefSet) : Prop :=
  (Dict.keys rs.checked ++ Dict.keys rs.notChecked).Nodup

theorem get_del (rs : DefSet) (hd : rs.Distinct) (b : Bool) (n m : Str)
    (hn : n ∈ Dict.keys (if b then rs.checked else rs.notChecked)) :
    (rs.del b n).get m = if n = m then none else rs.get m := by
  unfold DefSet.Distinct at hd
  rw [List.nodup_append] at hd
  obtain ⟨h1, h2, h3⟩ := hd
  cases b with
  | true =>
    simp only [DefSet.del, DefSet.get, if_true] at *
    rw [Dict.get?_del]
    by_cases h : n = m
    · subst h
      simp only [if_true]
      rw [Dict.get?_eq_none_iff]
      intro hm; exact h3 n hn n hm rfl
    · simp [h]
  | false =>
    simp only [DefSet.del, DefSet.get, Bool.false_eq_true, if_false] at *
    rw [Dict.get?_del]
    by_cases h : n = m
    · subst h
      have : Dict.get? rs.checked n = none := by
        rw [Dict.get?_eq_none_iff]; intro hm; exact h3 n hm n hn rfl
      simp [this]
    · simp [h]

theorem distinct_del (rs : DefSet) (hd : rs.Distinct) (b : Bool) (n : Str) : (rs.del b n).Distinct := by
  unfold DefSet.Distinct at *
  have hs : ∀ d : Dict Str Def, (Dict.keys (Dict.del d n)).Sublist (Dict.keys d) :=
    fun d => List.Sublist.map _ List.filter_sublist
  cases b
  · exact hd.sublist ((List.Sublist.refl _).append (hs _))
  · exact hd.sublist ((hs _).append (List.Sublist.refl _))

theorem usableWithin_succ {f : Str → Option Def} {k : Nat} {n : Str} (h : UsableWithin f k n) :
    UsableWithin f (k + 1) n := by
  induction h with
  | plain h => exact .plain h
  | metaR ha _ ihb => exact .metaR ha ihb

theorem usableWithin_mono {f g : Str → Option Def} {k : Nat} {n : Str}
    (h : ∀ m, UsableWithin f k m → f m = g m) (hu : UsableWithin f k n) : UsableWithin g k n := by
  induction hu with
  | plain h1 => exact .plain (by rw [← h _ (.plain h1)]; exact h1)
  | metaR h1 h2 ih =>
    refine .metaR (by rw [← h _ (.metaR h1 h2)]; exact h1) ?_
    intro m hm
    apply ih m hm
    intro x hx
    apply h
    exact usableWithin_succ hx

/-- The invariant of the loop, and what it yields. -/
structure PostInv (rs0 rs : DefSet) (done : List Str) : Prop where
  le : rs.Le rs0
  distinct : rs.Distinct
  doneOk : DoneOk rs0 done
  closed : DoneClosed rs done
  /-- nothing usable within the recursion limit is ever deleted -/
  keep : ∀ n, UsableWithin rs0.get (metaMaxRecursion + 1) n → rs.get n = rs0.get n

theorem postItems_spec (rs0 : DefSet) (hc : AllCompile rs0.get) (b : Bool) :
    ∀ (items : List (Str × Def)) (rs : DefSet) (done : List Str), PostInv rs0 rs done →
      (items.map Prod.fst).Nodup →
      (∀ p ∈ items, p ∈ (if b then rs.checked else rs.notChecked)) →
      ∃ rs' done', postItems false b items rs done = (.ok, rs', done') ∧
        PostInv rs0 rs' done' ∧
        (∀ m ∈ done, m ∈ done') ∧
        (∀ n, n ∉ items.map Prod.fst → rs'.get n = rs.get n) ∧
        (b = true → rs'.notChecked = rs.notChecked) ∧ (b = false → rs'.checked = rs.checked) ∧
        (∀ n d, rs'.get n = some d → n ∈ items.map Prod.fst →
          Usable rs0.get n ∧ (d = .plain ∨ n ∈ done')) := by
  intro items
  induction items with
  | nil =>
    intro rs done hi _ _
    exact ⟨rs, done, rfl, hi, fun _ h => h, fun _ _ => rfl, fun _ => rfl, fun _ => rfl, by simp⟩
  | cons p items ih =>
    obtain ⟨n, d⟩ := p
    intro rs done hi hnd hmem
    simp only [List.map_cons, List.nodup_cons] at hnd
    have hin := hmem (n, d) (by simp)
    have hdist := hi.distinct
    have hget : rs.get n = some d := by
      have hdd := hdist
      unfold DefSet.Distinct at hdd
      rw [List.nodup_append] at hdd
      unfold DefSet.get
      cases b with
      | true =>
        simp only [if_true] at hin
        rw [Dict.get?_of_mem _ hdd.1 hin]
      | false =>
        simp only [Bool.false_eq_true, if_false] at hin
        have hk : n ∈ Dict.keys rs.notChecked := List.mem_map_of_mem (f := Prod.fst) hin
        have : Dict.get? rs.checked n = none := by
          rw [Dict.get?_eq_none_iff]; intro hm; exact hdd.2.2 n hm n hk rfl
        rw [this, Dict.get?_of_mem _ hdd.2.1 hin]
    have hget0 := hi.le n d hget
    have hsound := resolve_sound rs rs0 hi.le (metaMaxRecursion + 1) n d done hget0 hi.doneOk
    have hclosed := resolve_closed rs (metaMaxRecursion + 1) n d done hget hi.closed
    have hnosyn := resolve_no_syntax rs rs0 hi.le hc (metaMaxRecursion + 1) n d done hget0
    simp only [postItems]
    rcases hres : resolve rs (metaMaxRecursion + 1) n d done with ⟨r, done1⟩
    rw [hres] at hsound hnosyn hclosed
    cases r with
    | syntaxErr => exact absurd rfl hnosyn
    | ok =>
      simp only
      have hi1 : PostInv rs0 rs done1 := ⟨hi.le, hi.distinct, hsound.1, hclosed.1, hi.keep⟩
      obtain ⟨rs', done', he, hinv, hdn, hkeep, hb1, hb2, hsurv⟩ := ih rs done1 hi1 hnd.2
        (fun p hp => hmem p (List.mem_cons_of_mem _ hp))
      refine ⟨rs', done', he, hinv, fun m hm => hdn m (hsound.2.2.1 m hm), ?_, hb1, hb2, ?_⟩
      · intro m hm
        simp only [List.map_cons, List.mem_cons, not_or] at hm
        exact hkeep m hm.2
      · intro m dm hmg hmi
        simp only [List.map_cons, List.mem_cons] at hmi
        by_cases hmi2 : m ∈ items.map Prod.fst
        · exact hsurv m dm hmg hmi2
        · rcases hmi with hmi | hmi
          · subst hmi
            have : dm = d := by
              have h1 := hinv.le _ _ hmg
              rw [hget0] at h1; exact (Option.some.inj h1).symm
            subst this
            refine ⟨hsound.2.1 rfl, ?_⟩
            rcases hsound.2.2.2 rfl with h | h
            · exact Or.inl h
            · exact Or.inr (hdn _ h)
          · exact absurd hmi hmi2
    | invalid =>
      simp only [Bool.false_eq_true, if_false]
      have hk : n ∈ Dict.keys (if b then rs.checked else rs.notChecked) :=
        List.mem_map_of_mem (f := Prod.fst) hin
      have hgd := fun m => get_del rs hdist b n m hk
      have hi1 : PostInv rs0 (rs.del b n) done1 := by
        refine ⟨?_, distinct_del rs hdist b n, hsound.1, ?_, ?_⟩
        rotate_left
        · have hn1 : n ∉ done1 := by
            intro hx
            rcases hclosed.2.2.2 n hx with h | ⟨h, _⟩ | h
            · have := resolve_done rs metaMaxRecursion n d done h
              rw [hres] at this; cases this
            · cases h
            · exact usable_no_cycle (hsound.1 n hx) (reaches_mono hi.le h)
          have hnp : d ≠ .plain := by
            intro h; subst h; simp [resolve] at hres
          intro x hx
          obtain ⟨s, c', h1, h2⟩ := hclosed.1 x hx
          have hxn : n ≠ x := fun h => hn1 (h ▸ hx)
          refine ⟨s, c', by rw [hgd, if_neg hxn, h1], fun m hm => ?_⟩
          rcases h2 m hm with h | h
          · refine Or.inl ?_
            have : n ≠ m := by
              intro he; subst he; rw [hget] at h; exact hnp (Option.some.inj h)
            rw [hgd, if_neg this, h]
          · exact Or.inr h
        rotate_left
        · intro m dm hm
          rw [hgd] at hm
          split at hm
          · cases hm
          · exact hi.le m dm hm
        · intro m hm
          rw [hgd]
          split
          · rename_i he
            subst he
            exfalso
            -- the rule would have resolved
            have hcur : UsableWithin rs.get (metaMaxRecursion + 1) n :=
              usableWithin_mono (fun x hx => (hi.keep x hx).symm) hm
            have hcc : AllCompile rs.get := fun x subs c hx => hc x subs c (hi.le _ _ hx)
            have := resolve_complete rs hcc (metaMaxRecursion + 1) n d done hget hcur
            rw [hres] at this; cases this
          · exact hi.keep m hm
      have hmem' : ∀ p ∈ items, p ∈ (if b then (rs.del b n).checked else (rs.del b n).notChecked) := by
        intro p hp
        have h1 := hmem p (List.mem_cons_of_mem _ hp)
        have hne : p.1 ≠ n := by
          intro he; exact hnd.1 (he ▸ List.mem_map_of_mem (f := Prod.fst) hp)
        cases b with
        | true => simpa [DefSet.del, Dict.del, hne] using h1
        | false => simpa [DefSet.del, Dict.del, hne] using h1
      obtain ⟨rs', done', he, hinv, hdn, hkeep, hb1, hb2, hsurv⟩ := ih _ done1 hi1 hnd.2 hmem'
      refine ⟨rs', done', he, hinv, fun m hm => hdn m (hsound.2.2.1 m hm), ?_, ?_, ?_, ?_⟩
      · intro m hm
        simp only [List.map_cons, List.mem_cons, not_or] at hm
        rw [hkeep m hm.2, hgd, if_neg (Ne.symm hm.1)]
      · intro hb; rw [hb1 hb]; simp [DefSet.del, hb]
      · intro hb; rw [hb2 hb]; simp [DefSet.del, hb]
      · intro m dm hmg hmi
        simp only [List.map_cons, List.mem_cons] at hmi
        by_cases hmi2 : m ∈ items.map Prod.fst
        · exact hsurv m dm hmg hmi2
        · rcases hmi with hmi | hmi
          · subst hmi
            rw [hkeep _ hmi2, hgd, if_pos rfl] at hmg; cases hmg
          · exact absurd hmi hmi2

end Verif

namespace Verif.Props
open Verif Py Spec

/-- **C09** (soundness and completeness).  For every reference graph between rules with
distinct names whose expressions compile, tolerant resolution ends without an error, and in
the resulting ruleset: every rule is one of the original rules with its definition; every rule
is usable (everything it refers to, transitively, exists and there is no cycle); every rule it
refers to is still there; and every original rule that is usable with at most eleven levels of
meta rules is kept. -/
theorem C09_resolution (rs0 : DefSet) (hd : rs0.Distinct) (hc : AllCompile rs0.get) :
    ∃ rs, callPostparsing false rs0 = (.ok, rs) ∧
      (∀ n d, rs.get n = some d → rs0.get n = some d) ∧
      (∀ n d, rs.get n = some d → Usable rs0.get n) ∧
      (∀ n m, rs.get n ≠ none → Refers rs0.get n m → rs.get m ≠ none) ∧
      (∀ n, UsableWithin rs0.get 11 n → rs.get n = rs0.get n) := by
  have hi0 : PostInv rs0 rs0 [] := ⟨fun _ _ h => h, hd, by intro n hn; simp at hn,
    by intro n hn; simp at hn, fun _ _ => rfl⟩
  have hdd := hd
  unfold DefSet.Distinct at hdd
  rw [List.nodup_append] at hdd
  obtain ⟨rs1, done1, he1, hinv1, -, hk1, hnc, -, hs1⟩ :=
    postItems_spec rs0 hc true rs0.checked rs0 [] hi0 hdd.1 (by simp)
  have hnd1 := hinv1.distinct
  unfold DefSet.Distinct at hnd1
  rw [List.nodup_append] at hnd1
  obtain ⟨rs2, done2, he2, hinv2, hdn2, hk2, -, hcc, hs2⟩ :=
    postItems_spec rs0 hc false rs1.notChecked rs1 done1 hinv1 hnd1.2.1 (by simp)
  have hall : ∀ n d, rs2.get n = some d → Usable rs0.get n ∧ (d = .plain ∨ n ∈ done2) := by
    intro n d hn
    by_cases hmem : n ∈ rs1.notChecked.map Prod.fst
    · exact hs2 n d hn hmem
    · have h1 : rs1.get n = some d := by rw [← hk2 n hmem]; exact hn
      have : n ∈ rs0.checked.map Prod.fst := by
        have hnn : Dict.get? rs1.notChecked n = none := by
          rw [Dict.get?_eq_none_iff]; exact hmem
        have h0 := hinv1.le n d h1
        rw [hnc rfl] at hnn
        unfold DefSet.get at h0
        cases hg : Dict.get? rs0.checked n with
        | none => rw [hg] at h0; simp only at h0; rw [hnn] at h0; cases h0
        | some x => exact (Dict.mem_keys_iff _ _).2 ⟨x, hg⟩
      have h := hs1 n d h1 this
      exact ⟨h.1, h.2.imp id (hdn2 n)⟩
  refine ⟨rs2, by simp [callPostparsing, he1, he2], hinv2.le, fun n d hn => (hall n d hn).1, ?_,
    fun n hn => hinv2.keep n hn⟩
  intro n m hn href
  obtain ⟨d, hd2⟩ := Option.ne_none_iff_exists'.1 hn
  obtain ⟨subs, c, h1, hm⟩ := href
  have hd0 := hinv2.le n d hd2
  rw [h1] at hd0
  cases hd0
  rcases (hall n _ hd2).2 with h | h
  · cases h
  · obtain ⟨s, c', h3, h4⟩ := hinv2.closed n h
    rw [hd2] at h3; cases h3
    rcases h4 m hm with h | h
    · simp [h]
    · obtain ⟨s, c', h5, _⟩ := hinv2.closed m h
      simp [h5]

/-- **C09** (what is dropped): a meta rule that reaches a rule on a cycle, or an undefined
rule, is not in the resulting ruleset. -/
theorem C09_bad_dropped (rs0 : DefSet) (hd : rs0.Distinct) (hc : AllCompile rs0.get) (n m : Str)
    (hbad : n = m ∨ Reaches rs0.get n m) (hm : Reaches rs0.get m m ∨ rs0.get m = none) :
    ∃ rs, callPostparsing false rs0 = (.ok, rs) ∧ rs.get n = none := by
  obtain ⟨rs, he, -, hu, -, -⟩ := C09_resolution rs0 hd hc
  refine ⟨rs, he, ?_⟩
  cases hg : rs.get n with
  | none => rfl
  | some d =>
    exfalso
    have hun := hu n d hg
    have hum : Usable rs0.get m := by
      rcases hbad with h | h
      · exact h ▸ hun
      · exact usable_reaches hun h
    rcases hm with hm | hm
    · exact usable_no_cycle hum hm
    · cases hum with
      | plain h => rw [h] at hm; cases hm
      | metaR h _ => rw [h] at hm; cases hm

/-- **C09** (paranoid mode): the outcome is never a silently reduced ruleset — either the
ruleset is unchanged, or an error is reported. -/
theorem C09_paranoid (rs0 : DefSet) :
    (callPostparsing true rs0).1 = .ok → (callPostparsing true rs0).2 = rs0 := by
  have key : ∀ b items rs done, (postItems true b items rs done).1 = .ok →
      (postItems true b items rs done).2.1 = rs := by
    intro b items
    induction items with
    | nil => intro rs done _; rfl
    | cons p items ih =>
      intro rs done h
      obtain ⟨n, d⟩ := p
      simp only [postItems] at *
      split at h
      · exact ih _ _ h
      · simp at h
      · simp at h
  unfold callPostparsing
  have h1 := key true rs0.checked rs0 []
  rcases he : postItems true true rs0.checked rs0 [] with ⟨r, rs1, done1⟩
  rw [he] at h1
  cases r with
  | ok =>
    simp only at h1 ⊢
    have h2 := key false rs1.notChecked rs1 done1
    intro hok
    rw [h2 hok, h1]
    trivial
  | invalid => simp
  | syntaxErr => simp

/-! Concrete cases -/

/-- `A` is plain, `B = A && C`, `C = A`, `D = E`, `E = D` (cycle), `F = D || A`, `G = NOPE`. -/
def demoDefs : DefSet :=
  { checked := [(c!"A", .plain), (c!"B", .metaR [c!"A", c!"C"] true), (c!"C", .metaR [c!"A"] true),
                (c!"D", .metaR [c!"E"] true), (c!"F", .metaR [c!"D", c!"A"] true)]
    notChecked := [(c!"E", .metaR [c!"D"] true), (c!"G", .metaR [c!"NOPE"] true)] }

example : Dict.keys (callPostparsing false demoDefs).2.checked = [c!"A", c!"B", c!"C"] ∧
    (callPostparsing false demoDefs).2.notChecked = [] ∧
    (callPostparsing false demoDefs).1 = .ok ∧ (callPostparsing true demoDefs).1 = .invalid := by
  decide

example : demoDefs.Distinct ∧ AllCompile demoDefs.get ∧ UsableWithin demoDefs.get 11 c!"B" ∧
    Reaches demoDefs.get c!"D" c!"D" := by
  refine ⟨by unfold DefSet.Distinct; decide, ?_, ?_, ?_⟩
  · intro n subs c h
    unfold DefSet.get at h
    simp only [demoDefs, Dict.get?] at h
    split at h
    · rename_i heq
      cases h
      repeat' split at heq
      all_goals simp_all
    · repeat' split at h
      all_goals simp_all
  · refine .metaR (subs := [c!"A", c!"C"]) (c := true) (by decide) ?_
    intro m hm
    simp only [List.mem_cons, List.not_mem_nil, or_false] at hm
    rcases hm with hm | hm
    · subst hm; exact .plain (by decide)
    · subst hm
      refine .metaR (subs := [c!"A"]) (c := true) (by decide) ?_
      intro m hm
      simp only [List.mem_cons, List.not_mem_nil, or_false] at hm
      subst hm; exact .plain (by decide)
  · exact .trans (b := c!"E") ⟨[c!"E"], true, by decide, by decide⟩
      (.step ⟨[c!"D"], true, by decide, by decide⟩)

/-! C57: the order of the definitions -/

/-- Every rule is defined after the rules that it refers to. -/
def BottomUp (rs : DefSet) : Prop :=
  ∀ before n subs c rest, rs.checked ++ rs.notChecked = before ++ (n, Def.metaR subs c) :: rest →
    c = true ∧ ∀ m ∈ subs, ∃ d, (m, d) ∈ before

theorem subs_ok (rs : DefSet) (k : Nat) : ∀ (subs done : List Str),
    (∀ m ∈ subs, ∃ d, rs.get m = some d ∧ (d = .plain ∨ m ∈ done)) → resolveSubs rs (resolve rs (k + 1)) subs done = (.ok, done)
  | [], _, _ => rfl
  | m :: ms, done, h => by
    obtain ⟨d, hg, hd⟩ := h m (by simp)
    have hr : resolve rs (k + 1) m d done = (.ok, done) := by
      cases d with
      | plain => rfl
      | metaR subs c =>
        rcases hd with hd | hd
        · cases hd
        · simp [resolve, hd]
    simp only [resolveSubs, hg, hr]
    exact subs_ok rs k ms done (fun m hm => h m (List.mem_cons_of_mem _ hm))

theorem items_ok (p b : Bool) (rs : DefSet) : ∀ (items seen : List (Str × Def)) (done : List Str),
    (∀ q ∈ seen, rs.get q.1 = some q.2 ∧ (q.2 = .plain ∨ q.1 ∈ done)) → (∀ q ∈ items, rs.get q.1 = some q.2) →
    (∀ before n subs c rest, items = before ++ (n, Def.metaR subs c) :: rest → c = true ∧ ∀ m ∈ subs, ∃ d, (m, d) ∈ seen ++ before) →
    ∃ done', postItems p b items rs done = (.ok, rs, done') ∧
      ∀ q ∈ seen ++ items, rs.get q.1 = some q.2 ∧ (q.2 = .plain ∨ q.1 ∈ done')
  | [], seen, done, hs, _, _ => ⟨done, rfl, by simpa using hs⟩
  | (n, d) :: items, seen, done, hs, hi, ho => by
    have step : ∃ done', resolve rs (metaMaxRecursion + 1) n d done = (.ok, done') ∧ (∀ m ∈ done, m ∈ done') ∧ (d = .plain ∨ n ∈ done') := by
      cases d with
      | plain => exact ⟨done, rfl, fun _ h => h, Or.inl rfl⟩
      | metaR subs c =>
        obtain ⟨rfl, hsub⟩ := ho [] n subs c items rfl
        by_cases hn : n ∈ done
        · exact ⟨done, by simp [resolve, hn], fun _ h => h, Or.inr hn⟩
        · refine ⟨n :: done, ?_, fun _ h => List.mem_cons_of_mem _ h, Or.inr (by simp)⟩
          have := subs_ok rs 9 subs done (fun m hm => by
            obtain ⟨d, hd⟩ := hsub m hm
            rw [List.append_nil] at hd
            exact ⟨d, hs _ hd⟩)
          simp only [resolve, hn, if_false, Bool.not_true, Bool.false_eq_true, metaMaxRecursion]
          rw [this]
    obtain ⟨done', h1, h2, h3⟩ := step
    obtain ⟨done2, h4, h5⟩ := items_ok p b rs items (seen ++ [(n, d)]) done' (by
        intro q hq
        rcases List.mem_append.1 hq with hq | hq
        · exact ⟨(hs q hq).1, (hs q hq).2.imp id (h2 _)⟩
        · rw [List.mem_singleton.1 hq]
          exact ⟨hi (n, d) (by simp), h3⟩)
      (fun q hq => hi q (List.mem_cons_of_mem _ hq))
      (by
        intro before n' subs c rest he
        have := ho ((n, d) :: before) n' subs c rest (by rw [he]; rfl)
        simpa using this)
    refine ⟨done2, ?_, by simpa using h5⟩
    simp only [postItems, h1]
    exact h4

/-- **C57**: if every rule is defined after the rules that it refers to, all rules are kept, however deep they are nested. -/
theorem C57_bottom_up (paranoid : Bool) (rs : DefSet) (hd : rs.Distinct) (ho : BottomUp rs) : callPostparsing paranoid rs = (.ok, rs) := by
  have hdd := hd
  unfold DefSet.Distinct at hdd
  rw [List.nodup_append] at hdd
  have hget : ∀ q ∈ rs.checked ++ rs.notChecked, rs.get q.1 = some q.2 := by
    intro q hq
    unfold DefSet.get
    rcases List.mem_append.1 hq with hq | hq
    · rw [Dict.get?_of_mem rs.checked hdd.1 (v := q.2) hq]
    · have : Dict.get? rs.checked q.1 = none := by
        rw [Dict.get?_eq_none_iff]
        intro hm
        exact hdd.2.2 _ hm _ (List.mem_map_of_mem (f := Prod.fst) hq) rfl
      rw [this]
      exact Dict.get?_of_mem rs.notChecked hdd.2.1 (v := q.2) hq
  obtain ⟨d1, h1, h2⟩ := items_ok paranoid true rs rs.checked [] [] (by simp) (fun q hq => hget q (List.mem_append_left _ hq))
    (fun before n subs c rest he => by
      have := ho before n subs c (rest ++ rs.notChecked) (by rw [he]; simp)
      simpa using this)
  obtain ⟨d2, h3, -⟩ := items_ok paranoid false rs rs.notChecked rs.checked d1 (by simpa using h2)
    (fun q hq => hget q (List.mem_append_right _ hq))
    (fun before n subs c rest he => ho (rs.checked ++ before) n subs c rest (by rw [he]; simp))
  unfold callPostparsing
  rw [h1]
  simp only
  rw [h3]

/-- The first rule that `n` refers to is a meta rule, and so on for `k` levels. -/
def Deep (defs : Str → Option Def) : Nat → Str → Prop
  | 0, n => ∃ subs c, defs n = some (.metaR subs c)
  | k + 1, n => ∃ m subs, defs n = some (.metaR (m :: subs) true) ∧ Deep defs k m

theorem resolve_deep (rs : DefSet) : ∀ (k : Nat) (n : Str) (d : Def), rs.get n = some d → Deep rs.get k n → resolve rs k n d [] = (.invalid, [])
  | 0, n, d, hg, h => by
    obtain ⟨subs, c, h⟩ := h
    rw [hg] at h
    cases h
    rfl
  | k + 1, n, d, hg, h => by
    obtain ⟨m, subs, h, h2⟩ := h
    rw [hg] at h
    cases h
    have hm : ∃ d, rs.get m = some d := by
      cases k with
      | zero => obtain ⟨_, _, h⟩ := h2; exact ⟨_, h⟩
      | succ k => obtain ⟨_, _, h, _⟩ := h2; exact ⟨_, h⟩
    obtain ⟨d, hm⟩ := hm
    simp only [resolve, List.not_mem_nil, if_false, Bool.not_true, Bool.false_eq_true, resolveSubs, hm, resolve_deep rs k m d hm h2]

theorem gone_stays (p b : Bool) (n : Str) : ∀ (items : List (Str × Def)) (rs : DefSet) (done : List Str), rs.get n = none →
    (postItems p b items rs done).2.1.get n = none
  | [], _, _, h => h
  | (m, d) :: items, rs, done, h => by
    have hdel : (rs.del b m).get n = none := by
      unfold DefSet.get at h ⊢
      cases hc : Dict.get? rs.checked n with
      | some d => rw [hc] at h; cases h
      | none =>
        rw [hc] at h
        cases b <;> simp only [DefSet.del, if_true, Bool.false_eq_true, if_false, Dict.get?_del, hc, h] <;> simp
    simp only [postItems]
    generalize resolve rs (metaMaxRecursion + 1) m d done = r
    obtain ⟨r, done'⟩ := r
    cases r with
    | ok => exact gone_stays p b n items rs done' h
    | invalid =>
      simp only
      split
      · exact h
      · exact gone_stays p b n items _ done' hdel
    | syntaxErr => exact h

/-- Full statement of C57: which rules are kept does not depend on the order of the definitions.  It fails for all definitions with a chain of more than
eleven meta rules that can be put into an order in which every rule comes after those it refers to: in this order all are kept, and in every order
that begins with the head of the chain the head is dropped. -/
theorem C57_definition_order_violated (rs rs' : DefSet) (hd : rs.Distinct) (hd' : rs'.Distinct) (hsame : ∀ m, rs.get m = rs'.get m)
    (n : Str) (d : Def) (rest : List (Str × Def)) (hfirst : rs.checked = (n, d) :: rest) (hdeep : Deep rs.get 11 n) (ho : BottomUp rs') :
    (callPostparsing false rs).2.get n = none ∧ (callPostparsing false rs').2.get n = some d := by
  have hg : rs.get n = some d := by
    unfold DefSet.get
    rw [hfirst]
    simp [Dict.get?]
  constructor
  · have hr := resolve_deep rs 11 n d hg hdeep
    have h0 : (rs.del true n).get n = none := by
      rw [get_del rs hd true n n (by rw [if_pos rfl, hfirst]; simp [Dict.keys]), if_pos rfl]
    have h1 : (postItems false true rs.checked rs []).2.1.get n = none := by
      rw [hfirst]
      simp only [postItems, metaMaxRecursion, hr, Bool.false_eq_true, if_false]
      exact gone_stays false true n rest _ [] h0
    unfold callPostparsing
    generalize postItems false true rs.checked rs [] = o at h1
    obtain ⟨r, rs1, done1⟩ := o
    cases r with
    | ok => exact gone_stays false false n rs1.notChecked rs1 done1 h1
    | invalid => exact h1
    | syntaxErr => exact h1
  · rw [C57_bottom_up false rs' hd' ho]
    exact (hsame n).symm.trans hg

/-- A chain of twelve meta rules ending in a plain rule. -/
def chain : List (Str × Def) :=
  [(c!"M0", .metaR [c!"M1"] true), (c!"M1", .metaR [c!"M2"] true), (c!"M2", .metaR [c!"M3"] true),
   (c!"M3", .metaR [c!"M4"] true), (c!"M4", .metaR [c!"M5"] true), (c!"M5", .metaR [c!"M6"] true),
   (c!"M6", .metaR [c!"M7"] true), (c!"M7", .metaR [c!"M8"] true), (c!"M8", .metaR [c!"M9"] true),
   (c!"M9", .metaR [c!"Ma"] true), (c!"Ma", .metaR [c!"Mb"] true), (c!"Mb", .metaR [c!"P"] true),
   (c!"P", .plain)]

example : DefSet.Distinct ⟨chain, []⟩ ∧ DefSet.Distinct ⟨chain.reverse, []⟩ := by
  unfold DefSet.Distinct; decide

example : ∀ m, DefSet.get ⟨chain, []⟩ m = DefSet.get ⟨chain.reverse, []⟩ m := by
  intro m
  have hk : ∀ l : Dict Str Def, DefSet.get ⟨l, []⟩ m = Dict.get? l m := by
    intro l; unfold DefSet.get; cases h : Dict.get? l m <;> simp [h, Dict.get?]
  rw [hk, hk]
  cases h : Dict.get? chain m with
  | none =>
    symm
    rw [Dict.get?_eq_none_iff] at h ⊢
    simpa [Dict.keys] using h
  | some d =>
    exact (Dict.get?_of_mem chain.reverse (by decide) (List.mem_reverse.2 (Dict.mem_of_get? chain h))).symm

example : Deep (DefSet.get ⟨chain, []⟩) 11 c!"M0" :=
  ⟨c!"M1", [], by decide, c!"M2", [], by decide, c!"M3", [], by decide, c!"M4", [], by decide, c!"M5", [], by decide, c!"M6", [], by decide,
    c!"M7", [], by decide, c!"M8", [], by decide, c!"M9", [], by decide, c!"Ma", [], by decide, c!"Mb", [], by decide, [c!"P"], true, by decide⟩

/-- The reversed chain is in the right order. -/
example : BottomUp ⟨chain.reverse, []⟩ := by
  intro before n subs c rest he
  simp only [List.append_nil] at he
  have hl : before.length < chain.reverse.length := by rw [he]; simp
  have h2 : chain.reverse.take before.length = before := by rw [he]; simp
  have h3 : chain.reverse[before.length]? = some (n, .metaR subs c) := by rw [he]; simp
  have hall : ∀ i < chain.reverse.length, ∀ q, chain.reverse[i]? = some q →
      (match q.2 with | .plain => true | .metaR subs c => c && subs.all (fun m => (chain.reverse.take i).any (fun e => e.1 == m))) = true := by
    intro i hi q hq
    have : ∀ i < chain.reverse.length, (match (chain.reverse[i]?).map Prod.snd with
      | some (.metaR subs c) => c && subs.all (fun m => (chain.reverse.take i).any (fun e => e.1 == m)) | _ => true) = true := by decide
    have := this i hi
    rw [hq] at this
    obtain ⟨a, q⟩ := q
    cases q <;> simpa using this
  have := hall before.length hl _ h3
  rw [h2] at this
  simp only [Bool.and_eq_true, List.all_eq_true, List.any_eq_true] at this
  refine ⟨this.1, fun m hm => ?_⟩
  obtain ⟨e, he, hm⟩ := this.2 m hm
  exact ⟨e.2, by rw [← beq_iff_eq.1 hm]; exact he⟩

/-- **C57** (the part that holds): as long as no usable rule is nested deeper than eleven
levels, two rulesets that define the same rules — in any order, and in either of the two
tables — keep the same rules. -/
theorem C57_definition_order_partial (rs rs' : DefSet) (hd : rs.Distinct) (hd' : rs'.Distinct)
    (hc : AllCompile rs.get) (hsame : ∀ n, rs.get n = rs'.get n)
    (hdepth : ∀ n, Usable rs.get n → UsableWithin rs.get 11 n) (n : Str) :
    (callPostparsing false rs).2.get n = (callPostparsing false rs').2.get n := by
  have hf : rs.get = rs'.get := funext hsame
  obtain ⟨r1, h1, le1, u1, -, k1⟩ := C09_resolution rs hd hc
  obtain ⟨r2, h2, le2, u2, -, k2⟩ := C09_resolution rs' hd' (hf ▸ hc)
  rw [h1, h2]
  show r1.get n = r2.get n
  by_cases hu : Usable rs.get n
  · rw [k1 n (hdepth n hu), k2 n (hf ▸ hdepth n hu), hsame]
  · have e1 : r1.get n = none := by
      cases h : r1.get n with
      | none => rfl
      | some d => exact absurd (u1 n d h) hu
    have e2 : r2.get n = none := by
      cases h : r2.get n with
      | none => rfl
      | some d => exact absurd (hf ▸ u2 n d h) hu
    rw [e1, e2]

end Verif.Props
