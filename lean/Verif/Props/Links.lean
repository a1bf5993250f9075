import Verif.Spec.Links
import Verif.Lemmas.Py
import Verif.Lemmas.Strip
import Verif.Props.Header

/-!
# C87 to C91: links
-/

namespace Verif.Props
open Verif Py Links

theorem isTag_iff (t : Str) : isTag t = true ↔ t = c!"a" ∨ t = c!"link" := by
  unfold isTag; simp

theorem isProp_iff (t : Str) : isProp t = true ↔ t = c!"href" ∨ t = c!"src" := by
  unfold isProp; simp

theorem entry_set (ls : LinkDict) (u t : Str) (types : Dict Str Link) (l : Link)
    (h : types = (Dict.get? ls u).getD []) (u' t' : Str) :
    entry (Dict.set ls u (Dict.set types t l)) u' t' = if u = u' ∧ t = t' then some l else entry ls u' t' := by
  unfold entry
  rw [Dict.get?_set]
  by_cases hu : u = u'
  · subst hu
    rw [if_pos rfl, Option.bind_some, Dict.get?_set]
    by_cases ht : t = t'
    · rw [if_pos ht, if_pos ⟨rfl, ht⟩]
    · rw [if_neg ht, if_neg (fun h => ht h.2), h]
      cases Dict.get? ls u <;> rfl
  · rw [if_neg hu, if_neg (fun h => hu h.1)]

/-- The links are well-formed: no address and no type occurs twice, every address has a type. -/
def Clean (ls : LinkDict) : Prop := (Dict.keys ls).Nodup ∧ ∀ p ∈ ls, (Dict.keys p.2).Nodup ∧ p.2 ≠ []

theorem dict_set_ne {K V : Type} [DecidableEq K] (d : Dict K V) (k : K) (v : V) : Dict.set d k v ≠ [] := by
  cases d with
  | nil => simp [Dict.set]
  | cons q d => unfold Dict.set; split <;> simp

theorem dict_mem_set {K V : Type} [DecidableEq K] (d : Dict K V) (k : K) (v : V) (p : K × V) (h : p ∈ Dict.set d k v) :
    p = (k, v) ∨ p ∈ d := by
  induction d with
  | nil => left; simpa [Dict.set] using h
  | cons q d ih =>
    obtain ⟨k', v'⟩ := q
    unfold Dict.set at h
    split at h
    · rename_i hk
      rcases List.mem_cons.1 h with h | h
      · left; rw [h, hk]
      · right; simp [h]
    · rcases List.mem_cons.1 h with h | h
      · right; simp [h]
      · rcases ih h with h | h
        · left; exact h
        · right; simp [h]

theorem clean_set (ls : LinkDict) (hc : Clean ls) (u t : Str) (types : Dict Str Link) (l : Link)
    (h : types = (Dict.get? ls u).getD []) : Clean (Dict.set ls u (Dict.set types t l)) := by
  refine ⟨Dict.nodup_set _ _ _ hc.1, ?_⟩
  intro p hp
  rcases dict_mem_set _ _ _ _ hp with rfl | hp
  · refine ⟨?_, dict_set_ne _ _ _⟩
    apply Dict.nodup_set
    subst h
    cases hg : Dict.get? ls u with
    | none => simp [Dict.keys]
    | some d => exact (hc.2 (u, d) (Dict.mem_of_get? ls hg)).1
  · exact hc.2 p hp

theorem clean_mem (ls : LinkDict) (hc : Clean ls) (u t : Str) (l : Link) :
    entry ls u t = some l ↔ ∃ types, (u, types) ∈ ls ∧ (t, l) ∈ types := by
  unfold entry
  constructor
  · intro h
    cases hg : Dict.get? ls u with
    | none => rw [hg] at h; cases h
    | some types =>
      rw [hg, Option.bind_some] at h
      exact ⟨types, Dict.mem_of_get? ls hg, Dict.mem_of_get? types h⟩
  · rintro ⟨types, h1, h2⟩
    rw [Dict.get?_of_mem ls hc.1 h1, Option.bind_some, Dict.get?_of_mem types (hc.2 _ h1).1 h2]

/-- What handling one attribute with a link does. -/
theorem handleAttr_some (U : UrlLib) (tag : Str) (s s' : PState) (a : Str × Option Str) (h : handleAttr U tag s a = some s') :
    (isProp a.1 = false ∧ s' = s) ∨
    (∃ u l, isProp a.1 = true ∧ a.2 = some u ∧ Describes U u l ∧ s'.cur = some u ∧ s'.last = s.last ∧
      l.text = some (((entry s.links u tag).bind Link.text).getD []) ∧
      (∀ u' t', entry s'.links u' t' = if u = u' ∧ tag = t' then some l else entry s.links u' t') ∧
      (Clean s.links → Clean s'.links)) ∨
    ∃ u l, isProp a.1 = true ∧ a.2 = some u ∧ ∃ old, entry s.links u tag = some old ∧ old.text = none ∧
      Describes U u l ∧ l.text = none ∧ s'.cur = some u ∧ s'.last = s.last ∧
      (∀ u' t', entry s'.links u' t' = if u = u' ∧ tag = t' then some l else entry s.links u' t') ∧
      (Clean s.links → Clean s'.links) := by
  unfold handleAttr at h
  split at h
  · rename_i hp
    cases ha : a.2 with
    | none => rw [ha] at h; cases h
    | some u =>
      rw [ha] at h
      simp only at h
      cases hl : parseLink U u with
      | none => rw [hl] at h; cases h
      | some link =>
        rw [hl] at h
        simp only at h
        have hd : ∀ x, Describes U u { link with text := x } := by
          intro x
          unfold parseLink at hl
          rw [Option.map_eq_some_iff] at hl
          obtain ⟨p, hp, rfl⟩ := hl
          exact ⟨rfl, hp, rfl⟩
        cases hg : Dict.get? s.links u with
        | none =>
          rw [hg] at h
          simp only [Option.some.injEq] at h
          have hts : ([] : Dict Str Link) = (Dict.get? s.links u).getD [] := by rw [hg]; rfl
          right; left
          refine ⟨u, { link with text := some [] }, hp, rfl, hd _, ?_, ?_, ?_, ?_, ?_⟩
          · rw [← h]
          · rw [← h]
          · simp [entry, hg]
          · rw [← h]; intro u' t'
            exact entry_set s.links u tag [] _ hts u' t'
          · rw [← h]; intro hc
            exact clean_set s.links hc u tag [] _ hts
        | some types =>
          rw [hg] at h
          simp only at h
          have hts : types = (Dict.get? s.links u).getD [] := by rw [hg]; rfl
          have he : entry s.links u tag = Dict.get? types tag := by simp [entry, hg]
          cases ht : Dict.get? types tag with
          | none =>
            rw [ht] at h
            simp only [Option.some.injEq] at h
            right; left
            refine ⟨u, { link with text := some [] }, hp, rfl, hd _, ?_, ?_, ?_, ?_, ?_⟩
            · rw [← h]
            · rw [← h]
            · rw [he, ht]; rfl
            · rw [← h]; intro u' t'
              exact entry_set s.links u tag types _ hts u' t'
            · rw [← h]; intro hc
              exact clean_set s.links hc u tag types _ hts
          | some old =>
            rw [ht] at h
            simp only [Option.some.injEq] at h
            cases hx : old.text with
            | none =>
              right; right
              refine ⟨u, { link with text := old.text }, hp, rfl, old, by rw [he, ht], hx, hd _, hx, ?_, ?_, ?_, ?_⟩
              · rw [← h]
              · rw [← h]
              · rw [← h]; intro u' t'
                exact entry_set s.links u tag types _ hts u' t'
              · rw [← h]; intro hc
                exact clean_set s.links hc u tag types _ hts
            | some ts =>
              right; left
              refine ⟨u, { link with text := old.text }, hp, rfl, hd _, ?_, ?_, ?_, ?_, ?_⟩
              · rw [← h]
              · rw [← h]
              · rw [he, ht]; simp [hx]
              · rw [← h]; intro u' t'
                exact entry_set s.links u tag types _ hts u' t'
              · rw [← h]; intro hc
                exact clean_set s.links hc u tag types _ hts
  · rename_i hp
    left
    injection h with h
    exact ⟨by simpa using hp, h.symm⟩

/-- The invariant of the parser: the entries are those mentioned, each describes its address and has texts. -/
structure Good (U : UrlLib) (M : Str → Str → Prop) (s : PState) : Prop where
  clean : Clean s.links
  known : ∀ u t, (∃ l, entry s.links u t = some l) ↔ M u t
  right : ∀ u t l, entry s.links u t = some l → Describes U u l ∧ l.text ≠ none

theorem good_attr (U : UrlLib) (M : Str → Str → Prop) (tag : Str) (s s' : PState) (a : Str × Option Str) (hg : Good U M s)
    (h : handleAttr U tag s a = some s') :
    Good U (fun u t => M u t ∨ (t = tag ∧ isProp a.1 = true ∧ a.2 = some u)) s' := by
  rcases handleAttr_some U tag s s' a h with ⟨hp, rfl⟩ | h' | h'
  · exact ⟨hg.clean, fun u t => (hg.known u t).trans (by simp [hp]), hg.right⟩
  · obtain ⟨u, l, hp, ha, hd, _, _, ht, he, hc⟩ := h'
    refine ⟨hc hg.clean, ?_, ?_⟩
    · intro u' t'
      rw [he, ha]
      by_cases hh : u = u' ∧ tag = t'
      · obtain ⟨rfl, rfl⟩ := hh
        simp [hp]
      · rw [if_neg hh, hg.known]
        constructor
        · exact .inl
        · rintro (x | ⟨x, _, y⟩)
          · exact x
          · injection y with y
            exact absurd ⟨y, x.symm⟩ hh
    · intro u' t' l' hl
      rw [he] at hl
      by_cases hh : u = u' ∧ tag = t'
      · rw [if_pos hh] at hl
        injection hl with hl
        subst hl
        rw [← hh.1]
        exact ⟨hd, by rw [ht]; simp⟩
      · rw [if_neg hh] at hl
        exact hg.right u' t' l' hl
  · obtain ⟨u, l, _, _, old, ho, hn, _⟩ := h'
    exact absurd hn (hg.right u tag old ho).2

theorem good_attrs (U : UrlLib) (M : Str → Str → Prop) (tag : Str) (as : List (Str × Option Str)) (s s' : PState) (hg : Good U M s)
    (h : handleAttrs U tag as s = some s') :
    Good U (fun u t => M u t ∨ (t = tag ∧ ∃ prop, isProp prop = true ∧ (prop, some u) ∈ as)) s' := by
  induction as generalizing s M with
  | nil =>
    injection h with h
    subst h
    exact ⟨hg.clean, fun u t => (hg.known u t).trans (by simp), hg.right⟩
  | cons a as ih =>
    unfold handleAttrs at h
    cases ha : handleAttr U tag s a with
    | none => rw [ha] at h; cases h
    | some s1 =>
      rw [ha, Option.bind_some] at h
      have := ih _ s1 (good_attr U M tag s s1 a hg ha) h
      refine ⟨this.clean, fun u t => (this.known u t).trans ?_, this.right⟩
      constructor
      · rintro ((x | ⟨x, y, z⟩) | ⟨x, prop, y, z⟩)
        · exact .inl x
        · exact .inr ⟨x, a.1, y, by rw [← z]; simp⟩
        · exact .inr ⟨x, prop, y, by simp [z]⟩
      · rintro (x | ⟨x, prop, y, z⟩)
        · exact .inl (.inl x)
        · rcases List.mem_cons.1 z with z | z
          · exact .inl (.inr ⟨x, by rw [← z]; exact y, by rw [← z]⟩)
          · exact .inr ⟨x, prop, y, z⟩

theorem handleData_some (text : Str) (s s' : PState) (h : handleData text s = some s') :
    s' = s ∨ ∃ u t l ts, s.last = some t ∧ s.cur = some u ∧ entry s.links u t = some l ∧ l.text = some ts ∧
      s'.last = s.last ∧ s'.cur = s.cur ∧
      (∀ u' t', entry s'.links u' t' =
        if u = u' ∧ t = t' then some { l with text := some (ts ++ [text]) } else entry s.links u' t') ∧
      (Clean s.links → Clean s'.links) := by
  unfold handleData at h
  cases hl : s.last with
  | none => rw [hl] at h; left; injection h with h; exact h.symm
  | some t =>
    cases hc : s.cur with
    | none => rw [hl, hc] at h; left; injection h with h; exact h.symm
    | some u =>
      rw [hl, hc] at h
      simp only at h
      split at h
      · left; injection h with h; exact h.symm
      · right
        cases hg : Dict.get? s.links u with
        | none => rw [hg] at h; cases h
        | some types =>
          rw [hg] at h
          simp only at h
          cases ht : Dict.get? types t with
          | none => rw [ht] at h; cases h
          | some l =>
            rw [ht] at h
            simp only at h
            cases hx : l.text with
            | none => rw [hx] at h; cases h
            | some ts =>
              rw [hx] at h
              simp only [Option.some.injEq] at h
              have hts : types = (Dict.get? s.links u).getD [] := by rw [hg]; rfl
              refine ⟨u, t, l, ts, rfl, rfl, by simp [entry, hg, ht], hx, ?_, ?_, ?_, ?_⟩
              · rw [← h]
              · rw [← h]
              · rw [← h]; intro u' t'
                exact entry_set s.links u t types _ hts u' t'
              · rw [← h]; intro hcl
                exact clean_set s.links hcl u t types _ hts

theorem good_data (U : UrlLib) (M : Str → Str → Prop) (text : Str) (s s' : PState) (hg : Good U M s)
    (h : handleData text s = some s') : Good U M s' := by
  rcases handleData_some text s s' h with rfl | ⟨u, t, l, ts, _, _, hl, ht, _, _, he, hc⟩
  · exact hg
  · refine ⟨hc hg.clean, ?_, ?_⟩
    · intro u' t'
      rw [he, ← hg.known]
      by_cases hh : u = u' ∧ t = t'
      · obtain ⟨rfl, rfl⟩ := hh
        rw [if_pos ⟨rfl, rfl⟩]
        exact ⟨fun _ => ⟨l, hl⟩, fun _ => ⟨_, rfl⟩⟩
      · rw [if_neg hh]
    · intro u' t' l' hl'
      rw [he] at hl'
      by_cases hh : u = u' ∧ t = t'
      · obtain ⟨rfl, rfl⟩ := hh
        rw [if_pos ⟨rfl, rfl⟩] at hl'
        injection hl' with hl'
        subst hl'
        exact ⟨(hg.right u t l hl).1, by simp⟩
      · rw [if_neg hh] at hl'
        exact hg.right u' t' l' hl'

theorem good_feed (U : UrlLib) (M : Str → Str → Prop) (es : List Event) (s s' : PState) (hg : Good U M s)
    (h : feed U es s = some s') : Good U (fun u t => M u t ∨ Mentions es u t) s' := by
  induction es generalizing s M with
  | nil =>
    injection h with h
    subst h
    refine ⟨hg.clean, fun u t => (hg.known u t).trans ?_, hg.right⟩
    constructor
    · exact .inl
    · rintro (x | ⟨_, _, _, x, _⟩)
      · exact x
      · cases x
  | cons e es ih =>
    unfold feed at h
    cases hh : handle U s e with
    | none => rw [hh] at h; cases h
    | some s1 =>
      rw [hh, Option.bind_some] at h
      have key : ∀ M1 : Str → Str → Prop, Good U M1 s1 → (∀ u t, M1 u t ↔ M u t ∨ Mentions [e] u t) →
          Good U (fun u t => M u t ∨ Mentions (e :: es) u t) s' := by
        intro M1 h1 h2
        have := ih M1 s1 h1 h
        refine ⟨this.clean, fun u t => (this.known u t).trans ?_, this.right⟩
        rw [h2]
        constructor
        · rintro ((x | ⟨x, as, p, y, z⟩) | ⟨x, as, p, y, z⟩)
          · exact .inl x
          · exact .inr ⟨x, as, p, by rw [List.mem_singleton] at y; rw [y]; simp, z⟩
          · exact .inr ⟨x, as, p, by simp [y], z⟩
        · rintro (x | ⟨x, as, p, y, z⟩)
          · exact .inl (.inl x)
          · rcases List.mem_cons.1 y with y | y
            · exact .inl (.inr ⟨x, as, p, by rw [← y]; simp, z⟩)
            · exact .inr ⟨x, as, p, y, z⟩
      have hno : (∀ t as, e ≠ .start t as) → ∀ u t, ¬ Mentions [e] u t := by
        rintro hne u t ⟨_, as, _, x, _⟩
        rw [List.mem_singleton] at x
        exact hne t as x.symm
      cases e with
      | start tag attrs =>
        unfold handle at hh
        dsimp only at hh
        by_cases ht : isTag tag = true
        · rw [if_pos ht] at hh
          have hg' : Good U M { s with last := some tag } := ⟨hg.clean, hg.known, hg.right⟩
          refine key _ (good_attrs U M tag attrs _ s1 hg' hh) ?_
          intro u t
          apply or_congr_right
          constructor
          · rintro ⟨rfl, p, hp, hm⟩
            exact ⟨(isTag_iff _).1 ht, attrs, p, by simp, (isProp_iff p).1 hp, hm⟩
          · rintro ⟨_, as, p, x, hp, hm⟩
            rw [List.mem_singleton] at x
            injection x with x1 x2
            subst x1; subst x2
            exact ⟨rfl, p, (isProp_iff p).2 hp, hm⟩
        · rw [if_neg ht] at hh
          injection hh with hh
          subst hh
          refine key M hg ?_
          intro u t
          constructor
          · exact .inl
          · rintro (x | ⟨y, as, p, x, _⟩)
            · exact x
            · rw [List.mem_singleton] at x
              injection x with x1 _
              subst x1
              exact absurd ((isTag_iff _).2 y) ht
      | stop tag =>
        unfold handle at hh
        injection hh with hh
        subst hh
        refine key M ⟨hg.clean, hg.known, hg.right⟩ ?_
        intro u t
        have := hno (by intro _ _ h; cases h) u t
        exact ⟨.inl, fun x => x.resolve_right this⟩
      | data text =>
        refine key M (good_data U M text s s1 hg hh) ?_
        intro u t
        have := hno (by intro _ _ h; cases h) u t
        exact ⟨.inl, fun x => x.resolve_right this⟩

theorem good_init (U : UrlLib) : Good U (fun _ _ => False) PState.init :=
  ⟨⟨List.nodup_nil, by intro p hp; cases hp⟩, by intro u t; simp [PState.init, entry],
    by intro u t l h; simp [PState.init, entry] at h⟩

theorem feed_good (U : UrlLib) (es : List Event) (s : PState) (h : feed U es PState.init = some s) :
    Good U (Mentions es) s := by
  have := good_feed U _ es _ s (good_init U) h
  exact ⟨this.clean, fun u t => (this.known u t).trans (by simp), this.right⟩

theorem has_iff_entry (ls : LinkDict) (hc : Clean ls) (u : Str) :
    Dict.has ls u = true ↔ ∃ t l, entry ls u t = some l := by
  unfold Dict.has entry
  cases hg : Dict.get? ls u with
  | none => simp
  | some types =>
    simp only [Option.isSome_some, Option.bind_some, true_iff]
    have := (hc.2 _ (Dict.mem_of_get? ls hg)).2
    cases types with
    | nil => exact absurd rfl this
    | cons p ps => exact ⟨p.1, p.2, by rw [Dict.get?_cons, if_pos rfl]⟩


/-- What adding the addresses found otherwise does. -/
theorem addUris_some (U : UrlLib) (uris : List Str) (ls ls' : LinkDict) (hc : Clean ls) (h : addUris U uris ls = some ls') :
    Clean ls' ∧ ∀ u t, (u ∉ uris ∨ ∃ t' l, entry ls u t' = some l) ∧ entry ls' u t = entry ls u t ∨
      (u ∈ uris ∧ (¬ ∃ t' l, entry ls u t' = some l) ∧
        ∃ l, Describes U u l ∧ l.text = none ∧ entry ls' u t = if t = c!"parsed" then some l else none) := by
  induction uris generalizing ls with
  | nil =>
    injection h with h
    subst h
    exact ⟨hc, fun u t => .inl ⟨.inl (by simp), rfl⟩⟩
  | cons v vs ih =>
    unfold addUris at h
    by_cases hv : Dict.has ls v = true
    · rw [if_pos hv] at h
      obtain ⟨h1, h2⟩ := ih ls hc h
      refine ⟨h1, fun u t => ?_⟩
      have hv' := (has_iff_entry ls hc v).1 hv
      rcases h2 u t with ⟨x, y⟩ | ⟨x, y, z⟩
      · refine .inl ⟨?_, y⟩
        rcases x with x | x
        · by_cases huv : u = v
          · right; rw [huv]; exact hv'
          · left; simp [huv, x]
        · exact .inr x
      · exact .inr ⟨by simp [x], y, z⟩
    · rw [if_neg hv] at h
      have hv' : ¬ ∃ t l, entry ls v t = some l := fun x => hv ((has_iff_entry ls hc v).2 x)
      cases hl : parseLink U v with
      | none => rw [hl] at h; cases h
      | some link =>
        rw [hl] at h
        simp only at h
        have hg : Dict.get? ls v = none := by
          unfold Dict.has at hv
          cases hg : Dict.get? ls v with
          | none => rfl
          | some x => rw [hg] at hv; exact absurd rfl hv
        have hts : ([] : Dict Str Link) = (Dict.get? ls v).getD [] := by rw [hg]; rfl
        have hd : Describes U v link ∧ link.text = none := by
          unfold parseLink at hl
          rw [Option.map_eq_some_iff] at hl
          obtain ⟨p, hp, rfl⟩ := hl
          exact ⟨⟨rfl, hp, rfl⟩, rfl⟩
        have he := entry_set ls v c!"parsed" [] link hts
        obtain ⟨h1, h2⟩ := ih _ (clean_set ls hc v c!"parsed" [] link hts) h
        refine ⟨h1, fun u t => ?_⟩
        by_cases huv : u = v
        · subst huv
          right
          refine ⟨by simp, hv', link, hd.1, hd.2, ?_⟩
          rcases h2 u t with ⟨_, y⟩ | ⟨_, y, _⟩
          · refine y.trans ((he u t).trans ?_)
            by_cases ht : t = c!"parsed"
            · rw [if_pos ⟨rfl, ht.symm⟩, if_pos ht]
            · rw [if_neg (fun h => ht h.2.symm), if_neg ht]
              exact Option.eq_none_iff_forall_ne_some.2 (fun l hl => hv' ⟨t, l, hl⟩)
          · exact absurd ⟨c!"parsed", link, (he u _).trans (by rw [if_pos ⟨rfl, rfl⟩])⟩ y
        · have hsame : ∀ t, entry (Dict.set ls v (Dict.set [] c!"parsed" link)) u t = entry ls u t := by
            intro t
            rw [he, if_neg (fun h => huv h.1.symm)]
          rcases h2 u t with ⟨x, y⟩ | ⟨x, y, z⟩
          · left
            refine ⟨?_, y.trans (hsame t)⟩
            rcases x with x | ⟨t', l, x⟩
            · left; simp [huv, x]
            · right; exact ⟨t', l, (hsame t').symm.trans x⟩
          · right
            refine ⟨by simp [x], ?_, z⟩
            rintro ⟨t', l, hl⟩
            exact y ⟨t', l, (hsame t').trans hl⟩

theorem links_some (U : UrlLib) (es : List Event) (uris : List Str) (ls : LinkDict) (h : links U es uris = some ls) :
    ∃ s, feed U es PState.init = some s ∧ Good U (Mentions es) s ∧ addUris U uris s.links = some ls := by
  unfold links at h
  cases hf : feed U es PState.init with
  | none => rw [hf] at h; cases h
  | some s =>
    rw [hf, Option.bind_some] at h
    exact ⟨s, rfl, feed_good U es s hf, h⟩

theorem links_clean (U : UrlLib) (es : List Event) (uris : List Str) (ls : LinkDict) (h : links U es uris = some ls) : Clean ls := by
  obtain ⟨s, _, hg, ha⟩ := links_some U es uris ls h
  exact (addUris_some U uris s.links ls hg.clean ha).1

theorem parsed_not_mentioned (es : List Event) (u : Str) : ¬ Mentions es u c!"parsed" := by
  rintro ⟨h | h, _⟩ <;> simp at h

/-- **C87**.  The links of a message are those of its HTML, by the tags they are in, and the addresses found otherwise that
are not in its HTML. -/
theorem C87_found (U : UrlLib) (es : List Event) (uris : List Str) (ls : LinkDict) (h : links U es uris = some ls) (u t : Str) :
    (∃ l, entry ls u t = some l) ↔
      Mentions es u t ∨ (t = c!"parsed" ∧ u ∈ uris ∧ ∀ t', ¬ Mentions es u t') := by
  obtain ⟨s, _, hg, ha⟩ := links_some U es uris ls h
  have hk : (∃ t' l, entry s.links u t' = some l) ↔ ∃ t', Mentions es u t' := by
    constructor
    · rintro ⟨t', x⟩; exact ⟨t', (hg.known u t').1 x⟩
    · rintro ⟨t', x⟩; exact ⟨t', (hg.known u t').2 x⟩
  rcases (addUris_some U uris s.links ls hg.clean ha).2 u t with ⟨x, y⟩ | ⟨x, y, l, _, _, z⟩
  · rw [y, hg.known]
    constructor
    · exact .inl
    · rintro (h | ⟨_, h1, h2⟩)
      · exact h
      · rcases x with x | x
        · exact absurd h1 x
        · obtain ⟨t', h'⟩ := hk.1 x
          exact absurd h' (h2 t')
  · rw [z]
    have hn : ∀ t', ¬ Mentions es u t' := fun t' h' => y (hk.2 ⟨t', h'⟩)
    constructor
    · rintro ⟨l', h'⟩
      by_cases ht : t = c!"parsed"
      · exact .inr ⟨ht, x, hn⟩
      · rw [if_neg ht] at h'; cases h'
    · rintro (h' | ⟨h', _⟩)
      · exact absurd h' (hn t)
      · exact ⟨l, by rw [if_pos h']⟩

/-- **C87**.  What is said of a link is true of its address, and a link has texts exactly if it is in the HTML. -/
theorem C87_described (U : UrlLib) (es : List Event) (uris : List Str) (ls : LinkDict) (h : links U es uris = some ls) (u t : Str)
    (l : Link) (hl : entry ls u t = some l) : Describes U u l ∧ (l.text ≠ none ↔ t ≠ c!"parsed") := by
  obtain ⟨s, _, hg, ha⟩ := links_some U es uris ls h
  rcases (addUris_some U uris s.links ls hg.clean ha).2 u t with ⟨x, y⟩ | ⟨x, y, l', hd, hx, z⟩
  · rw [y] at hl
    refine ⟨(hg.right u t l hl).1, fun _ ht => ?_, fun _ => (hg.right u t l hl).2⟩
    rw [ht] at hl
    exact parsed_not_mentioned es u ((hg.known u _).1 ⟨l, hl⟩)
  · rw [z] at hl
    by_cases ht : t = c!"parsed"
    · rw [if_pos ht] at hl
      injection hl with hl
      subst hl
      exact ⟨hd, fun h' => absurd hx h', fun h' => absurd ht h'⟩
    · rw [if_neg ht] at hl; cases hl

/-- **C87**.  No link is lost: every address of the HTML and every address found otherwise is known. -/
theorem C87_all (U : UrlLib) (es : List Event) (uris : List Str) (ls : LinkDict) (h : links U es uris = some ls) (u : Str) :
    (∃ t l, entry ls u t = some l) ↔ u ∈ uris ∨ ∃ t, Mentions es u t := by
  constructor
  · rintro ⟨t, hl⟩
    rcases (C87_found U es uris ls h u t).1 hl with x | ⟨_, x, _⟩
    · exact .inr ⟨t, x⟩
    · exact .inl x
  · rintro (x | ⟨t, x⟩)
    · by_cases hm : ∃ t, Mentions es u t
      · obtain ⟨t, hm⟩ := hm
        exact ⟨t, (C87_found U es uris ls h u t).2 (.inl hm)⟩
      · exact ⟨_, (C87_found U es uris ls h u c!"parsed").2 (.inr ⟨rfl, x, fun t' h' => hm ⟨t', h'⟩⟩)⟩
    · exact ⟨t, (C87_found U es uris ls h u t).2 (.inl x)⟩

/-! ### C88: the texts of links, and messages whose links cannot be read -/

theorem feed_append (U : UrlLib) (a b : List Event) (s : PState) : feed U (a ++ b) s = (feed U a s).bind (feed U b) := by
  induction a generalizing s with
  | nil => rfl
  | cons e a ih =>
    show (handle U s e).bind (feed U (a ++ b)) = ((handle U s e).bind (feed U a)).bind (feed U b)
    cases handle U s e with
    | none => rfl
    | some s1 => exact ih s1

/-- The texts recorded for an address. -/
def textsAt (s : PState) (u t : Str) : List Str := ((entry s.links u t).bind Link.text).getD []

theorem handleAttr_ok (U : UrlLib) (tag prop u : Str) (s : PState) (hu : U.parse u ≠ none) :
    ∃ s', handleAttr U tag s (prop, some u) = some s' := by
  unfold handleAttr
  split
  · simp only
    cases hl : parseLink U u with
    | none =>
      unfold parseLink at hl
      rw [Option.map_eq_none_iff] at hl
      exact absurd hl hu
    | some link =>
      simp only
      split
      · split
        · exact ⟨_, rfl⟩
        · exact ⟨_, rfl⟩
      · exact ⟨_, rfl⟩
  · exact ⟨_, rfl⟩

theorem handleData_ok (d : Str) (s : PState) (u t : Str) (hd : d ≠ []) (hu : u ≠ []) (hlast : s.last = some t)
    (hcur : s.cur = some u) (l : Link) (hl : entry s.links u t = some l) (ht : l.text ≠ none) :
    ∃ s', handleData d s = some s' ∧ s'.last = some t ∧ s'.cur = some u ∧
      (∃ l', entry s'.links u t = some l' ∧ l'.text ≠ none) ∧
      ∀ u' t', textsAt s' u' t' = textsAt s u' t' ++ if u = u' ∧ t = t' then [d] else [] := by
  unfold entry at hl
  cases hg : Dict.get? s.links u with
  | none => rw [hg] at hl; cases hl
  | some types =>
    rw [hg, Option.bind_some] at hl
    cases hx : l.text with
    | none => exact absurd hx ht
    | some ts =>
      have hts : types = (Dict.get? s.links u).getD [] := by rw [hg]; rfl
      have he := entry_set s.links u t types { l with text := some (ts ++ [d]) } hts
      refine ⟨{ s with links := Dict.set s.links u (Dict.set types t { l with text := some (ts ++ [d]) }) }, ?_, hlast, hcur, ?_, ?_⟩
      · unfold handleData
        rw [hlast, hcur]
        simp only [hd, hu, or_self, if_false, hg, hl, hx]
      · exact ⟨_, (he u t).trans (if_pos ⟨rfl, rfl⟩), by simp⟩
      · intro u' t'
        unfold textsAt
        rw [he]
        by_cases hh : u = u' ∧ t = t'
        · obtain ⟨rfl, rfl⟩ := hh
          have : entry s.links u t = some l := by unfold entry; rw [hg, Option.bind_some, hl]
          rw [if_pos ⟨rfl, rfl⟩, if_pos ⟨rfl, rfl⟩, this]
          simp [hx]
        · rw [if_neg hh, if_neg hh, List.append_nil]

theorem feed_texts (U : UrlLib) (u t : Str) (hu : u ≠ []) (ds : List Str) (hd : ∀ d ∈ ds, d ≠ []) (s : PState)
    (hlast : s.last = some t) (hcur : s.cur = some u) (l : Link) (hl : entry s.links u t = some l) (ht : l.text ≠ none) :
    ∃ s', feed U (ds.map .data) s = some s' ∧
      ∀ u' t', textsAt s' u' t' = textsAt s u' t' ++ if u = u' ∧ t = t' then ds else [] := by
  induction ds generalizing s l with
  | nil => exact ⟨s, rfl, by intro u' t'; simp⟩
  | cons d ds ih =>
    obtain ⟨s1, h1, h2, h3, ⟨l', h4, h5⟩, h6⟩ :=
      handleData_ok d s u t (hd d (by simp)) hu hlast hcur l hl ht
    obtain ⟨s2, h7, h8⟩ := ih (fun d' h => hd d' (by simp [h])) s1 h2 h3 l' h4 h5
    refine ⟨s2, ?_, ?_⟩
    · show (handleData d s).bind (feed U (ds.map .data)) = some s2
      rw [h1]
      exact h7
    · intro u' t'
      rw [h8, h6]
      by_cases hh : u = u' ∧ t = t'
      · simp [hh]
      · simp [hh]

theorem feed_anchor (U : UrlLib) (t : Str) (ht : isTag t = true) (u : Str) (hu : u ≠ []) (hp : U.parse u ≠ none) (ds : List Str)
    (hd : ∀ d ∈ ds, d ≠ []) (M : Str → Str → Prop) (s : PState) (hg : Good U M s) :
    ∃ s', feed U (.start t [(c!"href", some u)] :: ds.map .data) s = some s' ∧
      ∀ u' t', textsAt s' u' t' = textsAt s u' t' ++ if u = u' ∧ t = t' then ds else [] := by
  obtain ⟨s1, h1⟩ := handleAttr_ok U t c!"href" u { s with last := some t } hp
  have hpr : isProp c!"href" = true := by decide
  have hg' : Good U M { s with last := some t } := ⟨hg.clean, hg.known, hg.right⟩
  rcases handleAttr_some U t _ s1 _ h1 with ⟨x, _⟩ | h' | h'
  · rw [hpr] at x; cases x
  · obtain ⟨u1, l, _, ha, _, hc, hla, htx, he, _⟩ := h'
    injection ha with ha
    subst ha
    have hl : entry s1.links u t = some l := (he u t).trans (if_pos ⟨rfl, rfl⟩)
    obtain ⟨s2, h2, h3⟩ := feed_texts U u t hu ds hd s1 (by rw [hla]) hc l hl (by rw [htx]; simp)
    refine ⟨s2, ?_, ?_⟩
    · show (handle U s (.start t [(c!"href", some u)])).bind (feed U (ds.map .data)) = some s2
      have : handle U s (.start t [(c!"href", some u)]) = some s1 := by
        unfold handle
        dsimp only
        rw [if_pos ht]
        show (handleAttr U t { s with last := some t } (c!"href", some u)).bind _ = _
        rw [h1]
        rfl
      rw [this]
      exact h2
    · intro u' t'
      rw [h3]
      congr 1
      unfold textsAt
      rw [he]
      by_cases hh : u = u' ∧ t = t'
      · obtain ⟨rfl, rfl⟩ := hh
        rw [if_pos ⟨rfl, rfl⟩, Option.bind_some, htx]
        rfl
      · rw [if_neg hh]
  · obtain ⟨u1, l, _, _, old, ho, hn, _⟩ := h'
    exact absurd hn (hg'.right u1 t old ho).2

theorem feed_items (U : UrlLib) (items : List Item)
    (hu : ∀ u ts, Item.anchor u ts ∈ items → u ≠ [] ∧ U.parse u ≠ none ∧ ∀ d ∈ ts, d ≠ []) (M : Str → Str → Prop) (s : PState)
    (hg : Good U M s) (hc : s.cur = none) :
    ∃ s', feed U (items.flatMap Item.events) s = some s' ∧
      ∀ u, textsAt s' u c!"a" = textsAt s u c!"a" ++ items.flatMap (Item.textsOf u) := by
  induction items generalizing s M with
  | nil => exact ⟨s, rfl, by intro u; simp⟩
  | cons i items ih =>
    have hrest : ∀ u ts, Item.anchor u ts ∈ items → u ≠ [] ∧ U.parse u ≠ none ∧ ∀ d ∈ ts, d ≠ [] :=
      fun u ts h => hu u ts (by simp [h])
    rw [List.flatMap_cons, feed_append]
    have key : ∀ s1, feed U i.events s = some s1 → s1.cur = none →
        (∀ u, textsAt s1 u c!"a" = textsAt s u c!"a" ++ i.textsOf u) →
        ∃ s', (feed U i.events s).bind (feed U (items.flatMap Item.events)) = some s' ∧
          ∀ u, textsAt s' u c!"a" = textsAt s u c!"a" ++ (i :: items).flatMap (Item.textsOf u) := by
      intro s1 h1 h2 h3
      obtain ⟨s2, h4, h5⟩ := ih hrest _ s1 (good_feed U M _ s s1 hg h1) h2
      refine ⟨s2, by rw [h1]; exact h4, ?_⟩
      intro u
      rw [h5, h3, List.flatMap_cons, List.append_assoc]
    cases i with
    | anchor u ts =>
      obtain ⟨x, y, z⟩ := hu u ts (by simp)
      obtain ⟨s1, h1, h2⟩ := feed_anchor U c!"a" (by decide) u x y ts z M s hg
      refine key { s1 with last := none, cur := none } ?_ rfl ?_
      · show feed U ((.start c!"a" [(c!"href", some u)] :: ts.map .data) ++ [.stop c!"a"]) s = _
        rw [feed_append, h1]
        rfl
      · intro u'
        refine (h2 u' c!"a").trans ?_
        simp [Item.textsOf]
    | text d =>
      refine key s ?_ hc ?_
      · show (handleData d s).bind _ = _
        unfold handleData
        rw [hc]
        cases s.last <;> rfl
      · intro u; simp [Item.textsOf]
    | elem tag =>
      by_cases ht : isTag tag = true
      · refine key { s with last := some tag } ?_ hc ?_
        · show (handle U s (.start tag [])).bind _ = _
          unfold handle
          dsimp only
          rw [if_pos ht]
          rfl
        · intro u; simp [Item.textsOf, textsAt]
      · refine key s ?_ hc ?_
        · show (handle U s (.start tag [])).bind _ = _
          unfold handle
          dsimp only
          rw [if_neg ht]
          rfl
        · intro u; simp [Item.textsOf]

theorem addUris_ok (U : UrlLib) (uris : List Str) (ls : LinkDict) (hu : ∀ u ∈ uris, U.parse u ≠ none) :
    ∃ ls', addUris U uris ls = some ls' := by
  induction uris generalizing ls with
  | nil => exact ⟨ls, rfl⟩
  | cons u us ih =>
    unfold addUris
    split
    · exact ih ls (fun v h => hu v (by simp [h]))
    · cases hl : parseLink U u with
      | none =>
        unfold parseLink at hl
        rw [Option.map_eq_none_iff] at hl
        exact absurd hl (hu u (by simp))
      | some link => exact ih _ (fun v h => hu v (by simp [h]))

/-- **C88** (partial).  In HTML whose links contain only text, the texts of an address are those of all links to it, in
order; text outside of links is left out. -/
theorem C88_text_partial (U : UrlLib) (items : List Item) (uris : List Str)
    (hi : ∀ u ts, Item.anchor u ts ∈ items → u ≠ [] ∧ U.parse u ≠ none ∧ ∀ d ∈ ts, d ≠ [])
    (hu : ∀ u ∈ uris, U.parse u ≠ none) :
    ∃ ls, links U (items.flatMap Item.events) uris = some ls ∧
      ∀ u ts, Item.anchor u ts ∈ items → ∃ l, entry ls u c!"a" = some l ∧ l.text = some (items.flatMap (Item.textsOf u)) := by
  obtain ⟨s, h1, h2⟩ := feed_items U items hi _ PState.init (good_init U) rfl
  obtain ⟨ls, h3⟩ := addUris_ok U uris s.links hu
  have hlinks : links U (items.flatMap Item.events) uris = some ls := by
    unfold links
    rw [h1]
    exact h3
  refine ⟨ls, hlinks, ?_⟩
  intro u ts hm
  have hg := feed_good U _ s h1
  have hM : Mentions (items.flatMap Item.events) u c!"a" := by
    refine ⟨.inl rfl, [(c!"href", some u)], c!"href", ?_, .inl rfl, by simp⟩
    rw [List.mem_flatMap]
    exact ⟨_, hm, by simp [Item.events]⟩
  obtain ⟨l, hl⟩ := (hg.known u c!"a").2 hM
  refine ⟨l, ?_, ?_⟩
  · rcases (addUris_some U uris s.links ls hg.clean h3).2 u c!"a" with ⟨_, y⟩ | ⟨_, y, _⟩
    · rw [y, hl]
    · exact absurd ⟨_, l, hl⟩ y
  · have := h2 u
    unfold textsAt at this
    rw [hl, Option.bind_some] at this
    have hne := (hg.right u _ l hl).2
    cases hx : l.text with
    | none => exact absurd hx hne
    | some ts' =>
      rw [hx] at this
      have h0 : entry PState.init.links u c!"a" = none := rfl
      rw [h0] at this
      simpa using this

/-- **C88** is violated: what follows the end of any element is left out of the text, even if the link goes on, as it does
in `<a href="u">see <b>this</b> page</a>`. -/
theorem C88_rest_violated (U : UrlLib) (pre post : List Event) (tag : Str) (ds : List Str) (uris : List Str) :
    links U (pre ++ .stop tag :: ds.map .data ++ post) uris = links U (pre ++ .stop tag :: post) uris := by
  have h : ∀ s : PState, s.cur = none → feed U (ds.map .data) s = some s := by
    intro s hs
    induction ds with
    | nil => rfl
    | cons d ds ih =>
      show (handleData d s).bind _ = _
      have : handleData d s = some s := by
        unfold handleData
        rw [hs]
        cases s.last <;> rfl
      rw [this]
      exact ih
  unfold links
  congr 1
  rw [List.append_assoc, feed_append, feed_append]
  cases feed U pre PState.init with
  | none => rfl
  | some s =>
    show feed U (ds.map .data ++ post) { s with last := none, cur := none } = feed U post { s with last := none, cur := none }
    rw [feed_append, h { s with last := none, cur := none } rfl]
    rfl

/-- **C88** is violated: `<link>` has no text and no end, but what follows it counts as its text. -/
theorem C88_link_violated (U : UrlLib) (u : Str) (hu : u ≠ []) (hp : U.parse u ≠ none) (ds : List Str) (hd : ∀ d ∈ ds, d ≠ []) :
    ∃ ls l, links U (.start c!"link" [(c!"href", some u)] :: ds.map .data) [] = some ls ∧
      entry ls u c!"link" = some l ∧ l.text = some ds := by
  obtain ⟨s, h1, h2⟩ := feed_anchor U c!"link" (by decide) u hu hp ds hd _ PState.init (good_init U)
  have hg := feed_good U _ s h1
  obtain ⟨l, hl⟩ := (hg.known u c!"link").2 ⟨.inr rfl, [(c!"href", some u)], c!"href", by simp, .inl rfl, by simp⟩
  refine ⟨s.links, l, ?_, hl, ?_⟩
  · unfold links
    rw [h1]
    rfl
  · have := h2 u c!"link"
    unfold textsAt at this
    rw [hl, Option.bind_some] at this
    have hne := (hg.right u _ l hl).2
    cases hx : l.text with
    | none => exact absurd hx hne
    | some ts' =>
      rw [hx] at this
      have h0 : entry PState.init.links u c!"link" = none := rfl
      rw [h0] at this
      simpa using this

/-- **C88** is violated: the text of a link with an empty address is left out. -/
theorem C88_blank_violated (U : UrlLib) (pre post : List Event) (prop tag : Str) (ht : tag = c!"a" ∨ tag = c!"link")
    (hp : prop = c!"href" ∨ prop = c!"src") (ds : List Str) (uris : List Str) :
    links U (pre ++ .start tag [(prop, some [])] :: ds.map .data ++ post) uris =
      links U (pre ++ .start tag [(prop, some [])] :: post) uris := by
  have h : ∀ s : PState, s.cur = some [] → feed U (ds.map .data) s = some s := by
    intro s hs
    induction ds with
    | nil => rfl
    | cons d ds ih =>
      show (handleData d s).bind _ = _
      have : handleData d s = some s := by
        unfold handleData
        rw [hs]
        cases s.last with
        | none => rfl
        | some t => simp
      rw [this]
      exact ih
  unfold links
  congr 1
  rw [List.append_assoc, feed_append, feed_append]
  cases feed U pre PState.init with
  | none => rfl
  | some s =>
    show ((handle U s (.start tag [(prop, some [])])).bind (feed U (ds.map .data ++ post))) =
      ((handle U s (.start tag [(prop, some [])])).bind (feed U post))
    cases h1 : handle U s (.start tag [(prop, some [])]) with
    | none => rfl
    | some s1 =>
      have hcur : s1.cur = some [] := by
        unfold handle at h1
        dsimp only at h1
        rw [if_pos ((isTag_iff tag).2 ht)] at h1
        unfold handleAttrs at h1
        cases h2 : handleAttr U tag { s with last := some tag } (prop, some []) with
        | none => rw [h2] at h1; cases h1
        | some s2 =>
          rw [h2] at h1
          injection h1 with h1
          subst h1
          rcases handleAttr_some U tag _ _ _ h2 with ⟨x, _⟩ | ⟨u1, l, _, ha, _, hc, _⟩ | ⟨u1, l, _, ha, _, _, _, _, _, hc, _⟩
          · rw [(isProp_iff prop).2 hp] at x; cases x
          · injection ha with ha; rw [hc, ha]
          · injection ha with ha; rw [hc, ha]
      show feed U (ds.map .data ++ post) s1 = feed U post s1
      rw [feed_append, h s1 hcur]
      rfl

/-- **C88** is violated: one address that `urlparse` does not accept, as `http://[`, anywhere in the HTML or in the text, makes
the whole message unreadable. -/
theorem C88_address_violated (U : UrlLib) (es : List Event) (uris : List Str) (u : Str) (hp : U.parse u = none)
    (h : u ∈ uris ∨ ∃ t, Mentions es u t) : links U es uris = none := by
  cases hl : links U es uris with
  | none => rfl
  | some ls =>
    obtain ⟨t, l, he⟩ := (C87_all U es uris ls hl u).2 h
    have := (C87_described U es uris ls hl u t l he).1.2.1
    rw [hp] at this
    cases this

theorem handleAttrs_none (U : UrlLib) (tag prop : Str) (hp : isProp prop = true) (as : List (Str × Option Str)) (hm : (prop, none) ∈ as)
    (s : PState) : handleAttrs U tag as s = none := by
  induction as generalizing s with
  | nil => cases hm
  | cons a as ih =>
    unfold handleAttrs
    rcases List.mem_cons.1 hm with hm | hm
    · rw [← hm]
      unfold handleAttr
      rw [if_pos hp]
      rfl
    · cases handleAttr U tag s a with
      | none => rfl
      | some s1 => exact ih hm s1

/-- **C88** is violated: a link without address, as in `<a href>`, makes the whole message unreadable. -/
theorem C88_empty_violated (U : UrlLib) (pre post : List Event) (uris : List Str) (tag prop : Str) (attrs : List (Str × Option Str))
    (ht : tag = c!"a" ∨ tag = c!"link") (hp : prop = c!"href" ∨ prop = c!"src") (hm : (prop, none) ∈ attrs) :
    links U (pre ++ .start tag attrs :: post) uris = none := by
  unfold links
  rw [feed_append]
  cases feed U pre PState.init with
  | none => rfl
  | some s =>
    have : handle U s (.start tag attrs) = none := by
      unfold handle
      dsimp only
      rw [if_pos ((isTag_iff tag).2 ht)]
      exact handleAttrs_none U tag prop ((isProp_iff prop).2 hp) attrs hm _
    show ((feed U (.start tag attrs :: post) s).bind _) = none
    show (((handle U s (.start tag attrs)).bind (feed U post)).bind _) = none
    rw [this]
    rfl

/-- **C88** is violated: a `<link>` without address inside of a link makes the whole message unreadable. -/
theorem C88_inside_violated (U : UrlLib) (pre post : List Event) (uris : List Str) (u d : Str) (hu : u ≠ []) (hd : d ≠ [])
    (hpre : ¬ Mentions pre u c!"link") :
    links U (pre ++ .start c!"a" [(c!"href", some u)] :: .start c!"link" [] :: .data d :: post) uris = none := by
  unfold links
  rw [feed_append]
  cases hf : feed U pre PState.init with
  | none => rfl
  | some s =>
    have hg := feed_good U pre s hf
    show (((handle U s (.start c!"a" [(c!"href", some u)])).bind (feed U (.start c!"link" [] :: .data d :: post))).bind _) = none
    cases h1 : handle U s (.start c!"a" [(c!"href", some u)]) with
    | none => rfl
    | some s1 =>
      have hg1 := good_feed U _ [.start c!"a" [(c!"href", some u)]] s s1 hg
        (by show (handle U s _).bind _ = _; rw [h1]; rfl)
      have hcur : s1.cur = some u := by
        unfold handle at h1
        dsimp only at h1
        rw [if_pos (by decide)] at h1
        unfold handleAttrs at h1
        cases h2 : handleAttr U c!"a" { s with last := some c!"a" } (c!"href", some u) with
        | none => rw [h2] at h1; cases h1
        | some s2 =>
          rw [h2] at h1
          injection h1 with h1
          subst h1
          rcases handleAttr_some U c!"a" _ _ _ h2 with ⟨x, _⟩ | ⟨u1, l, _, ha, _, hc, _⟩ | ⟨u1, l, _, ha, _, _, _, _, _, hc, _⟩
          · exact absurd x (by show ¬ isProp c!"href" = false; decide)
          · injection ha with ha; rw [hc, ha]
          · injection ha with ha; rw [hc, ha]
      have hno : ¬ ∃ l, entry s1.links u c!"link" = some l := by
        rw [hg1.known]
        rintro (x | ⟨_, as, p, x, _⟩)
        · exact hpre x
        · rw [List.mem_singleton] at x
          injection x with x _
          simp at x
      have hdata : handleData d { s1 with last := some c!"link" } = none := by
        unfold handleData
        rw [hcur]
        simp only [hd, hu, or_self, if_false]
        cases hg2 : Dict.get? s1.links u with
        | none => rfl
        | some types =>
          simp only
          cases ht : Dict.get? types c!"link" with
          | none => rfl
          | some l => exact absurd ⟨l, by unfold entry; rw [hg2]; exact ht⟩ hno
      have hstep : feed U (.start c!"link" [] :: .data d :: post) s1 =
          (handleData d { s1 with last := some c!"link" }).bind (feed U post) := rfl
      show ((feed U (.start c!"link" [] :: .data d :: post) s1).bind _) = none
      rw [hstep, hdata]
      rfl

/-! ### C89: `uri_detail` rules -/

theorem value_iff (l : Link) (key v : Str) : l.value key = some (some v) ↔ Field l key v := by
  unfold Link.value Field
  by_cases h1 : key = c!"raw"
  · subst h1; simp; exact eq_comm
  by_cases h2 : key = c!"scheme"
  · subst h2; simp; exact eq_comm
  by_cases h3 : key = c!"cleaned"
  · subst h3; simp; exact eq_comm
  by_cases h4 : key = c!"domain"
  · subst h4; simp; exact eq_comm
  rw [if_neg h1, if_neg h2, if_neg h3, if_neg h4]
  simp only [h1, h2, h3, h4, false_and, or_false, iff_false]
  split
  · cases l.text <;> simp
  · simp

theorem checkItem_true {R : Type} (L : ReLib R) (l : Link) (cs : List (Str × Option (Pat R))) :
    checkItem L l cs = some true ↔ ∀ c ∈ cs, ∃ q v, c.2 = some q ∧ Field l c.1 v ∧ q.test L v = true := by
  induction cs with
  | nil => simp [checkItem]
  | cons c cs ih =>
    obtain ⟨key, p⟩ := c
    rw [List.forall_mem_cons, ← ih]
    conv => lhs; unfold checkItem
    simp only [← value_iff]
    cases hv : l.value key with
    | none => simp
    | some data =>
      cases p with
      | none => simp
      | some p =>
        cases data with
        | none => simp
        | some data =>
          simp only [Option.some.injEq]
          by_cases ht : p.test L data = true
          · simp [ht]
          · simp [ht]

theorem checkItem_total {R : Type} (L : ReLib R) (l : Link) (cs : List (Str × Option (Pat R)))
    (hk : ∀ c ∈ cs, c.2 ≠ none ∧ c.1 ≠ c!"text") : checkItem L l cs ≠ none := by
  induction cs with
  | nil => simp [checkItem]
  | cons c cs ih =>
    obtain ⟨key, p⟩ := c
    obtain ⟨h1, h2⟩ := hk (key, p) (by simp)
    unfold checkItem
    cases hv : l.value key with
    | none => simp
    | some data =>
      cases p with
      | none => exact absurd rfl h1
      | some p =>
        cases data with
        | none =>
          exfalso
          unfold Link.value at hv
          simp only at h2
          rw [if_neg h2] at hv
          (repeat' split at hv) <;> simp at hv
        | some data =>
          simp only
          split
          · exact ih (fun c h => hk c (by simp [h]))
          · simp

theorem firstTrue_true {α : Type} (f : α → Option Bool) (as : List α) (h : firstTrue f as = some true) :
    ∃ a ∈ as, f a = some true := by
  induction as with
  | nil => simp [firstTrue] at h
  | cons a as ih =>
    unfold firstTrue at h
    split at h
    · cases h
    · rename_i ha; exact ⟨a, by simp, ha⟩
    · obtain ⟨b, hb, hf⟩ := ih h
      exact ⟨b, by simp [hb], hf⟩

theorem firstTrue_total {α : Type} (f : α → Option Bool) (as : List α) (ht : ∀ a ∈ as, f a ≠ none) :
    firstTrue f as = some true ↔ ∃ a ∈ as, f a = some true := by
  refine ⟨firstTrue_true f as, ?_⟩
  rintro ⟨a, ha, hf⟩
  induction as with
  | nil => cases ha
  | cons b bs ih =>
    unfold firstTrue
    split
    · rename_i hn; exact absurd hn (ht b (by simp))
    · rfl
    · rename_i hb
      rcases List.mem_cons.1 ha with rfl | ha
      · rw [hf] at hb; cases hb
      · exact ih (fun c h => ht c (by simp [h])) ha

theorem optBool_true (o : Option Bool) : o.getD false = true ↔ o = some true := by
  cases o with
  | none => simp
  | some b => simp

theorem mem_items (ls : LinkDict) (hc : Clean ls) (l : Link) :
    l ∈ (ls.flatMap fun p => p.2.map Prod.snd) ↔ ∃ u t, entry ls u t = some l := by
  rw [List.mem_flatMap]
  constructor
  · rintro ⟨⟨u, types⟩, h1, h2⟩
    rw [List.mem_map] at h2
    obtain ⟨⟨t, l'⟩, h2, rfl⟩ := h2
    exact ⟨u, t, (clean_mem ls hc u t l').2 ⟨types, h1, h2⟩⟩
  · rintro ⟨u, t, h⟩
    obtain ⟨types, h1, h2⟩ := (clean_mem ls hc u t l).1 h
    exact ⟨(u, types), h1, by rw [List.mem_map]; exact ⟨(t, l), h2, rfl⟩⟩

/-- **C89** (partial).  A rule about the address, scheme, readable form and host of links, with the operators `=~` and `!~`,
holds exactly if one link of the message passes all its checks. -/
theorem C89_match_partial {R : Type} (L : ReLib R) (U : UrlLib) (es : List Event) (uris : List Str) (ls : LinkDict)
    (h : links U es uris = some ls) (checks : List (Str × Option (Pat R))) (hk : ∀ c ∈ checks, c.2 ≠ none ∧ c.1 ≠ c!"text") :
    detailMatch L checks ls = true ↔
      ∃ u t l, entry ls u t = some l ∧ ∀ c ∈ checks, ∃ q v, c.2 = some q ∧ Field l c.1 v ∧ q.test L v = true := by
  unfold detailMatch
  rw [optBool_true, firstTrue_total _ _ (fun l _ => checkItem_total L l checks hk)]
  constructor
  · rintro ⟨l, hl, hf⟩
    obtain ⟨u, t, he⟩ := (mem_items ls (links_clean U es uris ls h) l).1 hl
    exact ⟨u, t, l, he, (checkItem_true L l checks).1 hf⟩
  · rintro ⟨u, t, l, he, hf⟩
    exact ⟨l, (mem_items ls (links_clean U es uris ls h) l).2 ⟨u, t, he⟩, (checkItem_true L l checks).2 hf⟩

/-- **C89** is violated: a rule about the text of links never holds, nor does one about any key but address, scheme,
readable form and host, or one with an operator other than `=~` and `!~`. -/
theorem C89_text_violated {R : Type} (L : ReLib R) (checks : List (Str × Option (Pat R))) (ls : LinkDict) (c : Str × Option (Pat R))
    (hc : c ∈ checks)
    (hk : c.1 = c!"text" ∨ c.2 = none ∨ (c.1 ≠ c!"raw" ∧ c.1 ≠ c!"scheme" ∧ c.1 ≠ c!"cleaned" ∧ c.1 ≠ c!"domain")) :
    detailMatch L checks ls = false := by
  cases hd : detailMatch L checks ls with
  | false => rfl
  | true =>
    unfold detailMatch at hd
    rw [optBool_true] at hd
    obtain ⟨l, _, hf⟩ := firstTrue_true _ _ hd
    obtain ⟨q, v, h1, h2, _⟩ := (checkItem_true L l checks).1 hf c hc
    exfalso
    rcases hk with hk | hk | ⟨k1, k2, k3, k4⟩
    · unfold Field at h2
      rw [hk] at h2
      simp at h2
    · rw [hk] at h1; cases h1
    · rcases h2 with ⟨h, _⟩ | ⟨h, _⟩ | ⟨h, _⟩ | ⟨h, _⟩
      · exact k1 h
      · exact k2 h
      · exact k3 h
      · exact k4 h

/-- **C89** is violated: score, description, priority and flags that the configuration gives such a rule have no effect. -/
theorem C89_score_violated {S R : Type} [PyNum S] (L : ReLib R) (name : Str) (d d' : Build.Data)
    (h : Dict.get? d c!"value" = Dict.get? d' c!"value") :
    detailRule (S := S) L name d = detailRule L name d' ∧
    ∀ r, detailRule (S := S) L name d = .ok r → r.base.description = c!"No description available." ∧ r.base.priority = 0 ∧
      r.base.tflags = none ∧ r.base.scores = initScores name none none := by
  refine ⟨by unfold detailRule; rw [h], ?_⟩
  intro r hr
  unfold detailRule at hr
  split at hr
  · split at hr
    · cases hr
    · split at hr
      · cases hr
      · rename_i b hb
        injection hr with hr
        subst hr
        unfold BaseRule.init at hb
        simp only at hb
        split at hb
        · split at hb
          · injection hb with hb
            subst hb
            exact ⟨rfl, rfl, rfl, rfl⟩
          · cases hb
        · cases hb
  · cases hr

theorem word_facts (c : Char) (h : MetaExpr.isWord c = true) : isSpace c = false ∧ isOp c = false ∧ c ≠ '/' ∧ c ≠ '\n' := by
  unfold MetaExpr.isWord Char.isAlphanum Char.isAlpha Char.isUpper Char.isLower Char.isDigit at h
  have h' : c = '_' ∨ (65 ≤ c.toNat ∧ c.toNat ≤ 90) ∨ (97 ≤ c.toNat ∧ c.toNat ≤ 122) ∨ (48 ≤ c.toNat ∧ c.toNat ≤ 57) := by
    simp only [Bool.or_eq_true, beq_iff_eq, Bool.and_eq_true, decide_eq_true_eq] at h
    rcases h with h | (⟨h1, h2⟩ | ⟨h1, h2⟩) | ⟨h1, h2⟩
    · exact .inl h
    · exact .inr (.inl ⟨h1, h2⟩)
    · exact .inr (.inr (.inl ⟨h1, h2⟩))
    · exact .inr (.inr (.inr ⟨h1, h2⟩))
  rcases h' with rfl | h'
  · decide
  · have ne : ∀ d : Char, c.toNat ≠ d.toNat → c ≠ d := fun d hn hd => hn (by rw [hd])
    refine ⟨?_, ?_, ne _ ?_, ne _ ?_⟩
    · unfold isSpace
      simp only [Bool.or_eq_false_iff, Bool.and_eq_false_iff, decide_eq_false_iff_not, beq_eq_false_iff_ne]
      omega
    · unfold isOp
      simp only [Bool.or_eq_false_iff, beq_eq_false_iff_ne]
      refine ⟨⟨ne _ ?_, ne _ ?_⟩, ne _ ?_⟩
      · have : ('=' : Char).toNat = 61 := by decide
        omega
      · have : ('!' : Char).toNat = 33 := by decide
        omega
      · have : ('~' : Char).toNat = 126 := by decide
        omega
    · have : ('/' : Char).toNat = 47 := by decide
      omega
    · have : ('\n' : Char).toNat = 10 := by decide
      omega

theorem takeWhile_till {α : Type} (p : α → Bool) (a : List α) (x : α) (b : List α) (ha : ∀ c ∈ a, p c = true) (hx : p x = false) :
    (a ++ x :: b).takeWhile p = a := by
  induction a with
  | nil => simp [List.takeWhile_cons, hx]
  | cons c a ih =>
    rw [List.cons_append, List.takeWhile_cons, ha c (by simp)]
    simp only [if_true]
    rw [ih (fun d h => ha d (by simp [h]))]

theorem takeWhile_whole {α : Type} (p : α → Bool) (a : List α) (ha : ∀ c ∈ a, p c = true) : a.takeWhile p = a := by
  induction a with
  | nil => rfl
  | cons c a ih =>
    rw [List.takeWhile_cons, ha c (by simp)]
    simp only [if_true]
    rw [ih (fun d h => ha d (by simp [h]))]

theorem checkAt_ok (w : Written) (hw : w.Ok) (rest : Str) :
    checkAt (w.key ++ c!" " ++ w.op ++ c!" /" ++ w.body ++ c!"/" ++ rest) = some ((w.key, w.op, '/' :: w.body ++ ['/']), rest) := by
  have e1 : w.key ++ c!" " ++ w.op ++ c!" /" ++ w.body ++ c!"/" ++ rest =
      w.key ++ ' ' :: (w.op ++ ' ' :: '/' :: (w.body ++ '/' :: rest)) := by simp
  rw [e1]
  unfold checkAt
  simp only
  rw [takeWhile_till _ w.key ' ' _ hw.key.2 (by decide), List.drop_left]
  have hop : ∃ o, isOp o = true ∧ isSpace o = false ∧ w.op = [o, '~'] := by
    rcases hw.op with h | h
    · exact ⟨'=', by decide, by decide, h⟩
    · exact ⟨'!', by decide, by decide, h⟩
  obtain ⟨o, ho1, ho2, ho⟩ := hop
  rw [ho]
  have hsp : isSpace ' ' = true := by decide
  have hsl : isSpace '/' = false := by decide
  have htl : isOp '~' = true := by decide
  simp only [List.cons_append, List.nil_append, List.takeWhile_cons, hsp, ho2, if_true, Bool.false_eq_true, if_false,
    List.length_cons, List.length_nil, Nat.zero_add, List.drop_succ_cons, List.drop_zero, List.take_succ_cons, List.take_zero,
    ho1, htl, List.takeWhile_nil, hsl, reduceCtorEq, or_self]
  rw [takeWhile_till _ w.body '/' rest ?hb (by decide), List.drop_left]
  case hb =>
    intro c hc
    simp only [Bool.and_eq_true, bne_iff_ne]
    exact ⟨fun h => hw.body.1 (h ▸ hc), fun h => hw.body.2 (h ▸ hc)⟩
  rfl

theorem checkAt_end (w : Str) (hw : ∀ c ∈ w, MetaExpr.isWord c = true) : checkAt w = none := by
  unfold checkAt
  simp only
  rw [takeWhile_whole _ w hw, List.drop_length]
  simp

theorem checkAt_skip (w : Str) (hw : ∀ c ∈ w, MetaExpr.isWord c = true) (k : Char) (hk : MetaExpr.isWord k = true) (r : Str) :
    checkAt (w ++ ' ' :: k :: r) = none := by
  unfold checkAt
  simp only
  rw [takeWhile_till _ w ' ' _ hw (by decide), List.drop_left]
  have hsp : isSpace ' ' = true := by decide
  obtain ⟨h1, h2, _⟩ := word_facts k hk
  have : ((k :: r).take 2).takeWhile isOp = [] := by
    rw [List.take_succ_cons, List.takeWhile_cons, h2]
    rfl
  simp only [List.takeWhile_cons, hsp, h1, if_true, Bool.false_eq_true, if_false, List.length_cons, List.length_nil,
    List.drop_succ_cons, List.drop_zero, this]
  simp

theorem find_end (w : Str) (hw : ∀ c ∈ w, MetaExpr.isWord c = true) (n : Nat) : findChecks n w = [] := by
  induction w generalizing n with
  | nil => cases n <;> rfl
  | cons c w ih =>
    cases n with
    | zero => rfl
    | succ n =>
      unfold findChecks
      rw [checkAt_end _ hw]
      exact ih (fun d h => hw d (by simp [h])) n

theorem find_skip (w : Str) (hw : ∀ c ∈ w, MetaExpr.isWord c = true) (k : Char) (hk : MetaExpr.isWord k = true) (r : Str) (n : Nat) :
    findChecks (n + w.length + 1) (w ++ ' ' :: k :: r) = findChecks n (k :: r) := by
  induction w with
  | nil =>
    show findChecks (n + 1) (' ' :: k :: r) = _
    conv => lhs; unfold findChecks
    rw [show checkAt (' ' :: k :: r) = none from checkAt_skip [] (by simp) k hk r]
  | cons c w ih =>
    show findChecks ((n + w.length + 1) + 1) (c :: (w ++ ' ' :: k :: r)) = _
    conv => lhs; unfold findChecks
    rw [show checkAt (c :: (w ++ ' ' :: k :: r)) = none from checkAt_skip (c :: w) hw k hk r]
    exact ih (fun d h => hw d (by simp [h]))

theorem find_written (ws : List Written) (hw : ∀ w ∈ ws, w.Ok) (n : Nat) (hn : (join c!" " (ws.map Written.text)).length ≤ n) :
    findChecks n (join c!" " (ws.map Written.text)) = ws.map fun w => (w.key, w.op, '/' :: w.body ++ ['/']) := by
  induction ws generalizing n with
  | nil => cases n <;> rfl
  | cons w ws ih =>
    have hok := hw w (by simp)
    obtain ⟨k, ks, hk⟩ : ∃ k ks, w.key = k :: ks := by
      cases h : w.key with
      | nil => exact absurd h hok.key.1
      | cons k ks => exact ⟨k, ks, rfl⟩
    have step : ∀ (rest : Str) (m : Nat), findChecks (m + 1) (w.text ++ rest) =
        (w.key, w.op, '/' :: w.body ++ ['/']) :: findChecks m (w.flags ++ rest) := by
      intro rest m
      have e : w.text ++ rest = w.key ++ c!" " ++ w.op ++ c!" /" ++ w.body ++ c!"/" ++ (w.flags ++ rest) := by
        unfold Written.text; simp
      have e' : ∃ r, w.text ++ rest = k :: r := ⟨_, by rw [e, hk]; rfl⟩
      obtain ⟨r, e'⟩ := e'
      rw [e']
      conv => lhs; unfold findChecks
      rw [← e', e, checkAt_ok w hok]
    have hlen : w.text.length = w.key.length + 1 + w.op.length + 2 + w.body.length + 1 + w.flags.length := by
      unfold Written.text; simp; omega
    cases ws with
    | nil =>
      have e : join c!" " ([w].map Written.text) = w.text ++ [] := by simp [join]
      rw [e] at hn ⊢
      obtain ⟨m, rfl⟩ : ∃ m, n = m + 1 := ⟨n - 1, by rw [List.append_nil] at hn; omega⟩
      rw [step, List.append_nil, find_end _ hok.flags]
      rfl
    | cons v vs =>
      have hv := hw v (by simp)
      obtain ⟨k', ks', hk'⟩ : ∃ k ks, v.key = k :: ks := by
        cases h : v.key with
        | nil => exact absurd h hv.key.1
        | cons k ks => exact ⟨k, ks, rfl⟩
      have e : join c!" " ((w :: v :: vs).map Written.text) = w.text ++ (c!" " ++ join c!" " ((v :: vs).map Written.text)) := by
        simp [join]
      have e2 : ∃ r, join c!" " ((v :: vs).map Written.text) = k' :: r := by
        cases vs with
        | nil => exact ⟨_, by simp [join, Written.text, hk']; rfl⟩
        | cons x xs => exact ⟨_, by simp [join, Written.text, hk']; rfl⟩
      obtain ⟨r, e2⟩ := e2
      have hl2 : (w.text ++ (c!" " ++ join c!" " ((v :: vs).map Written.text))).length ≤ n := by rw [← e]; exact hn
      rw [List.length_append, List.length_append] at hl2
      simp only [List.length_cons, List.length_nil] at hl2
      obtain ⟨m, rfl⟩ : ∃ m, n = (m + w.flags.length + 1) + 1 := ⟨n - w.flags.length - 2, by omega⟩
      rw [e, step]
      have e3 : w.flags ++ (c!" " ++ join c!" " ((v :: vs).map Written.text)) = w.flags ++ ' ' :: k' :: r := by rw [e2]; rfl
      rw [e3, find_skip _ hok.flags k' (hv.key.2 k' (by rw [hk']; simp)), ← e2,
        ih (fun x h => hw x (by simp [h])) m (by omega)]
      rfl

/-- **C89** (partial).  The checks of a rule are read as they are written: key, operator and expression. -/
theorem C89_read_partial (ws : List Written) (hw : ∀ w ∈ ws, w.Ok) :
    findChecks (join c!" " (ws.map Written.text)).length (join c!" " (ws.map Written.text)) =
      ws.map fun w => (w.key, w.op, '/' :: w.body ++ ['/']) :=
  find_written ws hw _ (Nat.le_refl _)

/-- The expression of a check is compiled from its text, without flags. -/
theorem detailPattern_written {R : Type} (L : ReLib R) (w : Written) (h : w.Ok) (hb : w.body ≠ []) (hp : Spec.NoPerlisms w.body) :
    detailPattern L ('/' :: w.body ++ ['/']) w.op =
      (Spec.compiled L w.body (Spec.wantFlags []) (decide (w.op = c!"!~"))).map some := by
  have e : ∀ neg, perl2re L ('/' :: w.body ++ ['/']) neg = Spec.compiled L w.body (Spec.wantFlags []) neg := by
    intro neg
    have := C17_text_partial L (d := '/') (r := '/') (lead := []) (pre := []) (flags := []) (trail := []) w.body neg
      ⟨by simp [Spec.Delimiters], by simp [Spec.Blank], by simp, by simp, by simp, by simp [Spec.Blank]⟩ hp
      (by
        intro hh
        apply h.body.1
        cases hw : w.body with
        | nil => exact absurd hw hb
        | cons x xs =>
          rw [hw] at hh
          simp at hh
          simp [hh])
      (fun hh => absurd hh hb)
    simp only [Spec.Written, List.nil_append, List.append_nil] at this
    exact this
  unfold detailPattern
  rcases h.op with ho | ho
  · rw [if_pos ho, e, ho]; rfl
  · rw [if_neg (by rw [ho]; decide), if_pos ho, e, ho]; rfl

theorem detailPatterns_written {R : Type} (L : ReLib R) (ws : List Written)
    (hw : ∀ w ∈ ws, w.Ok ∧ w.body ≠ [] ∧ Spec.NoPerlisms w.body) :
    ((∃ ps, detailPatterns L (ws.map fun w => (w.key, w.op, '/' :: w.body ++ ['/'])) = .ok ps) ↔
      ∀ w ∈ ws, L.compile w.body (Spec.wantFlags []) ≠ none) ∧
    ∀ ps, detailPatterns L (ws.map fun w => (w.key, w.op, '/' :: w.body ++ ['/'])) = .ok ps →
      ps = ws.map fun w => (w.key, (L.compile w.body (Spec.wantFlags [])).map fun r => (⟨r, decide (w.op = c!"!~")⟩ : Pat R)) := by
  induction ws with
  | nil =>
    refine ⟨⟨fun _ => by simp, fun _ => ⟨[], rfl⟩⟩, ?_⟩
    intro ps h
    injection h with h
    simp [← h]
  | cons w ws ih =>
    obtain ⟨h1, h2, h3⟩ := hw w (by simp)
    have ih := ih fun w h => hw w (by simp [h])
    rw [List.map_cons]
    unfold detailPatterns
    rw [detailPattern_written L w h1 h2 h3]
    unfold Spec.compiled
    cases hc : L.compile w.body (Spec.wantFlags []) with
    | none =>
      refine ⟨⟨fun ⟨_, h⟩ => (by cases h), fun h => absurd hc (h w (by simp))⟩, fun _ h => by cases h⟩
    | some re =>
      simp only [Except.map]
      cases hd : detailPatterns L (ws.map fun w => (w.key, w.op, '/' :: w.body ++ ['/'])) with
      | error e =>
        refine ⟨⟨fun ⟨_, h⟩ => (by cases h), fun h => ?_⟩, fun _ h => by cases h⟩
        have := ih.1.2 (fun w h' => h w (by simp [h']))
        rw [hd] at this
        obtain ⟨_, h⟩ := this
        cases h
      | ok ps =>
        refine ⟨⟨fun _ => ?_, fun _ => ⟨_, rfl⟩⟩, fun ps' h => ?_⟩
        · intro x hx
          rw [List.mem_cons] at hx
          rcases hx with rfl | hx
          · rw [hc]; simp
          · exact ih.1.1 ⟨ps, hd⟩ x hx
        · injection h with h
          rw [← h, ih.2 ps hd, List.map_cons, hc]
          rfl

/-- **C89** (partial).  A rule is accepted exactly if all its expressions compile, and then holds exactly if the message has
one link each of whose named fields has a match of the expression (for `=~`) or none (for `!~`). -/
theorem C89_rule_partial {S R : Type} [PyNum S] (L : ReLib R) (name : Str) (d : Build.Data) (ws : List Written)
    (hw : ∀ w ∈ ws, w.Ok ∧ w.body ≠ [] ∧ Spec.NoPerlisms w.body ∧ w.key ≠ c!"text")
    (hd : Dict.get? d c!"value" = some (.str (join c!" " (ws.map Written.text))))
    (U : UrlLib) (es : List Event) (uris : List Str) (ls : LinkDict) (h : links U es uris = some ls) :
    ((∃ r, detailRule (S := S) L name d = .ok r) ↔ ∀ w ∈ ws, L.compile w.body (Spec.wantFlags []) ≠ none) ∧
    ∀ r, detailRule (S := S) L name d = .ok r →
      (detailMatch L r.checks ls = true ↔
        ∃ u t l, entry ls u t = some l ∧
          ∀ w ∈ ws, ∃ re v, L.compile w.body (Spec.wantFlags []) = some re ∧ Field l w.key v ∧ (L.search re v = true ↔ w.op = c!"=~")) := by
  have hb : ∃ b, BaseRule.init (S := S) name none none none none = .ok b := by
    have hs : ∃ x : S, initScores name none none = [x] := by
      unfold initScores
      cases dunder name with
      | true => exact ⟨_, rfl⟩
      | false => cases hasFlag none c!"nice" <;> exact ⟨_, rfl⟩
    obtain ⟨x, hs⟩ := hs
    unfold BaseRule.init
    rw [hs]
    exact ⟨_, rfl⟩
  obtain ⟨b, hb⟩ := hb
  have hp := detailPatterns_written L ws fun w h => ⟨(hw w h).1, (hw w h).2.1, (hw w h).2.2.1⟩
  unfold detailRule
  rw [hd]
  simp only
  rw [C89_read_partial ws fun w h => (hw w h).1]
  cases hq : detailPatterns L (ws.map fun w => (w.key, w.op, '/' :: w.body ++ ['/'])) with
  | error e =>
    rw [hq] at hp
    refine ⟨?_, fun _ h => by cases h⟩
    rw [← hp.1]
    exact ⟨fun ⟨_, h⟩ => (by cases h), fun ⟨_, h⟩ => by cases h⟩
  | ok ps =>
    have hc := hp.1.1 ⟨ps, hq⟩
    have hps := hp.2 ps hq
    simp only [hb]
    refine ⟨⟨fun _ => hc, fun _ => ⟨_, rfl⟩⟩, fun r hr => ?_⟩
    injection hr with hr
    subst hr
    simp only
    rw [C89_match_partial L U es uris ls h]
    · have key : ∀ (l : Link), (∀ c ∈ ps, ∃ q v, c.2 = some q ∧ Field l c.1 v ∧ q.test L v = true) ↔
          ∀ w ∈ ws, ∃ re v, L.compile w.body (Spec.wantFlags []) = some re ∧ Field l w.key v ∧ (L.search re v = true ↔ w.op = c!"=~") := by
        intro l
        rw [hps]
        simp only [List.mem_map, forall_exists_index, and_imp, forall_apply_eq_imp_iff₂]
        constructor
        · intro hh w hm
          obtain ⟨q, v, h1, h2, h3⟩ := hh w hm
          cases hcw : L.compile w.body (Spec.wantFlags []) with
          | none => exact absurd hcw (hc w hm)
          | some re =>
            rw [hcw, Option.map_some] at h1
            injection h1 with h1
            subst h1
            refine ⟨re, v, rfl, h2, ?_⟩
            unfold Pat.test at h3
            rcases (hw w hm).1.op with ho | ho
            · rw [ho] at h3 ⊢
              simpa using h3
            · rw [ho] at h3 ⊢
              simpa using h3
        · intro hh w hm
          obtain ⟨re, v, h1, h2, h3⟩ := hh w hm
          refine ⟨⟨re, decide (w.op = c!"!~")⟩, v, by rw [h1]; rfl, h2, ?_⟩
          unfold Pat.test
          rcases (hw w hm).1.op with ho | ho
          · rw [ho] at h3 ⊢
            simpa using h3
          · rw [ho] at h3 ⊢
            simpa using h3
      simp only [key]
    · intro c hcm
      rw [hps, List.mem_map] at hcm
      obtain ⟨w, hm, rfl⟩ := hcm
      refine ⟨?_, (hw w hm).2.2.2⟩
      simp only [ne_eq, Option.map_eq_none_iff]
      exact hc w hm

example : (∀ w ∈ [(⟨c!"domain", c!"=~", c!"1.2", c!"i"⟩ : Written), ⟨c!"scheme", c!"!~", c!"s", []⟩],
      w.Ok ∧ w.body ≠ [] ∧ w.key ≠ c!"text") ∧
    Spec.NoPerlisms c!"1.2" ∧ textLib.compile c!"1.2" (Spec.wantFlags []) ≠ none := by
  refine ⟨?_, ?_, by decide⟩
  · intro w hw
    simp only [List.mem_cons, List.not_mem_nil, or_false] at hw
    rcases hw with rfl | rfl
    · exact ⟨⟨by decide, by decide, by decide, by decide⟩, by decide, by decide⟩
    · exact ⟨⟨by decide, by decide, by decide, by decide⟩, by decide, by decide⟩
  · unfold Spec.NoPerlisms
    decide

/-- **C89** is violated: the flags after an expression, as the `i` of `/casino/i`, have no effect on the rule. -/
theorem C89_flags_violated {S R : Type} [PyNum S] (L : ReLib R) (name : Str) (ws : List Written) (hw : ∀ w ∈ ws, w.Ok)
    (d d' : Build.Data) (hd : Dict.get? d c!"value" = some (.str (join c!" " (ws.map Written.text))))
    (hd' : Dict.get? d' c!"value" = some (.str (join c!" " ((ws.map fun w => { w with flags := [] }).map Written.text)))) :
    detailRule (S := S) L name d = detailRule L name d' := by
  unfold detailRule
  rw [hd, hd']
  simp only
  rw [C89_read_partial ws hw, C89_read_partial (ws.map fun w => { w with flags := [] })]
  · rw [List.map_map]; rfl
  · intro w hm
    rw [List.mem_map] at hm
    obtain ⟨w', h, rfl⟩ := hm
    exact ⟨(hw w' h).key, (hw w' h).op, (hw w' h).body, by simp⟩

/-- **C87**.  The rule about addresses that are too long holds exactly if the HTML has such a link. -/
theorem C87_truncated (U : UrlLib) (es : List Event) (uris : List Str) (ls : LinkDict) (h : links U es uris = some ls) :
    truncated ls = true ↔ ∃ u t, Mentions es u t ∧ 8192 < u.length := by
  have hc := links_clean U es uris ls h
  unfold truncated
  rw [List.any_eq_true]
  constructor
  · rintro ⟨⟨u, types⟩, h1, h2⟩
    rw [List.any_eq_true] at h2
    obtain ⟨⟨t, l⟩, h2, h3⟩ := h2
    rw [Bool.and_eq_true, decide_eq_true_eq, isTag_iff] at h3
    have he := (clean_mem ls hc u t l).2 ⟨types, h1, h2⟩
    rcases (C87_found U es uris ls h u t).1 ⟨l, he⟩ with x | ⟨x, _⟩
    · exact ⟨u, t, x, h3.2⟩
    · rcases h3.1 with h' | h'
      · rw [x] at h'; simp at h'
      · rw [x] at h'; simp at h'
  · rintro ⟨u, t, hm, hl⟩
    obtain ⟨l, he⟩ := (C87_found U es uris ls h u t).2 (.inl hm)
    obtain ⟨types, h1, h2⟩ := (clean_mem ls hc u t l).1 he
    refine ⟨(u, types), h1, ?_⟩
    rw [List.any_eq_true]
    refine ⟨(t, l), h2, ?_⟩
    rw [Bool.and_eq_true, decide_eq_true_eq, isTag_iff]
    exact ⟨hm.1, hl⟩

/-! ### C90: redirections -/

/-- The redirections of an address can be read. -/
def Readable (U : UrlLib) (redir : Str → Option (Str × Str)) (uri : Str) : Prop :=
  ∀ v src dest, Chain U redir uri v → redir v = some (src, dest) → U.parse src ≠ none ∧ U.parse dest ≠ none

theorem readable_head (U : UrlLib) (redir : Str → Option (Str × Str)) (uri src dest : Str) (hr : Readable U redir uri)
    (h : redir uri = some (src, dest)) : ∃ a b, U.parse src = some a ∧ U.parse dest = some b := by
  obtain ⟨h1, h2⟩ := hr uri src dest (.here uri) h
  cases ha : U.parse src with
  | none => exact absurd ha h1
  | some a => cases hb : U.parse dest with
    | none => exact absurd hb h2
    | some b => exact ⟨a, b, rfl, rfl⟩

/-- **C90**.  Following redirections ends: an address of `n` characters needs at most `n + 1` rounds, because what an address
leads to is shorter than itself. -/
theorem C90_ends (U : UrlLib) (redir : Str → Option (Str × Str)) (hd : ∀ u src dest, redir u = some (src, dest) → dest.length < u.length)
    (n : Nat) (uri : Str) (hn : uri.length < n) : redirects U redir n uri ≠ none := by
  induction n generalizing uri with
  | zero => omega
  | succ n ih =>
    unfold redirects
    split
    · simp
    · rename_i src dest h
      split
      · split
        · exact ih dest (by have := hd _ _ _ h; omega)
        · simp
      · simp

theorem redirects_exact (U : UrlLib) (redir : Str → Option (Str × Str))
    (hd : ∀ u src dest, redir u = some (src, dest) → dest.length < u.length) (n : Nat) (uri : Str) (hn : uri.length < n)
    (hr : Readable U redir uri) :
    ∃ b, redirects U redir n uri = some (some b) ∧ (b = true ↔ ∃ v src dest, Chain U redir uri v ∧ redir v = some (src, dest) ∧
      (U.parse src).map Prod.snd ≠ (U.parse dest).map Prod.snd) := by
  induction n generalizing uri with
  | zero => omega
  | succ n ih =>
    unfold redirects
    cases h : redir uri with
    | none =>
      refine ⟨false, rfl, by simp, ?_⟩
      rintro ⟨v, src, dest, hc, hv, _⟩
      exfalso
      cases hc with
      | here => rw [h] at hv; cases hv
      | step _ src' dest' _ h1 => rw [h] at h1; cases h1
    | some p =>
      obtain ⟨src, dest⟩ := p
      obtain ⟨⟨s1, h1⟩, ⟨s2, h2⟩, e1, e2⟩ := readable_head U redir uri src dest hr h
      simp only [e1, e2]
      by_cases hh : h1 = h2
      · rw [if_pos hh]
        have hs : (U.parse src).map Prod.snd = (U.parse dest).map Prod.snd := by rw [e1, e2]; exact congrArg some hh
        obtain ⟨b, hb, hiff⟩ := ih dest (by have := hd _ _ _ h; omega)
          (fun v s d hc hv => hr v s d (.step uri src dest v h hs hc) hv)
        refine ⟨b, hb, hiff.trans ?_⟩
        constructor
        · rintro ⟨v, s, d, hc, hv⟩
          exact ⟨v, s, d, .step uri src dest v h hs hc, hv⟩
        · rintro ⟨v, s, d, hc, hv, hne⟩
          cases hc with
          | here =>
            rw [h] at hv
            injection hv with hv
            injection hv with hv1 hv2
            subst hv1; subst hv2
            exact absurd hs hne
          | step _ src' dest' _ h1' _ hc =>
            rw [h] at h1'
            injection h1' with h1'
            injection h1' with hv1 hv2
            subst hv1; subst hv2
            exact ⟨v, s, d, hc, hv, hne⟩
      · rw [if_neg hh]
        refine ⟨true, rfl, fun _ => ⟨uri, src, dest, .here uri, h, ?_⟩, fun _ => rfl⟩
        rw [e1, e2]
        exact fun h' => hh (by injection h')

/-- **C90** (partial).  If the addresses can be read, the rule about redirections holds exactly if an address of the message
leads, through redirections within one host, to one that redirects to another host. -/
theorem C90_redirector_partial (U : UrlLib) (redir : Str → Option (Str × Str))
    (hd : ∀ u src dest, redir u = some (src, dest) → dest.length < u.length) (uris : List Str)
    (hr : ∀ u ∈ uris, Readable U redir u) :
    redirector U redir uris = true ↔ ∃ uri ∈ uris, ∃ v src dest, Chain U redir uri v ∧ redir v = some (src, dest) ∧
      (U.parse src).map Prod.snd ≠ (U.parse dest).map Prod.snd := by
  unfold redirector
  rw [optBool_true, firstTrue_total]
  · constructor
    · rintro ⟨u, hu, hf⟩
      obtain ⟨b, hb, hiff⟩ := redirects_exact U redir hd (u.length + 1) u (by omega) (hr u hu)
      rw [hb] at hf
      simp only [Option.getD_some, Option.some.injEq] at hf
      exact ⟨u, hu, hiff.1 hf⟩
    · rintro ⟨u, hu, h⟩
      obtain ⟨b, hb, hiff⟩ := redirects_exact U redir hd (u.length + 1) u (by omega) (hr u hu)
      exact ⟨u, hu, by rw [hb]; simp only [Option.getD_some]; rw [hiff.2 h]⟩
  · intro u hu
    obtain ⟨b, hb, _⟩ := redirects_exact U redir hd (u.length + 1) u (by omega) (hr u hu)
    rw [hb]
    simp

/-- **C90** is violated: an address whose redirection cannot be read hides all that come after it. -/
theorem C90_unreadable_violated (U : UrlLib) (redir : Str → Option (Str × Str)) (u src dest : Str) (rest : List Str)
    (h : redir u = some (src, dest)) (hp : U.parse src = none ∨ U.parse dest = none) : redirector U redir (u :: rest) = false := by
  have : redirects U redir (u.length + 1) u = some none := by
    unfold redirects
    rw [h]
    simp only
    rcases hp with hp | hp
    · rw [hp]
    · rw [hp]; cases U.parse src <;> rfl
  unfold redirector firstTrue
  rw [this]
  rfl

/-! ### C91: links that pretend to lead elsewhere -/

theorem urlsOf_mem (ts : List Str) (w : Str) : w ∈ urlsOf ts ↔ ∃ t ∈ ts, w ∈ splitWs t ∧ c!"https://" <+: w := by
  unfold urlsOf startsWith
  simp only [List.mem_flatMap, List.mem_filter, List.isPrefixOf_iff_prefix]

theorem otherHost_exact (U : UrlLib) (isIp : Str → Bool) (us : List Str) (h : ∀ u ∈ us, c!"https://" <+: u)
    (hp : ∀ u ∈ us, U.parse u ≠ none) :
    ∃ b, otherHost U isIp us = some b ∧ (b = true ↔ ∃ u ∈ us, ∃ s host, U.parse u = some (s, host) ∧ isIp host = false) := by
  induction us with
  | nil => exact ⟨false, rfl, by simp⟩
  | cons u us ih =>
    obtain ⟨b, hb, hiff⟩ := ih (fun v hv => h v (by simp [hv])) (fun v hv => hp v (by simp [hv]))
    unfold otherHost
    cases hu : U.parse u with
    | none => exact absurd hu (hp u (by simp))
    | some p =>
      obtain ⟨s, host⟩ := p
      simp only
      have hs : startsWith c!"https://" u = true := by
        unfold startsWith
        rw [List.isPrefixOf_iff_prefix]
        exact h u (by simp)
      by_cases hi : isIp host = true
      · rw [if_pos hi]
        refine ⟨b, hb, hiff.trans ?_⟩
        constructor
        · rintro ⟨v, hv, x⟩; exact ⟨v, by simp [hv], x⟩
        · rintro ⟨v, hv, s', host', x, y⟩
          rcases List.mem_cons.1 hv with rfl | hv
          · rw [hu] at x
            injection x with x
            injection x with _ x
            subst x
            rw [hi] at y; cases y
          · exact ⟨v, hv, s', host', x, y⟩
      · rw [if_neg hi, if_pos hs]
        exact ⟨true, rfl, fun _ => ⟨u, by simp, s, host, hu, by simpa using hi⟩, fun _ => rfl⟩

/-- **C91** (partial).  If all links of a message lead to hosts that are numbers and the addresses in their texts can be
read, the rule holds exactly if the text of a link shows a secure address whose host is not a number. -/
theorem C91_mismatch_partial (U : UrlLib) (isIp : Str → Bool) (es : List Event) (uris : List Str) (ls : LinkDict)
    (h : links U es uris = some ls) (hip : ∀ u l, entry ls u c!"a" = some l → isIp l.domain = true)
    (hp : ∀ u l ts t, entry ls u c!"a" = some l → l.text = some ts → t ∈ ts → ∀ w ∈ splitWs t, U.parse w ≠ none) :
    (ipMismatch U isIp ls).getD false = true ↔ ∃ u l, entry ls u c!"a" = some l ∧ Shows U isIp l := by
  have hc := links_clean U es uris ls h
  clear h
  rw [optBool_true]
  have gen : ∀ sub : LinkDict, (∀ p ∈ sub, p ∈ ls) →
      (ipMismatch U isIp sub = some true ↔ ∃ p ∈ sub, ∃ l, Dict.get? p.2 c!"a" = some l ∧ Shows U isIp l) := by
    intro sub hsub
    induction sub with
    | nil => simp [ipMismatch]
    | cons p sub ih =>
      obtain ⟨u, types⟩ := p
      have ih' := ih (fun q hq => hsub q (by simp [hq]))
      have hmem := hsub (u, types) (by simp)
      unfold ipMismatch
      cases ha : Dict.get? types c!"a" with
      | none =>
        refine ih'.trans ?_
        constructor
        · rintro ⟨q, hq, x⟩; exact ⟨q, by simp [hq], x⟩
        · rintro ⟨q, hq, l, x, y⟩
          rcases List.mem_cons.1 hq with rfl | hq
          · simp only at x; rw [ha] at x; cases x
          · exact ⟨q, hq, l, x, y⟩
      | some a =>
        have he : entry ls u c!"a" = some a := by
          unfold entry
          rw [Dict.get?_of_mem ls hc.1 hmem, Option.bind_some, ha]
        simp only [hip u a he, if_true]
        obtain ⟨b, hb, hiff⟩ := otherHost_exact U isIp (urlsOf (a.text.getD []))
          (fun w hw => by obtain ⟨_, _, _, x⟩ := (urlsOf_mem _ w).1 hw; exact x)
          (fun w hw => by
            obtain ⟨t, ht, hw, _⟩ := (urlsOf_mem _ w).1 hw
            cases hx : a.text with
            | none => rw [hx] at ht; cases ht
            | some ts => rw [hx] at ht; exact hp u a ts t he hx ht w hw)
        have hshow : b = true ↔ Shows U isIp a := by
          rw [hiff]
          constructor
          · rintro ⟨w, hw, s, host, x, y⟩
            obtain ⟨t, ht, hw, hpre⟩ := (urlsOf_mem _ w).1 hw
            cases hx : a.text with
            | none => rw [hx] at ht; cases ht
            | some ts => rw [hx] at ht; exact ⟨ts, hx, t, ht, w, hw, hpre, s, host, x, y⟩
          · rintro ⟨ts, hx, t, ht, w, hw, hpre, s, host, x, y⟩
            exact ⟨w, (urlsOf_mem _ w).2 ⟨t, by rw [hx]; exact ht, hw, hpre⟩, s, host, x, y⟩
        rw [hb]
        cases b with
        | true =>
          simp only [true_iff]
          exact ⟨(u, types), by simp, a, ha, hshow.1 rfl⟩
        | false =>
          simp only
          refine ih'.trans ?_
          constructor
          · rintro ⟨q, hq, x⟩; exact ⟨q, by simp [hq], x⟩
          · rintro ⟨q, hq, l, x, y⟩
            rcases List.mem_cons.1 hq with rfl | hq
            · simp only at x
              rw [ha] at x
              injection x with x
              subst x
              exact absurd (hshow.2 y) (by simp)
            · exact ⟨q, hq, l, x, y⟩
  rw [gen ls (fun _ h => h)]
  constructor
  · rintro ⟨⟨u, types⟩, hm, l, x, y⟩
    exact ⟨u, l, by unfold entry; rw [Dict.get?_of_mem ls hc.1 hm]; exact x, y⟩
  · rintro ⟨u, l, x, y⟩
    unfold entry at x
    cases hg : Dict.get? ls u with
    | none => rw [hg] at x; cases x
    | some types =>
      rw [hg] at x
      exact ⟨(u, types), Dict.mem_of_get? ls hg, l, x, y⟩

/-- The first address. -/
def FirstIs (ls : LinkDict) (u : Str) : Prop := ∃ types rest, ls = (u, types) :: rest

theorem first_set (ls : LinkDict) (u k : Str) (v : Dict Str Link) (h : FirstIs ls u) : FirstIs (Dict.set ls k v) u := by
  obtain ⟨types, rest, rfl⟩ := h
  unfold Dict.set
  split
  · rename_i hk; exact ⟨v, rest, by rw [hk]⟩
  · exact ⟨types, _, rfl⟩

theorem first_attrs (U : UrlLib) (tag u : Str) (as : List (Str × Option Str)) (s s' : PState) (hf : FirstIs s.links u)
    (h : handleAttrs U tag as s = some s') : FirstIs s'.links u := by
  induction as generalizing s with
  | nil => injection h with h; subst h; exact hf
  | cons a as ih =>
    unfold handleAttrs at h
    cases ha : handleAttr U tag s a with
    | none => rw [ha] at h; cases h
    | some s1 =>
      rw [ha] at h
      refine ih s1 ?_ h
      unfold handleAttr at ha
      split at ha
      · split at ha
        · cases ha
        · split at ha
          · cases ha
          · split at ha
            · split at ha <;> (injection ha with ha; subst ha; exact first_set _ _ _ _ hf)
            · injection ha with ha; subst ha; exact first_set _ _ _ _ hf
      · injection ha with ha; subst ha; exact hf

theorem first_feed (U : UrlLib) (u : Str) (es : List Event) (s s' : PState) (hf : FirstIs s.links u)
    (h : feed U es s = some s') : FirstIs s'.links u := by
  induction es generalizing s with
  | nil => injection h with h; subst h; exact hf
  | cons e es ih =>
    unfold feed at h
    cases he : handle U s e with
    | none => rw [he] at h; cases h
    | some s1 =>
      rw [he] at h
      refine ih s1 ?_ h
      cases e with
      | start tag attrs =>
        unfold handle at he
        dsimp only at he
        split at he
        · exact first_attrs U tag u attrs { s with last := some tag } s1 hf he
        · injection he with he; subst he; exact hf
      | stop tag => injection he with he; subst he; exact hf
      | data d =>
        change handleData d s = some s1 at he
        unfold handleData at he
        split at he
        · split at he
          · injection he with he; subst he; exact hf
          · split at he
            · cases he
            · split at he
              · cases he
              · split at he
                · cases he
                · injection he with he; subst he; exact first_set _ _ _ _ hf
        · injection he with he; subst he; exact hf

theorem first_uris (U : UrlLib) (u : Str) (us : List Str) (ls ls' : LinkDict) (hf : FirstIs ls u)
    (h : addUris U us ls = some ls') : FirstIs ls' u := by
  induction us generalizing ls with
  | nil => injection h with h; subst h; exact hf
  | cons v vs ih =>
    unfold addUris at h
    split at h
    · exact ih ls hf h
    · split at h
      · cases h
      · exact ih _ (first_set _ _ _ _ hf) h

/-- **C91** is violated: if the first link of a message leads to a host with a name, the rule does not hold, whatever the
other links are. -/
theorem C91_first_violated (U : UrlLib) (isIp : Str → Bool) (u : Str) (es : List Event) (uris : List Str) (ls : LinkDict)
    (h : links U (.start c!"a" [(c!"href", some u)] :: es) uris = some ls)
    (scheme host : Str) (hh : U.parse u = some (scheme, host)) (hn : isIp host = false) :
    ipMismatch U isIp ls = some false := by
  obtain ⟨l, hl⟩ := (C87_found U _ uris ls h u c!"a").2 (.inl ⟨.inl rfl, [(c!"href", some u)], c!"href", by simp, .inl rfl, by simp⟩)
  have hd := (C87_described U _ uris ls h u _ l hl).1.2.1
  rw [hh] at hd
  injection hd with hd
  injection hd with _ hd
  obtain ⟨s, hf, _, ha⟩ := links_some U _ uris ls h
  have hfirst : FirstIs ls u := by
    refine first_uris U u uris s.links ls ?_ ha
    have hf' : (handle U PState.init (.start c!"a" [(c!"href", some u)])).bind (feed U es) = some s := hf
    cases h1 : handle U PState.init (.start c!"a" [(c!"href", some u)]) with
    | none => rw [h1] at hf'; cases hf'
    | some s1 =>
      rw [h1] at hf'
      refine first_feed U u es s1 s ?_ hf'
      have hpl : parseLink U u = some { raw := u, scheme := scheme, cleaned := U.unquote u, domain := host, text := none } := by
        unfold parseLink; rw [hh]; rfl
      have : handle U PState.init (.start c!"a" [(c!"href", some u)]) = some
          { links := [(u, [(c!"a", { raw := u, scheme := scheme, cleaned := U.unquote u, domain := host, text := some [] })])],
            last := some c!"a", cur := some u } := by
        show (handleAttr U c!"a" { PState.init with last := some c!"a" } (c!"href", some u)).bind (handleAttrs U c!"a" []) = _
        unfold handleAttr
        rw [if_pos (by show isProp c!"href" = true; decide)]
        simp only [hpl]
        rfl
      rw [this] at h1
      injection h1 with h1
      subst h1
      exact ⟨_, [], rfl⟩
  obtain ⟨types, rest, rfl⟩ := hfirst
  have ht : Dict.get? types c!"a" = some l := by
    unfold entry at hl
    rw [Dict.get?_cons, if_pos rfl, Option.bind_some] at hl
    exact hl
  unfold ipMismatch
  rw [ht]
  simp only
  rw [if_neg]
  rw [← hd, hn]
  simp

/-! ### Examples -/

/-- A simple reader of addresses. -/
def toyUrl : UrlLib where
  parse u := if hasSub c!"[" u then none else match split1 c!"://" u with
    | none => some ([], [])
    | some (scheme, rest) => some (scheme, (splitChar '/' rest).headD [])
  unquote u := replace c!"%2e" c!"." u

/-- Hosts that begin with a digit. -/
def toyIp (h : Str) : Bool := (h.headD 'x').isDigit

/-- Two links to one address and one in text. -/
def toyItems : List Item :=
  [.text c!"hi", .anchor c!"http://1.2/x" [c!"see", c!"https://bank/"], .elem c!"p", .anchor c!"http://1.2/x" [c!"more"]]

set_option maxRecDepth 8000 in
example : links toyUrl (toyItems.flatMap Item.events) [c!"http://a%2eb/", c!"http://1.2/x"] = some
    [(c!"http://1.2/x", [(c!"a", ⟨c!"http://1.2/x", c!"http", c!"http://1.2/x", c!"1.2", some [c!"see", c!"https://bank/", c!"more"]⟩)]),
     (c!"http://a%2eb/", [(c!"parsed", ⟨c!"http://a%2eb/", c!"http", c!"http://a.b/", c!"a%2eb", none⟩)])] := by decide +kernel

example : ∀ u ts, Item.anchor u ts ∈ toyItems → u ≠ [] ∧ toyUrl.parse u ≠ none ∧ ∀ d ∈ ts, d ≠ [] := by
  intro u ts h
  have h' : (u = c!"http://1.2/x" ∧ ts = [c!"see", c!"https://bank/"]) ∨ (u = c!"http://1.2/x" ∧ ts = [c!"more"]) := by
    simpa [toyItems] using h
  rcases h' with ⟨rfl, rfl⟩ | ⟨rfl, rfl⟩ <;> decide +kernel

-- the rule about mismatches holds for it, but not with another link before
set_option maxRecDepth 8000 in
example : ((links toyUrl (toyItems.flatMap Item.events) []).bind (ipMismatch toyUrl toyIp)) = some true ∧
    ((links toyUrl ((Item.anchor c!"http://a/" [c!"x"] :: toyItems).flatMap Item.events) []).bind (ipMismatch toyUrl toyIp)) =
      some false := by decide +kernel

-- `<a href="u">see <b>this</b> page</a>`
example : (links toyUrl [.start c!"a" [(c!"href", some c!"u")], .data c!"see", .start c!"b" [], .data c!"this", .stop c!"b",
    .data c!"page", .stop c!"a"] []).bind (fun ls => (entry ls c!"u" c!"a").bind Link.text) = some [c!"see", c!"this"] := by
  decide +kernel

-- messages that cannot be read
example : toyUrl.parse c!"http://[" = none := by decide +kernel
example : links toyUrl [.start c!"a" [(c!"href", none)]] [] = none ∧
    links toyUrl [.start c!"a" [(c!"href", some c!"u")], .start c!"link" [], .data c!"x"] [] = none ∧
    links toyUrl [.data c!"x"] [c!"http://["] = none := by decide +kernel

-- reading the checks of a rule
set_option maxRecDepth 8000 in
example : findChecks 60 c!"domain =~ /casino/i  raw  !~ /^https/ text =~ /a\\/b/" =
    [(c!"domain", c!"=~", c!"/casino/"), (c!"raw", c!"!~", c!"/^https/"), (c!"text", c!"=~", c!"/a\\/")] := by decide +kernel

example : Written.Ok { key := c!"domain", op := c!"=~", body := c!"casino", flags := c!"i" } :=
  ⟨⟨by simp, by decide⟩, .inl rfl, by decide, by decide⟩

/-- Redirections: the rest of an address that begins with `http` again. -/
def toyRedir (u : Str) : Option (Str × Str) :=
  match u with
  | [] => none
  | c :: cs => match split1 c!"http://" cs with
    | none => none
    | some (a, b) => if b.length < (c :: cs).length - 7 then some (c :: a, c!"http://" ++ b) else none

example (u src dest : Str) (h : toyRedir u = some (src, dest)) : dest.length < u.length := by
  unfold toyRedir at h
  split at h
  · cases h
  · split at h
    · cases h
    · split at h
      · rename_i hl
        injection h with h
        injection h with _ h
        subst h
        simp only [List.length_append, List.length_cons, List.length_nil] at hl ⊢
        omega
      · cases h

set_option maxRecDepth 8000 in
example : redirector toyUrl toyRedir [c!"http://a/http://a/http://b/"] = true ∧
    redirector toyUrl toyRedir [c!"http://a/http://a/"] = false ∧
    redirector toyUrl toyRedir [c!"http://a/http://[", c!"http://a/http://b/"] = false := by decide +kernel

-- a rule about hosts
example : detailMatch (R := Str) { compile := fun _ _ => none, search := fun r t => hasSub r t }
    [(c!"domain", some { re := c!"1.2", neg := false }), (c!"scheme", some { re := c!"s", neg := true })]
    [(c!"http://1.2/x", [(c!"a", ⟨c!"http://1.2/x", c!"http", c!"http://1.2/x", c!"1.2", some []⟩)])] = true := by decide +kernel

end Verif.Props
