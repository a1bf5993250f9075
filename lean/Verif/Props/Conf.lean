import Verif.Lemmas.Py
import Verif.Spec.Conf

/-!
# C19, C20, C21: configuration options
-/

namespace Verif.Conf
open Verif Py

variable {F : Type}

theorem read_set (s : St F) (k k' : Str) (v : OptVal F) (hv : v ≠ .alias) :
    (s.set k v).read k' = if k = k' then some v else s.read k' := by
  unfold St.read St.set
  simp only
  rw [Dict.get?_set]
  by_cases h : k = k'
  · simp only [h, if_true]
    cases v with
    | alias => exact absurd rfl hv
    | _ => rfl
  · simp only [h, if_false]

theorem foldl_set_cls (ks : List Str) (s : St F) :
    (ks.foldl (fun s k => s.set k (.list [])) s).cls = s.cls := by
  induction ks generalizing s with
  | nil => rfl
  | cons k ks ih => simp only [List.foldl_cons, ih]; rfl

theorem foldl_set_read (ks : List Str) (s : St F) (k' : Str) :
    (ks.foldl (fun s k => s.set k (.list [])) s).read k' =
      if k' ∈ ks then some (.list []) else s.read k' := by
  induction ks generalizing s with
  | nil => simp
  | cons k ks ih =>
    simp only [List.foldl_cons, ih, List.mem_cons]
    rw [read_set _ _ _ _ (by simp)]
    by_cases h1 : k' ∈ ks
    · simp [h1]
    · by_cases h2 : k = k'
      · simp [h2]
      · simp [h1, h2, Ne.symm h2]

theorem foldl_set_opts (ks : List Str) (s : St F) (k' : Str) :
    Dict.get? (ks.foldl (fun s k => s.set k (.list [])) s).opts k' =
      if k' ∈ ks then some (.list []) else Dict.get? s.opts k' := by
  induction ks generalizing s with
  | nil => simp
  | cons k ks ih =>
    simp only [List.foldl_cons, ih, List.mem_cons]
    rw [show (s.set k (.list [])).opts = Dict.set s.opts k (.list []) from rfl, Dict.get?_set]
    by_cases h1 : k' ∈ ks
    · simp [h1]
    · by_cases h2 : k = k'
      · simp [h2]
      · simp [h1, h2, Ne.symm h2]

/-- The class attribute keeps its options and their types, and only lists of appending
options in it ever change. -/
def ClsOk (cls0 cls : Cls F) : Prop :=
  ∀ k, (Dict.get? cls k).map Prod.fst = (Dict.get? cls0 k).map Prod.fst ∧
    (∀ t v, Dict.get? cls0 k = some (t, v) → t ≠ .append → t ≠ .appendSplit →
      Dict.get? cls k = some (t, v))

theorem extend_other (s : St F) (key : Str) (vs : List Str) (k : Str) (h : k ≠ key) :
    (s.extend key vs).1.read k = s.read k ∧
    Dict.get? (s.extend key vs).1.opts k = Dict.get? s.opts k ∧
    Dict.get? (s.extend key vs).1.cls k = Dict.get? s.cls k := by
  unfold St.extend
  split
  · refine ⟨?_, Dict.get?_set_ne _ _ (Ne.symm h), rfl⟩
    unfold St.read
    simp only
    rw [Dict.get?_set_ne _ _ (Ne.symm h)]
  · split
    · refine ⟨?_, rfl, Dict.get?_set_ne _ _ (Ne.symm h)⟩
      unfold St.read
      simp only
      rw [Dict.get?_set_ne _ _ (Ne.symm h)]
    · exact ⟨rfl, rfl, rfl⟩
  · exact ⟨rfl, rfl, rfl⟩

theorem extend_type (s : St F) (key : Str) (vs : List Str) (k : Str) :
    (Dict.get? (s.extend key vs).1.cls k).map Prod.fst = (Dict.get? s.cls k).map Prod.fst := by
  by_cases h : k = key
  · subst h
    unfold St.extend
    split
    · rfl
    · split
      · rename_i h2; simp only; rw [Dict.get?_set_self, h2]; rfl
      · rfl
    · rfl
  · rw [(extend_other s key vs k h).2.2]

/-- A scalar setting changes one entry of the context, and nothing in the class. -/
theorem scalar_effect (fe : FloatEnv F) (s : St F) (t : OptType) (key value : Str)
    (h1 : t ≠ .append) (h2 : t ≠ .appendSplit) (h3 : t ≠ .clear) :
    (setOption fe s t key value).1 = s ∨
      ∃ v, v ≠ .alias ∧ setOption fe s t key value = (s.set key v, none) := by
  cases t with
  | int =>
    simp only [setOption, setInt]
    split
    · exact Or.inl rfl
    · split
      · exact Or.inr ⟨_, by simp, rfl⟩
      · exact Or.inl rfl
  | float =>
    simp only [setOption, setFloat]
    split
    · exact Or.inl rfl
    · split
      · exact Or.inr ⟨_, by simp, rfl⟩
      · exact Or.inl rfl
  | timevalue =>
    simp only [setOption, setTimevalue, setScaled]
    split
    · exact Or.inl rfl
    · split
      · split
        · exact Or.inl rfl
        · exact Or.inr ⟨_, by simp, rfl⟩
      · split
        · exact Or.inl rfl
        · split
          · exact Or.inl rfl
          · split
            · exact Or.inl rfl
            · split
              · repeat' split
                all_goals first | exact Or.inr ⟨_, by simp, rfl⟩ | exact Or.inl rfl
              · exact Or.inl rfl
  | bool => exact Or.inr ⟨_, by simp, rfl⟩
  | str => exact Or.inr ⟨_, by simp, rfl⟩
  | list => exact Or.inr ⟨_, by simp, rfl⟩
  | append => exact absurd rfl h1
  | appendSplit => exact absurd rfl h2
  | clear => exact absurd rfl h3

theorem parseConfig_fst (fe : FloatEnv F) (s : St F) (key value : Str) (t : OptType)
    (d : OptVal F) (h : Dict.get? s.cls key = some (t, d)) :
    (parseConfig fe s key value).1 = (setOption fe s t key value).1 := by
  unfold parseConfig
  rw [h]
  simp only
  split <;> rename_i h <;> rw [h]

/-- The effect of one line on the class attribute and on one option. -/
theorem line_effect (fe : FloatEnv F) (cls0 : Cls F) (s : St F) (hc : ClsOk cls0 s.cls)
    (c value : Str) :
    ClsOk cls0 (parseConfig fe s c value).1.cls ∧
    ∀ key, c ≠ key →
      (Clears cls0 c key → (parseConfig fe s c value).1.read key = some (.list []) ∧
        Dict.get? (parseConfig fe s c value).1.opts key = some (.list []) ∧
        Dict.get? (parseConfig fe s c value).1.cls key = Dict.get? s.cls key) ∧
      (¬ Clears cls0 c key → (parseConfig fe s c value).1.read key = s.read key ∧
        Dict.get? (parseConfig fe s c value).1.opts key = Dict.get? s.opts key ∧
        Dict.get? (parseConfig fe s c value).1.cls key = Dict.get? s.cls key) := by
  cases hg : Dict.get? s.cls c with
  | none =>
    have hp : parseConfig fe s c value = (s, .unclaimed) := by unfold parseConfig; rw [hg]
    rw [hp]
    refine ⟨hc, fun key _ => ⟨fun hcl => ?_, fun _ => ⟨rfl, rfl, rfl⟩⟩⟩
    obtain ⟨ks, h0, _⟩ := hcl
    have := (hc c).1
    rw [hg, h0] at this; cases this
  | some tv =>
    obtain ⟨t, v⟩ := tv
    have htype := (hc c).1
    rw [hg] at htype
    rw [parseConfig_fst fe s c value t v hg]
    by_cases hcl : t = .clear
    · subst hcl
      have h0 : ∃ v0, Dict.get? cls0 c = some (.clear, v0) := by
        cases h : Dict.get? cls0 c with
        | none => rw [h] at htype; cases htype
        | some p => obtain ⟨t', v'⟩ := p; rw [h] at htype; cases htype; exact ⟨_, rfl⟩
      obtain ⟨v0, h0⟩ := h0
      have hsame := (hc c).2 _ _ h0 (by simp) (by simp)
      rw [hg] at hsame
      cases hsame
      simp only [setOption, setClear, hg]
      cases v with
      | list ks =>
        simp only
        refine ⟨by rw [foldl_set_cls]; exact hc, fun key hne => ⟨fun hcl => ?_, fun hcl => ?_⟩⟩
        · obtain ⟨ks', h', hin⟩ := hcl
          rw [h0] at h'; cases h'
          rw [foldl_set_read, foldl_set_opts, foldl_set_cls]
          simp [hin]
        · have hin : key ∉ ks := fun hin => hcl ⟨ks, h0, hin⟩
          rw [foldl_set_read, foldl_set_opts, foldl_set_cls]
          simp [hin]
      | _ =>
        refine ⟨hc, fun key _ => ⟨fun hcl => ?_, fun _ => ⟨rfl, rfl, rfl⟩⟩⟩
        obtain ⟨ks', h', hin⟩ := hcl
        rw [h0] at h'; cases h'
    · have hnc : ∀ key, ¬ Clears cls0 c key := by
        intro key ⟨ks, h0, _⟩
        rw [h0] at htype
        simp at htype
        exact hcl htype
      by_cases ha : t = .append ∨ t = .appendSplit
      · have hext : ∃ vs, setOption fe s t c value = s.extend c vs := by
          rcases ha with h | h <;> subst h
          · exact ⟨_, rfl⟩
          · exact ⟨_, rfl⟩
        obtain ⟨vs, hext⟩ := hext
        rw [hext]
        refine ⟨?_, fun key hne => ⟨fun h => absurd h (hnc key), fun _ => extend_other s c vs key (Ne.symm hne)⟩⟩
        intro k
        refine ⟨by rw [extend_type]; exact (hc k).1, ?_⟩
        intro t' v' h0 h1 h2
        by_cases hk : k = c
        · subst hk
          rw [h0] at htype
          simp at htype
          subst htype
          rcases ha with h | h
          · exact absurd h h1
          · exact absurd h h2
        · rw [(extend_other s c vs k hk).2.2]
          exact (hc k).2 t' v' h0 h1 h2
      · simp only [not_or] at ha
        rcases scalar_effect fe s t c value ha.1 ha.2 hcl with h | ⟨v', hv', h⟩
        · rw [h]
          exact ⟨hc, fun key _ => ⟨fun h => absurd h (hnc key), fun _ => ⟨rfl, rfl, rfl⟩⟩⟩
        · rw [h]
          refine ⟨hc, fun key hne => ⟨fun h => absurd h (hnc key), fun _ => ⟨?_, ?_, rfl⟩⟩⟩
          · rw [read_set _ _ _ _ hv', if_neg hne]
          · exact Dict.get?_set_ne _ _ hne

theorem clsOk_refl (cls : Cls F) : ClsOk cls cls := fun k => ⟨rfl, fun t v h _ _ => h⟩

theorem runLines_cls (fe : FloatEnv F) (cls0 : Cls F) (lines : List (Str × Str)) :
    ∀ s : St F, ClsOk cls0 s.cls → ClsOk cls0 (runLines fe s lines).cls := by
  induction lines with
  | nil => intro s h; exact h
  | cons l ls ih =>
    intro s h
    exact ih _ (line_effect fe cls0 s h l.1 l.2).1

theorem runLines_append (fe : FloatEnv F) (s : St F) (a b : List (Str × Str)) :
    runLines fe s (a ++ b) = runLines fe (runLines fe s a) b := by
  simp [runLines]

/-- The option `key` currently holds the list `l`. -/
def Holds (cls0 : Cls F) (s : St F) (key : Str) (t : OptType) (l : List Str) : Prop :=
  ClsOk cls0 s.cls ∧ (∃ v, Dict.get? s.cls key = some (t, v)) ∧
  (Dict.get? s.opts key = some (.list l) ∨
    (Dict.get? s.opts key = some .alias ∧ Dict.get? s.cls key = some (t, .list l)))

theorem Holds.read {cls0 : Cls F} {s : St F} {key : Str} {t : OptType} {l : List Str}
    (h : Holds cls0 s key t l) : s.read key = some (.list l) := by
  obtain ⟨_, _, h | ⟨h1, h2⟩⟩ := h
  · unfold St.read; rw [h]
  · unfold St.read; rw [h1, h2]; rfl

theorem holds_step (fe : FloatEnv F) (cls0 : Cls F) (s : St F) (key : Str) (t : OptType)
    (ht : t = .append ∨ t = .appendSplit) (l : List Str) (h : Holds cls0 s key t l)
    (c v : Str) :
    (c = key → Holds cls0 (parseConfig fe s c v).1 key t (l ++ lineValues t v)) ∧
    (c ≠ key → Clears cls0 c key → Holds cls0 (parseConfig fe s c v).1 key t []) ∧
    (c ≠ key → ¬ Clears cls0 c key → Holds cls0 (parseConfig fe s c v).1 key t l) := by
  obtain ⟨hc, ⟨w, hw⟩, hl⟩ := h
  have he := line_effect fe cls0 s hc c v
  refine ⟨?_, ?_, ?_⟩
  · intro heq
    subst heq
    refine ⟨he.1, ?_⟩
    have hset : setOption fe s t c v = s.extend c (lineValues t v) := by
      rcases ht with h | h <;> subst h <;> rfl
    have : (parseConfig fe s c v).1 = (s.extend c (lineValues t v)).1 := by
      rw [parseConfig_fst fe s c v t w hw, hset]
    rw [this]
    rcases hl with hl | ⟨h1, h2⟩
    · unfold St.extend
      rw [hl]
      exact ⟨⟨w, hw⟩, Or.inl (Dict.get?_set_self _ _ _)⟩
    · unfold St.extend
      rw [h1, h2]
      exact ⟨⟨_, Dict.get?_set_self _ _ _⟩, Or.inr ⟨h1, Dict.get?_set_self _ _ _⟩⟩
  · intro hne hcl
    obtain ⟨-, h2, h3⟩ := (he.2 key hne).1 hcl
    exact ⟨he.1, ⟨w, by rw [h3]; exact hw⟩, Or.inl h2⟩
  · intro hne hcl
    obtain ⟨-, h2, h3⟩ := (he.2 key hne).2 hcl
    refine ⟨he.1, ⟨w, by rw [h3]; exact hw⟩, ?_⟩
    rw [h2, h3]
    exact hl

theorem holds_run (fe : FloatEnv F) (cls0 : Cls F) (key : Str) (t : OptType)
    (ht : t = .append ∨ t = .appendSplit) (lines : List (Str × Str))
    (hno : ∀ l ∈ lines, ¬ Clears cls0 l.1 key) :
    ∀ (s : St F) (l : List Str), Holds cls0 s key t l →
      Holds cls0 (runLines fe s lines) key t (l ++ givenValues t key lines) := by
  induction lines with
  | nil => intro s l h; simpa [givenValues, runLines] using h
  | cons x xs ih =>
    intro s l h
    have hs := holds_step fe cls0 s key t ht l h x.1 x.2
    have hx := hno x (by simp)
    have hxs := fun y hy => hno y (List.mem_cons_of_mem _ hy)
    by_cases hk : x.1 = key
    · have := ih hxs _ _ (hs.1 hk)
      simpa [runLines, givenValues, hk] using this
    · have := ih hxs _ _ (hs.2.2 hk hx)
      simpa [runLines, givenValues, hk] using this

theorem get?_init (cls : Cls F) (key : Str) :
    Dict.get? (init cls) key = (Dict.get? cls key).map (fun p => match p.2 with
      | .list _ => .alias
      | v => v) := by
  induction cls with
  | nil => rfl
  | cons p ps ih =>
    simp only [init, List.map_cons] at *
    rw [Dict.get?_cons, Dict.get?_cons]
    by_cases h : p.1 = key
    · simp only [h, if_true]; rfl
    · simp only [h, if_false]; exact ih

theorem holds_any (fe : FloatEnv F) (cls0 : Cls F) (key : Str) (t : OptType)
    (ht : t = .append ∨ t = .appendSplit) (lines : List (Str × Str)) :
    ∀ (s : St F) (l : List Str), Holds cls0 s key t l →
      ∃ l', Holds cls0 (runLines fe s lines) key t l' := by
  induction lines with
  | nil => intro s l h; exact ⟨l, h⟩
  | cons x xs ih =>
    intro s l h
    have hs := holds_step fe cls0 s key t ht l h x.1 x.2
    by_cases hk : x.1 = key
    · exact ih _ _ (hs.1 hk)
    · by_cases hc : Clears cls0 x.1 key
      · exact ih _ _ (hs.2.1 hk hc)
      · exact ih _ _ (hs.2.2 hk hc)

theorem holds_fresh (cls : Cls F) (key : Str) (t : OptType) (d : List Str)
    (h : Dict.get? cls key = some (t, .list d)) : Holds cls (fresh cls) key t d :=
  ⟨clsOk_refl cls, ⟨_, h⟩, Or.inr ⟨by simp [fresh, get?_init, h], h⟩⟩

end Verif.Conf

namespace Verif.Props
open Verif Py Conf

variable {F : Type}

/-- **C19**: a configuration line for an option of type int, float, bool, str or list.  If the
text is ill-typed the line is reported as an error and nothing changes; otherwise the line is
claimed, the option gets the prescribed value (or keeps its value for an empty number), and
every other option keeps its value. -/
theorem C19_typed_option (fe : FloatEnv F) (s : St F) (key value : Str) (t : OptType)
    (dflt : OptVal F) (hk : Dict.get? s.cls key = some (t, dflt))
    (ht : t = .int ∨ t = .float ∨ t = .bool ∨ t = .str ∨ t = .list) :
    (prescribed fe t value = none → parseConfig fe s key value = (s, .error .plugin)) ∧
    (prescribed fe t value = some none → parseConfig fe s key value = (s, .inhibit)) ∧
    (∀ v, prescribed fe t value = some (some v) →
      (parseConfig fe s key value).2 = .inhibit ∧
      (parseConfig fe s key value).1.cls = s.cls ∧
      ∀ k, (parseConfig fe s key value).1.read k = if k = key then some v else s.read k) := by
  have hset : ∀ v : OptVal F, v ≠ .alias → ∀ k, (s.set key v).read k =
      if k = key then some v else s.read k := by
    intro v hv k
    rw [read_set _ _ _ _ hv]
    by_cases h : k = key
    · simp [h]
    · simp [h, Ne.symm h]
  unfold parseConfig
  rw [hk]
  rcases ht with h | h | h | h | h <;> subst h
  · simp only [setOption, setInt, prescribed]
    by_cases hv : value = []
    · simp [hv]
    · simp only [hv, if_false]
      cases hi : int? value with
      | none => simp
      | some n =>
        simp only [Option.map_some]
        refine ⟨by simp, by simp, fun v h => ?_⟩
        cases h
        exact ⟨trivial, rfl, hset _ (by simp)⟩
  · simp only [setOption, setFloat, prescribed]
    by_cases hv : value = []
    · simp [hv]
    · simp only [hv, if_false]
      cases hi : fe.parse value with
      | none => simp
      | some n =>
        simp only [Option.map_some]
        refine ⟨by simp, by simp, fun v h => ?_⟩
        cases h
        exact ⟨trivial, rfl, hset _ (by simp)⟩
  · refine ⟨by simp [prescribed], by simp [prescribed], fun v h => ?_⟩
    simp only [prescribed, Option.some.injEq] at h
    subst h
    exact ⟨rfl, rfl, hset _ (by simp)⟩
  · refine ⟨by simp [prescribed], by simp [prescribed], fun v h => ?_⟩
    simp only [prescribed, Option.some.injEq] at h
    subst h
    exact ⟨rfl, rfl, hset _ (by simp)⟩
  · refine ⟨by simp [prescribed], by simp [prescribed], fun v h => ?_⟩
    simp only [prescribed, Option.some.injEq] at h
    subst h
    exact ⟨rfl, rfl, hset _ (by simp)⟩

/-- **C19** (unknown keys): a key that is not an option changes nothing and is not claimed. -/
theorem C19_unknown_key (fe : FloatEnv F) (s : St F) (key value : Str)
    (hk : Dict.get? s.cls key = none) : parseConfig fe s key value = (s, .unclaimed) := by
  unfold parseConfig; rw [hk]

/-- **C19** (time values): a non-negative number alone is taken as it is; a number followed by
one of the letters s, m, h, d, w is scaled by the seconds of that unit, and if that is too long a time for Python the parser
stops with an error (not one of the plugin's); a negative number or an unknown unit is
ignored; anything else is an error that changes nothing.  (`body` and `u` are the text without
its last character and that character.) -/
theorem C19_timevalue (fe : FloatEnv F) (s : St F) (key : Str) (dflt : OptVal F)
    (hk : Dict.get? s.cls key = some (.timevalue, dflt)) :
    (∀ value x, value ≠ [] → fe.parse value = some x → parseConfig fe s key value =
      (if fe.neg x then s else s.set key (.float x), .inhibit)) ∧
    (∀ body u, body ≠ [] → fe.parse (body ++ [u]) = none →
      (∀ x, fe.parse body = some x → parseConfig fe s key (body ++ [u]) =
        (match unitSeconds u with
          | some n =>
            if fe.neg x then (s, .inhibit)
            else match fe.scale n x with
              | some y => (s.set key (.float y), .inhibit)
              | none => (s, .error .other)
          | none => (s, .inhibit))) ∧
      (fe.parse body = none → parseConfig fe s key (body ++ [u]) = (s, .error .plugin))) ∧
    (parseConfig fe s key [] = (s, .inhibit)) ∧
    (∀ u, fe.parse [u] = none → parseConfig fe s key [u] = (s, .inhibit)) := by
  refine ⟨?_, ?_, ?_, ?_⟩
  · intro value x hv hp
    unfold parseConfig
    rw [hk]
    simp only [setOption, setTimevalue, hv, if_false, hp]
    cases fe.neg x <;> simp
  · intro body u hb hp
    have hlen : (body ++ [u]).length - 1 = body.length := by simp
    have hd : (body ++ [u]).drop body.length = [u] := by simp
    have htk : (body ++ [u]).take body.length = body := by simp
    have hne : body ++ [u] ≠ [] := by simp
    refine ⟨?_, ?_⟩
    · intro x hx
      unfold parseConfig
      rw [hk]
      simp only [setOption, setTimevalue, hne, if_false, hp, hlen, hd, htk, hb, hx]
      have hu : unitSeconds u = (if u = 'm' then some 60 else if u = 'h' then some 3600
          else if u = 'd' then some 86400 else if u = 'w' then some 604800
          else if u = 's' then some 1 else none) := by
        unfold unitSeconds
        split <;> simp_all
      rw [hu]
      cases hn : fe.neg x with
      | true => simp; split <;> rfl
      | false =>
        by_cases h1 : u = 'm'
        · simp [h1, setScaled]; cases fe.scale 60 x <;> simp
        by_cases h2 : u = 'h'
        · simp [h2, setScaled]; cases fe.scale 3600 x <;> simp
        by_cases h3 : u = 'd'
        · simp [h3, setScaled]; cases fe.scale 86400 x <;> simp
        by_cases h4 : u = 'w'
        · simp [h4, setScaled]; cases fe.scale 604800 x <;> simp
        by_cases h5 : u = 's'
        · simp [h5, setScaled]; cases fe.scale 1 x <;> simp
        simp [h1, h2, h3, h4, h5]
    · intro hx
      unfold parseConfig
      rw [hk]
      simp only [setOption, setTimevalue, hne, if_false, hp, hlen, hd, htk, hb, hx]
  · unfold parseConfig; rw [hk]; simp [setOption, setTimevalue]
  · intro u hp
    unfold parseConfig
    rw [hk]
    simp [setOption, setTimevalue, hp]

/-- **C20** (no clear line): an appending option holds its defaults followed by everything given,
whatever else the configuration contains. -/
theorem C20_append (fe : FloatEnv F) (cls : Cls F) (key : Str) (t : OptType) (dflt : List Str)
    (ht : t = .append ∨ t = .appendSplit) (hk : Dict.get? cls key = some (t, .list dflt))
    (lines : List (Str × Str)) (hno : ∀ l ∈ lines, ¬ Clears cls l.1 key) :
    (runLines fe (fresh cls) lines).read key = some (.list (dflt ++ givenValues t key lines)) :=
  (holds_run fe cls key t ht lines hno _ _ (holds_fresh cls key t dflt hk)).read

/-- **C20** (after the last clear line): it holds exactly what was given after it. -/
theorem C20_append_after_clear (fe : FloatEnv F) (cls : Cls F) (key : Str) (t : OptType)
    (dflt : List Str) (ht : t = .append ∨ t = .appendSplit)
    (hk : Dict.get? cls key = some (t, .list dflt)) (before after : List (Str × Str)) (c v : Str)
    (hc : Clears cls c key) (hno : ∀ l ∈ after, ¬ Clears cls l.1 key) :
    (runLines fe (fresh cls) (before ++ (c, v) :: after)).read key =
      some (.list (givenValues t key after)) := by
  obtain ⟨l', h'⟩ := holds_any fe cls key t ht before _ _ (holds_fresh cls key t dflt hk)
  have hne : c ≠ key := by
    intro he; subst he
    obtain ⟨ks, h, _⟩ := hc
    rw [hk] at h; cases h
    rcases ht with h | h <;> cases h
  have h1 := (holds_step fe cls _ key t ht l' h' c v).2.1 hne hc
  have h2 := (holds_run fe cls key t ht after hno _ _ h1).read
  rw [runLines_append]
  simpa [runLines] using h2

/-- **C21** (violated): whatever one context's lines give for an option that lines add to, if they do not clear it, a context created afterwards
from the same options starts with. -/
theorem C21_append_leak_violated (fe : FloatEnv F) (cls : Cls F) (key : Str) (t : OptType) (dflt : List Str)
    (ht : t = .append ∨ t = .appendSplit) (hk : Dict.get? cls key = some (t, .list dflt)) (lines : List (Str × Str))
    (hno : ∀ l ∈ lines, ¬ Clears cls l.1 key) :
    (fresh (runLines fe (fresh cls) lines).cls).read key = some (.list (dflt ++ givenValues t key lines)) ∧
    (fresh cls).read key = some (.list dflt) := by
  have hrun : ∀ (ls : List (Str × Str)) (s : St F) (l : List Str), (∀ x ∈ ls, ¬ Clears cls x.1 key) → ClsOk cls s.cls →
      Dict.get? s.opts key = some .alias → Dict.get? s.cls key = some (t, .list l) →
      Dict.get? (runLines fe s ls).cls key = some (t, .list (l ++ givenValues t key ls)) := by
    intro ls
    induction ls with
    | nil => intro s l _ _ _ h; simpa [runLines, givenValues] using h
    | cons x ls ih =>
      intro s l hx hc ha hl
      have he := line_effect fe cls s hc x.1 x.2
      have hxs := fun y hy => hx y (List.mem_cons_of_mem _ hy)
      by_cases hkx : x.1 = key
      · have hset : setOption fe s t x.1 x.2 = s.extend x.1 (lineValues t x.2) := by
          rcases ht with h | h <;> subst h <;> rfl
        have hp : (parseConfig fe s x.1 x.2).1 = (s.extend x.1 (lineValues t x.2)).1 := by
          rw [parseConfig_fst fe s x.1 x.2 t _ (hkx ▸ hl), hset]
        have hext : Dict.get? (parseConfig fe s x.1 x.2).1.opts key = some .alias ∧
            Dict.get? (parseConfig fe s x.1 x.2).1.cls key = some (t, .list (l ++ lineValues t x.2)) := by
          rw [hp, hkx]
          unfold St.extend
          rw [ha, hl]
          exact ⟨ha, Dict.get?_set_self _ _ _⟩
        have := ih _ _ hxs he.1 hext.1 hext.2
        simpa [runLines, givenValues, hkx] using this
      · obtain ⟨-, h2, h3⟩ := (he.2 key hkx).2 (hx x (List.mem_cons_self ..))
        have := ih _ _ hxs he.1 (h2.trans ha) (h3.trans hl)
        simpa [runLines, givenValues, hkx] using this
  exact ⟨(holds_fresh _ key t _ (hrun lines (fresh cls) dflt hno (clsOk_refl cls) (by simp [fresh, get?_init, hk]) hk)).read,
    (holds_fresh cls key t dflt hk).read⟩

/-- One context reads the line `report hello`; a context created afterwards from the default options starts with that text in its report
template. -/
example :
    ∃ (fe : FloatEnv Unit) (lines : List (Str × Str)) (key : Str),
      let cls : Cls Unit := padOptions () () ()
      let first := runLines fe (fresh cls) lines
      (fresh first.cls).read key = some (.list [c!"hello"]) ∧
      (fresh cls).read key = some (.list []) :=
  ⟨⟨fun _ => none, fun _ => false, fun _ x => some x⟩, [(c!"report", c!"hello")], c!"report",
    by decide, by decide⟩

/-- **C21** (the part that holds): a later context starts with the same value for every option
that is not an appending one, and for every appending option that the earlier context did not
set before clearing it. -/
theorem C21_isolation_partial (fe : FloatEnv F) (cls : Cls F) (lines : List (Str × Str)) (key : Str)
    (h : (∀ t v, Dict.get? cls key = some (t, v) → t ≠ .append ∧ t ≠ .appendSplit) ∨
      (∀ l ∈ lines, l.1 ≠ key) ∨
      (∃ before c v after, lines = before ++ (c, v) :: after ∧ Clears cls c key ∧
        ∀ l ∈ before, l.1 ≠ key)) :
    (fresh (runLines fe (fresh cls) lines).cls).read key = (fresh cls).read key := by
  -- it suffices that the class attribute's entry is unchanged
  suffices hs : Dict.get? (runLines fe (fresh cls) lines).cls key = Dict.get? cls key by
    have hr : ∀ a b : Cls F, Dict.get? a key = Dict.get? b key →
        (fresh a).read key = (fresh b).read key := by
      intro a b hab
      show (match Dict.get? (init a) key with
        | some .alias => (Dict.get? a key).map Prod.snd
        | v => v) = (match Dict.get? (init b) key with
        | some .alias => (Dict.get? b key).map Prod.snd
        | v => v)
      rw [get?_init, get?_init, hab]
    exact hr _ _ hs
  have hno : ∀ (ls : List (Str × Str)) (s : St F), ClsOk cls s.cls → (∀ l ∈ ls, l.1 ≠ key) →
      Dict.get? (runLines fe s ls).cls key = Dict.get? s.cls key := by
    intro ls
    induction ls with
    | nil => intro s _ _; rfl
    | cons x xs ih =>
      intro s hc hn
      have he := line_effect fe cls s hc x.1 x.2
      have h1 := ih (parseConfig fe s x.1 x.2).1 he.1 (fun l hl => hn l (List.mem_cons_of_mem _ hl))
      have hx : Dict.get? (parseConfig fe s x.1 x.2).1.cls key = Dict.get? s.cls key := by
        by_cases hcl : Clears cls x.1 key
        · exact ((he.2 key (hn x (by simp))).1 hcl).2.2
        · exact ((he.2 key (hn x (by simp))).2 hcl).2.2
      calc Dict.get? (runLines fe s (x :: xs)).cls key
          = Dict.get? (runLines fe (parseConfig fe s x.1 x.2).1 xs).cls key := rfl
        _ = _ := by rw [h1, hx]
  have hown : ∀ (ls : List (Str × Str)) (s : St F) (l : List Str), ClsOk cls s.cls →
      Dict.get? s.opts key = some (.list l) →
      (∃ t v, Dict.get? cls key = some (t, v) ∧ (t = .append ∨ t = .appendSplit)) →
      Dict.get? (runLines fe s ls).cls key = Dict.get? s.cls key := by
    intro ls
    induction ls with
    | nil => intro s _ _ _ _; rfl
    | cons x xs ih =>
      intro s l hc ho htv
      obtain ⟨t, v, h0, ht⟩ := htv
      have he := line_effect fe cls s hc x.1 x.2
      have hw : ∃ w, Dict.get? s.cls key = some (t, w) := by
        have := (hc key).1
        rw [h0] at this
        cases hg : Dict.get? s.cls key with
        | none => rw [hg] at this; cases this
        | some p => obtain ⟨a, b⟩ := p; rw [hg] at this; cases this; exact ⟨b, rfl⟩
      have hx : Dict.get? (parseConfig fe s x.1 x.2).1.cls key = Dict.get? s.cls key ∧
          ∃ l', Dict.get? (parseConfig fe s x.1 x.2).1.opts key = some (.list l') := by
        by_cases hk : x.1 = key
        · obtain ⟨w, hw⟩ := hw
          have hset : setOption fe s t key x.2 = s.extend key (lineValues t x.2) := by
            rcases ht with h | h <;> subst h <;> rfl
          rw [hk, parseConfig_fst fe s key x.2 t w hw, hset]
          unfold St.extend
          rw [ho]
          exact ⟨rfl, _, Dict.get?_set_self _ _ _⟩
        · by_cases hcl : Clears cls x.1 key
          · have := (he.2 key hk).1 hcl
            exact ⟨this.2.2, _, this.2.1⟩
          · have := (he.2 key hk).2 hcl
            exact ⟨this.2.2, l, by rw [this.2.1]; exact ho⟩
      obtain ⟨hx1, l', hx2⟩ := hx
      have h1 := ih (parseConfig fe s x.1 x.2).1 l' he.1 hx2 ⟨t, v, h0, ht⟩
      calc Dict.get? (runLines fe s (x :: xs)).cls key
          = Dict.get? (runLines fe (parseConfig fe s x.1 x.2).1 xs).cls key := rfl
        _ = _ := by rw [h1, hx1]
  rcases h with h | h | ⟨before, c, v, after, hl, hc, hb⟩
  · cases hg : Dict.get? cls key with
    | none =>
      have := (runLines_cls fe cls lines (fresh cls) (clsOk_refl cls) key).1
      rw [hg] at this
      cases hr : Dict.get? (runLines fe (fresh cls) lines).cls key with
      | none => rfl
      | some p => rw [hr] at this; cases this
    | some p =>
      obtain ⟨t, v⟩ := p
      exact (runLines_cls fe cls lines (fresh cls) (clsOk_refl cls) key).2 t v hg (h t v hg).1 (h t v hg).2
  · exact hno lines (fresh cls) (clsOk_refl cls) h
  · subst hl
    rw [runLines_append]
    have h1 := hno before (fresh cls) (clsOk_refl cls) hb
    have hcb := runLines_cls fe cls before (fresh cls) (clsOk_refl cls)
    have hne : c ≠ key ∨ c = key := by by_cases h : c = key <;> simp [h]
    by_cases htv : ∃ t v, Dict.get? cls key = some (t, v) ∧ (t = .append ∨ t = .appendSplit)
    · have hne : c ≠ key := by
        intro he; subst he
        obtain ⟨t, v, h0, ht⟩ := htv
        obtain ⟨ks, h2, _⟩ := hc
        rw [h0] at h2; cases h2
        rcases ht with h | h <;> cases h
      have he := line_effect fe cls _ hcb c v
      have h2 := (he.2 key hne).1 hc
      have h3 := hown after _ [] he.1 h2.2.1 htv
      calc Dict.get? (runLines fe (runLines fe (fresh cls) before) ((c, v) :: after)).cls key
          = Dict.get? (runLines fe (parseConfig fe (runLines fe (fresh cls) before) c v).1 after).cls key := rfl
        _ = Dict.get? cls key := by rw [h3, h2.2.2, h1]; rfl
    · rw [← runLines_append]
      cases hg : Dict.get? cls key with
      | none =>
        have := (runLines_cls fe cls (before ++ (c, v) :: after) (fresh cls) (clsOk_refl cls) key).1
        rw [hg] at this
        cases hr : Dict.get? (runLines fe (fresh cls) (before ++ (c, v) :: after)).cls key with
        | none => rfl
        | some p => rw [hr] at this; cases this
      | some p =>
        obtain ⟨t, w⟩ := p
        exact (runLines_cls fe cls _ (fresh cls) (clsOk_refl cls) key).2 t w hg
          (fun h => htv ⟨t, w, hg, Or.inl h⟩) (fun h => htv ⟨t, w, hg, Or.inr h⟩)

theorem lastGood_cons (fe : FloatEnv F) (t : OptType) (key : Str) (l : Str × Str) (lines : List (Str × Str)) (v : OptVal F) :
    lastGood fe t key (l :: lines) v =
      lastGood fe t key lines (if l.1 = key then ((prescribed fe t l.2).join).getD v else v) := by
  unfold lastGood
  by_cases h : l.1 = key
  · simp only [List.filter_cons, h, decide_true, if_true]
    cases hp : (prescribed fe t l.2).join with
    | none => simp [hp]
    | some w => simp [hp, List.getLast?_cons]
  · simp [List.filter_cons, h]

/-- **C19**, for whole configurations: an option of these types that nothing clears has the last well-typed value given for it, and
its default if there is none. -/
theorem C19_last (fe : FloatEnv F) (cls : Cls F) (key : Str) (t : OptType) (dflt : OptVal F)
    (hk : Dict.get? cls key = some (t, dflt)) (ht : t = .int ∨ t = .float ∨ t = .bool ∨ t = .str ∨ t = .list)
    (hd : ∀ l, dflt ≠ .list l) (ha : dflt ≠ .alias)
    (hno : ∀ c, ¬ Clears cls c key) (lines : List (Str × Str)) :
    (runLines fe (fresh cls) lines).read key = some (lastGood fe t key lines dflt) := by
  have step : ∀ (lines : List (Str × Str)) (s : St F) (v : OptVal F), ClsOk cls s.cls → s.read key = some v →
      (runLines fe s lines).read key = some (lastGood fe t key lines v) := by
    intro lines
    induction lines with
    | nil => intro s v _ hv; exact hv
    | cons l lines ih =>
      intro s v hc hv
      rw [lastGood_cons]
      refine ih (parseConfig fe s l.1 l.2).1 _ (line_effect fe cls s hc l.1 l.2).1 ?_
      by_cases he : l.1 = key
      · have hg : Dict.get? s.cls key = some (t, dflt) :=
          (hc key).2 t dflt hk (by rcases ht with h | h | h | h | h <;> simp [h]) (by rcases ht with h | h | h | h | h <;> simp [h])
        obtain ⟨h1, h2, h3⟩ := C19_typed_option fe s key l.2 t dflt hg ht
        rw [if_pos he, he]
        cases hp : prescribed fe t l.2 with
        | none => rw [h1 hp]; exact hv
        | some x =>
          cases x with
          | none => rw [h2 hp]; exact hv
          | some w =>
            rw [(h3 w hp).2.2 key, if_pos rfl]
            rfl
      · rw [if_neg he, (((line_effect fe cls s hc l.1 l.2).2 key he).2 (hno _)).1]
        exact hv
  refine step lines _ _ (clsOk_refl cls) ?_
  unfold St.read
  simp only [fresh, get?_init, hk]
  cases dflt <;> first | rfl | exact absurd rfl (hd _) | exact absurd rfl ha

/-- **C19**, **C20**: which lines are accepted after any others.  Unknown keys are left to others; values of appending options and
lines that clear options are always accepted; of the other types of C19, those with a value that can be read. -/
theorem C20_accepted (fe : FloatEnv F) (cls : Cls F)
    (hl : ∀ k t d, Dict.get? cls k = some (t, d) → t = .append ∨ t = .appendSplit ∨ t = .clear → ∃ l, d = .list l)
    (lines : List (Str × Str)) (key value : Str) :
    (Dict.get? cls key = none → (parseConfig fe (runLines fe (fresh cls) lines) key value).2 = .unclaimed) ∧
    ∀ t d, Dict.get? cls key = some (t, d) →
      (t = .append ∨ t = .appendSplit ∨ t = .clear → (parseConfig fe (runLines fe (fresh cls) lines) key value).2 = .inhibit) ∧
      (t = .int ∨ t = .float ∨ t = .bool ∨ t = .str ∨ t = .list →
        ((parseConfig fe (runLines fe (fresh cls) lines) key value).2 = .inhibit ↔ prescribed fe t value ≠ none)) := by
  have hcls := runLines_cls fe cls lines (fresh cls) (clsOk_refl cls) key
  constructor
  · intro hn
    have := hcls.1
    rw [hn] at this
    have hg : Dict.get? (runLines fe (fresh cls) lines).cls key = none := by simpa using this
    rw [C19_unknown_key fe _ key value hg]
  · intro t d hk
    constructor
    · intro ht
      obtain ⟨l, rfl⟩ := hl key t d hk ht
      rcases ht with rfl | rfl | rfl
      · obtain ⟨l', -, ⟨w, hw⟩, h⟩ := holds_any fe cls key .append (.inl rfl) lines _ _ (holds_fresh cls key .append l hk)
        unfold parseConfig
        rw [hw]
        simp only [setOption, St.extend]
        rcases h with h | ⟨h, h'⟩
        · rw [h]
        · rw [h, h']
      · obtain ⟨l', -, ⟨w, hw⟩, h⟩ := holds_any fe cls key .appendSplit (.inr rfl) lines _ _ (holds_fresh cls key .appendSplit l hk)
        unfold parseConfig
        rw [hw]
        simp only [setOption, St.extend]
        rcases h with h | ⟨h, h'⟩
        · rw [h]
        · rw [h, h']
      · have hg := hcls.2 _ _ hk (by simp) (by simp)
        unfold parseConfig
        rw [hg]
        simp only [setOption, setClear]
        rw [hg]
    · intro ht
      have hg := hcls.2 t d hk (by rcases ht with h | h | h | h | h <;> simp [h]) (by rcases ht with h | h | h | h | h <;> simp [h])
      obtain ⟨h1, h2, h3⟩ := C19_typed_option fe _ key value t d hg ht
      cases hp : prescribed fe t value with
      | none => rw [h1 hp]; simp
      | some x =>
        cases x with
        | none => rw [h2 hp]; simp
        | some w => rw [(h3 w hp).1]; simp

/-- **C20**, in the main configuration: which options clear which. -/
theorem C20_main (five ten two : F) (p : Str × Str)
    (h : p ∈ [(c!"clear_report_template", c!"report"), (c!"clear_unsafe_report_template", c!"unsafe_report"),
      (c!"clear_headers", c!"add_header"), (c!"clear_headers", c!"remove_header"), (c!"clear_dns_servers", c!"dns_server"),
      (c!"clear_trusted_networks", c!"trusted_networks"), (c!"clear_internal_networks", c!"internal_networks"),
      (c!"clear_msa_networks", c!"msa_networks"), (c!"clear_originating_ip_headers", c!"originating_ip_headers"),
      (c!"clear_dns_query_restriction", c!"dns_query_restriction")]) :
    Clears (padOptions five ten two) p.1 p.2 ∧ ∃ t, Dict.get? (padOptions five ten two) p.2 = some (t, .list []) ∧
      (t = .append ∨ t = .appendSplit) := by
  simp only [List.mem_cons, List.not_mem_nil, or_false] at h
  rcases h with rfl | rfl | rfl | rfl | rfl | rfl | rfl | rfl | rfl | rfl <;>
    exact ⟨⟨_, rfl, by decide⟩, _, rfl, by decide⟩

/-! Concrete cases, on the options of the main configuration. -/

/-- Floats as natural numbers of the form `digits`. -/
def demoFloats : FloatEnv Int :=
  ⟨int?, fun x => x < 0, fun n x => some (x * (n : Int))⟩

def demoCls : Cls Int := padOptions 5 10 2

example : (runLines demoFloats (fresh demoCls)
    [(c!"report", c!"a"), (c!"report_safe", c!"x"), (c!"clear_report_template", []),
     (c!"report", c!"b"), (c!"trusted_networks", c!"10/8 192.168/16"), (c!"report", c!"c d"),
     (c!"required_score", c!"7")]).read c!"report" = some (.list [c!"b", c!"c d"]) := by decide

example : Clears demoCls c!"clear_headers" c!"remove_header" :=
  ⟨[c!"add_header", c!"remove_header"], by decide, by decide⟩

example : (parseConfig demoFloats (fresh demoCls) c!"required_score" c!"abc").2 = .error .plugin := by
  decide
example : (parseConfig demoFloats (fresh demoCls) c!"required_score" c!"7").1.read c!"required_score" =
    some (.float 7) := by decide
example : (parseConfig demoFloats ⟨[(c!"ttl", .timevalue, .float 0)], [(c!"ttl", .float 0)]⟩ c!"ttl"
    c!"2h").1.read c!"ttl" = some (.float 7200) := by decide

example : (runLines demoFloats (fresh demoCls)
    [(c!"required_score", c!"7"), (c!"report_safe", c!"2"), (c!"required_score", c!"x"), (c!"clear_report_template", []),
     (c!"required_score", [])]).read c!"required_score" = some (.float 7) := by decide

end Verif.Props
