import Verif.Spec.ShortCircuit
import Verif.Lemmas.Py

namespace Verif.ShortCircuit
open Verif Py

variable {S Y : Type} [PyNum S]

theorem dropWhile_all {p : Char → Bool} (a b : Str) (h : ∀ x ∈ a, p x = true) :
    (a ++ b).dropWhile p = b.dropWhile p := by
  induction a with
  | nil => rfl
  | cons x a ih =>
    rw [List.cons_append, List.dropWhile_cons, if_pos (h x (by simp))]
    exact ih fun y hy => h y (by simp [hy])

theorem dropWhile_word {p : Char → Bool} (a b : Str) (ha : a ≠ []) (h : ∀ x ∈ a, p x = false) :
    (a ++ b).dropWhile p = a ++ b := by
  cases a with
  | nil => exact absurd rfl ha
  | cons x a => rw [List.cons_append, List.dropWhile_cons, if_neg (by simp [h x (by simp)])]

theorem takeWhile_word {p : Char → Bool} (a : Str) (c : Char) (b : Str) (h : ∀ x ∈ a, p x = true) (hc : p c = false) :
    (a ++ c :: b).takeWhile p = a ∧ (a ++ c :: b).dropWhile p = c :: b := by
  induction a with
  | nil => simp [hc]
  | cons x a ih =>
    have := ih fun y hy => h y (by simp [hy])
    simp [h x (by simp), this]

theorem splitNone_line {c : Setting} (h : c.Written) : splitNone 1 c.line = [c.name, c.type] := by
  obtain ⟨hl, ⟨hn, hn'⟩, ⟨hg, hg'⟩, ⟨ht, ht'⟩⟩ := h
  unfold Setting.line splitNone
  rw [List.append_assoc, List.append_assoc, dropWhile_all _ _ hl, dropWhile_word _ _ hn hn']
  have hne : (c.name ++ (c.gap ++ c.type)).isEmpty = false := by
    cases hh : c.name with
    | nil => exact absurd hh hn
    | cons _ _ => rfl
  simp only [hne, Bool.false_eq_true, if_false]
  cases hh : c.gap with
  | nil => exact absurd hh hg
  | cons g gs =>
    have h1 := takeWhile_word (p := fun x => !isSpace x) c.name g (gs ++ c.type)
      (fun x hx => by simp [hn' x hx]) (by simp [hg' g (by simp [hh])])
    rw [List.cons_append, h1.1, h1.2]
    unfold splitNone
    rw [show g :: (gs ++ c.type) = (g :: gs) ++ c.type from rfl, dropWhile_all _ _ (by rw [← hh]; exact hg')]
    have h3 := dropWhile_word (p := isSpace) c.type [] ht ht'
    rw [List.append_nil] at h3
    rw [h3]
    cases ht2 : c.type with
    | nil => exact absurd ht2 ht
    | cons _ _ => rfl

/-- What a setting contributes. -/
def addW (c : Setting) (name : Str) : List Str := asked [c] name

theorem asked_cons (c : Setting) (conf : List Setting) (name : Str) :
    asked (c :: conf) name = asked [c] name ++ asked conf name := by
  unfold asked
  rw [← List.map_append, ← List.filter_append, List.singleton_append]

theorem dset_map {V : Type} (d : Dict Str V) (k : Str) (f : V → V) (v : V) (hn : (Dict.keys d).Nodup)
    (hv : Dict.get? d k = some v) :
    Dict.set d k (f v) = d.map fun p => (p.1, if p.1 = k then f p.2 else p.2) := by
  induction d with
  | nil => simp [Dict.get?] at hv
  | cons p d ih =>
    rw [Dict.get?_cons] at hv
    simp only [Dict.keys, List.map_cons, List.nodup_cons] at hn
    unfold Dict.set
    by_cases h : p.1 = k
    · rw [if_pos h] at hv
      simp only [Option.some.injEq] at hv
      subst hv
      rw [if_pos h, List.map_cons, if_pos h]
      have : d.map (fun q => (q.1, if q.1 = k then f q.2 else q.2)) = d := by
        conv => rhs; rw [← List.map_id d]
        apply List.map_congr_left
        intro q hq
        have : q.1 ≠ k := by
          intro e
          exact hn.1 (List.mem_map.2 ⟨q, hq, by rw [e, h]⟩)
        simp [this]
      rw [this, h]
    · rw [if_neg h] at hv ⊢
      rw [ih hn.2 hv, List.map_cons, if_neg h]

theorem dget_map {V W : Type} (d : Dict Str V) (f : Str → V → W) (k : Str) :
    Dict.get? (d.map fun p => (p.1, f p.1 p.2)) k = (Dict.get? d k).map (f k) := by
  induction d with
  | nil => rfl
  | cons p d ih =>
    rw [List.map_cons, Dict.get?_cons, Dict.get?_cons]
    by_cases h : p.1 = k
    · simp [h]
    · simp only [if_neg h, ih]

/-- The rule with more wrappers. -/
def SRule.add (r : SRule S Y) (ws : List Str) : SRule S Y := { r with wraps := r.wraps ++ ws }

/-- The rules with the types of `w` added. -/
def withW (w : Str → List Str) (st : SRules S Y) : SRules S Y where
  checked := st.checked.map fun p => (p.1, p.2.add (w p.1))
  notChecked := st.notChecked.map fun p =>
    (p.1, p.2.add (if (Dict.get? st.checked p.1).isSome then [] else w p.1))

theorem withW_get (w : Str → List Str) (st : SRules S Y) (n : Str) :
    (withW w st).get n = (st.get n).map fun r => r.add (w n) := by
  unfold SRules.get withW
  simp only
  rw [dget_map st.checked (fun k (r : SRule S Y) => r.add (w k)) n,
    dget_map st.notChecked
    (fun k (r : SRule S Y) => r.add (if (Dict.get? st.checked k).isSome then [] else w k)) n]
  cases Dict.get? st.checked n <;> simp

theorem add_nil (r : SRule S Y) : r.add [] = r := by simp [SRule.add]

theorem add_add (r : SRule S Y) (a b : List Str) : (r.add a).add b = r.add (a ++ b) := by simp [SRule.add]

theorem withW_nil (st : SRules S Y) : withW (fun _ => []) st = st := by
  unfold withW
  simp [add_nil]

theorem withW_withW (w w' : Str → List Str) (st : SRules S Y) :
    withW w' (withW w st) = withW (fun n => w n ++ w' n) st := by
  unfold withW
  simp only [List.map_map, SRules.mk.injEq]
  constructor
  · apply List.map_congr_left
    intro p _
    simp [add_add]
  · apply List.map_congr_left
    intro p _
    simp only [Function.comp, Prod.mk.injEq, true_and]
    rw [dget_map st.checked (fun k (r : SRule S Y) => r.add (w k))]
    cases Dict.get? st.checked p.1 <;> simp [add_add]

theorem withW_nodup (w : Str → List Str) (st : SRules S Y) :
    Dict.keys (withW w st).checked = Dict.keys st.checked ∧
    Dict.keys (withW w st).notChecked = Dict.keys st.notChecked := by
  unfold withW Dict.keys
  simp [List.map_map, Function.comp_def]

theorem configLine_split (st : SRules S Y) (line : Str) (c : Setting) (h : splitNone 1 line = [c.name, c.type])
    (hn : (Dict.keys st.checked).Nodup) (hn' : (Dict.keys st.notChecked).Nodup) :
    configLine st line = withW (asked [c]) st := by
  have none_ : (∀ n, (Dict.get? st.checked n).isSome ∨ (Dict.get? st.notChecked n).isSome → asked [c] n = []) →
      withW (asked [c]) st = st := by
    intro h0
    conv => rhs; rw [← withW_nil st]
    unfold withW
    simp only [SRules.mk.injEq]
    constructor
    · apply List.map_congr_left
      intro p hp
      rw [h0 p.1 (Or.inl (Option.isSome_iff_exists.2 ((Dict.mem_keys_iff _ _).1 (List.mem_map.2 ⟨p, hp, rfl⟩))))]
    · apply List.map_congr_left
      intro p hp
      rw [h0 p.1 (Or.inr (Option.isSome_iff_exists.2 ((Dict.mem_keys_iff _ _).1 (List.mem_map.2 ⟨p, hp, rfl⟩))))]
  unfold configLine
  rw [h]
  simp only
  cases hg : st.get c.name with
  | none =>
    simp only
    rw [none_]
    intro n hs
    have : c.name ≠ n := by
      intro e
      subst e
      unfold SRules.get at hg
      cases h1 : Dict.get? st.checked c.name with
      | some _ => rw [h1] at hg; simp at hg
      | none => rw [h1] at hg; simp only at hg; rw [h1, hg] at hs; simp at hs
    simp [asked, this]
  | some r =>
    simp only
    by_cases ho : c.type = c!"off"
    · rw [if_pos ho, none_]
      intro n _
      simp [asked, ho]
    rw [if_neg ho]
    by_cases ht : c.type ∉ [c!"on", c!"ham", c!"spam"]
    · rw [if_pos ht, none_]
      intro n _
      simp only [List.mem_cons, List.not_mem_nil, or_false, not_or] at ht
      simp [asked, ht.1, ht.2.1, ht.2.2]
    rw [if_neg ht]
    have ht' : c.type = c!"on" ∨ c.type = c!"ham" ∨ c.type = c!"spam" := by
      rw [Decidable.not_not] at ht
      simpa only [List.mem_cons, List.not_mem_nil, or_false] using ht
    have ha : ∀ n, asked [c] n = if n = c.name then [c.type] else [] := by
      intro n
      by_cases e : n = c.name
      · subst e; simp [asked, ht']
      · have e' : ¬ c.name = n := fun h => e h.symm
        simp [asked, e, e']
    unfold SRules.put SRules.get at *
    cases h1 : Dict.get? st.checked c.name with
    | some r' =>
      rw [h1] at hg
      simp only [Option.some.injEq] at hg
      subst hg
      simp only
      show SRules.mk _ _ = _
      rw [show ({ r' with wraps := r'.wraps ++ [c.type] } : SRule S Y) = r'.add [c.type] from rfl] 
      rw [dset_map st.checked c.name (fun r => r.add [c.type]) r' hn h1]
      unfold withW
      simp only [SRules.mk.injEq]
      constructor
      · apply List.map_congr_left
        intro p _
        rw [ha]
        by_cases e : p.1 = c.name <;> simp [e, add_nil]
      · conv => lhs; rw [← List.map_id st.notChecked]
        apply List.map_congr_left
        intro p _
        rw [ha]
        by_cases e : p.1 = c.name
        · obtain ⟨a, b⟩ := p
          simp only at e
          subst e
          simp [h1, add_nil]
        · simp [e, add_nil]
    | none =>
      rw [h1] at hg
      simp only at hg ⊢
      show SRules.mk _ _ = _
      rw [show ({ r with wraps := r.wraps ++ [c.type] } : SRule S Y) = r.add [c.type] from rfl] 
      rw [dset_map st.notChecked c.name (fun r => r.add [c.type]) r hn' hg]
      unfold withW
      simp only [SRules.mk.injEq]
      constructor
      · conv => lhs; rw [← List.map_id st.checked]
        apply List.map_congr_left
        intro p hp
        rw [ha]
        have e : p.1 ≠ c.name := by
          intro e
          have := (Dict.mem_keys_iff st.checked p.1).1 (List.mem_map.2 ⟨p, hp, rfl⟩)
          rw [e, h1] at this
          simp at this
        simp [e, add_nil]
      · apply List.map_congr_left
        intro p _
        rw [ha]
        by_cases e : p.1 = c.name
        · simp [e, h1, add_nil]
        · simp [e, add_nil]

theorem configLine_eq (st : SRules S Y) (c : Setting) (h : c.Written) (hn : (Dict.keys st.checked).Nodup)
    (hn' : (Dict.keys st.notChecked).Nodup) :
    configLine st c.line = withW (asked [c]) st := configLine_split st c.line c (splitNone_line h) hn hn'

/-- Whatever the lines are, they add the same types to the rules of every set of rules. -/
theorem configure_any (lines : List Str) : ∃ w : Str → List Str, ∀ st : SRules S Y,
    (Dict.keys st.checked).Nodup → (Dict.keys st.notChecked).Nodup → configure lines st = withW w st := by
  induction lines with
  | nil => exact ⟨fun _ => [], fun st _ _ => (withW_nil st).symm⟩
  | cons line lines ih =>
    obtain ⟨w, hw⟩ := ih
    have key : ∃ w1 : Str → List Str, ∀ st : SRules S Y, (Dict.keys st.checked).Nodup →
        (Dict.keys st.notChecked).Nodup → configLine st line = withW w1 st := by
      by_cases h : ∃ a b, splitNone 1 line = [a, b]
      · obtain ⟨a, b, h⟩ := h
        exact ⟨asked [⟨[], a, [], b⟩], fun st hn hn' => configLine_split st line ⟨[], a, [], b⟩ h hn hn'⟩
      · refine ⟨fun _ => [], fun st _ _ => ?_⟩
        rw [withW_nil]
        unfold configLine
        split
        · rename_i a b hs
          exact absurd ⟨a, b, hs⟩ h
        · rfl
    obtain ⟨w1, h1⟩ := key
    refine ⟨fun n => w1 n ++ w n, fun st hn hn' => ?_⟩
    unfold configure
    rw [List.foldl_cons, h1 st hn hn']
    have := hw (withW w1 st) (by rw [(withW_nodup _ _).1]; exact hn) (by rw [(withW_nodup _ _).2]; exact hn')
    unfold configure at this
    rw [this, withW_withW]

theorem configure_eq (conf : List Setting) (hc : ∀ c ∈ conf, c.Written) (st : SRules S Y)
    (hn : (Dict.keys st.checked).Nodup) (hn' : (Dict.keys st.notChecked).Nodup) :
    configure (conf.map Setting.line) st = withW (asked conf) st := by
  unfold configure
  induction conf generalizing st with
  | nil => exact (withW_nil st).symm
  | cons c conf ih =>
    rw [List.map_cons, List.foldl_cons, configLine_eq st c (hc c (by simp)) hn hn',
      ih (fun c hc' => hc c (by simp [hc'])) _ (by rw [(withW_nodup _ _).1]; exact hn)
        (by rw [(withW_nodup _ _).2]; exact hn'), withW_withW]
    congr 1
    funext n
    rw [asked_cons c conf]

theorem truthy_iff (v : MatchValue) : truthy v = true ↔ Hit v := by
  cases v <;> simp [truthy, Hit]

theorem truthy_false (v : MatchValue) : truthy v = false ↔ ¬ Hit v := by
  rw [← truthy_iff]; simp

theorem wrap_counted (b : BaseRule S) (bonus : Bonus S) (t : Str) (f : Run S Y) (s s' : M S Y) (v : MatchValue)
    (h : f s = (.ret v, s')) (hv : truthy v = true) :
    ∃ s2, wrap b bonus t f s = (.stop, s2) ∧ Counted b bonus t v s' s2 := by
  unfold wrap
  rw [h]
  simp only [hv, Bool.not_true, Bool.false_eq_true, if_false]
  refine ⟨_, rfl, ?_, ?_, ?_, rfl, rfl, ?_, ?_, ?_⟩
  · simp only
    by_cases h1 : t = c!"spam"
    · subst h1; rfl
    · by_cases h2 : t = c!"ham"
      · subst h2; rfl
      · have e1 : (t == c!"spam") = false := by simpa using h1
        have e2 : (t == c!"ham") = false := by simpa using h2
        rw [if_neg h1, if_neg h2, e1, e2]
  · rw [Dict.get?_set]; cases v <;> simp [kept]
  · intro n hn
    rw [Dict.get?_set_ne _ _ (fun e => hn e.symm)]
  · simp only
    rw [Dict.get?_set_ne _ _ (by decide), Dict.get?_set_ne _ _ (by decide), Dict.get?_set]; simp
  · simp only
    rw [Dict.get?_set_ne _ _ (by decide), Dict.get?_set]; simp
  · simp only
    rw [Dict.get?_set]; simp

theorem wrap_falsy (b : BaseRule S) (bonus : Bonus S) (t : Str) (f : Run S Y) (s : M S Y)
    (h : ∀ v s', f s = (.ret v, s') → truthy v = false) : wrap b bonus t f s = f s := by
  unfold wrap
  generalize hx : f s = x at h
  obtain ⟨o, s'⟩ := x
  cases o with
  | ret v => simp [h v s' rfl]
  | raised => rfl
  | stop => rfl

theorem wrap_wrap (b : BaseRule S) (bonus : Bonus S) (t t' : Str) (f : Run S Y) :
    wrap b bonus t' (wrap b bonus t f) = wrap b bonus t f := by
  funext s
  by_cases h : ∀ v s', f s = (.ret v, s') → truthy v = false
  · have h1 := wrap_falsy b bonus t f s h
    rw [wrap_falsy b bonus t' (wrap b bonus t f) s (by rw [h1]; exact h)]
  · simp only [Classical.not_forall] at h
    obtain ⟨v, s', hf, hv⟩ := h
    obtain ⟨s2, hs, _⟩ := wrap_counted b bonus t f s s' v hf (by simpa using hv)
    rw [wrap_falsy b bonus t' (wrap b bonus t f) s (by intro v s' h; rw [hs] at h; simp at h)]

theorem run_eq (bonus : Bonus S) (call : Str → Run S Y) (r : SRule S Y) :
    r.run bonus call = match r.wraps with
      | [] => own call r.body
      | t :: _ => wrap r.base bonus t (own call r.body) := by
  unfold SRule.run
  cases r.wraps with
  | nil => rfl
  | cons t ts =>
    simp only [List.foldl_cons]
    generalize own call r.body = f
    induction ts with
    | nil => rfl
    | cons t' ts ih => rw [List.foldl_cons, wrap_wrap]; exact ih

theorem passes_run {pre : List (Str × Rule S (Rest Y))} {s s0 : M S Y} (h : Passes pre s s0)
    (rest : List (Str × Rule S (Rest Y))) : runRules (pre ++ rest) s = runRules rest s0 := by
  induction h with
  | nil s => rfl
  | ret n r rs s s' s'' v hr _ ih =>
    rw [List.cons_append, runRules, hr]
    exact ih
  | raised n r rs s s' s'' hr _ ih =>
    rw [List.cons_append, runRules, hr]
    exact ih

end Verif.ShortCircuit
