import Verif.Lemmas.Split
import Verif.Spec.BodyEval
import Verif.Lemmas.Py
import Mathlib.Tactic.Linarith
import Mathlib.Tactic.FieldSimp
import Mathlib.Tactic.Ring
import Mathlib.Tactic.Positivity
import Mathlib.Algebra.Order.Field.Rat

/-!
# C95 to C98: rules about the body
-/

namespace Verif.Props
open Verif Py BodyEval

/-! ## Counters -/

/-- The count kept for a word. -/
def countOf (c : Counter) (w : Str) : Nat := (Dict.get? c w).getD 0

/-- A counter in which words occur once, with positive counts. -/
def Sane (c : Counter) : Prop := (Dict.keys c).Nodup ∧ ∀ w n, Dict.get? c w = some n → 0 < n

theorem sane_add (c : Counter) (w : Str) (h : Sane c) : Sane (Counter.add c w) := by
  refine ⟨Dict.nodup_set _ _ _ h.1, ?_⟩
  intro w' n hn
  unfold Counter.add at hn
  rw [Dict.get?_set] at hn
  split at hn
  · injection hn with hn; omega
  · exact h.2 w' n hn

theorem countOf_add (c : Counter) (w w' : Str) : countOf (Counter.add c w) w' = countOf c w' + (if w = w' then 1 else 0) := by
  unfold countOf Counter.add
  rw [Dict.get?_set]
  split
  · rename_i h; subst h; simp
  · simp

theorem fold_count (ws : List Str) : ∀ c, Sane c →
    Sane (ws.foldl Counter.add c) ∧ ∀ w, countOf (ws.foldl Counter.add c) w = countOf c w + ws.count w := by
  induction ws with
  | nil => intro c h; exact ⟨h, fun w => by simp⟩
  | cons x xs ih =>
    intro c h
    rw [List.foldl_cons]
    obtain ⟨h1, h2⟩ := ih _ (sane_add c x h)
    refine ⟨h1, fun w => ?_⟩
    rw [h2, countOf_add, List.count_cons]
    by_cases hx : x = w
    · simp [hx]; omega
    · simp [hx]

theorem mem_keys_count (c : Counter) (h : Sane c) (w : Str) : w ∈ Dict.keys c ↔ 0 < countOf c w := by
  rw [Dict.mem_keys_iff]
  unfold countOf
  constructor
  · intro hw
    cases hg : Dict.get? c w with
    | none => simp_all
    | some n => exact h.2 w n hg
  · intro hw
    cases hg : Dict.get? c w with
    | none => rw [hg] at hw; simp at hw
    | some n => simp_all

/-! ## The tree of parts -/

/-- The identities of the parts of a tree. -/
def ids (t : Tree) : List Nat := t.walk.map Part.id

/-- The same for several trees. -/
def idsAll (ts : List Tree) : List Nat := (walkAll ts).map Part.id

theorem ids_node (i : Nat) (ty : Str) (tx : Option Str) (ks : List Tree) : ids (.node i ty tx ks) = i :: idsAll ks := by
  simp only [ids, idsAll, Tree.walk, List.map_cons]

theorem idsAll_nil : idsAll [] = [] := rfl

theorem idsAll_cons (t : Tree) (ts : List Tree) : idsAll (t :: ts) = ids t ++ idsAll ts := by
  simp only [ids, idsAll, walkAll, List.map_append]

theorem ids_head (t : Tree) : ∃ r, ids t = t.id :: r := by
  cases t with
  | node i ty tx ks => exact ⟨_, ids_node i ty tx ks⟩

theorem id_mem (t : Tree) : t.id ∈ ids t := by
  obtain ⟨r, h⟩ := ids_head t
  rw [h]; simp

theorem ids_mem (ts : List Tree) : ∀ t ∈ ts, ∀ i ∈ ids t, i ∈ idsAll ts := by
  induction ts with
  | nil => intro t h; cases h
  | cons x xs ih =>
    intro t ht i hi
    rw [idsAll_cons, List.mem_append]
    rw [List.mem_cons] at ht
    rcases ht with rfl | ht
    · exact .inl hi
    · exact .inr (ih t ht i hi)

theorem tail_mem (t : Tree) (i : Nat) (h : i ∈ (ids t).tail) : i ∈ ids t := List.mem_of_mem_tail h

theorem tail_not_kid (ts : List Tree) (hd : (idsAll ts).Nodup) :
    ∀ t ∈ ts, ∀ i ∈ (ids t).tail, i ∉ ts.map Tree.id := by
  induction ts with
  | nil => intro t h; cases h
  | cons x xs ih =>
    rw [idsAll_cons, List.nodup_append] at hd
    obtain ⟨h1, h2, h3⟩ := hd
    intro t ht i hi hm
    rw [List.map_cons, List.mem_cons] at hm
    rw [List.mem_cons] at ht
    rcases ht with rfl | ht
    · rcases hm with rfl | hm
      · obtain ⟨r, hr⟩ := ids_head t
        rw [hr] at h1 hi
        rw [List.nodup_cons] at h1
        exact h1.1 hi
      · rw [List.mem_map] at hm
        obtain ⟨t', ht', rfl⟩ := hm
        exact h3 _ (tail_mem t _ hi) _ (ids_mem xs t' ht' _ (id_mem t')) rfl
    · rcases hm with rfl | hm
      · exact h3 _ (id_mem x) _ (ids_mem xs t ht _ (tail_mem t _ hi)) rfl
      · exact ih h2 t ht i hi hm

/-- What visiting parts does: the words of the texts are added. -/
def Visited (u : Char → Bool) (s s' : Tokens) (plain html : List Str) (is : List Nat) : Prop :=
  s'.text = (plain.flatMap (words u)).foldl Counter.add s.text ∧
  s'.html = (html.flatMap (words u)).foldl Counter.add s.html ∧
  ∀ i, i ∉ is → (i ∈ s'.multiparts ↔ i ∈ s.multiparts)

theorem visited_trans (u : Char → Bool) (s s' s'' : Tokens) (p p' h h' : List Str) (a b : List Nat)
    (h1 : Visited u s s' p h a) (h2 : Visited u s' s'' p' h' b) : Visited u s s'' (p ++ p') (h ++ h') (a ++ b) := by
  obtain ⟨x1, x2, x3⟩ := h1
  obtain ⟨y1, y2, y3⟩ := h2
  refine ⟨?_, ?_, ?_⟩
  · rw [y1, x1, List.flatMap_append, List.foldl_append]
  · rw [y2, x2, List.flatMap_append, List.foldl_append]
  · intro i hi
    rw [List.mem_append, not_or] at hi
    rw [y3 i hi.2, x3 i hi.1]

theorem words_nil (u : Char → Bool) : words u [] = [] := rfl

theorem extract_visited (u : Char → Bool) (s : Tokens) (alt : Bool) (i : Nat) (ty : Str) (tx : Option Str) (kids : List Nat)
    (ha : alt = true ↔ i ∈ s.multiparts) :
    let s' := extract u s ⟨i, ty, kids, tx⟩
    Visited u s s' (if alt = true ∧ ty = c!"text/plain" then tx.toList else [])
      (if alt = true ∧ ty = c!"text/html" then tx.toList else []) kids ∧
    (ty = c!"multipart/alternative" → s'.multiparts = s.multiparts ++ kids) ∧
    (ty ≠ c!"multipart/alternative" → s'.multiparts = s.multiparts) := by
  intro s'
  have hs : s' = extract u s ⟨i, ty, kids, tx⟩ := rfl
  clear_value s'
  unfold extract at hs
  by_cases hm : ty = c!"multipart/alternative"
  · rw [if_pos hm] at hs
    subst hs
    refine ⟨⟨?_, ?_, ?_⟩, fun _ => rfl, fun h => absurd hm h⟩
    · rw [if_neg (by rw [hm]; simp)]; rfl
    · rw [if_neg (by rw [hm]; simp)]; rfl
    · intro j hj
      simp [hj]
  · rw [if_neg hm] at hs
    cases tx with
    | none =>
      subst hs
      refine ⟨⟨?_, ?_, fun _ _ => Iff.rfl⟩, fun h => absurd h hm, fun _ => rfl⟩
      · simp
      · simp
    | some text =>
      simp only at hs
      by_cases hc : i ∉ s.multiparts ∨ text = [] ∨ (ty ≠ c!"text/plain" ∧ ty ≠ c!"text/html")
      · rw [if_pos hc] at hs
        subst hs
        have hw : ∀ ty', (ty' = c!"text/plain" ∨ ty' = c!"text/html") →
            ((if alt = true ∧ ty = ty' then (some text).toList else []).flatMap (words u)) = [] := by
          intro ty' h'
          by_cases hx : alt = true ∧ ty = ty'
          · rw [if_pos hx]
            rcases hc with hc | hc | hc
            · exact absurd (ha.1 hx.1) hc
            · subst hc; simp [words_nil]
            · exfalso
              rcases h' with h' | h'
              · exact hc.1 (hx.2.trans h')
              · exact hc.2 (hx.2.trans h')
          · rw [if_neg hx]; rfl
        refine ⟨⟨?_, ?_, fun _ _ => Iff.rfl⟩, fun h => absurd h hm, fun _ => rfl⟩
        · rw [hw _ (.inl rfl)]; rfl
        · rw [hw _ (.inr rfl)]; rfl
      · rw [if_neg hc] at hs
        rw [not_or, not_or] at hc
        obtain ⟨c1, c2, c3⟩ := hc
        have halt : alt = true := ha.2 (Classical.not_not.1 c1)
        by_cases hp : ty = c!"text/plain"
        · rw [if_pos hp] at hs
          subst hs
          refine ⟨⟨?_, ?_, fun _ _ => Iff.rfl⟩, fun h => absurd h hm, fun _ => rfl⟩
          · simp [halt, hp]
          · simp [hp]
        · rw [if_neg hp] at hs
          subst hs
          have hh : ty = c!"text/html" := by
            by_cases h : ty = c!"text/html"
            · exact h
            · exact absurd ⟨hp, h⟩ c3
          refine ⟨⟨?_, ?_, fun _ _ => Iff.rfl⟩, fun h => absurd h hm, fun _ => rfl⟩
          · simp [hh]
          · simp [halt, hh]

mutual
theorem walk_visited (u : Char → Bool) : ∀ (t : Tree) (s : Tokens) (alt : Bool), (ids t).Nodup →
    (alt = true ↔ t.id ∈ s.multiparts) → (∀ i ∈ (ids t).tail, i ∉ s.multiparts) →
    Visited u s (t.walk.foldl (extract u) s) (t.texts c!"text/plain" alt) (t.texts c!"text/html" alt) (ids t)
  | .node i ty tx ks, s, alt, hd, ha, hn => by
    rw [ids_node] at hd hn
    rw [List.tail_cons] at hn
    rw [List.nodup_cons] at hd
    obtain ⟨e1, e2, e3⟩ := extract_visited u s alt i ty tx (ks.map Tree.id) ha
    rw [ids_node]
    simp only [Tree.walk, Tree.texts, List.foldl_cons]
    have key := walkAll_visited u ks (extract u s ⟨i, ty, ks.map Tree.id, tx⟩) (decide (ty = c!"multipart/alternative")) hd.2
      (by
        intro t ht
        by_cases hm : ty = c!"multipart/alternative"
        · rw [e2 hm]
          have : t.id ∈ ks.map Tree.id := List.mem_map.2 ⟨t, ht, rfl⟩
          simp [hm, this]
        · rw [e3 hm]
          have := hn t.id (ids_mem ks t ht _ (id_mem t))
          simp [hm, this])
      (by
        intro t ht j hj
        have hnj := hn j (ids_mem ks t ht _ (tail_mem t _ hj))
        by_cases hm : ty = c!"multipart/alternative"
        · rw [e2 hm, List.mem_append, not_or]
          exact ⟨hnj, tail_not_kid ks hd.2 t ht j hj⟩
        · rw [e3 hm]; exact hnj)
    have tr := visited_trans u _ _ _ _ _ _ _ _ _ e1 key
    refine ⟨tr.1, tr.2.1, ?_⟩
    intro j hj
    apply tr.2.2 j
    rw [List.mem_append, not_or]
    rw [List.mem_cons, not_or] at hj
    refine ⟨?_, hj.2⟩
    intro hm
    rw [List.mem_map] at hm
    obtain ⟨t, ht, rfl⟩ := hm
    exact hj.2 (ids_mem ks t ht _ (id_mem t))
theorem walkAll_visited (u : Char → Bool) : ∀ (ts : List Tree) (s : Tokens) (alt : Bool), (idsAll ts).Nodup →
    (∀ t ∈ ts, alt = true ↔ t.id ∈ s.multiparts) → (∀ t ∈ ts, ∀ i ∈ (ids t).tail, i ∉ s.multiparts) →
    Visited u s ((walkAll ts).foldl (extract u) s) (textsAll c!"text/plain" alt ts) (textsAll c!"text/html" alt ts) (idsAll ts)
  | [], s, alt, _, _, _ => ⟨rfl, rfl, fun _ _ => Iff.rfl⟩
  | t :: ts, s, alt, hd, ha, hn => by
    rw [idsAll_cons] at hd ⊢
    rw [List.nodup_append] at hd
    obtain ⟨h1, h2, h3⟩ := hd
    simp only [walkAll, textsAll, List.foldl_append]
    have a := walk_visited u t s alt h1 (ha t (by simp)) (hn t (by simp))
    have b := walkAll_visited u ts (t.walk.foldl (extract u) s) alt h2
      (by
        intro t' ht'
        rw [a.2.2 t'.id (fun hm => h3 _ hm _ (ids_mem ts t' ht' _ (id_mem t')) rfl)]
        exact ha t' (by simp [ht']))
      (by
        intro t' ht' i hi
        rw [a.2.2 i (fun hm => h3 _ hm _ (ids_mem ts t' ht' _ (tail_mem t' _ hi)) rfl)]
        exact hn t' (by simp [ht']) i hi)
    exact visited_trans u _ _ _ _ _ _ _ _ _ a b
end

/-- What is made of the runs of a text. -/
def cook (u : Char → Bool) (runs : List Str) : List Str :=
  ((((runs.filter (fun w => match w with | [] => false | c :: _ => !isSpace c)).map
    (fun w => w.filter (Content.isWord u))).filter (fun w => !w.isEmpty)).map lower)

theorem cook_append (u : Char → Bool) (a b : List Str) : cook u (a ++ b) = cook u a ++ cook u b := by
  simp [cook]

theorem cook_run (u : Char → Bool) (w : Str) (a : Char) (h : ∀ x ∈ w, isSpace x = isSpace a) (h' : isSpace a = false) :
    cook u [w ++ [a]] = if lower ((w ++ [a]).filter (Content.isWord u)) = [] then [] else [lower ((w ++ [a]).filter (Content.isWord u))] := by
  have hh : ∃ c cs, w ++ [a] = c :: cs ∧ isSpace c = false := by
    cases w with
    | nil => exact ⟨a, [], rfl, h'⟩
    | cons c cs => exact ⟨c, cs ++ [a], rfl, (h c (by simp)).trans h'⟩
  obtain ⟨c, cs, e, hc⟩ := hh
  rw [e]
  have e1 : cook u [c :: cs] = ((([(c :: cs).filter (Content.isWord u)] : List Str).filter (fun w => !w.isEmpty)).map lower) := by
    simp only [cook, List.filter_cons, hc, Bool.not_false, if_true, List.filter_nil, List.map_cons, List.map_nil]
  rw [e1]
  generalize (c :: cs).filter (Content.isWord u) = x
  cases x with
  | nil => rfl
  | cons y ys => rfl

theorem cook_space (u : Char → Bool) (w : Str) (a : Char) (h : ∀ x ∈ w, isSpace x = isSpace a) (h' : isSpace a = true) :
    cook u [w ++ [a]] = [] := by
  cases w with
  | nil => simp [cook, h']
  | cons c cs => simp [cook, (h c (by simp)).trans h']

theorem isWord_prop (u : Char → Bool) (c : Char) :
    (c.isAlphanum = true ∨ c = '_' ∨ 0x80 ≤ c.toNat ∧ u c = true) ↔ Content.isWord u c = true := by
  simp [Content.isWord, or_assoc]

theorem cook_loop (u : Char → Bool) (l : Str) : ∀ (a : Char) (g : Str), (∀ x ∈ g, isSpace x = isSpace a) →
    cook u (List.splitBy.loop (fun a b => isSpace a == isSpace b) l a g []) =
      wordsFrom u (if isSpace a then [] else lower ((g.reverse ++ [a]).filter (Content.isWord u))) l := by
  induction l with
  | nil =>
    intro a g h
    have hr : ∀ x ∈ g.reverse, isSpace x = isSpace a := fun x hx => h x (List.mem_reverse.mp hx)
    simp only [List.splitBy.loop, List.reverse_cons, List.reverse_nil, List.nil_append, wordsFrom]
    cases ha : isSpace a with
    | true => rw [cook_space u _ a hr ha]; simp
    | false => rw [cook_run u _ a hr ha]; simp
  | cons b l ih =>
    intro a g h
    have hr : ∀ x ∈ g.reverse, isSpace x = isSpace a := fun x hx => h x (List.mem_reverse.mp hx)
    simp only [List.splitBy.loop]
    by_cases hab : isSpace a = isSpace b
    · rw [show (isSpace a == isSpace b) = true by simp [hab]]
      simp only
      rw [ih b (a :: g) (fun x hx => by
        rcases List.mem_cons.mp hx with rfl | hx
        · exact hab
        · exact (h x hx).trans hab)]
      rw [wordsFrom]
      cases hb : isSpace b with
      | true => simp [hab.trans hb]
      | false =>
        simp only [hab.trans hb, Bool.false_eq_true, if_false, isWord_prop]
        by_cases hw : Content.isWord u b = true
        · rw [if_pos hw]; simp [List.filter_append, lower, hw, List.filter_cons]; split <;> simp
        · rw [if_neg hw]; simp [List.filter_append, lower, hw, List.filter_cons]
    · rw [show (isSpace a == isSpace b) = false by simp [hab]]
      simp only
      rw [splitByLoop_acc, cook_append, ih b [] (by simp), List.reverse_cons, List.reverse_nil, List.nil_append,
        List.reverse_cons, wordsFrom]
      cases hb : isSpace b with
      | true =>
        have ha : isSpace a = false := by cases h : isSpace a <;> simp_all
        rw [cook_run u _ a hr ha]
        simp [ha]
      | false =>
        have ha : isSpace a = true := by cases h : isSpace a <;> simp_all
        rw [cook_space u _ a hr ha]
        simp only [ha, if_true, Bool.false_eq_true, if_false, isWord_prop, List.nil_append, List.reverse_nil]
        by_cases hw : Content.isWord u b = true
        · rw [if_pos hw]; simp [lower, hw]
        · rw [if_neg hw]; simp [lower, hw]

/-- The words that the plugin takes from a text. -/
theorem words_exact (u : Char → Bool) (text : Str) : words u text = wordsOf u text := by
  cases text with
  | nil => rfl
  | cons a l =>
    have := cook_loop u l a [] (by simp)
    show cook u (List.splitBy.loop (fun a b => isSpace a == isSpace b) l a [] []) = _
    rw [this, wordsOf, wordsFrom]
    cases ha : isSpace a with
    | true => simp
    | false =>
      simp only [Bool.false_eq_true, if_false, isWord_prop, List.nil_append, List.reverse_nil]
      by_cases hw : Content.isWord u a = true
      · rw [if_pos hw]; simp [lower, hw]
      · rw [if_neg hw]; simp [lower, hw]

/-- The tokens of a message are the words of its alternatives. -/
theorem tokens_exact (u : Char → Bool) (t : Tree) (hd : t.Distinct) :
    (Sane (tokens u t.walk).text ∧ ∀ w, countOf (tokens u t.walk).text w = (plainWords u t).count w) ∧
    (Sane (tokens u t.walk).html ∧ ∀ w, countOf (tokens u t.walk).html w = (htmlWords u t).count w) := by
  have h := walk_visited u t start false hd (by simp [start]) (by simp [start])
  have hs : Sane [] := ⟨by simp [Dict.keys], by simp [Dict.get?]⟩
  have ew : words u = wordsOf u := funext (words_exact u)
  unfold tokens
  refine ⟨?_, ?_⟩
  · rw [h.1, ew]
    obtain ⟨h1, h2⟩ := fold_count (plainWords u t) [] hs
    refine ⟨h1, fun w => (h2 w).trans ?_⟩
    simp [countOf, Dict.get?]
  · rw [h.2.1, ew]
    obtain ⟨h1, h2⟩ := fold_count (htmlWords u t) [] hs
    refine ⟨h1, fun w => (h2 w).trans ?_⟩
    simp [countOf, Dict.get?]

theorem dups_nodup (L : List Str) : L.eraseDups.Nodup := by
  induction h : L.length using Nat.strongRecOn generalizing L with
  | _ n ih =>
    cases L with
    | nil => simp [List.eraseDups_nil]
    | cons x L =>
      rw [List.eraseDups_cons, List.nodup_cons]
      refine ⟨?_, ih _ ?_ _ rfl⟩
      · simp [List.mem_eraseDups]
      · subst h
        have := List.length_filter_le (fun b => !b == x) L
        simp only [List.length_cons]
        omega

theorem keys_perm (c : Counter) (ws : List Str) (h : Sane c) (hc : ∀ w, countOf c w = ws.count w) :
    (Dict.keys c).Perm ws.eraseDups := by
  rw [List.perm_ext_iff_of_nodup h.1 (dups_nodup _)]
  intro w
  rw [mem_keys_count c h, hc, List.mem_eraseDups, List.count_pos_iff]

theorem length_exact (c : Counter) (ws : List Str) (h : Sane c) (hc : ∀ w, countOf c w = ws.count w) :
    c.length = ws.eraseDups.length := by
  rw [← (keys_perm c ws h hc).length_eq]
  unfold Dict.keys
  rw [List.length_map]

/-- A word of the plain text is valid. -/
def valid (html : Counter) (x : Str × Nat) : Bool :=
  match Dict.get? html x.1 with
  | none => false
  | some h => decide (x.2 ≥ h)

theorem valid_fold (html : Counter) (l : List (Str × Nat)) : ∀ n,
    l.foldl (fun n (x : Str × Nat) => match Dict.get? html x.1 with
      | none => n
      | some h => if x.2 ≥ h then n + 1 else n) n = n + (l.filter (valid html)).length := by
  induction l with
  | nil => intro n; rfl
  | cons x xs ih =>
    intro n
    rw [List.foldl_cons, ih, List.filter_cons]
    unfold valid
    cases Dict.get? html x.1 with
    | none => simp
    | some h =>
      by_cases hx : x.2 ≥ h
      · simp [hx]; omega
      · simp [hx]

theorem validCount_exact (t : Tokens) (ps hs : List Str) (hp : Sane t.text) (cp : ∀ w, countOf t.text w = ps.count w)
    (hh : Sane t.html) (ch : ∀ w, countOf t.html w = hs.count w) :
    validCount t = (hs.eraseDups.filter fun w => decide (hs.count w ≤ ps.count w)).length := by
  have h1 := valid_fold t.html t.text 0
  have h2 : validCount t = (t.text.filter (valid t.html)).length := by
    rw [Nat.zero_add] at h1
    exact h1
  rw [h2, ← List.length_map (f := Prod.fst)]
  apply List.Perm.length_eq
  have hsub : ((t.text.filter (valid t.html)).map Prod.fst).Sublist (Dict.keys t.text) := List.filter_sublist.map _
  rw [List.perm_ext_iff_of_nodup (hsub.nodup hp.1) (List.filter_sublist.nodup (dups_nodup _))]
  intro w
  rw [List.mem_map, List.mem_filter, List.mem_eraseDups, decide_eq_true_eq]
  constructor
  · rintro ⟨⟨w', n⟩, hm, rfl⟩
    rw [List.mem_filter] at hm
    obtain ⟨hm, hv⟩ := hm
    have hg := Dict.get?_of_mem _ hp.1 hm
    unfold valid at hv
    simp only at hv
    cases hx : Dict.get? t.html w' with
    | none => rw [hx] at hv; cases hv
    | some h =>
      rw [hx] at hv
      simp only [decide_eq_true_eq] at hv
      have e1 : ps.count w' = n := by rw [← cp]; unfold countOf; rw [hg]; rfl
      have e2 : hs.count w' = h := by rw [← ch]; unfold countOf; rw [hx]; rfl
      refine ⟨?_, by show hs.count w' ≤ ps.count w'; omega⟩
      show w' ∈ hs
      rw [← List.count_pos_iff, e2]
      exact hh.2 _ _ hx
  · rintro ⟨hm, hle⟩
    rw [← List.count_pos_iff] at hm
    have e1 : Dict.get? t.text w = some (ps.count w) := by
      have := cp w
      unfold countOf at this
      cases hg : Dict.get? t.text w with
      | none => rw [hg] at this; simp at this; omega
      | some n => rw [hg] at this; simp at this; rw [this]
    have e2 : Dict.get? t.html w = some (hs.count w) := by
      have := ch w
      unfold countOf at this
      cases hg : Dict.get? t.html w with
      | none => rw [hg] at this; simp at this; omega
      | some n => rw [hg] at this; simp at this; rw [this]
    refine ⟨(w, ps.count w), ?_, rfl⟩
    rw [List.mem_filter]
    refine ⟨Dict.mem_of_get? _ e1, ?_⟩
    unfold valid
    simp only [e2, decide_eq_true_eq]
    exact hle

theorem filter_split {α : Type} (p : α → Bool) (l : List α) :
    (l.filter p).length + (l.filter fun x => !p x).length = l.length := by
  induction l with
  | nil => rfl
  | cons x xs ih => cases h : p x <;> simp [h] <;> omega

/-! ## C95: the difference between the alternatives -/

/-- **C95** (partial).  The difference is the percentage of the different words of the HTML alternatives that occur there more
often than in the plain ones; it is 0 without such words. -/
theorem C95_exact_partial (u : Char → Bool) (t : Tree) (hd : t.Distinct) :
    madiff (tokens u t.walk) =
      (((htmlWords u t).eraseDups.filter fun w => decide ((plainWords u t).count w < (htmlWords u t).count w)).length : Rat) /
        ((htmlWords u t).eraseDups.length : Rat) * 100 := by
  obtain ⟨⟨p1, p2⟩, h1, h2⟩ := tokens_exact u t hd
  have hl := length_exact _ _ h1 h2
  have hv := validCount_exact _ _ _ p1 p2 h1 h2
  unfold madiff
  rw [hl, hv]
  have hs := filter_split (fun w => decide ((htmlWords u t).count w ≤ (plainWords u t).count w)) (htmlWords u t).eraseDups
  have hf : (fun w => !decide ((htmlWords u t).count w ≤ (plainWords u t).count w)) =
      fun w => decide ((plainWords u t).count w < (htmlWords u t).count w) := by
    funext w
    rw [← decide_not]
    congr 1
    rw [Nat.not_le]
  rw [hf] at hs
  generalize (htmlWords u t).eraseDups.length = n at *
  generalize ((htmlWords u t).eraseDups.filter fun w => decide ((htmlWords u t).count w ≤ (plainWords u t).count w)).length = a at *
  generalize ((htmlWords u t).eraseDups.filter fun w => decide ((plainWords u t).count w < (htmlWords u t).count w)).length = b at *
  split
  · rename_i h0
    rw [h0]
    simp
  · have e : (n : Rat) - (a : Rat) = (b : Rat) := by
      rw [← hs]; push_cast; ring
    rw [e]
    unfold pyAbs
    rw [if_neg]
    rw [not_lt]
    positivity

theorem means_float (a : Arg) (x : Rat) : Means a x ↔ a.float = some x := by
  unfold Means
  cases a <;> simp [Arg.float]

/-- **C95** (partial).  The difference lies between 0 and 100; the rule holds exactly if it lies between the bounds. -/
theorem C95_range_partial (u : Char → Bool) (t : Tree) (hd : t.Distinct) :
    0 ≤ madiff (tokens u t.walk) ∧ madiff (tokens u t.walk) ≤ 100 ∧
    ∀ a b lo hi, Means a lo → Means b hi →
      (holds (difference (tokens u t.walk) a b) = true ↔ lo ≤ madiff (tokens u t.walk) ∧ madiff (tokens u t.walk) ≤ hi) := by
  refine ⟨?_, ?_, ?_⟩
  · rw [C95_exact_partial u t hd]
    positivity
  · rw [C95_exact_partial u t hd]
    have hle := List.length_filter_le (fun w => decide ((plainWords u t).count w < (htmlWords u t).count w)) (htmlWords u t).eraseDups
    generalize (htmlWords u t).eraseDups.length = n at *
    generalize ((htmlWords u t).eraseDups.filter fun w => decide ((plainWords u t).count w < (htmlWords u t).count w)).length = b at *
    by_cases h0 : n = 0
    · subst h0
      simp
    · have hn : (0 : Rat) < (n : Rat) := by exact_mod_cast Nat.pos_of_ne_zero h0
      have hb : (b : Rat) / (n : Rat) ≤ 1 := by
        rw [div_le_one hn]
        exact_mod_cast hle
      linarith
  · intro a b lo hi ha hb
    rw [means_float] at ha hb
    unfold difference holds
    rw [ha, hb]
    simp

/-- **C95** (partial).  If the alternatives have the same words, each equally often, the difference is 0; if they have none in
common, it is 100. -/
theorem C95_ends_partial (u : Char → Bool) (t : Tree) (hd : t.Distinct) :
    ((plainWords u t).Perm (htmlWords u t) → madiff (tokens u t.walk) = 0) ∧
    (htmlWords u t ≠ [] → (∀ w ∈ htmlWords u t, w ∉ plainWords u t) → madiff (tokens u t.walk) = 100) := by
  rw [C95_exact_partial u t hd]
  constructor
  · intro hp
    have : ((htmlWords u t).eraseDups.filter fun w => decide ((plainWords u t).count w < (htmlWords u t).count w)) = [] := by
      rw [List.filter_eq_nil_iff]
      intro w _
      rw [decide_eq_true_eq, hp.count_eq]
      omega
    rw [this]
    simp
  · intro hn hw
    have : ((htmlWords u t).eraseDups.filter fun w => decide ((plainWords u t).count w < (htmlWords u t).count w)) =
        (htmlWords u t).eraseDups := by
      rw [List.filter_eq_self]
      intro w hm
      rw [List.mem_eraseDups] at hm
      rw [decide_eq_true_eq, List.count_eq_zero_of_not_mem (hw w hm)]
      exact List.count_pos_iff.2 hm
    rw [this]
    have hl : (htmlWords u t).eraseDups.length ≠ 0 := by
      intro h0
      rw [List.length_eq_zero_iff] at h0
      cases hh : htmlWords u t with
      | nil => exact hn hh
      | cons x xs =>
        have : x ∈ (htmlWords u t).eraseDups := by rw [List.mem_eraseDups, hh]; simp
        rw [h0] at this
        cases this
    have hq : ((htmlWords u t).eraseDups.length : Rat) ≠ 0 := by exact_mod_cast hl
    rw [div_self hq, one_mul]

/-- **C95** is violated: words of the plain text that are missing from the HTML do not count, however many there are; and
a plain text all of whose words are in the HTML, even more often, makes the greatest difference. -/
theorem C95_direction_violated (u : Char → Bool) (t : Tree) (hd : t.Distinct) :
    ((∀ w ∈ htmlWords u t, (htmlWords u t).count w ≤ (plainWords u t).count w) → madiff (tokens u t.walk) = 0) ∧
    (htmlWords u t ≠ [] → (∀ w ∈ htmlWords u t, (plainWords u t).count w < (htmlWords u t).count w) →
      madiff (tokens u t.walk) = 100) := by
  rw [C95_exact_partial u t hd]
  constructor
  · intro hc
    have : ((htmlWords u t).eraseDups.filter fun w => decide ((plainWords u t).count w < (htmlWords u t).count w)) = [] := by
      rw [List.filter_eq_nil_iff]
      intro w hm
      rw [List.mem_eraseDups] at hm
      have := hc w hm
      rw [decide_eq_true_eq]
      omega
    rw [this]
    simp
  · intro hn hc
    have : ((htmlWords u t).eraseDups.filter fun w => decide ((plainWords u t).count w < (htmlWords u t).count w)) =
        (htmlWords u t).eraseDups := by
      rw [List.filter_eq_self]
      intro w hm
      rw [List.mem_eraseDups] at hm
      rw [decide_eq_true_eq]
      exact hc w hm
    rw [this]
    have hl : (htmlWords u t).eraseDups.length ≠ 0 := by
      intro h0
      rw [List.length_eq_zero_iff] at h0
      cases hh : htmlWords u t with
      | nil => exact hn hh
      | cons x xs =>
        have : x ∈ (htmlWords u t).eraseDups := by rw [List.mem_eraseDups, hh]; simp
        rw [h0] at this
        cases this
    have hq : ((htmlWords u t).eraseDups.length : Rat) ≠ 0 := by exact_mod_cast hl
    rw [div_self hq, one_mul]

/-- A message with an alternative: plain text and HTML, in a mixed message with another text. -/
def toyTree (plain html : Str) : Tree :=
  .node 0 c!"multipart/mixed" none
    [.node 1 c!"multipart/alternative" none [.node 2 c!"text/plain" (some plain) [], .node 3 c!"text/html" (some html) []],
     .node 4 c!"text/plain" (some c!"elsewhere") []]

example (plain html : Str) : (toyTree plain html).Distinct := by
  show ([0, 1, 2, 3, 4] : List Nat).Nodup
  decide

set_option maxRecDepth 8000 in
-- a plain text with words the HTML does not have, and one whose words are all in the HTML
example : let m := fun a b => madiff (tokens (fun _ => false) (toyTree a b).walk)
    m c!"Buy pills now, buy!" c!"buy" = 0 ∧ m c!"buy" c!"Buy buy" = 100 ∧ m c!"a b" c!"a c" = 50 := by
  decide +kernel

/-! ## C96: the ratio of words -/

/-- **C96**.  The rule about the ratio of words holds exactly if the HTML alternatives have any words, at least the number
given of different ones, and the number of different words of the plain ones is greater than the ratio given times theirs. -/
theorem C96_ratio (u : Char → Bool) (t : Tree) (hd : t.Distinct) (a : Arg) (ratio : Rat) (minHtml : Int)
    (ha : Means a ratio) :
    holds (differenceCount (tokens u t.walk) a minHtml) = true ↔
      htmlWords u t ≠ [] ∧ minHtml ≤ ((htmlWords u t).eraseDups.length : Int) ∧
      ratio * ((htmlWords u t).eraseDups.length : Rat) < ((plainWords u t).eraseDups.length : Rat) := by
  obtain ⟨⟨p1, p2⟩, h1, h2⟩ := tokens_exact u t hd
  have hl := length_exact _ _ h1 h2
  have pl := length_exact _ _ p1 p2
  have hz : htmlWords u t ≠ [] ↔ (htmlWords u t).eraseDups.length ≠ 0 := by
    rw [ne_eq, ne_eq, not_iff_not, List.length_eq_zero_iff]
    constructor
    · intro h; rw [h]; rfl
    · intro h0
      cases hh : htmlWords u t with
      | nil => rfl
      | cons x xs =>
        have : x ∈ (htmlWords u t).eraseDups := by rw [List.mem_eraseDups, hh]; simp
        rw [h0] at this
        cases this
  rw [means_float] at ha
  unfold differenceCount holds
  rw [ha, hl, pl, hz]
  simp only
  generalize (htmlWords u t).eraseDups.length = n
  generalize (plainWords u t).eraseDups.length = k
  split
  · rename_i h
    simp only [Option.getD_some, Bool.false_eq_true, false_iff]
    rintro ⟨_, h', _⟩
    omega
  · split
    · rename_i h
      simp [h]
    · rename_i h1 h2
      have hn : (0 : Rat) < (n : Rat) := by exact_mod_cast Nat.pos_of_ne_zero h2
      simp only [Option.getD_some, decide_eq_true_eq, gt_iff_lt]
      rw [lt_div_iff₀ hn]
      constructor
      · intro h; exact ⟨h2, by omega, h⟩
      · rintro ⟨_, _, h⟩; exact h

set_option maxRecDepth 8000 in
example : let r := fun a b => holds (differenceCount (tokens (fun _ => false) (toyTree a b).walk) (.str (some 1)) 1)
    r c!"one two" c!"one" = true ∧ r c!"one one" c!"one" = false ∧ r c!"one" c!"" = false := by decide +kernel

/-! ## C97: blank lines -/

/-- The blank lines after the first line. -/
def later (s : Str) : Nat := (linesOf s).tail.count []

theorem splitNl_ne (s : Str) : splitChar '\n' s ≠ [] := by
  cases s with
  | nil => simp [splitChar]
  | cons c cs =>
    unfold splitChar
    split
    · simp
    · split <;> simp

theorem lines_nl (s : Str) : linesOf ('\n' :: s) = [] :: linesOf s := by
  unfold linesOf
  conv => lhs; unfold splitChar
  simp only [beq_self_eq_true, if_true]
  rw [List.dropLast_cons_of_ne_nil (splitNl_ne s)]

theorem lines_other (c : Char) (s : Str) (h : c ≠ '\n') :
    (linesOf s = [] ∧ linesOf (c :: s) = []) ∨ ∃ w ws, linesOf s = w :: ws ∧ linesOf (c :: s) = (c :: w) :: ws := by
  unfold linesOf
  have hb : (c == '\n') = false := by simpa using h
  cases hs : splitChar '\n' s with
  | nil => exact absurd hs (splitNl_ne s)
  | cons w ws =>
    cases ws with
    | nil => left; simp [splitChar, hb, hs]
    | cons x xs => right; exact ⟨w, (x :: xs).dropLast, by simp [hs], by simp [splitChar, hb, hs]⟩

theorem lineCount_exact (s : Str) : lineCount s = (linesOf s).length := by
  induction s with
  | nil => rfl
  | cons c cs ih =>
    unfold lineCount at ih ⊢
    by_cases h : c = '\n'
    · subst h
      rw [lines_nl, List.count_cons_self, ih, List.length_cons]
    · rw [List.count_cons_of_ne h, ih]
      rcases lines_other c cs h with ⟨h1, h2⟩ | ⟨w, ws, h1, h2⟩
      · rw [h1, h2]
      · rw [h1, h2]; rfl

theorem later_nl (s : Str) : later ('\n' :: s) = (linesOf s).count [] := by
  unfold later
  rw [lines_nl, List.tail_cons]

theorem later_other (c : Char) (s : Str) (h : c ≠ '\n') : later (c :: s) = later s := by
  unfold later
  rcases lines_other c s h with ⟨h1, h2⟩ | ⟨w, ws, h1, h2⟩
  · rw [h1, h2]
  · rw [h1, h2]; rfl

theorem count_later (s : Str) (h : s.head? ≠ some '\n') : (linesOf s).count [] = later s := by
  cases s with
  | nil => rfl
  | cons c cs =>
    have hc : c ≠ '\n' := by simpa using h
    unfold later
    rcases lines_other c cs hc with ⟨_, h2⟩ | ⟨w, ws, _, h2⟩
    · rw [h2]; rfl
    · rw [h2]; simp

theorem blank_later (s : Str) : ¬ c!"\n\n\n" <:+: s → blankCount s = later s := by
  induction s using blankCount.induct with
  | case1 cs ih =>
    intro h
    rw [blankCount, ih (fun h' => h (h'.trans ⟨['\n', '\n'], [], by simp⟩)), later_nl, lines_nl, List.count_cons_self,
      count_later]
    intro hh
    apply h
    cases cs with
    | nil => cases hh
    | cons d ds =>
      simp at hh
      subst hh
      exact ⟨[], ds, rfl⟩
  | case2 c cs hx ih =>
    intro h
    rw [blankCount.eq_2 _ _ hx, ih (fun h' => h (h'.trans ⟨[c], [], by simp⟩))]
    by_cases hc : c = '\n'
    · subst hc
      rw [later_nl, count_later]
      intro hh
      cases cs with
      | nil => cases hh
      | cons d ds =>
        simp at hh
        subst hh
        exact hx ds rfl rfl
    · rw [later_other c cs hc]
  | case3 => intro _; rfl

/-- **C97** (partial).  If a text does not begin with a blank line, nor has two blank lines in succession, then the rule about
blank lines holds exactly if the text has enough lines, and the percentage of blank ones lies between the bounds. -/
theorem C97_ratio_partial (raw : Str) (h0 : raw.head? ≠ some '\n') (h3 : ¬ c!"\n\n\n" <:+: raw) (a b : Arg) (lo hi : Rat)
    (ha : Means a lo) (hb : Means b hi) (minLines : Int) :
    holds (blankRatio raw a b minLines) = true ↔
      linesOf raw ≠ [] ∧ minLines ≤ ((linesOf raw).length : Int) ∧
      lo * ((linesOf raw).length : Rat) ≤ ((linesOf raw).count [] : Rat) * 100 ∧
      ((linesOf raw).count [] : Rat) * 100 ≤ hi * ((linesOf raw).length : Rat) := by
  rw [means_float] at ha hb
  unfold blankRatio holds
  rw [ha, hb, lineCount_exact, blank_later raw h3, ← count_later raw h0]
  simp only
  have hz : linesOf raw ≠ [] ↔ (linesOf raw).length ≠ 0 := by
    rw [ne_eq, ne_eq, not_iff_not, List.length_eq_zero_iff]
  rw [hz]
  generalize (linesOf raw).length = n
  generalize (linesOf raw).count [] = k
  split
  · rename_i h
    simp only [Option.getD_some, Bool.false_eq_true, false_iff]
    rintro ⟨_, h', _⟩
    omega
  · rename_i h
    have h2 : n ≠ 0 := by omega
    have hn : (0 : Rat) < (n : Rat) := by exact_mod_cast Nat.pos_of_ne_zero h2
    simp only [Option.getD_some, Bool.and_eq_true, decide_eq_true_eq]
    have e : (k : Rat) / (n : Rat) * 100 = (k : Rat) * 100 / (n : Rat) := by ring
    rw [e, le_div_iff₀ hn, div_le_iff₀ hn]
    constructor
    · rintro ⟨h, h'⟩; exact ⟨h2, by omega, h, h'⟩
    · rintro ⟨_, _, h, h'⟩; exact ⟨h, h'⟩

example : let raw := c!"a\n\nb\nc\n"
    raw.head? ≠ some '\n' ∧ ¬ c!"\n\n\n" <:+: raw ∧ linesOf raw = [c!"a", [], c!"b", c!"c"] ∧
    holds (blankRatio raw (.num 25) (.str (some 25)) 4) = true := by decide +kernel

theorem blank_half (s : Str) : 2 * blankCount s ≤ lineCount s := by
  induction s using blankCount.induct with
  | case1 cs ih =>
    rw [blankCount]
    unfold lineCount at ih ⊢
    rw [List.count_cons_self, List.count_cons_self]
    omega
  | case2 c cs hx ih =>
    rw [blankCount.eq_2 _ _ hx]
    unfold lineCount at ih ⊢
    have := List.count_le_count_cons (a := '\n') (b := c) (l := cs)
    omega
  | case3 => exact Nat.le_refl _

/-- **C97** is violated: the rule never finds more than half of the lines blank, even in a text that has only blank lines. -/
theorem C97_half_violated (raw : Str) (a b : Arg) (lo : Rat) (ha : Means a lo) (hlo : 50 < lo) (minLines : Int) :
    holds (blankRatio raw a b minLines) = false ∧
    ∀ n, linesOf (List.replicate n '\n') = List.replicate n [] := by
  rw [means_float] at ha
  constructor
  · unfold blankRatio holds
    rw [ha]
    cases hb : b.float with
    | none => rfl
    | some hi =>
      simp only
      split
      · rfl
      · rename_i h
        have h2 : lineCount raw ≠ 0 := by omega
        have hn : (0 : Rat) < (lineCount raw : Rat) := by exact_mod_cast Nat.pos_of_ne_zero h2
        have hh : (2 : Rat) * (blankCount raw : Rat) ≤ (lineCount raw : Rat) := by exact_mod_cast blank_half raw
        have : ¬ lo ≤ (blankCount raw : Rat) / (lineCount raw : Rat) * 100 := by
          rw [not_le]
          have : (blankCount raw : Rat) / (lineCount raw : Rat) ≤ 1 / 2 := by
            rw [div_le_iff₀ hn]
            linarith
          linarith
        simp [this]
  · intro n
    induction n with
    | zero => rfl
    | succ n ih => rw [List.replicate_succ, lines_nl, ih, List.replicate_succ]

/-- **C97** is violated: a blank line at the beginning does not count, unless another follows. -/
theorem C97_first_violated (c : Char) (s : Str) (h : c ≠ '\n') :
    blankCount ('\n' :: c :: s) = blankCount (c :: s) ∧
    (linesOf ('\n' :: c :: s)).count [] = (linesOf (c :: s)).count [] + 1 := by
  constructor
  · rw [blankCount.eq_2]
    intro cs _ hh
    injection hh with hh
    exact h hh
  · rw [lines_nl, List.count_cons_self]

/-! ## C98: spaces -/

/-- **C98** (partial).  With numbers as bounds, the rule about white space holds exactly if the text has other characters, and
the number of characters of white space, in percent of the number of others, lies between the bounds. -/
theorem C98_ratio_partial (text : Str) (lo hi : Rat) :
    holds (verticalWords text (.num lo) (.num hi)) = true ↔
      (∃ c ∈ text, isSpace c = false) ∧
      lo * ((text.filter fun c => !isSpace c).length : Rat) ≤ ((text.filter isSpace).length : Rat) * 100 ∧
      ((text.filter isSpace).length : Rat) * 100 ≤ hi * ((text.filter fun c => !isSpace c).length : Rat) := by
  have hs := filter_split isSpace text
  have hex : (∃ c ∈ text, isSpace c = false) ↔ (text.filter fun c => !isSpace c).length ≠ 0 := by
    rw [← Nat.pos_iff_ne_zero, List.length_pos_iff_exists_mem]
    simp [List.mem_filter]
  unfold verticalWords holds Arg.compare
  rw [List.countP_eq_length_filter, hex]
  have hd : text.length - (text.filter isSpace).length = (text.filter fun c => !isSpace c).length := by omega
  simp only [hd]
  generalize (text.filter fun c => !isSpace c).length = n
  generalize (text.filter isSpace).length = k
  by_cases h : n = 0
  · simp [h]
  · have hn : (0 : Rat) < (n : Rat) := by exact_mod_cast Nat.pos_of_ne_zero h
    have e : (k : Rat) / (n : Rat) * 100 = (k : Rat) * 100 / (n : Rat) := by ring
    rw [if_neg h, e]
    by_cases h1 : lo ≤ (k : Rat) * 100 / (n : Rat)
    · rw [if_pos h1]
      simp only [Option.getD_some, decide_eq_true_eq]
      rw [le_div_iff₀ hn] at h1
      rw [div_le_iff₀ hn]
      exact ⟨fun h2 => ⟨h, h1, h2⟩, fun h2 => h2.2.2⟩
    · rw [if_neg h1]
      simp only [Option.getD_some, Bool.false_eq_true, false_iff]
      rw [le_div_iff₀ hn] at h1
      exact fun h2 => h1 h2.2.1

example : holds (verticalWords c!"a b c d" (.num 70) (.num 80)) = true := by decide +kernel

/-- **C98** is violated: with a bound in quotes, as the other rules accept it, the rule never holds. -/
theorem C98_quoted_violated (text : Str) (a b : Arg) (x : Option Rat) (h : a = .str x ∨ b = .str x) :
    holds (verticalWords text a b) = false := by
  unfold verticalWords holds
  simp only
  split
  · rfl
  · rcases h with rfl | rfl
    · rfl
    · cases a with
      | str y => rfl
      | num y =>
        simp only [Arg.compare]
        split <;> rfl

end Verif.Props
