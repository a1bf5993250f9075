import Verif.Model.Redirect
import Verif.Spec.Redirect
import Verif.Lemmas.Re
import Verif.Props.Links

/-!
# C90 with the expression of the code
-/

namespace Verif.Props
open Verif Py Re Links Spec

theorem hostChar_iff (c : Char) : hostChar c = true ↔ InHost c := by
  unfold hostChar InHost
  simp [and_assoc]

theorem dot_line (w : Str) (hn : '\n' ∉ w) : ∀ c ∈ w, dot c = true := by
  intro x hx
  unfold dot
  simp only [bne_iff_ne, ne_eq]
  rintro rfl
  exact hn hx

theorem source_reads (w a : Str) (hn : '\n' ∉ w) : Re.Reads sourceRe [] w a ↔ Source w := by
  unfold sourceRe
  simp only [seqs, Reads.seq, Reads.lit, Reads.opt, Reads.plus, Reads.chr, Reads.star]
  constructor
  · rintro ⟨_, v, rfl, ⟨rfl, -⟩, _, v, rfl, rfl, s, v, rfl, hs, _, v, rfl, rfl, h, v, rfl, ⟨hh, hc⟩, _, r, rfl, ⟨d, rfl, -⟩, -⟩
    obtain ⟨c, h, rfl⟩ : ∃ c t, h = c :: t := by
      cases h with
      | nil => exact absurd rfl hh
      | cons c t => exact ⟨c, t, rfl⟩
    have hi := (hostChar_iff c).1 (hc c (by simp))
    have tail : ∃ e rest, h ++ ([d] ++ r) = e :: rest := by
      cases h with
      | nil => exact ⟨d, r, rfl⟩
      | cons e t => exact ⟨e, t ++ ([d] ++ r), rfl⟩
    obtain ⟨e, rest, he⟩ := tail
    rcases hs with rfl | rfl
    · exact ⟨c!"https:", by simp [webSchemes], c, e, rest, by rw [← he]; simp, hi⟩
    · exact ⟨c!"http:", by simp [webSchemes], c, e, rest, by rw [← he]; simp, hi⟩
  · rintro ⟨scheme, hm, c, d, rest, rfl, hi⟩
    have hd : ∀ x ∈ d :: rest, dot x = true := dot_line _ (fun h => hn (by
      simp only [List.mem_append, List.mem_cons] at h ⊢
      exact .inr (.inr h)))
    have hc := (hostChar_iff c).2 hi
    unfold webSchemes at hm
    simp only [List.mem_cons, List.not_mem_nil, or_false] at hm
    rcases hm with rfl | rfl
    · exact ⟨[], _, rfl, ⟨rfl, rfl⟩, c!"http", c!"://" ++ c :: d :: rest, rfl, rfl, [], c!"://" ++ c :: d :: rest, rfl, .inr rfl,
        c!"://", c :: d :: rest, rfl, rfl, [c], d :: rest, rfl, ⟨by simp, by simpa using hc⟩, [d], rest, rfl,
        ⟨d, rfl, hd d (by simp)⟩, fun x hx => hd x (by simp [hx])⟩
    · exact ⟨[], _, rfl, ⟨rfl, rfl⟩, c!"http", c!"s://" ++ c :: d :: rest, rfl, rfl, c!"s", c!"://" ++ c :: d :: rest, rfl, .inl rfl,
        c!"://", c :: d :: rest, rfl, rfl, [c], d :: rest, rfl, ⟨by simp, by simpa using hc⟩, [d], rest, rfl,
        ⟨d, rfl, hd d (by simp)⟩, fun x hx => hd x (by simp [hx])⟩

theorem dest_reads (s b a : Str) : (∃ w z, s = w ++ z ∧ Re.Reads destRe b w (z ++ a)) ↔ Target s := by
  unfold destRe
  simp only [seqs, Reads.seq, Reads.lit, Reads.opt, Reads.plus, Reads.alt, Re.Reads]
  constructor
  · rintro ⟨_, z, rfl, _, v, rfl, rfl, s, v, rfl, hs, _, v, rfl, rfl, sl, h, rfl, hsl, ⟨hh, hc⟩⟩
    obtain ⟨c, h, rfl⟩ : ∃ c t, h = c :: t := by
      cases h with
      | nil => exact absurd rfl hh
      | cons c t => exact ⟨c, t, rfl⟩
    have hi := (hostChar_iff c).1 (hc c (by simp))
    have hsl' : sl ∈ [c!"", c!"/", c!"//"] := by
      rcases hsl with rfl | ⟨_, v, rfl, rfl, rfl | rfl⟩ <;> simp
    rcases hs with rfl | rfl
    · exact ⟨c!"https:", by simp [webSchemes], sl, hsl', c, h ++ z, by simp, hi⟩
    · exact ⟨c!"http:", by simp [webSchemes], sl, hsl', c, h ++ z, by simp, hi⟩
  · rintro ⟨scheme, hm, sl, hsl, c, rest, rfl, hi⟩
    have hc := (hostChar_iff c).2 hi
    have hsl' : sl = [] ∨ ∃ u v, sl = u ++ v ∧ u = c!"/" ∧ (v = [] ∨ v = c!"/") := by
      simp only [List.mem_cons, List.not_mem_nil, or_false] at hsl
      rcases hsl with rfl | rfl | rfl
      · exact .inl rfl
      · exact .inr ⟨_, [], rfl, rfl, .inl rfl⟩
      · exact .inr ⟨c!"/", c!"/", rfl, rfl, .inr rfl⟩
    unfold webSchemes at hm
    simp only [List.mem_cons, List.not_mem_nil, or_false] at hm
    rcases hm with rfl | rfl
    · exact ⟨c!"http:" ++ (sl ++ [c]), rest, by simp, c!"http", c!":" ++ (sl ++ [c]), rfl, rfl, [], _, rfl, .inr rfl,
        c!":", sl ++ [c], rfl, rfl, sl, [c], rfl, hsl', by simp, by simpa using hc⟩
    · exact ⟨c!"https:" ++ (sl ++ [c]), rest, by simp, c!"http", c!"s:" ++ (sl ++ [c]), rfl, rfl, c!"s", c!":" ++ (sl ++ [c]), rfl, .inl rfl,
        c!":", sl ++ [c], rfl, rfl, sl, [c], rfl, hsl', by simp, by simpa using hc⟩

theorem target_ways (s b : Str) (g : List (Nat × Str)) (hn : Target s) : ∃ w z, s = w ++ z ∧ Ways destRe ⟨b, s, g⟩ ⟨w.reverse ++ b, z, g⟩ := by
  obtain ⟨w, z, rfl, h⟩ := (dest_reads s b []).2 hn
  rw [List.append_nil] at h
  exact ⟨w, z, rfl, Reads.ways_noGroup g (by unfold destRe; simp [seqs, NoGroup, opt, plus, lit]) h⟩

theorem ways_target {b a : Str} {g : List (Nat × Str)} {t : St} (h : Ways destRe ⟨b, a, g⟩ t) : Target a := by
  obtain ⟨w, h1, _, h3⟩ := h.reads
  refine (dest_reads a b []).1 ⟨w, t.after, h1, ?_⟩
  rw [List.append_nil]
  exact h3

theorem noGroup_source : NoGroup sourceRe := by unfold sourceRe; simp [seqs, NoGroup, opt, plus, lit]

theorem noGroup_dest : NoGroup destRe := by unfold destRe; simp [seqs, NoGroup, opt, plus, lit]

theorem m_group {n : Nat} {r : Re} {s : St} {k : St → Option St} :
    m (.group n r) s k = m r s (fun t => k { t with groups := (n, s.after.take (s.after.length - t.after.length)) :: t.groups }) := by
  rw [m]

theorem m_starGo {g : Bool} {p : Char → Bool} {s : St} {k : St → Option St} :
    m (.star g p) s k = starGo g p s.groups k s.before s.after := by rw [m]

/-- What a match of the whole expression gives. -/
theorem redir_sound {u src dest : Str} (h : redirOf u = some (src, dest)) :
    ∃ a, u = src ++ a ∧ dest <+: a ∧ Re.Reads sourceRe [] src a ∧ Target a ∧ ('\n' ∉ u → dest = a) := by
  unfold redirOf matchRe redirRe at h
  rw [Option.map_eq_some_iff] at h
  obtain ⟨t, ht, hp⟩ := h
  rw [m_seq, m_group] at ht
  obtain ⟨t1, w1, h1⟩ := m_sound _ _ _ _ ht
  rw [m_group, m_seq] at h1
  obtain ⟨t2, w2, h2⟩ := m_sound _ _ _ _ h1
  obtain ⟨x1, e1, _, r1⟩ := w1.reads
  obtain ⟨x2, e2, b2, _⟩ := w2.reads
  have g1 := w1.groups noGroup_source
  have g2 := w2.groups noGroup_dest
  have tg := ways_target w2
  simp only at e1 e2 g1 g2 r1 b2
  rw [m_starGo] at h2
  have key : ∀ a' (w : Str), t1.after = w ++ a' → t = ⟨w.reverse ++ t1.before, a', (2, w) :: t2.groups⟩ →
      src = x1 ∧ dest = w := by
    intro a' w ew et
    rw [et] at hp
    rw [g2, g1] at hp
    have : (u.take (u.length - t1.after.length)) = x1 := by rw [e1]; simp
    rw [this] at hp
    simp only [St.get, Prod.mk.injEq] at hp
    have a1 : Dict.get? [((2 : Nat), w), (1, x1)] 1 = some x1 := rfl
    have a2 : Dict.get? [((2 : Nat), w), (1, x1)] 2 = some w := rfl
    rw [a1, a2] at hp
    exact ⟨hp.1.symm, hp.2.symm⟩
  obtain ⟨w, a', e3, _, h3⟩ := starGo_sound _ _ _ _ _ _ _ h2
  simp only [Option.some.injEq] at h3
  have ew : t1.after = (x2 ++ w) ++ a' := by rw [e2, e3, List.append_assoc]
  have hs : src = x1 ∧ dest = x2 ++ w := by
    apply key a' (x2 ++ w) ew
    rw [← h3]
    simp only [St.mk.injEq, true_and]
    refine ⟨?_, ?_⟩
    · rw [b2]; simp
    · congr 2
      rw [ew, show ((x2 ++ w) ++ a').length - a'.length = (x2 ++ w).length by rw [List.length_append]; omega, List.take_left]
  obtain ⟨rfl, rfl⟩ := hs
  refine ⟨t1.after, e1, ⟨a', ew.symm⟩, r1, tg, ?_⟩
  intro hn
  have hl : ∀ c ∈ t2.after, dot c = true := dot_line _ (fun h => hn (by rw [e1, e2]; simp [h]))
  have h5 := star_greedy dot t2.groups
    (fun t => some { t with groups := (2, t1.after.take (t1.after.length - t.after.length)) :: t.groups }) _ t2.after t2.before [] hl rfl rfl
  rw [List.append_nil] at h5
  have h6 := h2.symm.trans h5
  simp only [Option.some.injEq] at h6
  rw [h6] at h3
  simp only [St.mk.injEq] at h3
  rw [ew, h3.2.1, List.append_nil]

theorem schemes_cases {s : Str} : s ∈ webSchemes ↔ s = c!"http:" ∨ s = c!"https:" := by
  unfold webSchemes
  simp

/-- The two schemes do not begin one another. -/
theorem schemes_eq {s s' x y : Str} (h : s ∈ webSchemes) (h' : s' ∈ webSchemes) (e : s ++ x = s' ++ y) : s = s' ∧ x = y := by
  rcases schemes_cases.1 h with rfl | rfl <;> rcases schemes_cases.1 h' with rfl | rfl <;> simp_all

/-- **C90** (partial).  What the code takes for a redirection is an address and another one in it. -/
theorem C90_within {u src dest : Str} (hn : '\n' ∉ u) (h : redirOf u = some (src, dest)) : Within u src dest := by
  obtain ⟨a, e, _, r, t, hd⟩ := redir_sound h
  rw [← hd hn] at e r t
  exact ⟨e, (source_reads src dest (fun h => hn (by rw [e]; simp [h]))).1 r, t⟩

/-- What an address leads to is shorter than itself. -/
theorem redir_shorter {u src dest : Str} (h : redirOf u = some (src, dest)) : dest.length < u.length := by
  obtain ⟨a, e, ⟨z, hz⟩, r, t, hd⟩ := redir_sound h
  have : src ≠ [] := by
    rintro rfl
    unfold sourceRe at r
    simp only [seqs, Reads.seq, Reads.lit] at r
    obtain ⟨_, v, e1, ⟨rfl, -⟩, _, v', e2, rfl, _⟩ := r
    rw [List.nil_append] at e1
    rw [← e1] at e2
    cases e2
  have := List.length_pos_iff.2 this
  have hz' := congrArg List.length hz
  rw [e]
  simp only [List.length_append] at hz' ⊢
  omega

/-- The first address after the name of the host is taken. -/
theorem redir_past {u src dest : Str} (hn : '\n' ∉ u) (hw : Within u src dest) (hp : PastHost src)
    (hf : ∀ src' dest', Within u src' dest' → PastHost src' → src.length ≤ src'.length) : redirOf u = some (src, dest) := by
  obtain ⟨e, -, ht⟩ := hw
  obtain ⟨scheme, hm, host, c, mid, rfl, hh, hi, hc⟩ := hp
  have hdot : ∀ x ∈ c :: mid, dot x = true := dot_line _ (fun h => hn (by rw [e]; simp only [List.mem_append]; exact .inl (.inr h)))
  have hhost : ∀ x ∈ host, hostChar x = true := fun x hx => (hostChar_iff x).2 (hi x hx)
  have hc' : hostChar c = false := by
    cases h : hostChar c with
    | false => rfl
    | true => exact absurd ((hostChar_iff c).1 h) hc
  have rest : ∀ (b : Str) (g : List (Nat × Str)) (k : St → Option St) (x : St),
      k ⟨mid.reverse ++ c :: (host.reverse ++ b), dest, g⟩ = some x →
      (∀ p q, mid = p ++ q → q ≠ [] → k ⟨p.reverse ++ (c :: (host.reverse ++ b)), q ++ dest, g⟩ = none) →
      m (.seq (plus hostChar) (.seq (.chr dot) (.star false dot))) ⟨b, host ++ c :: (mid ++ dest), g⟩ k = some x := by
    intro b g k x hk hno
    rw [m_seq]
    apply plus_greedy hh hhost
    · simpa [headIn] using hc'
    · rw [m_seq, m_chr (hdot c (by simp)), m_starGo]
      exact star_first dot g k x dest mid _ (fun y hy => hdot y (by simp [hy])) hno hk
  have e' : u = scheme ++ c!"//" ++ (host ++ c :: (mid ++ dest)) := by rw [e]; simp
  -- the second group finds an address where there is one, and nothing elsewhere
  have some2 : ∀ b g, ∃ x, m (.group 2 (.seq destRe (.star true dot))) ⟨b, dest, g⟩ some = some x ∧ ∃ d, x.groups = (2, d) :: g := by
    intro b g
    obtain ⟨w, z, hz, hways⟩ := target_ways dest b g ht
    have hs : Ways (.group 2 (.seq destRe (.star true dot))) ⟨b, dest, g⟩ _ :=
      .group (.seq hways (.star (w := []) (a := z) (by simp)))
    have := m_complete hs some rfl
    obtain ⟨x, hx⟩ := Option.isSome_iff_exists.1 this
    refine ⟨x, hx, ?_⟩
    obtain ⟨t, hw, ht⟩ := m_sound _ _ _ _ hx
    cases ht
    cases hw with
    | @group _ _ _ t hw =>
      have := hw.groups ⟨noGroup_dest, trivial⟩
      exact ⟨_, by rw [this]⟩
  have none2 : ∀ b g p q, mid = p ++ q → q ≠ [] → m (.group 2 (.seq destRe (.star true dot))) ⟨b, q ++ dest, g⟩ some = none := by
    intro b g p q hpq hq
    rw [m_group, m_seq]
    apply m_none
    intro t hw
    have tg := ways_target hw
    have hpast : PastHost (scheme ++ c!"//" ++ host ++ c :: p) := ⟨scheme, hm, host, c, p, rfl, hh, hi, hc⟩
    have hsrc : Source (scheme ++ c!"//" ++ host ++ c :: p) := by
      cases host with
      | nil => exact absurd rfl hh
      | cons h hs =>
        cases hs with
        | nil => exact ⟨scheme, hm, h, c, p, by simp, hi h (by simp)⟩
        | cons h' hs => exact ⟨scheme, hm, h, h', hs ++ c :: p, by simp, hi h (by simp)⟩
    have := hf _ (q ++ dest) ⟨by rw [e, hpq]; simp, hsrc, tg⟩ hpast
    rw [hpq] at this
    have := List.length_pos_iff.2 hq
    simp only [List.length_append, List.length_cons] at *
    omega
  have whole : ∃ x, matchRe redirRe u = some x ∧ ∃ d, x.groups = [(2, d), (1, scheme ++ c!"//" ++ host ++ c :: mid)] := by
    obtain ⟨x, hx, d, hd⟩ := some2 ((scheme ++ c!"//" ++ host ++ c :: mid).reverse) [(1, scheme ++ c!"//" ++ host ++ c :: mid)]
    refine ⟨x, ?_, d, hd⟩
    unfold matchRe redirRe
    rw [m_seq, m_group]
    unfold sourceRe
    simp only [seqs]
    have tk : u.take (u.length - dest.length) = scheme ++ c!"//" ++ host ++ c :: mid := by
      rw [e, show ∀ a b : Str, (a ++ b).length - b.length = a.length by intro a b; rw [List.length_append]; omega, List.take_left]
    rcases schemes_cases.1 hm with rfl | rfl
    · rw [m_seq, m_bol, m_seq, show u = c!"http" ++ (c!"://" ++ (host ++ c :: (mid ++ dest))) by rw [e']; simp, m_lit, m_seq]
      rw [show ∀ b a g k, m (opt (lit c!"s")) ⟨b, c!"://" ++ a, g⟩ k = k ⟨b, c!"://" ++ a, g⟩ by intro b a g k; simp [opt, lit, m]]
      rw [m_seq, m_lit]
      apply rest
      · have eu : u = c!"http" ++ (c!"://" ++ (host ++ c :: (mid ++ dest))) := by rw [e']; simp
        rw [← eu, tk]
        rw [← hx]
        congr 2
        simp
      · intro p q hpq hq
        exact none2 _ _ p q hpq hq
    · rw [m_seq, m_bol, m_seq, show u = c!"http" ++ (c!"s" ++ (c!"://" ++ (host ++ c :: (mid ++ dest)))) by rw [e']; simp, m_lit, m_seq]
      apply m_opt
      rw [m_lit, m_seq, m_lit]
      apply rest
      · have eu : u = c!"http" ++ (c!"s" ++ (c!"://" ++ (host ++ c :: (mid ++ dest)))) := by rw [e']; simp
        rw [← eu, tk]
        rw [← hx]
        congr 2
        simp
      · intro p q hpq hq
        exact none2 _ _ p q hpq hq
  obtain ⟨x, hx, d, hd⟩ := whole
  have hr : redirOf u = some (scheme ++ c!"//" ++ host ++ c :: mid, d) := by
    unfold redirOf
    rw [hx]
    simp only [Option.map_some, St.get]
    rw [hd]
    rfl
  have := (C90_within hn hr).1
  rw [e] at this
  rw [hr, List.append_cancel_left this]

/-- A beginning that does not reach past the name of the host ends within it. -/
theorem source_cases {s : Str} (h : Source s) (hp : ¬ PastHost s) :
    ∃ scheme ∈ webSchemes, ∃ host, s = scheme ++ c!"//" ++ host ∧ ∀ x ∈ host, InHost x := by
  obtain ⟨scheme, hm, c, d, rest, rfl, hi⟩ := h
  have split : ∀ l : Str, (∀ x ∈ l, InHost x) ∨ ∃ p q r, l = p ++ q :: r ∧ (∀ x ∈ p, InHost x) ∧ ¬ InHost q := by
    intro l
    induction l with
    | nil => exact .inl (by simp)
    | cons a l ih =>
      by_cases ha : InHost a
      · rcases ih with ih | ⟨p, q, r, rfl, h1, h2⟩
        · exact .inl (by simpa using ⟨ha, ih⟩)
        · exact .inr ⟨a :: p, q, r, rfl, by simpa using ⟨ha, h1⟩, h2⟩
      · exact .inr ⟨[], a, l, rfl, by simp, ha⟩
  rcases split (d :: rest) with h | ⟨p, q, r, e, h1, h2⟩
  · exact ⟨scheme, hm, c :: d :: rest, rfl, by
      intro x hx
      rcases List.mem_cons.1 hx with rfl | hx
      · exact hi
      · exact h x hx⟩
  · refine absurd ⟨scheme, hm, c :: p, q, r, ?_, by simp, ?_, h2⟩ hp
    · rw [e]; simp
    · intro x hx
      rcases List.mem_cons.1 hx with rfl | hx
      · exact hi
      · exact h1 x hx

theorem target_head {s : Str} (h : Target s) : ∃ r, s = 'h' :: r := by
  obtain ⟨scheme, hm, sl, -, c, rest, rfl, -⟩ := h
  rcases schemes_cases.1 hm with rfl | rfl <;> exact ⟨_, rfl⟩

/-- No address begins within the scheme of another one. -/
theorem target_apart {x d : Str} (hx : x ≠ []) (hi : ∀ c ∈ x, InHost c) (h : Target (x ++ d)) (hd : Target d) : False := by
  obtain ⟨r, rfl⟩ := target_head hd
  obtain ⟨scheme, hm, sl, -, c, rest, e, -⟩ := h
  have colon : ':' ∉ x := fun h => (hi _ h).2.1 rfl
  rcases schemes_cases.1 hm with rfl | rfl
  · rcases x with _ | ⟨a, _ | ⟨b, _ | ⟨c, _ | ⟨d, _ | ⟨f, x⟩⟩⟩⟩⟩ <;> simp_all
  · rcases x with _ | ⟨a, _ | ⟨b, _ | ⟨c, _ | ⟨d, _ | ⟨f, _ | ⟨g, x⟩⟩⟩⟩⟩⟩ <;> simp_all

/-- At most one address begins within the name of the host. -/
theorem within_host {u s d s' d' : Str} (h : Within u s d) (h' : Within u s' d') (hp : ¬ PastHost s) (hp' : ¬ PastHost s') : s = s' := by
  obtain ⟨sch, hm, host, rfl, hi⟩ := source_cases h.2.1 hp
  obtain ⟨sch', hm', host', rfl, hi'⟩ := source_cases h'.2.1 hp'
  have e : sch ++ (c!"//" ++ (host ++ d)) = sch' ++ (c!"//" ++ (host' ++ d')) := by
    have := h.1.symm.trans h'.1
    simpa using this
  obtain ⟨rfl, e⟩ := schemes_eq hm hm' e
  have e : host ++ d = host' ++ d' := by simpa using e
  rcases List.append_eq_append_iff.1 e with ⟨x, rfl, e2⟩ | ⟨x, rfl, e2⟩
  · rcases x with _ | ⟨a, x⟩
    · simp
    · exact (target_apart (x := a :: x) (by simp) (fun c hc => hi' c (List.mem_append_right _ hc)) (by rw [← e2]; exact h.2.2) h'.2.2).elim
  · rcases x with _ | ⟨a, x⟩
    · simp
    · exact (target_apart (x := a :: x) (by simp) (fun c hc => hi c (List.mem_append_right _ hc)) (by rw [← e2]; exact h'.2.2) h.2.2).elim

/-- **C90** (partial).  The code sees a redirection in an address exactly if there is another address in it. -/
theorem C90_found {u : Str} (hn : '\n' ∉ u) : (redirOf u).isSome ↔ ∃ src dest, Within u src dest := by
  constructor
  · intro h
    obtain ⟨⟨src, dest⟩, h⟩ := Option.isSome_iff_exists.1 h
    exact ⟨src, dest, C90_within hn h⟩
  · rintro ⟨src, dest, rfl, hs, ht⟩
    unfold redirOf
    rw [Option.isSome_map, matchRe_isSome]
    obtain ⟨w, z, rfl, hw⟩ := (dest_reads dest (src.reverse ++ []) []).2 ht
    rw [List.append_nil] at hw
    refine ⟨src ++ w, z, by simp, src, w, rfl, (source_reads src _ (fun h => hn (by simp [h]))).2 hs, w, [], by simp, hw, ?_⟩
    intro c hc
    cases hc

/-- The first of the addresses after the name of the host. -/
theorem first_past {u : Str} : (∃ src dest, Within u src dest ∧ PastHost src) →
    ∃ src dest, Within u src dest ∧ PastHost src ∧ ∀ src' dest', Within u src' dest' → PastHost src' → src.length ≤ src'.length := by
  rintro ⟨src, dest, hw, hp⟩
  induction h : src.length using Nat.strongRecOn generalizing src dest with
  | _ n ih =>
    by_cases hx : ∃ src' dest', Within u src' dest' ∧ PastHost src' ∧ src'.length < n
    · obtain ⟨src', dest', hw', hp', hl⟩ := hx
      exact ih _ hl src' dest' hw' hp' rfl
    · refine ⟨src, dest, hw, hp, fun src' dest' hw' hp' => ?_⟩
      by_cases hl : src'.length < n
      · exact absurd ⟨src', dest', hw', hp', hl⟩ hx
      · omega

/-- **C90** (partial).  Which redirection the code sees in an address: the first address after the name of the host or, if there is
none, the one that begins within the name. -/
theorem C90_hop {u src dest : Str} (hn : '\n' ∉ u) : redirOf u = some (src, dest) ↔ Hop u src dest := by
  have same : ∀ {s d s' d'}, Within u s d → Within u s' d' → s = s' → d = d' := by
    rintro s d s' d' h h' rfl
    exact List.append_cancel_left (h.1.symm.trans h'.1)
  by_cases hx : ∃ src dest, Within u src dest ∧ PastHost src
  · obtain ⟨s, d, hw, hp, hf⟩ := first_past hx
    have hr := redir_past hn hw hp hf
    constructor
    · intro h
      rw [hr] at h
      injection h with h
      injection h with h1 h2
      subst h1; subst h2
      exact ⟨hw, fun src' dest' hw' hp' => ⟨hp, hf src' dest' hw' hp'⟩⟩
    · intro h
      obtain ⟨hp', hl⟩ := h.2 s d hw hp
      exact redir_past hn h.1 hp' (fun src' dest' hw' hp' => (h.2 src' dest' hw' hp').2)
  · have no : ∀ s d, Within u s d → ¬ PastHost s := fun s d hw hp => hx ⟨s, d, hw, hp⟩
    constructor
    · intro h
      exact ⟨C90_within hn h, fun s d hw hp => absurd hp (no s d hw)⟩
    · intro h
      obtain ⟨⟨s, d⟩, hs⟩ := Option.isSome_iff_exists.1 ((C90_found hn).2 ⟨src, dest, h.1⟩)
      have hw := C90_within hn hs
      have e := within_host h.1 hw (no _ _ h.1) (no _ _ hw)
      rw [hs, e, same h.1 hw e]

theorem hop_line {u src dest : Str} (hn : '\n' ∉ u) (h : Hop u src dest) : '\n' ∉ dest :=
  fun hd => hn (by rw [h.1.1]; simp [hd])

theorem led_line {net : Str → Option Str} {u v : Str} (h : Led net u v) : '\n' ∉ u → '\n' ∉ v := by
  induction h with
  | here u => exact id
  | step u src dest v hh _ _ ih => exact fun hn => ih (hop_line hn hh)

theorem chain_led (U : UrlLib) {u v : Str} (hn : '\n' ∉ u) : Chain U redirOf u v ↔ Led (hostOf U) u v := by
  constructor
  · intro h
    induction h with
    | here u => exact .here u
    | step u src dest v h1 h2 _ ih =>
      have hh := (C90_hop hn).1 h1
      exact .step u src dest v hh h2 (ih (hop_line hn hh))
  · intro h
    induction h with
    | here u => exact .here u
    | step u src dest v hh h2 _ ih => exact .step u src dest v ((C90_hop hn).2 hh) h2 (ih (hop_line hn hh))

/-- **C90** (partial), with the expression of the code.  If the addresses can be read, the rule about redirections holds exactly if an
address of the message leads, through redirections within one host, to one that redirects to another host. -/
theorem C90_http_partial (U : UrlLib) (uris : List Str) (hn : ∀ u ∈ uris, '\n' ∉ u)
    (hr : ∀ u ∈ uris, ∀ v src dest, Led (hostOf U) u v → Hop v src dest → U.parse src ≠ none ∧ U.parse dest ≠ none) :
    redirector U redirOf uris = true ↔ ∃ u ∈ uris, ∃ v src dest, Led (hostOf U) u v ∧ Hop v src dest ∧ hostOf U src ≠ hostOf U dest := by
  rw [C90_redirector_partial U redirOf (fun u src dest h => redir_shorter h) uris]
  · constructor
    · rintro ⟨u, hu, v, src, dest, hc, hv, hne⟩
      have hl := (chain_led U (hn u hu)).1 hc
      exact ⟨u, hu, v, src, dest, hl, (C90_hop (led_line hl (hn u hu))).1 hv, hne⟩
    · rintro ⟨u, hu, v, src, dest, hl, hv, hne⟩
      exact ⟨u, hu, v, src, dest, (chain_led U (hn u hu)).2 hl, (C90_hop (led_line hl (hn u hu))).2 hv, hne⟩
  · intro u hu v src dest hc hv
    have hl := (chain_led U (hn u hu)).1 hc
    exact hr u hu v src dest hl ((C90_hop (led_line hl (hn u hu))).1 hv)

/-- Addresses in which no redirection is seen do not matter. -/
theorem redirector_none (U : UrlLib) (uris : List Str) (h : ∀ u ∈ uris, redirOf u = none) : redirector U redirOf uris = false := by
  cases hr : redirector U redirOf uris with
  | false => rfl
  | true =>
    exfalso
    have hread : ∀ u ∈ uris, Readable U redirOf u := by
      intro u hu v src dest hc hv
      cases hc with
      | here => rw [h u hu] at hv; cases hv
      | step _ _ _ _ h1 => rw [h u hu] at h1; cases h1
    obtain ⟨u, hu, v, src, dest, hc, hv, _⟩ := (C90_redirector_partial U redirOf (fun u src dest h => redir_shorter h) uris hread).1 hr
    cases hc with
    | here => rw [h u hu] at hv; cases hv
    | step _ _ _ _ h1 => rw [h u hu] at h1; cases h1

/-- **C90** is violated: redirections by addresses that do not begin with `http://` or `https://`, in small letters, are never seen,
although the addresses of a message may begin with `www.`, `ftp` or capital letters. -/
theorem C90_start_violated (U : UrlLib) (uris : List Str) (hn : ∀ u ∈ uris, '\n' ∉ u)
    (h : ∀ u ∈ uris, ¬ c!"http://" <+: u ∧ ¬ c!"https://" <+: u) : redirector U redirOf uris = false := by
  apply redirector_none
  intro u hu
  rw [← Option.not_isSome_iff_eq_none, C90_found (hn u hu)]
  rintro ⟨src, dest, e, ⟨scheme, hm, c, d, rest, rfl, _⟩, _⟩
  rcases schemes_cases.1 hm with rfl | rfl
  · exact (h u hu).1 ⟨c :: d :: rest ++ dest, by rw [e]; simp⟩
  · exact (h u hu).2 ⟨c :: d :: rest ++ dest, by rw [e]; simp⟩

/-- **C90** is violated: a redirection to an address that is escaped, as addresses in queries are, so that it has no colon, is never
seen. -/
theorem C90_escaped_violated (U : UrlLib) (uris : List Str) (hn : ∀ u ∈ uris, '\n' ∉ u)
    (h : ∀ u ∈ uris, u.count ':' ≤ 1) : redirector U redirOf uris = false := by
  apply redirector_none
  intro u hu
  rw [← Option.not_isSome_iff_eq_none, C90_found (hn u hu)]
  rintro ⟨src, dest, e, ⟨scheme, hm, c, d, rest, rfl, _⟩, ⟨scheme', hm', sl, _, c', rest', rfl, _⟩⟩
  have := h u hu
  have one : ∀ s ∈ webSchemes, s.count ':' = 1 := by decide
  rw [e] at this
  simp only [List.count_append, one _ hm, one _ hm'] at this
  omega

section
/-- Hosts of addresses for the examples: what is between the second slash and the third. -/
def hostLib : UrlLib where
  parse u := some (c!"http", ((u.dropWhile (· != '/')).drop 2).takeWhile (· != '/'))
  unquote := id

def hopUri : Str := c!"http://a.org/go?to=http://a.org/x?u=https://b.org/y"

/-- Two hops, the second one to another host. -/
example : redirector hostLib redirOf [c!"http://c.org/", hopUri] = true ∧ ∃ v src dest,
    Led (hostOf hostLib) hopUri v ∧ Hop v src dest ∧ hostOf hostLib src ≠ hostOf hostLib dest := by
  refine ⟨by decide +kernel, c!"http://a.org/x?u=https://b.org/y", c!"http://a.org/x?u=", c!"https://b.org/y", ?_, ?_, by decide +kernel⟩
  · exact .step _ c!"http://a.org/go?to=" c!"http://a.org/x?u=https://b.org/y" _ ((C90_hop (by decide +kernel)).1 (by decide +kernel))
      (by decide +kernel) (.here _)
  · exact (C90_hop (by decide +kernel)).1 (by decide +kernel)

/-- An address that begins within the name of a host. -/
example : Hop c!"http://exhttp://b.org/" c!"http://ex" c!"http://b.org/" := (C90_hop (by decide +kernel)).1 (by decide +kernel)

/-- Every address is readable here. -/
example : ∀ u ∈ [hopUri], ∀ v src dest, Led (hostOf hostLib) u v → Hop v src dest → hostLib.parse src ≠ none ∧ hostLib.parse dest ≠ none := by
  intro u _ v src dest _ _
  exact ⟨by simp [hostLib], by simp [hostLib]⟩

/-- Addresses whose redirections are not seen. -/
example : redirector hostLib redirOf [c!"www.a.org/go?to=http://b.org/", c!"HTTP://a.org/go?to=http://b.org/"] = false ∧
    redirector hostLib redirOf [c!"http://a.org/go?to=http%3A%2F%2Fb.org%2F"] = false :=
  ⟨C90_start_violated hostLib _ (by decide +kernel) (by decide +kernel), C90_escaped_violated hostLib _ (by decide +kernel) (by decide +kernel)⟩
end

end Verif.Props
