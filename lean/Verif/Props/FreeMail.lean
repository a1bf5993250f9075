import Verif.Spec.FreeMail
import Verif.Lemmas.Py

/-!
# C92 to C94: free mail
-/

namespace Verif.Props
open Verif Py FreeMail

theorem split_at_none (s : Str) (h : '@' ∉ s) : splitChar '@' s = [s] := by
  have := splitChar_join '@' [s] (by simp) (by simpa using h)
  simpa [join] using this

theorem split_at_two (l d : Str) (hl : '@' ∉ l) (hd : '@' ∉ d) : splitChar '@' (l ++ '@' :: d) = [l, d] := by
  have := splitChar_join '@' [l, d] (by simp) (by intro w hw; simp at hw; rcases hw with rfl | rfl <;> assumption)
  simpa [join] using this

/-- **C92** (partial).  An address is taken for free mail exactly if it is, provided the wildcards make a valid
expression. -/
theorem C92_free_partial (c : Conf) (e l d : Str) (he : Address e l d) (hw : c.wild ≠ some none) :
    isFreemail c e = some true ∧ Free c e ∨ isFreemail c e = some false ∧ ¬ Free c e := by
  obtain ⟨rfl, hl, hd⟩ := he
  have hs := split_at_two l d hl hd
  have huniq : ∀ l' d', Address (l ++ '@' :: d) l' d' → d' = d := by
    rintro l' d' ⟨h1, h2, h3⟩
    have := split_at_two l' d' h2 h3
    rw [← h1, hs] at this
    injection this with _ this
    injection this with this _
    exact this.symm
  have hfree : Free c (l ++ '@' :: d) ↔ l ++ '@' :: d ∉ c.whitelist ∧ d ∉ c.whitelist ∧ c.standard (l ++ '@' :: d) = false ∧
      (d ∈ c.domains ∨ ∃ m, c.wild = some (some m) ∧ m (l ++ '@' :: d) = true) := by
    constructor
    · rintro ⟨l', d', h, h1, h2, h3⟩
      rw [huniq l' d' h] at h2 h3
      exact ⟨h1, h2, h3⟩
    · intro h; exact ⟨l, d, ⟨rfl, hl, hd⟩, h⟩
  rw [hfree]
  unfold isFreemail
  rw [if_neg (by simp), hs]
  simp only
  by_cases h1 : l ++ '@' :: d ∈ c.whitelist
  · right; rw [if_pos h1]; exact ⟨rfl, fun h => h.1 h1⟩
  rw [if_neg h1]
  by_cases h2 : d ∈ c.whitelist
  · right; rw [if_pos h2]; exact ⟨rfl, fun h => h.2.1 h2⟩
  rw [if_neg h2]
  by_cases h3 : c.standard (l ++ '@' :: d) = true
  · right; rw [if_pos h3]; exact ⟨rfl, fun h => by rw [h3] at h; cases h.2.2.1⟩
  rw [if_neg h3]
  have h3' : c.standard (l ++ '@' :: d) = false := by simpa using h3
  by_cases h4 : d ∈ c.domains
  · left; rw [if_pos h4]; exact ⟨rfl, h1, h2, h3', .inl h4⟩
  rw [if_neg h4]
  cases hwild : c.wild with
  | none => right; exact ⟨rfl, by rintro ⟨_, _, _, h | ⟨m, h, _⟩⟩; exact h4 h; cases h⟩
  | some x =>
    cases x with
    | none => exact absurd hwild hw
    | some m =>
      simp only
      cases hm : m (l ++ '@' :: d) with
      | true => left; exact ⟨rfl, h1, h2, h3', .inr ⟨m, rfl, hm⟩⟩
      | false =>
        right
        refine ⟨rfl, ?_⟩
        rintro ⟨_, _, _, h | ⟨m', h, h'⟩⟩
        · exact h4 h
        · injection h with h; injection h with h; subst h; rw [hm] at h'; cases h'

theorem validDomain_iff (d : Str) : validDomain d = true ↔ d ≠ [] ∧ ∀ ch ∈ d, DomainChar ch := by
  unfold validDomain DomainChar
  simp only [Bool.and_eq_true, Bool.not_eq_true', List.isEmpty_eq_false_iff, List.all_eq_true, Bool.or_eq_true,
    decide_eq_true_eq, beq_iff_eq, or_assoc, ne_eq]

/-- **C92** (partial).  The domains of the configuration that consist of lower case letters, digits and `.*?-` are used, in
their order. -/
theorem C92_domains_partial (compile : Str → Option (Str → Bool)) (c : Conf) :
    List.Sublist (start compile c).domains c.domains ∧
    ∀ d, d ∈ (start compile c).domains ↔ d ∈ c.domains ∧ d ≠ [] ∧ ∀ ch ∈ d, DomainChar ch := by
  refine ⟨List.filter_sublist, ?_⟩
  intro d
  show d ∈ keptDomains c.domains ↔ _
  unfold keptDomains
  rw [List.mem_filter, validDomain_iff]

theorem wildAll_none (domains : List Str) (h : ∀ d ∈ domains, '*' ∉ d) : wildAll domains = none := by
  unfold wildAll
  have : (domains.filter fun d => d.contains '*') = [] := by
    rw [List.filter_eq_nil_iff]
    intro d hd hc
    exact h d hd (by simpa using hc)
  rw [this]
  rfl

/-- **C92** is violated: addresses are compared with regard to case, and upper case domains in the configuration are
dropped: an address with a capital letter in its domain is never free mail, unless there are wildcards. -/
theorem C92_case_violated (compile : Str → Option (Str → Bool)) (c : Conf) (hw : c.wild = none) (hs : ∀ d ∈ c.domains, '*' ∉ d)
    (e l d : Str) (he : Address e l d) (ch : Char) (hc : ch ∈ d) (hup : 'A' ≤ ch ∧ ch ≤ 'Z') :
    isFreemail (start compile c) e = some false := by
  have hwild : (start compile c).wild = none := by
    unfold start
    rw [wildAll_none c.domains hs]
    exact hw
  rcases C92_free_partial (start compile c) e l d he (by rw [hwild]; simp) with ⟨_, h⟩ | ⟨h, _⟩
  · exfalso
    obtain ⟨l', d', h1, _, _, _, h2⟩ := h
    have hd : d' = d := by
      have a := split_at_two l d he.2.1 he.2.2
      have b := split_at_two l' d' h1.2.1 h1.2.2
      rw [← he.1, h1.1, b] at a
      injection a with _ a
      injection a
    rw [hd] at h2
    rcases h2 with h2 | ⟨m, h2, _⟩
    · have := ((C92_domains_partial compile c).2 d).1 h2
      have hch := this.2.2 ch hc
      have a : (65 : Nat) ≤ ch.toNat := hup.1
      have b : ch.toNat ≤ 90 := hup.2
      rcases hch with ⟨x, _⟩ | ⟨_, x⟩ | x | x | x | x
      · have : (97 : Nat) ≤ ch.toNat := x
        omega
      · have : ch.toNat ≤ 57 := x
        omega
      all_goals (rw [x] at a; exact absurd a (by decide))
    · rw [hwild] at h2; cases h2
  · exact h

/-- **C92** is violated: an address with two `@` is judged by what is between them, whatever the domain is. -/
theorem C92_at_violated (c : Conf) (a b x : Str) (ha : '@' ∉ a) (hb : '@' ∉ b) (hx : '@' ∉ x) (hd : b ∈ c.domains)
    (h1 : a ++ '@' :: (b ++ '@' :: x) ∉ c.whitelist) (h2 : b ∉ c.whitelist)
    (h3 : c.standard (a ++ '@' :: (b ++ '@' :: x)) = false) :
    isFreemail c (a ++ '@' :: (b ++ '@' :: x)) = some true := by
  have hs : splitChar '@' (a ++ '@' :: (b ++ '@' :: x)) = [a, b, x] := by
    have := splitChar_join '@' [a, b, x] (by simp)
      (by intro w hw; simp at hw; rcases hw with rfl | rfl | rfl <;> assumption)
    simpa [join] using this
  unfold isFreemail
  rw [if_neg (by simp), hs]
  simp only
  rw [if_neg h1, if_neg h2, if_neg (by simp [h3]), if_pos hd]

theorem isFreemail_no_at (c : Conf) (e : Str) (hne : e ≠ []) (h : '@' ∉ e) : isFreemail c e = none := by
  unfold isFreemail
  rw [if_neg hne, split_at_none e h]

theorem firstFree_exact (c : Conf) (rx : Option (Str → Bool)) (es : List Str) (ht : ∀ e ∈ es, isFreemail c e ≠ none) :
    ∃ b, firstFree c rx es = some b ∧ (b = true ↔ ∃ pre e post, es = pre ++ e :: post ∧ isFreemail c e = some true ∧
      (∀ e' ∈ pre, isFreemail c e' = some false) ∧ ∀ m, rx = some m → m e = true) := by
  induction es with
  | nil => exact ⟨false, rfl, by simp⟩
  | cons e es ih =>
    unfold firstFree
    cases he : isFreemail c e with
    | none => exact absurd he (ht e (by simp))
    | some f =>
      cases f with
      | true =>
        have back : ∀ pre e' post, e :: es = pre ++ e' :: post → (∀ e'' ∈ pre, isFreemail c e'' = some false) → e' = e := by
          intro pre e' post h1 h2
          cases pre with
          | nil => injection h1 with h1 _; exact h1.symm
          | cons x pre =>
            injection h1 with h1 _
            have := h2 x (by simp)
            rw [← h1, he] at this
            cases this
        cases rx with
        | none => exact ⟨true, rfl, fun _ => ⟨[], e, es, rfl, he, by simp, by simp⟩, fun _ => rfl⟩
        | some m =>
          refine ⟨m e, rfl, fun h => ⟨[], e, es, rfl, he, by simp, ?_⟩, ?_⟩
          · intro m' hm; injection hm with hm; subst hm; exact h
          · rintro ⟨pre, e', post, h1, _, h3, h4⟩
            rw [← back pre e' post h1 h3]
            exact h4 m rfl
      | false =>
        obtain ⟨b, hb, hiff⟩ := ih (fun e' h => ht e' (by simp [h]))
        refine ⟨b, hb, hiff.trans ?_⟩
        constructor
        · rintro ⟨pre, e', post, rfl, h2, h3, h4⟩
          refine ⟨e :: pre, e', post, rfl, h2, ?_, h4⟩
          intro e'' h
          rcases List.mem_cons.1 h with rfl | h
          · exact he
          · exact h3 e'' h
        · rintro ⟨pre, e', post, h1, h2, h3, h4⟩
          cases pre with
          | nil =>
            injection h1 with h1 _
            subst h1
            rw [he] at h2; cases h2
          | cons x pre =>
            injection h1 with _ h1
            exact ⟨pre, e', post, h1, h2, fun e'' h => h3 e'' (by simp [h]), h4⟩

theorem strLt_asymm (a b : Str) (h : strLt a b = true) : strLt b a = false := by
  unfold strLt at *
  simp only [decide_eq_true_eq, decide_eq_false_iff_not] at *
  exact List.lt_asymm h

theorem strLt_trans (a b c : Str) (h1 : strLt b a = false) (h2 : strLt c b = false) : strLt c a = false := by
  unfold strLt at *
  simp only [decide_eq_false_iff_not, List.not_lt] at *
  exact List.le_trans h1 h2

theorem sorted_mem (addrs : List Str) (e : Str) : e ∈ sortedBy strLt addrs.eraseDups ↔ e ∈ addrs := by
  rw [(sortedBy_perm strLt _).mem_iff, List.mem_eraseDups]

theorem exists_first (p : Str → Bool) (es : List Str) (h : ∃ e ∈ es, p e = true) :
    ∃ pre e post, es = pre ++ e :: post ∧ p e = true ∧ ∀ e' ∈ pre, p e' = false := by
  induction es with
  | nil => simp at h
  | cons e es ih =>
    cases hp : p e with
    | true => exact ⟨[], e, es, rfl, hp, by simp⟩
    | false =>
      obtain ⟨pre, e', post, h1, h2, h3⟩ := ih (by
        obtain ⟨x, hx, hx'⟩ := h
        rcases List.mem_cons.1 hx with rfl | hx
        · rw [hp] at hx'; cases hx'
        · exact ⟨x, hx, hx'⟩)
      refine ⟨e :: pre, e', post, by rw [h1]; rfl, h2, ?_⟩
      intro x hx
      rcases List.mem_cons.1 hx with rfl | hx
      · exact hp
      · exact h3 x hx

/-- **C92** (partial).  If all addresses can be read, a rule about senders holds exactly if one is free mail, and with an
expression exactly if the one among these that comes first in alphabetical order matches it. -/
theorem C92_from_partial (c : Conf) (rx : Option (Str → Bool)) (addrs : List Str) (ht : ∀ e ∈ addrs, isFreemail c e ≠ none) :
    checkFrom c (rx.map some) addrs = true ↔
      ∃ e ∈ addrs, isFreemail c e = some true ∧
        ∀ m, rx = some m → m e = true ∧ ∀ e' ∈ addrs, isFreemail c e' = some true → ¬ e' < e := by
  have hmem := sorted_mem addrs
  have hpw := sortedBy_pairwise strLt strLt_trans strLt_asymm addrs.eraseDups
  have heq : checkFrom c (rx.map some) addrs = (firstFree c rx (sortedBy strLt addrs.eraseDups)).getD false := by
    cases rx <;> rfl
  rw [heq]
  generalize sortedBy strLt addrs.eraseDups = es at *
  obtain ⟨b, hb, hiff⟩ := firstFree_exact c rx es (fun e h => ht e ((hmem e).1 h))
  rw [hb, Option.getD_some, hiff]
  constructor
  · rintro ⟨pre, e, post, rfl, h1, h2, h3⟩
    refine ⟨e, (hmem e).1 (by simp), h1, ?_⟩
    intro m hm
    refine ⟨h3 m hm, ?_⟩
    intro e' he' hf hlt
    have := (hmem e').2 he'
    rw [List.pairwise_append] at hpw
    rcases List.mem_append.1 this with hx | hx
    · rw [h2 e' hx] at hf; cases hf
    · rcases List.mem_cons.1 hx with rfl | hx
      · exact List.lt_irrefl _ hlt
      · have := (List.pairwise_cons.1 hpw.2.1).1 e' hx
        unfold strLt at this
        simp only [decide_eq_false_iff_not] at this
        exact this hlt
  · rintro ⟨e, he, hf, hm⟩
    obtain ⟨pre, e0, post, rfl, h1, h2⟩ := exists_first (fun e => isFreemail c e == some true) es ⟨e, (hmem e).2 he, by simpa using hf⟩
    have h1' : isFreemail c e0 = some true := by simpa using h1
    refine ⟨pre, e0, post, rfl, h1', ?_, ?_⟩
    · intro e' he'
      have := h2 e' he'
      have hn := ht e' ((hmem e').1 (by simp [he']))
      cases hx : isFreemail c e' with
      | none => exact absurd hx hn
      | some f => cases f with
        | true => rw [hx] at this; simp at this
        | false => rfl
    · intro m hmm
      obtain ⟨hme, hleast⟩ := hm m hmm
      have h3 : ¬ e0 < e := hleast e0 ((hmem e0).1 (by simp)) h1'
      have h4 : ¬ e < e0 := by
        have hin := (hmem e).2 he
        rw [List.pairwise_append] at hpw
        rcases List.mem_append.1 hin with hx | hx
        · have := h2 e hx
          rw [hf] at this; simp at this
        · rcases List.mem_cons.1 hx with rfl | hx
          · exact List.lt_irrefl _
          · have := (List.pairwise_cons.1 hpw.2.1).1 e hx
            unfold strLt at this
            simpa using this
      have : e0 = e := List.le_antisymm (List.not_lt.1 h4) (List.not_lt.1 h3)
      rw [this]
      exact hme

/-- **C92** is violated: a free mail address that matches the expression of a rule is not found if another, which does not
match, comes before it. -/
theorem C92_order_violated (c : Conf) (m : Str → Bool) (e1 e2 : Str) (h1 : isFreemail c e1 = some true)
    (h2 : isFreemail c e2 = some true) (hlt : e1 < e2) (hm1 : m e1 = false) :
    checkFrom c (some (some m)) [e1, e2] = false ∧ checkHeader c (some (some m)) [e1, e2] = false := by
  constructor
  · cases h : checkFrom c (some (some m)) [e1, e2] with
    | false => rfl
    | true =>
      have := (C92_from_partial c (some m) [e1, e2] (by
        intro e he; simp at he; rcases he with rfl | rfl
        · rw [h1]; simp
        · rw [h2]; simp)).1 h
      obtain ⟨e, he, _, hr⟩ := this
      obtain ⟨hr1, hr2⟩ := hr m rfl
      simp at he
      rcases he with rfl | rfl
      · rw [hm1] at hr1; cases hr1
      · exact absurd hlt (hr2 e1 (by simp) h1)
  · unfold checkHeader
    simp only
    unfold firstFree
    rw [h1]
    simp [hm1]

/-- **C92** is violated: a sender without `@` that comes first in alphabetical order hides all others. -/
theorem C92_local_violated (c : Conf) (rx : Rx) (e : Str) (addrs : List Str) (he : e ∈ addrs) (hne : e ≠ []) (hat : '@' ∉ e)
    (hleast : ∀ e' ∈ addrs, ¬ e' < e) : checkFrom c rx addrs = false := by
  have hmem := sorted_mem addrs
  have hpw := sortedBy_pairwise strLt strLt_trans strLt_asymm addrs.eraseDups
  have hhead : ∃ post, sortedBy strLt addrs.eraseDups = e :: post := by
    cases hs : sortedBy strLt addrs.eraseDups with
    | nil => have := (hmem e).2 he; rw [hs] at this; cases this
    | cons x post =>
      rw [hs] at hpw
      have h1 : ¬ x < e := hleast x ((hmem x).1 (by rw [hs]; simp))
      have h2 : ¬ e < x := by
        have hin := (hmem e).2 he
        rw [hs] at hin
        rcases List.mem_cons.1 hin with rfl | hx
        · exact List.lt_irrefl _
        · have := (List.pairwise_cons.1 hpw).1 e hx
          unfold strLt at this
          simpa using this
      have : x = e := List.le_antisymm (List.not_lt.1 h2) (List.not_lt.1 h1)
      exact ⟨post, by rw [this]⟩
  obtain ⟨post, hs⟩ := hhead
  unfold checkFrom
  rw [hs]
  have : ∀ r, firstFree c r (e :: post) = none := by
    intro r
    unfold firstFree
    rw [isFreemail_no_at c e hne hat]
  split
  · rfl
  · rw [this]; rfl
  · rw [this]; rfl

/-- **C92** is violated: if one domain with a wildcard does not make a valid expression, no address is found through
wildcards, and each that is neither excepted nor in the list raises, which hides those after it. -/
theorem C92_invalid_violated (compile : Str → Option (Str → Bool)) (c : Conf) (re : Str) (hr : wildAll c.domains = some re)
    (hc : compile re = none) (e l d : Str) (he : Address e l d) (h1 : e ∉ c.whitelist) (h2 : d ∉ c.whitelist)
    (h3 : c.standard e = false) (h4 : d ∉ keptDomains c.domains) (rx : Rx) (rest : List Str) :
    checkHeader (start compile c) rx (e :: rest) = false := by
  have hn : isFreemail (start compile c) e = none := by
    obtain ⟨rfl, hl, hd⟩ := he
    unfold isFreemail
    rw [if_neg (by simp), split_at_two l d hl hd]
    simp only
    rw [if_neg (by exact h1), if_neg (by exact h2)]
    have : (start compile c).standard (l ++ '@' :: d) = false := h3
    rw [this]
    simp only [Bool.false_eq_true, if_false]
    rw [if_neg (by exact h4)]
    have : (start compile c).wild = some none := by
      unfold start
      rw [hr]
      simp only [hc]
    rw [this]
  unfold checkHeader
  have : ∀ r, firstFree (start compile c) r (e :: rest) = none := by
    intro r
    unfold firstFree
    rw [hn]
  split
  · rfl
  · rw [this]; rfl
  · rw [this]; rfl

/-- **C92** is violated: a domain with a wildcard that was found invalid is part of the expression for the first message, but
not for those after it. -/
theorem C92_first_violated (compile : Str → Option (Str → Bool)) (c : Conf) (w bad : Str) (hd : c.domains = [w, bad])
    (hw : '*' ∈ w) (hv : validDomain w = true) (hb : '*' ∈ bad) (hbv : validDomain bad = false) :
    (start compile c).wild = some (compile (c!"\\@(?:" ++ (wildRe w ++ c!"|" ++ wildRe bad) ++ c!")$")) ∧
    (start compile (start compile c)).wild = some (compile (c!"\\@(?:" ++ wildRe w ++ c!")$")) := by
  have k : (start compile c).domains = [w] := by
    show keptDomains c.domains = _
    rw [hd]
    simp [keptDomains, hv, hbv]
  constructor
  · show (match wildAll c.domains with | none => c.wild | some re => some (compile re)) = _
    have : wildAll c.domains = some (c!"\\@(?:" ++ (wildRe w ++ c!"|" ++ wildRe bad) ++ c!")$") := by
      rw [hd]
      simp [wildAll, hw, hb, join]
    rw [this]
  · show (match wildAll (start compile c).domains with | none => _ | some re => some (compile re)) = _
    have : wildAll (start compile c).domains = some (c!"\\@(?:" ++ wildRe w ++ c!")$") := by
      rw [k]
      simp [wildAll, hw, join]
    rw [this]

/-! ### C93: rules about the body -/

theorem addTo_nodup (es : List Str) (e : Str) (h : es.Nodup) : (addTo es e).Nodup := by
  unfold addTo
  split
  · exact h
  · rename_i hn
    rw [List.nodup_append]
    refine ⟨h, by simp, ?_⟩
    intro a ha b hb
    rw [List.mem_singleton] at hb
    rintro rfl
    exact hn (hb ▸ ha)

theorem addTo_mem (es : List Str) (e x : Str) : x ∈ addTo es e ↔ x ∈ es ∨ x = e := by
  unfold addTo
  split
  · rename_i h
    constructor
    · exact .inl
    · rintro (hx | rfl)
      · exact hx
      · exact h
  · simp

theorem addAll_spec (found es : List Str) (h : es.Nodup) :
    (found.foldl addTo es).Nodup ∧ ∀ x, x ∈ found.foldl addTo es ↔ x ∈ es ∨ x ∈ found := by
  induction found generalizing es with
  | nil => exact ⟨h, by simp⟩
  | cons e found ih =>
    obtain ⟨h1, h2⟩ := ih (addTo es e) (addTo_nodup es e h)
    refine ⟨h1, fun x => ?_⟩
    rw [List.foldl_cons, h2, addTo_mem]
    simp [or_assoc]

theorem extract_spec (parts : List (List Str)) (b : Body) (h : b.emails.Nodup) :
    (parts.foldl Body.extract b).emails.Nodup ∧ (parts.foldl Body.extract b).parsed = b.parsed ∧
    ∀ x, x ∈ (parts.foldl Body.extract b).emails ↔ x ∈ b.emails ∨ ∃ p ∈ parts, x ∈ p := by
  induction parts generalizing b with
  | nil => exact ⟨h, rfl, by simp⟩
  | cons p parts ih =>
    obtain ⟨h1, h2⟩ := addAll_spec p b.emails h
    obtain ⟨h3, h4, h5⟩ := ih (b.extract p) h1
    refine ⟨h3, h4, fun x => ?_⟩
    rw [List.foldl_cons, h5]
    show x ∈ p.foldl addTo b.emails ∨ _ ↔ _
    rw [h2]
    simp [or_assoc]

/-- The free mail addresses among some. -/
def freeOf (c : Conf) (es : List Str) : List Str := es.filter fun e => isFreemail c e == some true

theorem countFree_exact (c : Conf) (es : List Str) (ht : ∀ e ∈ es, isFreemail c e ≠ none) (n : Int) (acc : List Str) (hn : n < c.maxFree) :
    countFree c es n acc = some (if n + (freeOf c es).length < c.maxFree then some (acc ++ freeOf c es) else none) := by
  induction es generalizing n acc with
  | nil => simp [countFree, freeOf, hn]
  | cons e es ih =>
    have ht' : ∀ e' ∈ es, isFreemail c e' ≠ none := fun e' h => ht e' (by simp [h])
    unfold countFree
    cases he : isFreemail c e with
    | none => exact absurd he (ht e (by simp))
    | some f =>
      cases f with
      | true =>
        have hf : freeOf c (e :: es) = e :: freeOf c es := by simp [freeOf, he]
        rw [hf]
        simp only [if_true]
        by_cases hle : n + 1 ≥ c.maxFree
        · rw [if_pos hle, if_neg]
          rw [List.length_cons]
          push_cast
          omega
        · rw [if_neg hle, ih ht' (n + 1) (acc ++ [e]) (by omega)]
          have : n + 1 + ((freeOf c es).length : Int) = n + ((e :: freeOf c es).length : Int) := by
            rw [List.length_cons]; push_cast; omega
          rw [this]
          simp
      | false =>
        have hf : freeOf c (e :: es) = freeOf c es := by simp [freeOf, he]
        rw [hf]
        simp only [Bool.false_eq_true, if_false]
        rw [if_neg (by omega), ih ht' n acc hn]

theorem countFree_zero (c : Conf) (e : Str) (es : List Str) (he : isFreemail c e ≠ none) (h : c.maxFree ≤ 0) (acc : List Str) :
    countFree c (e :: es) 0 acc = some none := by
  unfold countFree
  cases hf : isFreemail c e with
  | none => exact absurd hf he
  | some f =>
    simp only
    rw [if_pos]
    cases f <;> simp <;> omega

/-- The body can be looked at. -/
def Looked (c : Conf) (es : List Str) : Prop :=
  (c.skipOver = true → (es.length : Int) < c.maxEmails) ∧ (es ≠ [] → ((freeOf c es).length : Int) < c.maxFree)

/-- What is remembered fits the message. -/
structure Fits (c : Conf) (es : List Str) (b : Body) : Prop where
  emails : b.emails = es
  parsed : b.parsed = true → Looked c es ∧ b.free = freeOf c es

theorem parseBody_exact (c : Conf) (es : List Str) (ht : ∀ e ∈ es, isFreemail c e ≠ none) (b : Body) (hb : Fits c es b) :
    (Looked c es ∧ ∃ b', parseBody c b = some (true, b') ∧ Fits c es b' ∧ b'.free = freeOf c es) ∨
    (¬ Looked c es ∧ parseBody c b = some (false, b)) := by
  unfold parseBody
  by_cases hp : b.parsed = true
  · rw [if_pos hp]
    obtain ⟨h1, h2⟩ := hb.parsed hp
    exact .inl ⟨h1, b, rfl, hb, h2⟩
  rw [if_neg hp, hb.emails]
  by_cases ho : (es.length : Int) ≥ c.maxEmails ∧ c.skipOver = true
  · right
    rw [if_pos ho]
    refine ⟨?_, rfl⟩
    rintro ⟨h, _⟩
    have := h ho.2
    omega
  · rw [if_neg ho]
    have ho' : c.skipOver = true → (es.length : Int) < c.maxEmails := by
      intro hs
      have : ¬ (es.length : Int) ≥ c.maxEmails := fun h => ho ⟨h, hs⟩
      omega
    have yes : ∀ fs, fs = freeOf c es → (es ≠ [] → ((freeOf c es).length : Int) < c.maxFree) →
        countFree c es 0 [] = some (some fs) →
        Looked c es ∧ ∃ b', (match countFree c es 0 [] with
          | none => none
          | some none => some (false, b)
          | some (some fs) => some (true, { emails := es, free := fs, parsed := true })) = some (true, b') ∧ Fits c es b' ∧
            b'.free = freeOf c es := by
      intro fs hfs hl hc
      refine ⟨⟨ho', hl⟩, { emails := es, free := fs, parsed := true }, by rw [hc], ⟨rfl, fun _ => ⟨⟨ho', hl⟩, hfs⟩⟩, hfs⟩
    cases es with
    | nil => exact .inl (yes [] rfl (by simp) rfl)
    | cons e es =>
      by_cases hm : 0 < c.maxFree
      · have := countFree_exact c (e :: es) ht 0 [] hm
        by_cases hl : ((freeOf c (e :: es)).length : Int) < c.maxFree
        · rw [if_pos (by omega)] at this
          exact .inl (yes _ rfl (fun _ => hl) (by rw [this]; rfl))
        · rw [if_neg (by omega)] at this
          right
          rw [this]
          exact ⟨fun h => hl (h.2 (by simp)), rfl⟩
      · right
        rw [countFree_zero c e es (ht e (by simp)) (by omega)]
        refine ⟨?_, rfl⟩
        intro h
        have := h.2 (by simp)
        omega

theorem body_exact (c : Conf) (es : List Str) (ht : ∀ e ∈ es, isFreemail c e ≠ none) (b : Body) (hb : Fits c es b) (rx : Rx) :
    Fits c es (checkBody c rx b).2 ∧
    ((checkBody c rx b).1 = true ↔ rx ≠ some none ∧ Looked c es ∧
      ∃ e ∈ freeOf c es, ∀ m, rx = some (some m) → m e = true) := by
  unfold checkBody
  by_cases he : es = []
  · rw [if_pos (by rw [hb.emails]; exact he)]
    subst he
    exact ⟨hb, by simp [freeOf]⟩
  rw [if_neg (by rw [hb.emails]; exact he)]
  have key : rx ≠ some none → Fits c es (match parseBody c b with
        | none => (false, b)
        | some (false, b') => (false, b')
        | some (true, b') => match rx with
          | some (some m) => (b'.free.any m, b')
          | _ => (!b'.free.isEmpty, b')).2 ∧
      ((match parseBody c b with
        | none => (false, b)
        | some (false, b') => (false, b')
        | some (true, b') => match rx with
          | some (some m) => (b'.free.any m, b')
          | _ => (!b'.free.isEmpty, b')).1 = true ↔ rx ≠ some none ∧ Looked c es ∧
        ∃ e ∈ freeOf c es, ∀ m, rx = some (some m) → m e = true) := by
    intro hrx
    rcases parseBody_exact c es ht b hb with ⟨hl, b', hp, hf, hfree⟩ | ⟨hl, hp⟩
    · rw [hp]
      cases rx with
      | none =>
        refine ⟨hf, ?_⟩
        simp only [hfree]
        cases hx : freeOf c es with
        | nil => simp
        | cons x xs => simp [hl]
      | some o =>
        cases o with
        | none => exact absurd rfl hrx
        | some m =>
          refine ⟨hf, ?_⟩
          simp only [hfree, List.any_eq_true]
          constructor
          · rintro ⟨e, h1, h2⟩
            exact ⟨hrx, hl, e, h1, fun m' hm => by injection hm with hm; injection hm with hm; subst hm; exact h2⟩
          · rintro ⟨_, _, e, h1, h2⟩
            exact ⟨e, h1, h2 m rfl⟩
    · rw [hp]
      exact ⟨hb, by simp [hl]⟩
  cases rx with
  | none => exact key (by simp)
  | some o =>
    cases o with
    | none => exact ⟨hb, by simp⟩
    | some m => exact key (by simp)

/-- The addresses compared by the rule about the address to reply to. -/
theorem core_exact (c : Conf) (es : List Str) (ht : ∀ e ∈ es, isFreemail c e ≠ none) (b : Body) (hb : Fits c es b) (reply : Bool)
    (f r : Str) (ff rf : Bool) (hff : isFreemail c f = some ff) (hrf : isFreemail c r = some rf) :
    Fits c es (replyCore c reply f r b).2 ∧
    ((replyCore c reply f r b).1 = true ↔
      (ff = true ∧ rf = true ∧ f ≠ r) ∨
      ((if reply then ff = true ∧ (r = [] ∨ rf = true) else rf = true) ∧ Looked c es ∧
        ∃ e ∈ freeOf c es, e ≠ if reply = true ∧ rf = false then f else r)) := by
  unfold replyCore
  rw [hff, hrf]
  simp only
  by_cases h1 : (ff && rf && decide (f ≠ r)) = true
  · rw [if_pos h1]
    simp only [Bool.and_eq_true, decide_eq_true_eq] at h1
    exact ⟨hb, by simp [h1.1.1, h1.1.2, h1.2]⟩
  rw [if_neg h1]
  have h1' : ¬ (ff = true ∧ rf = true ∧ f ≠ r) := by
    rintro ⟨a, b, d⟩
    exact h1 (by simp [a, b, d])
  have tail : ∀ check, check = (if reply = true ∧ rf = false then f else r) →
      (if reply then ff = true ∧ (r = [] ∨ rf = true) else rf = true) →
      Fits c es (differs c check b).2 ∧
      ((differs c check b).1 = true ↔
        (ff = true ∧ rf = true ∧ f ≠ r) ∨
        ((if reply then ff = true ∧ (r = [] ∨ rf = true) else rf = true) ∧ Looked c es ∧
          ∃ e ∈ freeOf c es, e ≠ if reply = true ∧ rf = false then f else r)) := by
    intro check hcheck hcond
    unfold differs
    rcases parseBody_exact c es ht b hb with ⟨hl, b', hp, hf, hfree⟩ | ⟨hl, hp⟩
    · rw [hp]
      refine ⟨hf, ?_⟩
      simp only [hfree, List.any_eq_true, decide_eq_true_eq, ← hcheck]
      constructor
      · intro h; exact .inr ⟨hcond, hl, h⟩
      · rintro (h | ⟨_, _, h⟩)
        · exact absurd h h1'
        · exact h
    · rw [hp]
      refine ⟨hb, ?_⟩
      simp only [Bool.false_eq_true, false_iff]
      rintro (h | ⟨_, h, _⟩)
      · exact h1' h
      · exact hl h
  cases reply with
  | false =>
    simp only [Bool.not_false, Bool.true_and, Bool.false_and, Bool.false_eq_true, if_false, if_true]
    cases rf with
    | false =>
      refine ⟨hb, ?_⟩
      simp
    | true =>
      have := tail r (by simp) (by simp)
      simpa using this
  | true =>
    simp only [Bool.not_true, Bool.false_and, Bool.false_eq_true, if_false, Bool.true_and]
    by_cases h2 : (decide (r ≠ []) && !rf || !ff) = true
    · rw [if_pos h2]
      refine ⟨hb, ?_⟩
      simp only [Bool.false_eq_true, false_iff]
      rintro (h | ⟨h, _⟩)
      · exact h1' h
      · simp only [Bool.or_eq_true, Bool.and_eq_true, decide_eq_true_eq, Bool.not_eq_true'] at h2
        simp only [if_true] at h
        rcases h2 with ⟨a, b⟩ | a
        · rcases h.2 with h | h
          · exact a h
          · rw [h] at b; cases b
        · rw [h.1] at a; cases a
    · rw [if_neg h2]
      have hcond : ff = true ∧ (r = [] ∨ rf = true) := by
        cases ff <;> cases rf <;> simp at h2 ⊢
        exact h2
      have := tail (if rf then r else f) (by cases rf <;> simp) (by simpa using hcond)
      simpa using this

theorem replyto_fits (c : Conf) (es : List Str) (ht : ∀ e ∈ es, isFreemail c e ≠ none) (b : Body) (hb : Fits c es b)
    (o s : Option Str) (f r : Str) : Fits c es (checkReplyto c o s f r b).2 := by
  have core : ∀ reply, Fits c es (replyCore c reply f r b).2 := by
    intro reply
    cases hff : isFreemail c f with
    | none =>
      unfold replyCore
      rw [hff]
      exact hb
    | some ff =>
      cases hrf : isFreemail c r with
      | none =>
        unfold replyCore
        rw [hff, hrf]
        exact hb
      | some rf => exact (core_exact c es ht b hb reply f r ff rf hff hrf).1
  unfold checkReplyto
  split
  · exact hb
  · split
    · split
      · exact hb
      · split
        · exact hb
        · exact core _
    · exact core _

theorem after_fits (c : Conf) (old : Body) (parts : List (List Str)) (evs : List Ev)
    (ht : ∀ p ∈ parts, ∀ e ∈ p, isFreemail c e ≠ none) :
    ∃ es, Distinct parts es ∧ Fits c es (after c old parts evs) := by
  obtain ⟨h1, h2, h3⟩ := extract_spec parts old.reset List.nodup_nil
  refine ⟨(parts.foldl Body.extract old.reset).emails, ⟨h1, fun x => (h3 x).trans (by simp [Body.reset])⟩, ?_⟩
  have ht' : ∀ e ∈ (parts.foldl Body.extract old.reset).emails, isFreemail c e ≠ none := by
    intro e he
    rcases (h3 e).1 he with h | ⟨p, hp, h⟩
    · cases h
    · exact ht p hp e h
  have h0 : Fits c (parts.foldl Body.extract old.reset).emails (parts.foldl Body.extract old.reset) :=
    ⟨rfl, fun h => by rw [h2] at h; cases h⟩
  generalize (parts.foldl Body.extract old.reset).emails = es at *
  unfold after
  generalize parts.foldl Body.extract old.reset = b at *
  clear h1 h2 h3
  induction evs generalizing b with
  | nil => exact h0
  | cons e evs ih =>
    rw [List.foldl_cons]
    apply ih
    cases e with
    | body rx => exact (body_exact c es ht' b h0 rx).1
    | reply o s f r => exact replyto_fits c es ht' b h0 o s f r

theorem distinct_perm (parts : List (List Str)) (es es' : List Str) (h : Distinct parts es) (h' : Distinct parts es') :
    es.Perm es' := by
  rw [List.perm_ext_iff_of_nodup h.1 h'.1]
  intro a
  rw [h.2, h'.2]

theorem looked_iff (c : Conf) (parts : List (List Str)) (es es' : List Str) (h : Distinct parts es) (h' : Distinct parts es') :
    Looked c es ↔ Looked c es' := by
  have hp := distinct_perm parts es es' h h'
  unfold Looked freeOf
  rw [hp.length_eq, (hp.filter _).length_eq]
  have : es = [] ↔ es' = [] := by
    rw [← List.length_eq_zero_iff, ← List.length_eq_zero_iff, hp.length_eq]
  rw [ne_eq, ne_eq, this]

theorem freeOf_mem (c : Conf) (es : List Str) (e : Str) : e ∈ freeOf c es ↔ e ∈ es ∧ isFreemail c e = some true := by
  unfold freeOf
  rw [List.mem_filter]
  simp

/-- **C93**.  Whatever was remembered of the message before, whatever rules were evaluated before, and however the message is
cut into parts, a rule about free mail in the body holds exactly if the body does not have too many addresses and one of
them is free mail and matches the expression of the rule.  `es` are the distinct addresses of the body and `fs` those that are
free mail, in any order. -/
theorem C93_body (c : Conf) (old : Body) (parts : List (List Str)) (evs : List Ev)
    (ht : ∀ p ∈ parts, ∀ e ∈ p, isFreemail c e ≠ none) (rx : Rx) (es fs : List Str) (hes : Distinct parts es)
    (hfs : fs.Nodup ∧ ∀ e, e ∈ fs ↔ e ∈ es ∧ isFreemail c e = some true) :
    (checkBody c rx (after c old parts evs)).1 = true ↔
      rx ≠ some none ∧ Few c es fs ∧ ∃ e ∈ fs, ∀ m, rx = some (some m) → m e = true := by
  obtain ⟨es', hd, hf⟩ := after_fits c old parts evs ht
  have ht' : ∀ e ∈ es', isFreemail c e ≠ none := by
    intro e he
    obtain ⟨p, hp, h⟩ := (hd.2 e).1 he
    exact ht p hp e h
  rw [(body_exact c es' ht' _ hf rx).2, looked_iff c parts es' es hd hes]
  have hpf : fs.Perm (freeOf c es) := by
    rw [List.perm_ext_iff_of_nodup hfs.1 (show (freeOf c es).Nodup from hes.1.filter _)]
    intro a
    rw [hfs.2, freeOf_mem]
  have hmem : ∀ e, e ∈ freeOf c es' ↔ e ∈ fs := by
    intro e
    rw [freeOf_mem, hfs.2, hd.2, hes.2]
  apply and_congr_right
  intro _
  simp only [hmem]
  unfold Looked Few
  rw [hpf.length_eq]
  constructor
  · rintro ⟨⟨h1, h2⟩, e, he, h3⟩
    refine ⟨⟨h1, h2 ?_⟩, e, he, h3⟩
    rintro rfl
    exact absurd ((hfs.2 e).1 he).1 (by simp)
  · rintro ⟨⟨h1, h2⟩, h3⟩
    exact ⟨⟨h1, fun _ => h2⟩, h3⟩

/-- **C93**.  The order in which the addresses of the body are kept has no influence on a rule about the body. -/
theorem C93_order (c : Conf) (rx : Rx) (b b' : Body) (hp : b.parsed = false) (hp' : b'.parsed = false) (h : b.emails.Perm b'.emails)
    (ht : ∀ e ∈ b.emails, isFreemail c e ≠ none) : (checkBody c rx b).1 = (checkBody c rx b').1 := by
  have h1 := (body_exact c b.emails ht b ⟨rfl, fun x => by rw [hp] at x; cases x⟩ rx).2
  have h2 := (body_exact c b'.emails (fun e he => ht e (h.mem_iff.2 he)) b' ⟨rfl, fun x => by rw [hp'] at x; cases x⟩ rx).2
  rw [Bool.eq_iff_iff, h1, h2]
  have hl : Looked c b.emails ↔ Looked c b'.emails := by
    unfold Looked freeOf
    rw [h.length_eq, (h.filter _).length_eq]
    have : b.emails = [] ↔ b'.emails = [] := by
      rw [← List.length_eq_zero_iff, ← List.length_eq_zero_iff, h.length_eq]
    rw [ne_eq, ne_eq, this]
  rw [hl]
  have hm : ∀ e, e ∈ freeOf c b.emails ↔ e ∈ freeOf c b'.emails := fun e => by rw [freeOf_mem, freeOf_mem, h.mem_iff]
  simp only [hm]

/-! ### C94: the address to reply to -/

/-- **C94** (partial).  With the option `replyto`, the rule holds exactly if the sender of the envelope does not look like a
list and the address to reply to is free mail and differs from a free mail address in From or in the body. -/
theorem C94_replyto_partial (c : Conf) (old : Body) (parts : List (List Str)) (evs : List Ev)
    (ht : ∀ p ∈ parts, ∀ e ∈ p, isFreemail c e ≠ none) (o : Option Str) (ho : o = none ∨ o = some c!"replyto") (sender f r : Str)
    (ff rf : Bool) (hff : isFreemail c f = some ff) (hrf : isFreemail c r = some rf) (es fs : List Str) (hes : Distinct parts es)
    (hfs : fs.Nodup ∧ ∀ e, e ∈ fs ↔ e ∈ es ∧ isFreemail c e = some true) :
    (checkReplyto c o (some sender) f r (after c old parts evs)).1 = true ↔
      (c.skipBulk = true → c.bulk sender = false) ∧ rf = true ∧ ((ff = true ∧ f ≠ r) ∨ (Few c es fs ∧ ∃ e ∈ fs, e ≠ r)) := by
  obtain ⟨es', hd, hf⟩ := after_fits c old parts evs ht
  have ht' : ∀ e ∈ es', isFreemail c e ≠ none := by
    intro e he
    obtain ⟨p, hp, h⟩ := (hd.2 e).1 he
    exact ht p hp e h
  have hpf : fs.Perm (freeOf c es) := by
    rw [List.perm_ext_iff_of_nodup hfs.1 (show (freeOf c es).Nodup from hes.1.filter _)]
    intro a
    rw [hfs.2, freeOf_mem]
  have hmem : ∀ e, e ∈ freeOf c es' ↔ e ∈ fs := by
    intro e
    rw [freeOf_mem, hfs.2, hd.2, hes.2]
  have hcore : (replyCore c false f r (after c old parts evs)).1 = true ↔
      rf = true ∧ ((ff = true ∧ f ≠ r) ∨ (Few c es fs ∧ ∃ e ∈ fs, e ≠ r)) := by
    rw [(core_exact c es' ht' _ hf false f r ff rf hff hrf).2, looked_iff c parts es' es hd hes]
    simp only [hmem, Bool.false_eq_true, if_false, false_and]
    have hfew : (Looked c es ∧ ∃ e ∈ fs, e ≠ r) ↔ (Few c es fs ∧ ∃ e ∈ fs, e ≠ r) := by
      unfold Looked Few
      rw [hpf.length_eq]
      constructor
      · rintro ⟨⟨h1, h2⟩, e, he, h3⟩
        refine ⟨⟨h1, h2 ?_⟩, e, he, h3⟩
        rintro rfl
        exact absurd ((hfs.2 e).1 he).1 (by simp)
      · rintro ⟨⟨h1, h2⟩, h3⟩
        exact ⟨⟨h1, fun _ => h2⟩, h3⟩
    rw [hfew]
    constructor
    · rintro (⟨a, b, d⟩ | ⟨a, b⟩)
      · exact ⟨b, .inl ⟨a, d⟩⟩
      · exact ⟨a, .inr b⟩
    · rintro ⟨a, ⟨b, d⟩ | b⟩
      · exact .inl ⟨b, a, d⟩
      · exact .inr ⟨a, b⟩
  have hopt : optionOf o = c!"replyto" := by
    rcases ho with rfl | rfl <;> rfl
  unfold checkReplyto
  rw [hopt]
  rw [if_neg (by simp)]
  have hdec : decide (c!"replyto" = c!"reply") = false := by decide
  rw [hdec]
  by_cases hs : c.skipBulk = true
  · rw [if_pos hs]
    cases hb : c.bulk sender with
    | true => simp [hs, hb]
    | false =>
      simp only [hb, Bool.false_eq_true, if_false]
      rw [hcore]
      simp
  · rw [if_neg hs, hcore]
    simp [hs]

/-- **C94** is violated: the option `reply` should only add to `replyto` what to do without Reply-To, but with it a free mail
address to reply to is of no interest unless the sender has free mail as well. -/
theorem C94_reply_violated (c : Conf) (b : Body) (s : Option Str) (f r : Str) (hf : isFreemail c f = some false)
    (hr : isFreemail c r = some true) : (checkReplyto c (some c!"reply") s f r b).1 = false := by
  have hcore : (replyCore c true f r b).1 = false := by
    unfold replyCore
    rw [hf, hr]
    simp
  unfold checkReplyto
  rw [show optionOf (some c!"reply") = c!"reply" from rfl, if_neg (by simp)]
  have hdec : decide (c!"reply" = c!"reply") = true := by decide
  rw [hdec]
  split
  · split
    · rfl
    · split
      · rfl
      · exact hcore
  · exact hcore

/-- **C94** is violated: without sender of the envelope the rule never holds, if lists are to be skipped. -/
theorem C94_sender_violated (c : Conf) (b : Body) (o : Option Str) (f r : Str) (hs : c.skipBulk = true) :
    (checkReplyto c o none f r b).1 = false := by
  unfold checkReplyto
  rw [hs]
  split
  · rfl
  · rfl

/-- **C94** (partial).  With the option `reply`, the rule holds exactly if the sender has free mail, there is no address to
reply to or it is free mail, and some free mail address differs: that to reply to from the sender's, or one in the body from
that to reply to, which is the sender's if there is none. -/
theorem C94_option_partial (c : Conf) (old : Body) (parts : List (List Str)) (evs : List Ev)
    (ht : ∀ p ∈ parts, ∀ e ∈ p, isFreemail c e ≠ none) (sender f r : Str)
    (ff rf : Bool) (hff : isFreemail c f = some ff) (hrf : isFreemail c r = some rf) (es fs : List Str) (hes : Distinct parts es)
    (hfs : fs.Nodup ∧ ∀ e, e ∈ fs ↔ e ∈ es ∧ isFreemail c e = some true) :
    (checkReplyto c (some c!"reply") (some sender) f r (after c old parts evs)).1 = true ↔
      (c.skipBulk = true → c.bulk sender = false) ∧ ff = true ∧
        ((rf = true ∧ f ≠ r) ∨ (rf = true ∧ Few c es fs ∧ ∃ e ∈ fs, e ≠ r) ∨ (r = [] ∧ Few c es fs ∧ ∃ e ∈ fs, e ≠ f)) := by
  obtain ⟨es', hd, hf⟩ := after_fits c old parts evs ht
  have ht' : ∀ e ∈ es', isFreemail c e ≠ none := by
    intro e he
    obtain ⟨p, hp, h⟩ := (hd.2 e).1 he
    exact ht p hp e h
  have hpf : fs.Perm (freeOf c es) := by
    rw [List.perm_ext_iff_of_nodup hfs.1 (show (freeOf c es).Nodup from hes.1.filter _)]
    intro a
    rw [hfs.2, freeOf_mem]
  have hmem : ∀ e, e ∈ freeOf c es' ↔ e ∈ fs := by
    intro e
    rw [freeOf_mem, hfs.2, hd.2, hes.2]
  have hfew : ∀ x, (Looked c es ∧ ∃ e ∈ fs, e ≠ x) ↔ (Few c es fs ∧ ∃ e ∈ fs, e ≠ x) := by
    intro x
    unfold Looked Few
    rw [hpf.length_eq]
    constructor
    · rintro ⟨⟨h1, h2⟩, e, he, h3⟩
      refine ⟨⟨h1, h2 ?_⟩, e, he, h3⟩
      rintro rfl
      exact absurd ((hfs.2 e).1 he).1 (by simp)
    · rintro ⟨⟨h1, h2⟩, h3⟩
      exact ⟨⟨h1, fun _ => h2⟩, h3⟩
  have hempty : isFreemail c [] = some false := rfl
  have hcore : (replyCore c true f r (after c old parts evs)).1 = true ↔ ff = true ∧
        ((rf = true ∧ f ≠ r) ∨ (rf = true ∧ Few c es fs ∧ ∃ e ∈ fs, e ≠ r) ∨ (r = [] ∧ Few c es fs ∧ ∃ e ∈ fs, e ≠ f)) := by
    rw [(core_exact c es' ht' _ hf true f r ff rf hff hrf).2, looked_iff c parts es' es hd hes]
    simp only [hmem, if_true, true_and]
    rw [hfew]
    cases rf with
    | true =>
      have hrne : r ≠ [] := by
        rintro rfl
        rw [hempty] at hrf; cases hrf
      simp [hrne]
      cases ff <;> simp
    | false =>
      simp only [Bool.false_eq_true, false_and, and_false, or_false, false_or, if_true]
      constructor
      · rintro ⟨⟨a, b⟩, d⟩; exact ⟨a, b, d⟩
      · rintro ⟨a, b, d⟩; exact ⟨⟨a, b⟩, d⟩
  unfold checkReplyto
  rw [show optionOf (some c!"reply") = c!"reply" from rfl, if_neg (by simp)]
  have hdec : decide (c!"reply" = c!"reply") = true := by decide
  rw [hdec]
  by_cases hs : c.skipBulk = true
  · rw [if_pos hs]
    cases hb : c.bulk sender with
    | true => simp [hs, hb]
    | false =>
      simp only [hb, Bool.false_eq_true, if_false]
      rw [hcore]
      simp
  · rw [if_neg hs, hcore]
    simp [hs]

/-! ### Examples -/

theorem countFree_raises (c : Conf) (es : List Str) (e : Str) (he : e ∈ es) (hn : isFreemail c e = none) (n : Int) (acc : List Str) :
    countFree c es n acc = none ∨ countFree c es n acc = some none := by
  induction es generalizing n acc with
  | nil => simp at he
  | cons x xs ih =>
    unfold countFree
    rcases List.mem_cons.1 he with rfl | hx
    · rw [hn]; exact .inl rfl
    · cases isFreemail c x with
      | none => exact .inl rfl
      | some f =>
        by_cases h : (if f then n + 1 else n) ≥ c.maxFree
        · exact .inr (if_pos h)
        · have := ih hx (if f then n + 1 else n) (if f then acc ++ [x] else acc)
          simp only [if_neg h]
          exact this

/-- **C92** is violated: one address in the body that cannot be looked up makes the rules about the body fail, whatever else is in the
body, and the rule about the address to reply to, unless sender and that address are different free mail addresses. -/
theorem C92_body_violated (c : Conf) (b : Body) (hb : b.parsed = false) (e : Str) (he : e ∈ b.emails) (hn : isFreemail c e = none)
    (rx : Rx) (reply : Bool) (f r : Str) :
    (checkBody c rx b).1 = false ∧
    ((replyCore c reply f r b).1 = true ↔ isFreemail c f = some true ∧ isFreemail c r = some true ∧ f ≠ r) := by
  have hp : parseBody c b = none ∨ ∃ b', parseBody c b = some (false, b') := by
    unfold parseBody
    rw [hb]
    simp only [Bool.false_eq_true, if_false]
    split
    · exact .inr ⟨_, rfl⟩
    · rcases countFree_raises c b.emails e he hn 0 [] with h | h <;> rw [h]
      · exact .inl rfl
      · exact .inr ⟨_, rfl⟩
  have hd : ∀ check, (differs c check b).1 = false := by
    intro check
    unfold differs
    rcases hp with h | ⟨b', h⟩ <;> rw [h]
  constructor
  · unfold checkBody
    split
    · rfl
    · split
      · rfl
      · rcases hp with h | ⟨b', h⟩ <;> rw [h]
  · unfold replyCore
    cases h1 : isFreemail c f with
    | none => simp
    | some ff =>
      cases h2 : isFreemail c r with
      | none => simp
      | some rf =>
        simp only
        by_cases hc : (ff && rf && decide (f ≠ r)) = true
        · rw [if_pos hc]
          simp only [Bool.and_eq_true, decide_eq_true_eq] at hc
          simp [hc]
        · rw [if_neg hc]
          simp only [Bool.and_eq_true, decide_eq_true_eq, not_and] at hc
          constructor
          · intro h
            exfalso
            split at h
            · cases h
            · split at h
              · cases h
              · rw [hd] at h; cases h
          · rintro ⟨h3, h4, h5⟩
            injection h3 with h3; injection h4 with h4
            exact absurd h5 (by simpa using hc ⟨h3, h4⟩)

theorem replace_each (o : Char) (new s : Str) : replace [o] new s = s.flatMap (fun c => if c = o then new else [c]) := by
  induction s with
  | nil => rfl
  | cons c cs ih =>
    rw [replace_cons _ _ (by simp), List.flatMap_cons]
    by_cases h : c = o
    · subst h; simp [List.isPrefixOf, ih]
    · simp [List.isPrefixOf, h, ih, Ne.symm h]

/-- **C92**, wildcards.  The expression for a domain is the domain, with points taken literally, any one character for `?`, and any
text without points for `*`. -/
theorem C92_wildcard (d : Str) :
    wildRe d = d.flatMap (fun c => if c = '*' then c!"[^.]*" else if c = '?' then c!"." else if c = '.' then c!"\\." else [c]) := by
  unfold wildRe
  rw [replace_each '.', replace_each '?', replace_each '*', List.flatMap_assoc, List.flatMap_assoc]
  congr 1
  funext c
  by_cases h1 : c = '*'
  · subst h1; decide
  by_cases h2 : c = '?'
  · subst h2; decide
  by_cases h3 : c = '.'
  · subst h3; decide
  simp [h1, h2, h3]

/-- Some settings. -/
def toyConf : Conf where
  maxEmails := 5
  maxFree := 3
  skipOver := true
  skipBulk := true
  domains := [c!"gmx.de", c!"Mail.ru", c!"web.*"]
  whitelist := [c!"me@gmx.de"]
  wild := none
  standard e := startsWith c!"info@" e
  bulk e := startsWith c!"bounce-" e

/-- An expression library that knows the one expression. -/
def toyRe (_ : Str) : Option (Str → Bool) := some fun e => hasSub c!"@web." e

set_option maxRecDepth 8000 in
example : (start toyRe toyConf).domains = [c!"gmx.de", c!"web.*"] ∧ wildAll toyConf.domains = some c!"\\@(?:web\\.[^.]*)$" ∧
    isFreemail (start toyRe toyConf) c!"you@gmx.de" = some true ∧ isFreemail (start toyRe toyConf) c!"me@gmx.de" = some false ∧
    isFreemail (start toyRe toyConf) c!"info@gmx.de" = some false ∧ isFreemail (start toyRe toyConf) c!"you@GMX.de" = some false ∧
    isFreemail (start toyRe toyConf) c!"you@web.de" = some true ∧ isFreemail (start toyRe toyConf) c!"you" = none := by
  decide +kernel

example : Address c!"you@gmx.de" c!"you" c!"gmx.de" := ⟨rfl, by decide, by decide⟩

set_option maxRecDepth 8000 in
example : checkFrom (start toyRe toyConf) (some (some fun e => startsWith c!"you" e)) [c!"you@gmx.de", c!"x@y"] = true ∧
    checkFrom (start toyRe toyConf) (some (some fun e => startsWith c!"you" e)) [c!"you@gmx.de", c!"a@gmx.de"] = false := by
  decide +kernel

/-- The body of a message with one free mail address in two parts. -/
def toyParts : List (List Str) := [[c!"you@gmx.de", c!"x@y"], [], [c!"you@gmx.de"]]

set_option maxRecDepth 8000 in
example : (checkBody (start toyRe toyConf) none (after (start toyRe toyConf) ⟨[], true, [c!"old"]⟩ toyParts [.body none])).1 = true ∧
    (checkReplyto (start toyRe toyConf) none (some c!"s@t") c!"s@t" c!"r@gmx.de"
      (after (start toyRe toyConf) ⟨[], true, []⟩ toyParts [.body none])).1 = true ∧
    (checkReplyto (start toyRe toyConf) (some c!"reply") (some c!"s@t") c!"s@t" c!"r@gmx.de"
      (after (start toyRe toyConf) ⟨[], true, []⟩ toyParts [.body none])).1 = false := by decide +kernel

example : Distinct toyParts [c!"x@y", c!"you@gmx.de"] := by
  refine ⟨by decide, ?_⟩
  intro e
  simp [toyParts]
  constructor
  · rintro (h | h)
    · exact .inl (.inr h)
    · exact .inr h
  · rintro ((h | h) | h)
    · exact .inr h
    · exact .inl h
    · exact .inr h

end Verif.Props
