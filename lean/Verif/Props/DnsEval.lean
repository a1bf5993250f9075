import Verif.Spec.DnsEval
import Verif.Lemmas.Py
import Verif.Lemmas.Strip

/-!
# C85, C86: rules about DNS lists
-/

namespace Verif.Props
open Verif Py DnsEval

theorem ask_hit (R : Resolver) (test : List Str → Option Bool) (qs : List Query) (h : (ask R test qs).1 = some true) :
    ∃ q ∈ qs, ∃ rs, R q = some rs ∧ test rs = some true := by
  induction qs with
  | nil => cases h
  | cons q qs ih =>
    unfold ask at h
    cases hr : R q with
    | none => rw [hr] at h; cases h
    | some rs =>
      rw [hr] at h
      simp only at h
      cases ht : test rs with
      | none => rw [ht] at h; cases h
      | some b =>
        rw [ht] at h
        cases b with
        | true => exact ⟨q, by simp, rs, hr, ht⟩
        | false =>
          obtain ⟨q', hq', h'⟩ := ih h
          exact ⟨q', by simp [hq'], h'⟩

theorem ask_complete (R : Resolver) (test : List Str → Option Bool) (qs : List Query)
    (hr : ∀ q ∈ qs, ∃ rs, R q = some rs ∧ test rs ≠ none) :
    ∃ b, (ask R test qs).1 = some b ∧ (b = true ↔ ∃ q ∈ qs, ∃ rs, R q = some rs ∧ test rs = some true) := by
  induction qs with
  | nil => exact ⟨false, rfl, by simp⟩
  | cons q qs ih =>
    obtain ⟨rs, h1, h2⟩ := hr q (by simp)
    obtain ⟨b, hb, hb'⟩ := ih (fun q' h' => hr q' (by simp [h']))
    unfold ask
    rw [h1]
    simp only
    cases ht : test rs with
    | none => exact absurd ht h2
    | some c =>
      cases c with
      | true => exact ⟨true, rfl, by simp only [true_iff]; exact ⟨q, by simp, rs, h1, ht⟩⟩
      | false =>
        refine ⟨b, hb, hb'.trans ?_⟩
        constructor
        · rintro ⟨q', h', x⟩; exact ⟨q', by simp [h'], x⟩
        · rintro ⟨q', h', rs', x, y⟩
          rcases List.mem_cons.1 h' with rfl | h'
          · rw [h1] at x; injection x with x; subst x; rw [ht] at y; cases y
          · exact ⟨q', h', rs', x, y⟩

theorem ask_queries (R : Resolver) (test : List Str → Option Bool) (qs : List Query) : (ask R test qs).2 <+: qs := by
  induction qs with
  | nil => exact List.prefix_rfl
  | cons q qs ih =>
    unfold ask
    split
    · exact ⟨qs, rfl⟩
    · split
      · exact ⟨qs, rfl⟩
      · exact ⟨qs, rfl⟩
      · simpa using ih

theorem anyOf_true (m : Str → Option Bool) (rs : List Str) (h : anyOf m rs = some true) : ∃ r ∈ rs, m r = some true := by
  induction rs with
  | nil => cases h
  | cons r rs ih =>
    unfold anyOf at h
    split at h
    · cases h
    · rename_i hm; exact ⟨r, by simp, hm⟩
    · obtain ⟨r', h', x⟩ := ih h
      exact ⟨r', by simp [h'], x⟩

theorem anyOf_total (m : Str → Option Bool) (rs : List Str) (hm : ∀ r ∈ rs, m r ≠ none) :
    ∃ b, anyOf m rs = some b ∧ (b = true ↔ ∃ r ∈ rs, m r = some true) := by
  induction rs with
  | nil => exact ⟨false, rfl, by simp⟩
  | cons r rs ih =>
    obtain ⟨b, hb, hb'⟩ := ih (fun r' h' => hm r' (by simp [h']))
    unfold anyOf
    cases h : m r with
    | none => exact absurd h (hm r (by simp))
    | some c =>
      cases c with
      | true => exact ⟨true, rfl, by simp only [true_iff]; exact ⟨r, by simp, h⟩⟩
      | false =>
        refine ⟨b, hb, hb'.trans ?_⟩
        constructor
        · rintro ⟨r', h', x⟩; exact ⟨r', by simp [h'], x⟩
        · rintro ⟨r', h', x⟩
          rcases List.mem_cons.1 h' with rfl | h'
          · rw [h] at x; cases x
          · exact ⟨r', h', x⟩

theorem subtest_true (s : Option (Str → Option Bool)) (rs : List Str) (h : subtestOf s rs = some true) : Counts s rs := by
  cases s with
  | none =>
    unfold subtestOf at h
    show rs ≠ []
    simpa using h
  | some m => exact anyOf_true m rs h

theorem subtest_total (s : Option (Str → Option Bool)) (hs : Applies s) (rs : List Str) :
    ∃ b, subtestOf s rs = some b ∧ (b = true ↔ Counts s rs) := by
  cases s with
  | none => exact ⟨decide (rs ≠ []), rfl, by rw [decide_eq_true_eq]; rfl⟩
  | some m => exact anyOf_total m rs (fun r _ => hs m rfl r)

/-- The questions a rule asks, and when it holds. -/
theorem ask_exact (R : Resolver) (s : Option (Str → Option Bool)) (qs : List Query) :
    ((ask R (subtestOf s) qs).1.getD false = true → ∃ q ∈ qs, ∃ rs, R q = some rs ∧ Counts s rs) ∧
    (Applies s → (∀ q ∈ qs, R q ≠ none) →
      ((ask R (subtestOf s) qs).1.getD false = true ↔ ∃ q ∈ qs, ∃ rs, R q = some rs ∧ Counts s rs)) := by
  have h1 : (ask R (subtestOf s) qs).1.getD false = true → ∃ q ∈ qs, ∃ rs, R q = some rs ∧ Counts s rs := by
    intro h
    cases ha : (ask R (subtestOf s) qs).1 with
    | none => rw [ha] at h; cases h
    | some b =>
      rw [ha] at h
      have hb : b = true := h
      subst hb
      obtain ⟨q, hq, rs, hr, ht⟩ := ask_hit R _ qs ha
      exact ⟨q, hq, rs, hr, subtest_true s rs ht⟩
  refine ⟨h1, ?_⟩
  intro hs hR
  refine ⟨h1, ?_⟩
  rintro ⟨q, hq, rs, hr, hc⟩
  obtain ⟨b, hb, hb'⟩ := ask_complete R (subtestOf s) qs (fun q' h' => by
    cases hx : R q' with
    | none => exact absurd hx (hR q' h')
    | some rs' =>
      obtain ⟨c, hc', _⟩ := subtest_total s hs rs'
      exact ⟨rs', rfl, by rw [hc']; simp⟩)
  rw [hb]
  refine hb'.2 ⟨q, hq, rs, hr, ?_⟩
  obtain ⟨c, hc', hc''⟩ := subtest_total s hs rs
  rw [hc', hc''.2 hc]

theorem dec_no_dot (n : Nat) : '.' ∉ dec n := by
  unfold dec
  intro h
  have hd : '.'.isDigit = true := by
    have h' : '.' ∈ Nat.toDigits 10 n := by simpa [Nat.repr, toString] using h
    exact Nat.isDigit_of_mem_toDigits (by decide) (by decide) h'
  exact absurd hd (by decide)

theorem dec_ne (n : Nat) : dec n ≠ [] := by
  unfold dec
  intro h
  have : Nat.toDigits 10 n = [] := by simpa [Nat.repr, toString] using h
  exact absurd this Nat.toDigits_ne_nil

theorem rsplit2_two (a b c : Str) (hb : '.' ∉ b) (hc : '.' ∉ c) : rsplit2 (a ++ '.' :: (b ++ '.' :: c)) = a := by
  unfold rsplit2
  have h1 : rsplit1 '.' (a ++ '.' :: (b ++ '.' :: c)) = some (a ++ '.' :: b, c) := by
    have := rsplit1_append (c := '.') (a ++ '.' :: b) hc
    simpa using this
  rw [h1]
  simp only
  rw [rsplit1_append a hb]

theorem rstrip_dot (s : Str) (c : Char) (h : c ≠ '.') : rstripBy (· == '.') (s ++ [c] ++ ['.']) = s ++ [c] := by
  rw [rstripBy_all _ (by simp), rstripBy_last _ (by simpa using h)]

/-- **C85**.  An address is asked for under its numbers (or digits) backwards, followed by the list. -/
theorem C85_name (ip : Ip) (server : Str) (hd : ∀ ds, ip = .v6 ds → ds ≠ [] ∧ '.' ∉ ds) :
    reverseIp ip ++ c!"." ++ server = ip.nameIn server := by
  cases ip with
  | v4 a b c d =>
    have : reverseIp (.v4 a b c d) = dec d ++ c!"." ++ dec c ++ c!"." ++ dec b ++ c!"." ++ dec a := by
      unfold reverseIp reverseName
      have hs : rstripBy (· == '.') (dec d ++ c!"." ++ dec c ++ c!"." ++ dec b ++ c!"." ++ dec a ++ c!".in-addr.arpa.") =
          (dec d ++ c!"." ++ dec c ++ c!"." ++ dec b ++ c!"." ++ dec a) ++ '.' :: (c!"in-addr" ++ '.' :: c!"arpa") := by
        have := rstrip_dot (dec d ++ c!"." ++ dec c ++ c!"." ++ dec b ++ c!"." ++ dec a ++ c!".in-addr.arp") 'a' (by decide)
        simpa using this
      rw [hs, rsplit2_two _ _ _ (by decide) (by decide)]
    rw [this]
    simp [Ip.nameIn, join]
  | v6 ds =>
    obtain ⟨h1, h2⟩ := hd ds rfl
    have : reverseIp (.v6 ds) = join c!"." (ds.reverse.map fun c => [c]) := by
      unfold reverseIp reverseName
      have hs : rstripBy (· == '.') (join c!"." (ds.reverse.map fun c => [c]) ++ c!".ip6.arpa.") =
          join c!"." (ds.reverse.map fun c => [c]) ++ '.' :: (c!"ip6" ++ '.' :: c!"arpa") := by
        have := rstrip_dot (join c!"." (ds.reverse.map fun c => [c]) ++ c!".ip6.arp") 'a' (by decide)
        simpa using this
      rw [hs, rsplit2_two _ _ _ (by decide) (by decide)]
    rw [this]
    show _ = join c!"." (ds.reverse.map (fun c => [c]) ++ [server])
    have hne : ds.reverse.map (fun c => [c]) ≠ [] := by simpa using h1
    generalize ds.reverse.map (fun c => ([c] : Str)) = ws at *
    clear this
    induction ws with
    | nil => exact absurd rfl hne
    | cons w ws ih =>
      cases ws with
      | nil => rfl
      | cons w' ws =>
        show w ++ c!"." ++ join c!"." (w' :: ws) ++ c!"." ++ server = w ++ c!"." ++ join c!"." (w' :: ws ++ [server])
        rw [← ih (by simp)]
        simp

/-- **C85**.  The rule about the addresses of a message holds only if one that is not trusted is listed, with records that
count, and the checks are not switched off; and whenever that is so, if the resolver answers. -/
theorem C85_listed (R : Resolver) (skip : Bool) (ips : List Ip) (server qtype : Str) (s : Option (Str → Option Bool)) :
    (hit (checkIps R skip (some ips) server qtype s) = true →
      skip = false ∧ ∃ ip ∈ ips, ∃ rs, R (reverseIp ip ++ c!"." ++ server, qtype) = some rs ∧ Counts s rs) ∧
    (Applies s → (∀ q, R q ≠ none) →
      (hit (checkIps R skip (some ips) server qtype s) = true ↔
        skip = false ∧ ∃ ip ∈ ips, ∃ rs, R (reverseIp ip ++ c!"." ++ server, qtype) = some rs ∧ Counts s rs)) := by
  unfold hit checkIps
  cases skip with
  | true => simp
  | false =>
    obtain ⟨h1, h2⟩ := ask_exact R s (ips.map fun ip => (reverseIp ip ++ c!"." ++ server, qtype))
    have he : (∃ q ∈ ips.map (fun ip => (reverseIp ip ++ c!"." ++ server, qtype)), ∃ rs, R q = some rs ∧ Counts s rs) ↔
        ∃ ip ∈ ips, ∃ rs, R (reverseIp ip ++ c!"." ++ server, qtype) = some rs ∧ Counts s rs := by
      constructor
      · rintro ⟨q, hq, h⟩
        obtain ⟨ip, hi, rfl⟩ := List.mem_map.1 hq
        exact ⟨ip, hi, h⟩
      · rintro ⟨ip, hi, h⟩
        exact ⟨_, List.mem_map.2 ⟨ip, hi, rfl⟩, h⟩
    refine ⟨fun h => ⟨rfl, he.1 (h1 h)⟩, fun ha hR => ?_⟩
    simp only [true_and]
    exact (h2 ha (fun q _ => hR q)).trans he

/-- **C85**.  No list learns of other addresses than those that are not trusted, each at most once in order, and none of
any if the checks are switched off. -/
theorem C85_private (R : Resolver) (skip : Bool) (ips : Option (List Ip)) (server qtype : Str) (s : Option (Str → Option Bool)) :
    (checkIps R skip ips server qtype s).2 <+: (ips.getD []).map (fun ip => (reverseIp ip ++ c!"." ++ server, qtype)) ∧
    (skip = true → (checkIps R skip ips server qtype s).2 = [] ∧ hit (checkIps R skip ips server qtype s) = false) := by
  unfold checkIps
  constructor
  · cases skip with
    | true => exact List.nil_prefix
    | false =>
      cases ips with
      | none => exact List.nil_prefix
      | some ips => exact ask_queries R _ _
  · intro h; subst h; exact ⟨rfl, rfl⟩

theorem domainOf_iff (addr d : Str) : domainOf addr = d ↔ DomainOf addr d := by
  unfold domainOf DomainOf
  cases h : rsplit1 '@' addr with
  | some p =>
    obtain ⟨l, x⟩ := p
    obtain ⟨h1, h2⟩ := rsplit1_mem h
    simp only
    constructor
    · intro he; exact .inl ⟨l, x, h1, h2, he.symm⟩
    · rintro (⟨l', x', h1', h2', rfl⟩ | ⟨h', _⟩)
      · have := rsplit1_append l' h2'
        rw [← h1', h] at this
        injection this with this
        injection this with _ this
        rw [this]
      · exact absurd (by rw [h1]; simp) h'
  | none =>
    have hn : '@' ∉ addr := by
      intro hm
      obtain ⟨l, x, rfl, hx⟩ : ∃ l x, addr = l ++ '@' :: x ∧ '@' ∉ x := by
        clear h
        induction addr with
        | nil => cases hm
        | cons c addr ih =>
          by_cases ha : '@' ∈ addr
          · obtain ⟨l, x, rfl, hx⟩ := ih ha
            exact ⟨c :: l, x, rfl, hx⟩
          · rcases List.mem_cons.1 hm with rfl | hm
            · exact ⟨[], addr, rfl, ha⟩
            · exact absurd hm ha
      rw [rsplit1_append l hx] at h
      cases h
    simp only
    constructor
    · intro he; exact .inr ⟨hn, he.symm⟩
    · rintro (⟨l', x', h1', h2', rfl⟩ | ⟨_, h'⟩)
      · exact absurd (by rw [h1']; simp) hn
      · exact h'.symm

/-- **C85**.  The rules about domains: the envelope sender's, or those of `From`. -/
theorem C85_domains (R : Resolver) (skip : Bool) (addrs : List Str) (server : Str) (s : Option (Str → Option Bool)) :
    (hit (fromDomain R skip addrs server s) = true →
      skip = false ∧ ∃ a ∈ addrs, ∃ d, DomainOf a d ∧ ∃ rs, R (d ++ c!"." ++ server, c!"A") = some rs ∧ Counts s rs) ∧
    (Applies s → (∀ q, R q ≠ none) →
      (hit (fromDomain R skip addrs server s) = true ↔
        skip = false ∧ ∃ a ∈ addrs, ∃ d, DomainOf a d ∧ ∃ rs, R (d ++ c!"." ++ server, c!"A") = some rs ∧ Counts s rs)) ∧
    (fromDomain R skip addrs server s).2 <+: addrs.map (fun a => (domainOf a ++ c!"." ++ server, c!"A")) ∧
    (skip = true → (fromDomain R skip addrs server s).2 = []) ∧
    (∀ a, a ≠ [] → envFrom R skip a server s = fromDomain R skip [a] server s) ∧
    envFrom R skip [] server s = fromDomain R skip [] server s := by
  refine ⟨?_, ?_, ?_, ?_, ?_, ?_⟩
  · unfold fromDomain hit
    cases addrs with
    | nil => simp
    | cons a as =>
      rw [if_neg (by simp)]
      unfold checkAddrs
      cases skip with
      | true => simp
      | false =>
        intro h
        obtain ⟨q, hq, rs, hr, hc⟩ := (ask_exact R s _).1 h
        obtain ⟨a', ha', rfl⟩ := List.mem_map.1 hq
        exact ⟨rfl, a', ha', _, (domainOf_iff _ _).1 rfl, rs, hr, hc⟩
  · intro hs hR
    unfold fromDomain hit
    cases addrs with
    | nil => simp
    | cons a as =>
      rw [if_neg (by simp)]
      unfold checkAddrs
      cases skip with
      | true => simp
      | false =>
        rw [if_neg (by simp), (ask_exact R s _).2 hs (fun q _ => hR q)]
        constructor
        · rintro ⟨q, hq, rs, hr, hc⟩
          obtain ⟨a', ha', rfl⟩ := List.mem_map.1 hq
          exact ⟨rfl, a', ha', _, (domainOf_iff _ _).1 rfl, rs, hr, hc⟩
        · rintro ⟨_, a', ha', d, hd', rs, hr, hc⟩
          rw [← (domainOf_iff _ _).2 hd'] at hr
          exact ⟨_, List.mem_map.2 ⟨a', ha', rfl⟩, rs, hr, hc⟩
  · unfold fromDomain
    split
    · exact List.nil_prefix
    · unfold checkAddrs
      split
      · exact List.nil_prefix
      · exact ask_queries R _ _
  · intro h
    subst h
    unfold fromDomain checkAddrs
    split <;> rfl
  · intro a ha
    unfold envFrom fromDomain
    rw [if_neg ha, if_neg (by simp)]
  · rfl

/-- **C85**.  The rule about the sender's domain: it has neither addresses nor mail servers. -/
theorem C85_sender (R : Resolver) (l d : Str) (hd : '@' ∉ d) (sender : Str) (hs : sender = l ++ '@' :: d ∨ sender = d) :
    hit (dnsSender R sender) = true ↔ sender ≠ [] ∧ R (d, c!"A") = some [] ∧ R (d, c!"MX") = some [] := by
  unfold hit dnsSender
  by_cases he : sender = []
  · simp [he]
  rw [if_neg he]
  have : senderDomain sender = d := by
    unfold senderDomain
    rcases hs with rfl | rfl
    · rw [rsplit1_append l hd]
    · rw [rsplit1_none hd]
  rw [this]
  simp only [he, ne_eq, not_false_eq_true, true_and]
  rcases h1 : R (d, c!"A") with _ | ⟨_ | ⟨x, xs⟩⟩
  · simp
  · rcases h2 : R (d, c!"MX") with _ | ⟨_ | ⟨x, xs⟩⟩ <;> simp
  · simp

/-- **C85**.  What the rule about the sender's domain asks for: its addresses, and its mail servers if there are no addresses. -/
theorem C85_sender_asks (R : Resolver) (l d : Str) (hd : '@' ∉ d) (sender : Str) (hs : sender = l ++ '@' :: d ∨ sender = d)
    (h0 : sender ≠ []) :
    (dnsSender R sender).2 = (d, c!"A") :: if R (d, c!"A") = some [] then [(d, c!"MX")] else [] := by
  have : senderDomain sender = d := by
    unfold senderDomain
    rcases hs with rfl | rfl
    · rw [rsplit1_append l hd]
    · rw [rsplit1_none hd]
  unfold dnsSender
  rw [if_neg h0, this]
  dsimp only
  rcases h1 : R (d, c!"A") with _ | ⟨_ | ⟨x, xs⟩⟩
  · simp
  · rcases h2 : R (d, c!"MX") with _ | ⟨_ | ⟨x, xs⟩⟩ <;> simp
  · simp

/-- **C85**.  With an accreditor the rule is the one about addresses if the message names the accreditor, in the sender's
address or as the first word of a part of an `Accreditor` header; otherwise it does not hold, and nothing is asked. -/
theorem C85_accreditor (R : Resolver) (skip : Bool) (ips : Option (List Ip)) (server : Str) (s : Option (Str → Option Bool))
    (acc : Str) (tag : Option Str) (headers : List Str) :
    ((tag = some acc ∨ ∃ h ∈ headers, acc ∈ headerTags h) →
      accreditor R skip ips server s acc tag headers = checkIps R skip ips server c!"A" s) ∧
    (¬ (tag = some acc ∨ ∃ h ∈ headers, acc ∈ headerTags h) →
      accreditor R skip ips server s acc tag headers = (some false, [])) := by
  have hm : (tag.toList ++ headers.flatMap headerTags).contains acc = true ↔
      (tag = some acc ∨ ∃ h ∈ headers, acc ∈ headerTags h) := by
    rw [List.contains_iff_mem, List.mem_append, Option.mem_toList, List.mem_flatMap]
  unfold accreditor
  constructor
  · intro h; rw [if_pos (hm.2 h)]
  · intro h; rw [if_neg (fun h' => h (hm.1 h'))]

theorem splitChar_sep (sep : Char) (s : Str) : ∀ w ∈ splitChar sep s, sep ∉ w := by
  induction s with
  | nil => intro w hw; simp [splitChar] at hw; subst hw; simp
  | cons c s ih =>
    unfold splitChar
    split
    · intro w hw
      rcases List.mem_cons.1 hw with rfl | hw
      · simp
      · exact ih w hw
    · rename_i hc
      have hc' : c ≠ sep := by simpa using hc
      split
      · intro w hw
        simp at hw; subst hw
        simp [hc'.symm]
      · rename_i x xs hx
        intro w hw
        rcases List.mem_cons.1 hw with rfl | hw
        · have := ih x (by rw [hx]; simp)
          simp [hc'.symm, this]
        · exact ih w (by rw [hx]; simp [hw])

/-- **C85**.  An `Accreditor` header `x1, …; x2, …` names `x1`, `x2`, … -/
theorem C85_tags (parts : List (Str × Str)) (hne : parts ≠ [])
    (h1 : ∀ p ∈ parts, ';' ∉ p.1 ∧ ',' ∉ p.1 ∧ ';' ∉ p.2) :
    headerTags (join c!";" (parts.map fun p => p.1 ++ ',' :: p.2)) = parts.map fun p => strip p.1 := by
  unfold headerTags
  rw [splitChar_join ';' _ (by simpa using hne)]
  · rw [List.map_map]
    apply List.map_congr_left
    intro p hp
    obtain ⟨_, hc, _⟩ := h1 p hp
    show strip ((splitChar ',' (p.1 ++ ',' :: p.2)).headD []) = strip p.1
    have : ∀ a b : Str, ',' ∉ a → (splitChar ',' (a ++ ',' :: b)).headD [] = a := by
      intro a b ha
      induction a with
      | nil => simp [splitChar]
      | cons c a ih =>
        simp only [List.mem_cons, not_or] at ha
        rw [List.cons_append]
        unfold splitChar
        rw [if_neg (by simpa using Ne.symm ha.1)]
        have ih' := ih ha.2
        split
        · rename_i hx; rw [hx] at ih'; simp at ih'; subst ih'; rfl
        · rename_i w ws hx; rw [hx] at ih'; simp at ih' ⊢; exact ih'
    rw [this _ _ hc]
  · intro w hw
    obtain ⟨p, hp, rfl⟩ := List.mem_map.1 hw
    obtain ⟨ha, _, hb⟩ := h1 p hp
    simp [ha, hb]

example : hit (checkIps (fun q => if q = (c!"2.0.0.10.bl.example", c!"A") then some [c!"127.0.0.2"] else some []) false
    (some [.v4 192 168 0 1, .v4 10 0 0 2]) c!"bl.example" c!"A" (some fun r => some (startsWith c!"127." r))) = true := by
  decide +kernel
example : (Ip.v6 c!"20ff").nameIn c!"bl.example" = c!"f.f.0.2.bl.example" := by decide
example : headerTags c!"good, 1; bad ,2" = [c!"good", c!"bad"] := by decide
example : hit (dnsSender (fun _ => some []) c!"x@nowhere.example") = true := by decide

theorem band_zero (n m : Nat) : band n (m : Int) ≠ 0 ↔ ∃ i, n.testBit i = true ∧ m.testBit i = true := by
  show n &&& m ≠ 0 ↔ _
  constructor
  · intro h
    obtain ⟨i, hi⟩ := Nat.exists_testBit_of_ne_zero h
    rw [Nat.testBit_and, Bool.and_eq_true] at hi
    exact ⟨i, hi⟩
  · rintro ⟨i, h1, h2⟩ h0
    have : (n &&& m).testBit i = true := by rw [Nat.testBit_and, h1, h2]; rfl
    rw [h0, Nat.zero_testBit] at this
    cases this

theorem ask_test (R : Resolver) (test : List Str → Option Bool) (ips : List Ip) (server : Str) (hR : ∀ q, R q ≠ none)
    (ht : ∀ ip ∈ ips, ∀ rs, R (reverseIp ip ++ c!"." ++ server, c!"A") = some rs → test rs ≠ none) :
    (ask R test (ips.map fun ip => (reverseIp ip ++ c!"." ++ server, c!"A"))).1.getD false = true ↔
      ∃ ip ∈ ips, ∃ rs, R (reverseIp ip ++ c!"." ++ server, c!"A") = some rs ∧ test rs = some true := by
  obtain ⟨b, hb, hb'⟩ := ask_complete R test (ips.map fun ip => (reverseIp ip ++ c!"." ++ server, c!"A")) (by
    intro q hq
    obtain ⟨ip, hi, rfl⟩ := List.mem_map.1 hq
    cases hx : R (reverseIp ip ++ c!"." ++ server, c!"A") with
    | none => exact absurd hx (hR _)
    | some rs => exact ⟨rs, rfl, ht ip hi rs hx⟩)
  rw [hb]
  refine hb'.trans ?_
  constructor
  · rintro ⟨q, hq, h⟩
    obtain ⟨ip, hi, rfl⟩ := List.mem_map.1 hq
    exact ⟨ip, hi, h⟩
  · rintro ⟨ip, hi, h⟩
    exact ⟨_, List.mem_map.2 ⟨ip, hi, rfl⟩, h⟩

theorem maskTest_total (addr : Str → Option Nat) (m : Int) (hm : m ≠ 0) (rs : List Str) (ha : ∀ r ∈ rs, addr r ≠ none) :
    ∃ b, maskTest addr m rs = some b ∧ (b = true ↔ ∃ r ∈ rs, ∃ v, addr r = some v ∧ band v m ≠ 0) := by
  unfold maskTest
  rw [if_neg (fun h => hm h.2)]
  obtain ⟨b, h1, h2⟩ := anyOf_total (fun r => (addr r).map fun n => decide (band n m ≠ 0)) rs (by
    intro r hr h
    rw [Option.map_eq_none_iff] at h
    exact ha r hr h)
  refine ⟨b, h1, h2.trans ?_⟩
  apply exists_congr
  intro r
  apply and_congr_right
  intro _
  rw [Option.map_eq_some_iff]
  simp only [decide_eq_true_eq]

/-- **C86** (partial).  With a number as mask, a rule about a zone holds exactly if a listed address has a record that has
a bit in common with the mask. -/
theorem C86_mask_partial (R : Resolver) (addr : Str → Option Nat) (skip : Bool) (ips : List Ip) (z : Dict Str Str)
    (zone mask : Str) (m : Nat) (hm : int? mask = some (m : Int)) (hpos : m ≠ 0) (hR : ∀ q, R q ≠ none)
    (ha : ∀ q rs, R q = some rs → ∀ r ∈ rs, addr r ≠ none) :
    hit (checkSub R addr skip (some ips) z zone mask) = true ↔
      skip = false ∧ ∃ server, Dict.get? z zone = some server ∧ ∃ ip ∈ ips, ∃ rs,
        R (reverseIp ip ++ c!"." ++ server, c!"A") = some rs ∧
        ∃ r ∈ rs, ∃ v, addr r = some v ∧ ∃ i, v.testBit i = true ∧ m.testBit i = true := by
  unfold hit checkSub
  cases hz : Dict.get? z zone with
  | none => simp
  | some server =>
    simp only [Option.some.injEq, exists_eq_left']
    unfold checkMulti
    cases skip with
    | true => simp
    | false =>
      have hmo : maskOf addr mask = some (m : Int) := by unfold maskOf; rw [hm]
      rw [if_neg (by simp), hmo]
      simp only [true_and]
      have hm0 : (m : Int) ≠ 0 := by exact_mod_cast hpos
      rw [ask_test R _ ips server hR]
      · apply exists_congr; intro ip
        apply and_congr_right; intro _
        apply exists_congr; intro rs
        apply and_congr_right; intro hr
        obtain ⟨b, h1, h2⟩ := maskTest_total addr m hm0 rs (ha _ rs hr)
        rw [h1]
        simp only [Option.some.injEq]
        rw [h2]
        simp only [band_zero]
      · intro ip _ rs hr
        obtain ⟨b, h1, _⟩ := maskTest_total addr m hm0 rs (ha _ rs hr)
        rw [h1]; simp

theorem loopback_bit (n : Nat) (h : Loopback n) : n.testBit 24 = true := by
  unfold Loopback at h
  rw [Nat.testBit_eq_decide_div_mod_eq, decide_eq_true_eq]
  omega

/-- **C86** is violated: with an address as mask, as the lists document them, every listed address passes, whatever its
records: all of them, and the mask, begin with 127. -/
theorem C86_address_violated (R : Resolver) (addr : Str → Option Nat) (ips : List Ip) (z : Dict Str Str)
    (zone mask server : Str) (m : Nat) (hz : Dict.get? z zone = some server) (hn : int? mask = none) (hm : addr mask = some m)
    (hl : Loopback m) (hR : ∀ q, R q ≠ none)
    (ha : ∀ q rs, R q = some rs → ∀ r ∈ rs, ∃ v, addr r = some v ∧ Loopback v) :
    hit (checkSub R addr false (some ips) z zone mask) = true ↔
      ∃ ip ∈ ips, ∃ r rs, R (reverseIp ip ++ c!"." ++ server, c!"A") = some (r :: rs) := by
  unfold hit checkSub
  rw [hz]
  simp only
  unfold checkMulti
  have hmo : maskOf addr mask = some (m : Int) := by unfold maskOf; rw [hn, hm]; rfl
  rw [if_neg (by simp), hmo]
  simp only
  have hm0 : (m : Int) ≠ 0 := by
    have : m ≠ 0 := by unfold Loopback at hl; omega
    exact_mod_cast this
  have hb : ∀ rs, (∃ q, R q = some rs) → ∃ b, maskTest addr m rs = some b ∧ (b = true ↔ rs ≠ []) := by
    rintro rs ⟨q, hq⟩
    obtain ⟨b, h1, h2⟩ := maskTest_total addr m hm0 rs (fun r hr => by
      obtain ⟨v, hv, _⟩ := ha q rs hq r hr
      rw [hv]; simp)
    refine ⟨b, h1, h2.trans ?_⟩
    constructor
    · rintro ⟨r, hr, _⟩ h; subst h; cases hr
    · intro h
      obtain ⟨r, rs', rfl⟩ := List.exists_cons_of_ne_nil h
      obtain ⟨v, hv, hvl⟩ := ha q _ hq r (by simp)
      exact ⟨r, by simp, v, hv, (band_zero v m).2 ⟨24, loopback_bit v hvl, loopback_bit m hl⟩⟩
  rw [ask_test R _ ips server hR]
  · apply exists_congr; intro ip
    apply and_congr_right; intro _
    constructor
    · rintro ⟨rs, hr, ht⟩
      obtain ⟨b, h1, h2⟩ := hb rs ⟨_, hr⟩
      rw [ht] at h1
      injection h1 with h1
      obtain ⟨r, rs', rfl⟩ := List.exists_cons_of_ne_nil (h2.1 h1.symm)
      exact ⟨r, rs', hr⟩
    · rintro ⟨r, rs, hr⟩
      obtain ⟨b, h1, h2⟩ := hb _ ⟨_, hr⟩
      rw [h2.2 (by simp)] at h1
      exact ⟨_, hr, h1⟩
  · intro ip _ rs hr
    obtain ⟨b, h1, _⟩ := hb rs ⟨_, hr⟩
    rw [h1]; simp

/-- **C86** (partial).  A mask that is neither number nor address, or an unknown zone: the rule does not hold and nothing
is asked; likewise if the checks are switched off. -/
theorem C86_quiet_partial (R : Resolver) (addr : Str → Option Nat) (skip : Bool) (ips : Option (List Ip)) (z : Dict Str Str)
    (zone mask : Str) (h : skip = true ∨ Dict.get? z zone = none ∨ int? mask = none ∧ addr mask = none) :
    checkSub R addr skip ips z zone mask = (some false, []) := by
  unfold checkSub
  cases hz : Dict.get? z zone with
  | none => rfl
  | some server =>
    simp only
    unfold checkMulti
    rcases h with h | h | ⟨h1, h2⟩
    · rw [if_pos h]
    · rw [hz] at h; cases h
    · split
      · rfl
      · unfold maskOf
        rw [h1, h2]
        rfl

theorem zoneFns_iff (fn : Str) : zoneFns.contains fn = true ↔ ZoneRule fn := by
  rw [List.contains_iff_mem]
  unfold zoneFns ZoneRule
  simp only [List.mem_cons, List.not_mem_nil, or_false]

/-- A rule that gives a zone its list. -/
def Gives (r : Rule) (zone server : Str) : Prop :=
  ZoneRule r.fn ∧ ∃ id rest, r.args = id :: server :: rest ∧ zoneId id = zone

/-- A rule that names a zone. -/
def Names (r : Rule) (zone : Str) : Prop := ∃ server, Gives r zone server

theorem zonesFrom_get (z0 : Dict Str Str) (rules : List Rule) (z : Dict Str Str) (h : zonesFrom z0 rules = some z) (zone server : Str) :
    Dict.get? z zone = some server ↔
      (∃ pre r post, rules = pre ++ r :: post ∧ Gives r zone server ∧ ∀ r' ∈ post, ¬ Names r' zone) ∨
      ((∀ r ∈ rules, ¬ Names r zone) ∧ Dict.get? z0 zone = some server) := by
  induction rules generalizing z0 with
  | nil =>
    unfold zonesFrom at h
    injection h with h
    subst h
    simp
  | cons r rs ih =>
    unfold zonesFrom at h
    have key : ∀ z1, zonesFrom z1 rs = some z →
        (Names r zone → ∀ s, Gives r zone s ↔ Dict.get? z1 zone = some s) →
        (¬ Names r zone → Dict.get? z1 zone = Dict.get? z0 zone) →
        (Dict.get? z zone = some server ↔
          (∃ pre r' post, r :: rs = pre ++ r' :: post ∧ Gives r' zone server ∧ ∀ r'' ∈ post, ¬ Names r'' zone) ∨
          ((∀ r' ∈ r :: rs, ¬ Names r' zone) ∧ Dict.get? z0 zone = some server)) := by
      intro z1 hz hn1 hn2
      refine (ih z1 hz).trans ?_
      constructor
      · rintro (⟨pre, r', post, rfl, h1, h2⟩ | ⟨h1, h2⟩)
        · exact .inl ⟨r :: pre, r', post, rfl, h1, h2⟩
        · by_cases hN : Names r zone
          · exact .inl ⟨[], r, rs, rfl, (hn1 hN server).2 h2, h1⟩
          · refine .inr ⟨?_, by rw [← hn2 hN]; exact h2⟩
            intro r' hr'
            rcases List.mem_cons.1 hr' with rfl | hr'
            · exact hN
            · exact h1 r' hr'
      · rintro (⟨pre, r', post, he, h1, h2⟩ | ⟨h1, h2⟩)
        · cases pre with
          | nil =>
            injection he with he1 he2
            subst he1; subst he2
            exact .inr ⟨h2, (hn1 ⟨server, h1⟩ server).1 h1⟩
          | cons x pre =>
            injection he with he1 he2
            exact .inl ⟨pre, r', post, he2, h1, h2⟩
        · refine .inr ⟨fun r' hr' => h1 r' (by simp [hr']), ?_⟩
          rw [hn2 (h1 r (by simp))]
          exact h2
    split at h
    · rename_i hf
      rw [zoneFns_iff] at hf
      split at h
      · rename_i id srv rest hargs
        apply key _ h
        · rintro ⟨s', _, id', rest', ha, hid⟩ s
          rw [hargs] at ha
          injection ha with ha1 ha2
          subst ha1
          rw [← hid, Dict.get?_set, if_pos rfl]
          constructor
          · rintro ⟨_, id'', rest'', ha, _⟩
            rw [hargs] at ha
            injection ha with _ ha
            injection ha with ha _
            rw [ha]
          · intro hs
            injection hs with hs
            subst hs
            exact ⟨hf, id, rest, hargs, rfl⟩
        · intro hN
          rw [Dict.get?_set, if_neg]
          intro hid
          exact hN ⟨srv, hf, id, rest, hargs, hid⟩
      · cases h
    · rename_i hf
      rw [zoneFns_iff] at hf
      apply key _ h
      · rintro ⟨s', hf', _⟩; exact absurd hf' hf
      · intro _; rfl

/-- **C86** (partial).  A zone stands for the list of the last rule that names it. -/
theorem C86_zone_partial (rules : List Rule) (z : Dict Str Str) (h : zones rules = some z) (zone server : Str) :
    Dict.get? z zone = some server ↔
      ∃ pre r post, rules = pre ++ r :: post ∧ Gives r zone server ∧ ∀ r' ∈ post, ¬ Names r' zone := by
  refine (zonesFrom_get [] rules z h zone server).trans ?_
  simp

theorem zoneId_no_dash (arg : Str) : '-' ∉ zoneId arg := by
  unfold zoneId
  have h : ∀ w : Str, '-' ∉ w → '-' ∉ strip w := by
    intro w hw hm
    apply hw
    unfold strip stripBy rstripBy lstripBy at hm
    have h1 := (List.dropWhile_suffix (l := w) isSpace).subset
    have h2 := (List.dropWhile_suffix (l := (w.dropWhile isSpace).reverse) isSpace).subset
    rw [List.mem_reverse] at hm
    have := h2 hm
    rw [List.mem_reverse] at this
    exact h1 this
  apply h
  cases hs : splitChar '-' arg with
  | nil => simp
  | cons w ws =>
    simp only [List.headD_cons]
    exact splitChar_sep '-' arg w (by rw [hs]; simp)

/-- **C86** is violated: a zone with a dash in its name, as in `zen-lastexternal`, is never found, even by rules that name it
as the one that defined it did. -/
theorem C86_dash_violated (R : Resolver) (addr : Str → Option Nat) (skip : Bool) (ips : Option (List Ip)) (rules : List Rule)
    (z : Dict Str Str) (h : zones rules = some z) (zone mask : Str) (hd : '-' ∈ zone) :
    checkSub R addr skip ips z zone mask = (some false, []) := by
  apply C86_quiet_partial
  right; left
  cases hz : Dict.get? z zone with
  | none => rfl
  | some server =>
    obtain ⟨_, r, _, _, ⟨_, id, _, _, hid⟩, _⟩ := (C86_zone_partial rules z h zone server).1 hz
    exact absurd hd (by rw [← hid]; exact zoneId_no_dash id)

/-- **C86** is violated: one rule without zone or list makes reading the whole configuration raise. -/
theorem C86_raises_violated (pre post : List Rule) (r : Rule) (hf : ZoneRule r.fn) (ha : r.args.length < 2) :
    zones (pre ++ r :: post) = none := by
  unfold zones
  generalize ([] : Dict Str Str) = z
  induction pre generalizing z with
  | nil =>
    show zonesFrom z (r :: post) = none
    unfold zonesFrom
    rw [if_pos ((zoneFns_iff _).2 hf)]
    split
    · rename_i h; rw [h] at ha; simp at ha; omega
    · rfl
  | cons x pre ih =>
    show zonesFrom z (x :: (pre ++ r :: post)) = none
    unfold zonesFrom
    split
    · split
      · exact ih _
      · rfl
    · exact ih _

example : (zones [⟨c!"check_rbl", [c!"zen", c!"zen.example"]⟩, ⟨c!"check_rbl", [c!"zen-lastexternal", c!"pbl.example"]⟩,
    ⟨c!"check_rbl_sub", [c!"zen", c!"127.0.0.2"]⟩]).bind (Dict.get? · c!"zen") = some c!"pbl.example" := by decide
example : Loopback 2130706434 := by unfold Loopback; omega
example : hit (checkSub (fun _ => some [c!"127.0.0.10"]) (fun s => if s = c!"127.0.0.10" then some 2130706442 else
    if s = c!"127.0.0.2" then some 2130706434 else none) false (some [.v4 10 0 0 1]) [(c!"zen", c!"zen.example")] c!"zen"
    c!"127.0.0.2") = true := by decide +kernel

end Verif.Props
