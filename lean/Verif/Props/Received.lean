import Verif.Spec.Received
import Verif.Props.Relays
import Verif.Lemmas.Strip

/-!
# C75-C78: authentication, address and tags of relays, and the rules about relays
-/

namespace Verif.Props
open Verif Py Received Spec

/-! ## Authentication -/

/-- **C75** (partial).  A relay whose header does not have the word `authenticated` in it and has none of the
forms known for other servers does not count as authenticated. -/
theorem C75_none_partial (R : Rx) (h : Str) (hw : ¬ c!"authenticated" <:+: h) (ha : R.auth h = none)
    (h3 : R.auth3 h = false) (h4 : R.auth4 h = none) (h5 : R.auth5 h = false)
    (hg : ¬ c!" by mx.google.com with ESMTPS id " <:+: h) : getAuth R h = [] := by
  have e1 : hasSub c!"authenticated" h = false := by
    cases hh : hasSub c!"authenticated" h
    · rfl
    · exact absurd ((hasSub_iff _ _).1 hh) hw
  have e2 : hasSub c!" by mx.google.com with ESMTPS id " h = false := by
    cases hh : hasSub c!" by mx.google.com with ESMTPS id " h
    · rfl
    · exact absurd ((hasSub_iff _ _).1 hh) hg
  have e3 : hasSub c!"SquirrelMail authenticated " h = false := by
    cases hh : hasSub c!"SquirrelMail authenticated " h
    · rfl
    · refine absurd (List.IsInfix.trans ?_ ((hasSub_iff _ _).1 hh)) hw
      exact ⟨c!"SquirrelMail ", c!" ", by decide⟩
  unfold getAuth
  simp [ha, h3, h4, h5, e1, e2, e3]

/-- **C75** (partial).  The authentication the receiving server records with the protocol, as in `with ESMTPA`,
is noted. -/
theorem C75_protocol_partial (R : Rx) (h a : Str) (hb : c!" by " <:+: h) (ha : R.auth h = some a) :
    getAuth R h = a := by
  have e1 : hasSub c!" by " h = true := (hasSub_iff _ _).2 hb
  unfold getAuth
  simp [ha, e1]

/-- **C75** is violated: a relay counts as authenticated if only the word `authenticated` stands somewhere in
its header, be it in the name the relay gives itself or in `unauthenticated`. -/
theorem C75_word_violated (R : Rx) (h : Str) (hw : c!"authenticated" <:+: h)
    (hg : ¬ c!" by mx.google.com with ESMTPS id " <:+: h) (hr : ∀ a, R.auth h = some a → a ≠ []) :
    getAuth R h ≠ [] := by
  have e1 : hasSub c!"authenticated" h = true := (hasSub_iff _ _).2 hw
  have e2 : hasSub c!" by mx.google.com with ESMTPS id " h = false := by
    cases hh : hasSub c!" by mx.google.com with ESMTPS id " h
    · rfl
    · exact absurd ((hasSub_iff _ _).1 hh) hg
  unfold getAuth
  simp only [e1, e2, Bool.true_and, Bool.false_eq_true, if_false, if_true]
  have hrest : ∀ b1 b2 b3 : Bool, (if b1 = true then c!"Postfix" else if b2 = true then c!"SquirrelMail"
      else if b3 = true then c!"CriticalPath" else c!"Sendmail") ≠ [] := by decide
  split
  · split
    · rename_i a ha; exact hr a ha
    · exact hrest _ _ _
  · exact hrest _ _ _

/-- The first relay with an address counts as authenticated: the message comes from inside. -/
theorem located_cons {A : Type} (r : Relay.Relay A) (rs : List (Relay.Relay A)) (a : A) (h : r.ip = some a) :
    located (r :: rs) = r :: located rs := by
  unfold located
  simp [h]

/-- **C75** is violated: whoever delivers a message and calls themself `authenticated` is trusted, and taken for
an internal host, whatever their address and the configured networks are. -/
theorem C75_trusted_violated {A N : Type} (R : Rx) (L : Net.NetLib A N) (addr : Str → Option A) (isPriv : A → Bool)
    (s : Net.Nets N) (h : Str) (hs : List (Option Str)) (fs : List Fields) (f : Fields) (rs : List (Relay.Relay A))
    (out : Relay.Lists A)
    (x : Str) (hx : prepare h = some x) (hsk : R.skip x = false) (ho : ¬ c!"X-ORIGINATING-IP" <+: x)
    (hw : c!"authenticated" <:+: x) (hg : ¬ c!" by mx.google.com with ESMTPS id " <:+: x)
    (hr : ∀ a, R.auth x = some a → a ≠ []) (hp : parseReceived R (some h :: hs) = some (f :: fs)) (hip : f.ip ≠ [])
    (hrs : toRelays addr (f :: fs) = some rs) (hout : Relay.parseRelays L isPriv s rs = some out) :
    ∃ r, rs.head? = some r ∧ r ∈ out.trusted ∧ r ∈ out.internal := by
  have hno : startsWith c!"X-ORIGINATING-IP" x = false := by
    cases hh : startsWith c!"X-ORIGINATING-IP" x
    · rfl
    · exact absurd (List.isPrefixOf_iff_prefix.1 hh) ho
  have hfe : f.auth ≠ [] := by
    unfold parseReceived at hp
    split at hp
    · exact absurd hp (by simp)
    · injection hp with hp
      rw [List.filterMap_cons_some (f := id) (a := some h) (b := h) rfl, List.filterMap_cons_some hx] at hp
      have hph : parseHeader R x =
          some ⟨R.rdns x, getIp R x, R.by_ x, R.helo x, R.ident x, R.id_ x, getEnvfrom R x, getAuth R x⟩ := by
        unfold parseHeader
        rw [hsk, hno]
        rfl
      rw [List.filterMap_cons_some hph] at hp
      injection hp with hp _
      rw [← hp]
      exact C75_word_violated R _ hw hg hr
  unfold toRelays at hrs
  cases ht : toRelays addr fs with
  | none => simp [ht] at hrs
  | some rs' =>
    simp only [ht, if_neg hip] at hrs
    cases ha : addr f.ip with
    | none => simp [ha] at hrs
    | some a =>
      simp only [ha, Option.some.injEq] at hrs
      subst hrs
      refine ⟨_, rfl, ?_⟩
      have hloc := located_cons (⟨some a, decide (f.auth ≠ []), f.envfrom, f.helo⟩ : Relay.Relay A) rs' a rfl
      by_cases hc : s.configured = true
      · obtain ⟨h1, h2⟩ := C30_configured L isPriv s _ out hc hout
        rw [h1, h2, hloc, upTo_cons, upTo_cons]
        simp only [hfe, ne_eq, not_false_eq_true, decide_true, Bool.or_true, Bool.true_or, Bool.and_self, if_true]
        constructor <;> split <;> simp
      · have hc : s.configured = false := by simpa using hc
        obtain ⟨h1, h2⟩ := C30_unconfigured L isPriv s _ out hc hout
        rw [h1, h2, hloc]
        rw [List.takeWhile_cons_of_pos (by simp [hfe])]
        simp

/-! ## Address -/

theorem scanIps_eq (R : Rx) : ∀ (is : List Str) (ip : Str) (priv : List Str),
    scanIps R is (ip, priv) =
      (((is.map cleanIp).filter (fun a => !Received.isPrivate R a)).getLast?.getD ip,
       priv ++ (is.map cleanIp).filter (Received.isPrivate R))
  | [], ip, priv => by simp [scanIps]
  | i :: is, ip, priv => by
    unfold scanIps
    cases h : Received.isPrivate R (cleanIp i)
    · rw [if_neg (by simp), scanIps_eq]
      simp [h, List.getLast?_cons]
    · rw [if_pos rfl, scanIps_eq]
      simp [h]

/-- **C76** (partial).  The address of a relay is the last public one in its header before ` by `; if all are
private it is the first. -/
theorem C76_address_partial (R : Rx) (h : Str) : getIp R h = chosenAddress R h := by
  unfold getIp chosenAddress senderAddresses
  simp only [scanIps_eq, List.nil_append]
  generalize hc : (R.ips (beforeBy h)).map cleanIp = l
  have hlen : (R.ips (beforeBy h)).length = l.length := by rw [← hc]; simp
  rw [hlen]
  have hall : ∀ l : List Str, (l.filter (Received.isPrivate R)).length = l.length ↔ l.filter (fun a => !Received.isPrivate R a) = [] := by
    intro l
    rw [List.length_filter_eq_length_iff]
    simp
  cases hf : (l.filter (fun a => !Received.isPrivate R a)).getLast? with
  | none =>
    have he : l.filter (fun a => !Received.isPrivate R a) = [] := List.getLast?_eq_none_iff.1 hf
    have hp := (hall l).2 he
    have hfl : l.filter (Received.isPrivate R) = l := List.filter_eq_self.2 (by simpa using he)
    by_cases hl : l = []
    · subst hl; simp
    · rw [if_pos ⟨by simpa using hl, hp⟩, hfl]
  | some a =>
    have he : l.filter (fun a => !Received.isPrivate R a) ≠ [] := fun h0 => by rw [h0] at hf; simp at hf
    rw [if_neg (fun hh => he ((hall l).1 hh.2))]
    rfl

/-- **C76** is violated: when the name the relay gives itself is an address and stands behind the address the
server saw, as in `([198.51.100.7] helo=[192.0.2.1])`, it is taken for the address of the relay. -/
theorem C76_helo_violated (R : Rx) (h : Str) (seen : List Str) (said : Str)
    (ha : R.ips (beforeBy h) = seen ++ [said]) (hp : Received.isPrivate R (cleanIp said) = false) :
    getIp R h = cleanIp said := by
  rw [C76_address_partial]
  unfold chosenAddress senderAddresses
  rw [ha]
  simp [hp]

theorem collapse_append (b : Str) : ∀ (a : Str) (p : Bool),
    collapse p (a ++ ';' :: b) = collapse p a ++ ';' :: collapse false b
  | [], p => by simp [collapse, show isSpace ';' = false from rfl]
  | c :: cs, p => by
    rw [List.cons_append, collapse, collapse]
    split
    · split
      · exact collapse_append b cs true
      · rw [collapse_append b cs true, List.cons_append]
    · rw [collapse_append b cs false, List.cons_append]

theorem firstField_append (a b : Str) : firstField (a ++ ';' :: b) = firstField a := by
  unfold firstField
  induction a with
  | nil => simp
  | cons c cs ih =>
    by_cases hc : c = ';'
    · subst hc; simp
    · rw [List.cons_append, List.takeWhile_cons_of_pos (by simpa using hc), ih,
        List.takeWhile_cons_of_pos (by simpa using hc)]

theorem collapse_from (x : Str) : collapse false (c!"from " ++ x) = c!"from " ++ collapse true x := by
  simp [collapse, isSpace]

theorem dropFrom_from (x : Str) : dropFrom (c!"from " ++ x) = x := by
  unfold dropFrom
  simp [split1, List.isPrefixOf]

/-- **C76** is violated: a header is read up to its first semicolon only.  A relay that gives itself a name with
a semicolon hides everything the server wrote behind it, its address included. -/
theorem C76_semicolon_violated (a b : Str) : prepare (c!"from " ++ a ++ ';' :: b) = prepare (c!"from " ++ a) := by
  have h1 : ∀ x, startsWith c!"from" (c!"from " ++ x) = true := fun x => by simp [startsWith, List.isPrefixOf]
  unfold prepare
  rw [List.append_assoc, if_pos (h1 _), if_pos (h1 _), collapse_from, collapse_from, dropFrom_from, dropFrom_from,
    collapse_append, firstField_append]

/-- **C76** (partial).  The private addresses are those of the usual networks, with the exception of
`172.16.0.0/12` (`C76_private_violated`). -/
theorem C76_private_partial (R : Rx) (ip : Str) :
    Received.isPrivate R ip = true ↔ PrivateV4 ip ∨ R.private6 ip = true := by
  unfold Received.isPrivate privatePrefixes PrivateV4
  rw [Bool.or_eq_true, List.any_eq_true]
  refine or_congr ?_ Iff.rfl
  simp only [List.mem_append, List.mem_cons, List.not_mem_nil, or_false, List.mem_map, List.mem_range, startsWith,
    List.isPrefixOf_iff_prefix]
  constructor
  · rintro ⟨x, (rfl | rfl | rfl | rfl) | ⟨n, hn, rfl⟩, h⟩
    · exact Or.inl h
    · exact Or.inr (Or.inl h)
    · exact Or.inr (Or.inr (Or.inl h))
    · exact Or.inr (Or.inr (Or.inr (Or.inl h)))
    · exact Or.inr (Or.inr (Or.inr (Or.inr ⟨64 + n, by omega, by omega, h⟩)))
  · rintro (h | h | h | h | ⟨n, h1, h2, h⟩)
    · exact ⟨_, Or.inl (Or.inl rfl), h⟩
    · exact ⟨_, Or.inl (Or.inr (Or.inl rfl)), h⟩
    · exact ⟨_, Or.inl (Or.inr (Or.inr (Or.inl rfl))), h⟩
    · exact ⟨_, Or.inl (Or.inr (Or.inr (Or.inr rfl))), h⟩
    · refine ⟨_, Or.inr ⟨n - 64, by omega, rfl⟩, ?_⟩
      rw [show 64 + (n - 64) = n by omega]
      exact h

theorem collapse_space (a b : Str) (h : ∀ c ∈ a, isSpace c = true) (hn : a ≠ []) :
    collapse false (a ++ b) = ' ' :: collapse true b := by
  have key : ∀ a : Str, (∀ c ∈ a, isSpace c = true) → collapse true (a ++ b) = collapse true b := by
    intro a
    induction a with
    | nil => intro _; rfl
    | cons c cs ih =>
      intro h
      rw [List.cons_append, collapse, if_pos (h c (by simp)), if_pos rfl]
      exact ih fun x hx => h x (List.mem_cons_of_mem _ hx)
  cases a with
  | nil => exact absurd rfl hn
  | cons c cs =>
    rw [List.cons_append, collapse, if_pos (h c (by simp)), if_neg (by simp),
      key cs fun x hx => h x (List.mem_cons_of_mem _ hx)]

theorem collapse_word (a b : Str) (p : Bool) (h : ∀ c ∈ a, isSpace c = false) (hn : a ≠ []) :
    collapse p (a ++ b) = a ++ collapse false b := by
  induction a generalizing p with
  | nil => exact absurd rfl hn
  | cons c cs ih =>
    rw [List.cons_append, collapse, if_neg (by simp [h c (by simp)]), List.cons_append]
    cases cs with
    | nil => rfl
    | cons d ds => rw [ih false (fun x hx => h x (List.mem_cons_of_mem _ hx)) (by simp)]

/-- **C76** (partial).  A header is read up to the date, without the word `from`, and however it is folded: any
white space between two words is one space. -/
theorem C76_words_partial (sp w : Str) (l : List (Str × Str)) (date : Str)
    (hsp : ∀ p ∈ (sp, w) :: l, p.1 ≠ [] ∧ ∀ c ∈ p.1, isSpace c = true)
    (hw : ∀ p ∈ (sp, w) :: l, p.2 ≠ [] ∧ ∀ c ∈ p.2, isSpace c = false ∧ c ≠ ';') :
    prepare (c!"from" ++ ((sp, w) :: l).flatMap (fun p => p.1 ++ p.2) ++ ';' :: date) =
      some (join c!" " (((sp, w) :: l).map Prod.snd)) := by
  have key : ∀ (l : List (Str × Str)), (∀ p ∈ l, p.1 ≠ [] ∧ ∀ c ∈ p.1, isSpace c = true) →
      (∀ p ∈ l, p.2 ≠ [] ∧ ∀ c ∈ p.2, isSpace c = false ∧ c ≠ ';') → ∀ b : Str,
      collapse false (l.flatMap (fun p => p.1 ++ p.2) ++ ';' :: b) =
        l.flatMap (fun p => ' ' :: p.2) ++ ';' :: collapse false b := by
    intro l
    induction l with
    | nil => intro _ _ b; simp [collapse, show isSpace ';' = false from rfl]
    | cons p l ih =>
      intro h1 h2 b
      have e1 := h1 p (by simp)
      have e2 := h2 p (by simp)
      rw [List.flatMap_cons, List.append_assoc, List.append_assoc, collapse_space _ _ e1.2 e1.1,
        collapse_word _ _ _ (fun c hc => (e2.2 c hc).1) e2.1,
        ih (fun q hq => h1 q (List.mem_cons_of_mem _ hq)) (fun q hq => h2 q (List.mem_cons_of_mem _ hq))]
      simp
  have hj : ∀ (l : List (Str × Str)) (w : Str), join c!" " (w :: l.map Prod.snd) = w ++ l.flatMap (fun p => ' ' :: p.2) := by
    intro l
    induction l with
    | nil => intro w; simp [join]
    | cons p l ih => intro w; simp [join, ih]
  have h1 : startsWith c!"from" (c!"from" ++ ((sp, w) :: l).flatMap (fun p => p.1 ++ p.2) ++ ';' :: date) = true := by
    simp [startsWith, List.isPrefixOf]
  unfold prepare
  rw [if_pos h1, List.append_assoc, collapse_word _ _ _ (by decide) (by simp), key _ hsp hw]
  have h2 : c!"from" ++ (((sp, w) :: l).flatMap (fun p => ' ' :: p.2) ++ ';' :: collapse false date) =
      c!"from " ++ (w ++ l.flatMap (fun p => ' ' :: p.2) ++ ';' :: collapse false date) := by simp
  rw [h2, dropFrom_from, firstField_append, List.map_cons, hj]
  congr 1
  unfold firstField
  have hno : ∀ c ∈ w ++ l.flatMap (fun p => ' ' :: p.2), c ≠ ';' := by
    intro c hc
    rcases List.mem_append.1 hc with hc | hc
    · exact ((hw _ (List.mem_cons_self)).2 c hc).2
    · obtain ⟨p, hp, hc⟩ := List.mem_flatMap.1 hc
      rcases List.mem_cons.1 hc with rfl | hc
      · decide
      · exact ((hw p (List.mem_cons_of_mem _ hp)).2 c hc).2
  generalize w ++ l.flatMap (fun p => ' ' :: p.2) = x at hno
  induction x with
  | nil => rfl
  | cons c cs ih =>
    rw [List.takeWhile_cons_of_pos (by simpa using hno c (by simp)), ih fun d hd => hno d (List.mem_cons_of_mem _ hd)]

theorem split1_by (b : Str) : ∀ a : Str, ¬ c!" by " <:+: a ++ c!" by" →
    split1 c!" by " (a ++ (c!" by " ++ b)) = some (a, b)
  | [], _ => by simp [split1, List.isPrefixOf]
  | c :: cs, h => by
    rw [List.cons_append, split1]
    have hn : ¬ (c!" by ").isPrefixOf (c :: (cs ++ (c!" by " ++ b))) = true := by
      intro hp
      obtain ⟨t, ht⟩ := List.isPrefixOf_iff_prefix.1 hp
      apply h
      match cs, ht with
      | [], ht => simp at ht
      | [d], ht => simp at ht
      | [d, e], ht =>
        simp only [List.cons_append, List.nil_append, List.cons.injEq] at ht
        obtain ⟨rfl, rfl, rfl, _⟩ := ht
        exact ⟨[], c!"by", rfl⟩
      | d :: e :: f :: g, ht =>
        simp only [List.cons_append, List.cons.injEq] at ht
        obtain ⟨rfl, rfl, rfl, rfl, _⟩ := ht
        exact ⟨[], g ++ c!" by", rfl⟩
    rw [if_neg hn, split1_by b cs (fun hi => h (hi.trans (List.infix_cons_iff.2 (Or.inr (List.infix_refl _)))))]

/-- **C76** (partial).  What stands behind the first ` by `, where the receiving server names itself, has no
influence on the address of the relay. -/
theorem C76_by_partial (R : Rx) (a b : Str) (h : ¬ c!" by " <:+: a ++ c!" by") :
    getIp R (a ++ c!" by " ++ b) = getIp R a ∧ beforeBy a = a := by
  have h1 : beforeBy (a ++ c!" by " ++ b) = a := by
    unfold beforeBy
    rw [List.append_assoc, split1_by b a h]
  have h2 : beforeBy a = a := by
    unfold beforeBy
    rw [(split1_none_iff _ _).2 (fun hi => h (hi.trans (List.prefix_append _ _).isInfix))]
  refine ⟨?_, h2⟩
  unfold getIp
  rw [h1, h2]

/-- **C76** (partial).  IPv4 addresses are read without the brackets around them. -/
theorem C76_brackets_partial (pre a post : Str) (ha : a ≠ []) (hd : ∀ c ∈ a, c.isDigit = true ∨ c = '.')
    (hpre : ∀ c ∈ pre, c ∈ c!"[ ]();\n") (hpost : ∀ c ∈ post, c ∈ c!"[ ]();\n") :
    cleanIp (pre ++ a ++ post) = a := by
  have hset : ∀ c ∈ a, (c!"[ ]();\n").contains c = false := by
    intro c hc
    cases hh : (c!"[ ]();\n").contains c
    · rfl
    · have hm := List.contains_iff_mem.1 hh
      simp only [List.mem_cons, List.not_mem_nil, or_false] at hm
      rcases hd c hc with h | h
      · rcases hm with rfl | rfl | rfl | rfl | rfl | rfl | rfl <;> exact absurd h (by decide)
      · subst h; exact absurd hm (by decide)
  have e1 : stripChars c!"[ ]();\n" (pre ++ a ++ post) = a := by
    unfold stripChars stripBy lstripBy
    rw [List.append_assoc, dropWhile_all _ (fun c hc => List.contains_iff_mem.2 (hpre c hc))]
    cases a with
    | nil => exact absurd rfl ha
    | cons c cs =>
      rw [List.cons_append, dropWhile_head _ (hset c (by simp)), ← List.cons_append,
        rstripBy_all _ (fun c hc => List.contains_iff_mem.2 (hpost c hc))]
      have := List.dropLast_concat_getLast (l := c :: cs) (by simp)
      rw [← this, rstripBy_last _ (hset _ (List.getLast_mem _))]
  have hlow : lower a = a := by
    unfold lower
    refine (List.map_congr_left fun c hc => ?_).trans (List.map_id a)
    rcases hd c hc with h | h
    · unfold Char.isDigit at h
      unfold Char.toLower
      simp only [Bool.and_eq_true, decide_eq_true_eq] at h
      split
      · rename_i h2
        exact absurd (Nat.le_trans h2.1 h.2) (by decide)
      · rfl
    · subst h; rfl
  have hi : 'i' ∉ a := fun h => by rcases hd _ h with h | h <;> exact absurd h (by decide)
  have hc : ':' ∉ a := fun h => by rcases hd _ h with h | h <;> exact absurd h (by decide)
  unfold cleanIp
  have r1 : replace c!"ipv6:" [] a = a := by
    have := replace_pass 'i' c!"pv6:" [] a [] hi
    simpa using this
  have r2 : replace c!"::ffff:" [] a = a := by
    have := replace_pass ':' c!":ffff:" [] a [] hc
    simpa using this
  rw [e1, hlow, r1, hlow, r2]

example : prepare c!"from a.example\n\t(1.2.3.4) by\tmx; Mon, 1 Jan" = some c!"a.example (1.2.3.4) by mx" :=
  C76_words_partial c!" " c!"a.example" [(c!"\n\t", c!"(1.2.3.4)"), (c!" ", c!"by"), (c!"\t", c!"mx")]
    c!" Mon, 1 Jan" (by decide) (by decide)

/-- **C76** is violated: of the private networks, `172.16.0.0/12` is not recognised. -/
theorem C76_private_violated (R : Rx) (x : Str) : Received.isPrivate R (c!"172." ++ x) = R.private6 (c!"172." ++ x) := by
  have h : privatePrefixes.all (fun p => match p with
      | '1' :: '7' :: '2' :: '.' :: _ => false
      | a :: b :: c :: d :: _ => a != '1' || b != '7' || c != '2' || d != '.'
      | a :: b :: c :: [] => a != '1' || b != '7' || c != '2'
      | _ => false) = true := by decide +kernel
  have h2 : privatePrefixes.any (fun p => startsWith p (c!"172." ++ x)) = false := by
    rw [List.any_eq_false]
    intro p hp
    have := List.all_eq_true.1 h p hp
    match p, this with
    | [], this => simp at this
    | [a], this => simp at this
    | [a, b], this => simp at this
    | a :: b :: c :: [], this =>
      simp [startsWith, List.isPrefixOf] at this ⊢
      grind
    | a :: b :: c :: d :: e, this =>
      simp [startsWith, List.isPrefixOf] at this ⊢
      grind
  unfold isPrivate
  rw [h2, Bool.false_or]

/-- **C76** is violated: one `Received` header that cannot be decoded makes the message unreadable. -/
theorem C76_undecodable_violated (R : Rx) (hs : List (Option Str)) (h : none ∈ hs) : parseReceived R hs = none := by
  unfold parseReceived
  rw [if_pos (List.contains_iff_mem.2 h)]

/-- **C76** is violated: one address that `ipaddress` does not accept, such as `010.1.1.1`, makes the message
unreadable. -/
theorem C76_bad_address_violated {A : Type} (addr : Str → Option A) (fs : List Fields) (f : Fields) (hf : f ∈ fs)
    (hi : f.ip ≠ []) (ha : addr f.ip = none) : toRelays addr fs = none := by
  induction fs with
  | nil => simp at hf
  | cons g gs ih =>
    unfold toRelays
    rcases List.mem_cons.1 hf with rfl | hf
    · cases toRelays addr gs with
      | none => rfl
      | some rs => simp [hi, ha]
    · rw [ih hf]

/-- **C76** (partial).  The relays are those of the headers that begin with `from` and are not skipped, in the
order of the headers. -/
theorem C76_order_partial (R : Rx) (a b : List (Option Str)) (l : List Fields)
    (h : parseReceived R (a ++ b) = some l) :
    ∃ la lb, parseReceived R a = some la ∧ parseReceived R b = some lb ∧ l = la ++ lb := by
  unfold parseReceived at h ⊢
  split at h
  · exact absurd h (by simp)
  · rename_i hc
    have hc : none ∉ a ∧ none ∉ b := by
      constructor <;> intro hm <;> exact hc (List.contains_iff_mem.2 (by simp [hm]))
    rw [if_neg (fun h => hc.1 (List.contains_iff_mem.1 h)), if_neg (fun h => hc.2 (List.contains_iff_mem.1 h))]
    injection h with h
    exact ⟨_, _, rfl, rfl, by rw [← h]; simp [List.filterMap_append]⟩

theorem rsplit1_last {a b : Str} {z : Char} (hb : z ∉ b) : rsplit1 z (a ++ z :: b) = some (a, b) := by
  unfold rsplit1
  have : (a ++ z :: b).reverse = b.reverse ++ z :: a.reverse := by simp
  rw [this]
  have h := split1_char_append (c := z) (a := b.reverse) a.reverse (by simpa using hb)
  simp only [h, List.reverse_reverse]

theorem rsplit1_none {b : Str} {z : Char} (hb : z ∉ b) : rsplit1 z b = none := by
  unfold rsplit1
  have : split1 [z] b.reverse = none := by
    rw [split1_none_iff]
    intro hi
    exact hb (List.mem_reverse.1 (hi.subset (by simp)))
  rw [this]

/-- **C76** (partial).  Which relay comes from one header: none if the header does not begin with `from` or belongs
to a kind that is skipped, one with the fields the server recorded otherwise. -/
theorem C76_fields_partial (R : Rx) (h : Str) (l : List Fields) (hl : parseReceived R [some h] = some l) :
    (prepare h = none → l = []) ∧
    ∀ x, prepare h = some x →
      (R.skip x = true → l = []) ∧
      (R.skip x = false → ¬ c!"X-ORIGINATING-IP" <+: x →
        l = [⟨R.rdns x, getIp R x, R.by_ x, R.helo x, R.ident x, R.id_ x, getEnvfrom R x, getAuth R x⟩]) ∧
      (R.skip x = false → c!"X-ORIGINATING-IP" <+: x → l = [⟨[], getIp R x, [], [], [], [], [], []⟩]) := by
  unfold parseReceived at hl
  rw [if_neg (by simp)] at hl
  injection hl with hl
  subst hl
  constructor
  · intro h0; simp [h0]
  · intro x hx
    have e : ((([some h].filterMap id).filterMap prepare).filterMap (parseHeader R)) = [x].filterMap (parseHeader R) := by
      simp [hx]
    rw [e]
    refine ⟨?_, ?_, ?_⟩
    · intro hs; simp [parseHeader, hs]
    · intro hs hn
      have : startsWith c!"X-ORIGINATING-IP" x = false := by
        cases hh : startsWith c!"X-ORIGINATING-IP" x
        · rfl
        · exact absurd (List.isPrefixOf_iff_prefix.1 hh) hn
      simp [parseHeader, hs, this]
    · intro hs hn
      have : startsWith c!"X-ORIGINATING-IP" x = true := List.isPrefixOf_iff_prefix.2 hn
      simp [parseHeader, hs, this]

/-- **C76** (partial).  The envelope sender in a header is read without the brackets around it, if it has no equals
sign. -/
theorem C76_sender_partial (R : Rx) (h e : Str) (he : R.envfrom h = some e) (hn : '=' ∉ stripChars c!"><[]" e) :
    getEnvfrom R h = stripChars c!"><[]" e := by
  unfold getEnvfrom
  simp only [he]
  rw [rsplit1_none hn]

/-- **C76** is violated: of an envelope sender with an equals sign, as mailing lists and forwarders write it, only
what follows the last one is kept: `SRS0=x=tt=example.org=bob@list.example` becomes `bob@list.example`. -/
theorem C76_sender_violated (R : Rx) (h a b : Str) (hb : '=' ∉ b)
    (he : (R.envfrom h).map (stripChars c!"><[]") = some (a ++ '=' :: b)) : getEnvfrom R h = b := by
  unfold getEnvfrom
  cases hr : R.envfrom h with
  | none => simp [hr] at he
  | some e =>
    simp only [hr, Option.map_some, Option.some.injEq] at he
    simp only [he]
    rw [rsplit1_last hb]

/-! ## Tags -/

theorem cut_unique {z : Char} : ∀ {a b x y : Str}, z ∉ a → z ∉ b → a ++ z :: x = b ++ z :: y → a = b ∧ x = y
  | [], [], _, _, _, _, h => by simp at h; exact ⟨rfl, h⟩
  | [], c :: cs, _, _, _, hb, h => by simp at h; exact absurd h.1 (fun hc => hb (by simp [hc]))
  | c :: cs, [], _, _, ha, _, h => by simp at h; exact absurd h.1.symm (fun hc => ha (by simp [hc]))
  | c :: cs, f :: fs, x, y, ha, hb, h => by
    simp only [List.cons_append, List.cons.injEq] at h
    obtain ⟨h3, h4⟩ := cut_unique (fun hz => ha (by simp [hz])) (fun hz => hb (by simp [hz])) h.2
    exact ⟨by rw [h.1, h3], h4⟩

theorem tagText_description (m : Marked) : tagText m = description m := by
  obtain ⟨⟨r, i, b, h, d, k, e, a⟩, l, s⟩ := m
  have hb : ∀ b : Bool, (if b then c!"1" else c!"0" : Str) = [if b then '1' else '0'] := by decide
  unfold tagText description
  simp only [hb, join, List.append_assoc, List.cons_append, List.nil_append]

/-- **C77** (partial).  The text by which the tags describe a relay determines all its fields. -/
theorem C77_unambiguous (m n : Marked) (hm : NoSpaces m.f) (hn : NoSpaces n.f) (h : description m = description n) : m = n := by
  rw [← tagText_description, ← tagText_description] at h
  obtain ⟨⟨r1, i1, b1, h1, d1, k1, e1, a1⟩, l1, s1⟩ := m
  obtain ⟨⟨r2, i2, b2, h2, d2, k2, e2, a2⟩, l2, s2⟩ := n
  obtain ⟨m1, m2, m3, m4, m5, m6, m7⟩ := hm
  obtain ⟨n1, n2, n3, n4, n5, n6, n7⟩ := hn
  unfold tagText at h
  simp only [List.append_assoc, List.cons_append, List.nil_append, List.cons.injEq, true_and] at h
  obtain ⟨rfl, h⟩ := cut_unique m1 n1 h
  simp only [List.cons.injEq, true_and] at h
  obtain ⟨rfl, h⟩ := cut_unique m2 n2 h
  simp only [List.cons.injEq, true_and] at h
  obtain ⟨rfl, h⟩ := cut_unique m3 n3 h
  simp only [List.cons.injEq, true_and] at h
  obtain ⟨rfl, h⟩ := cut_unique m4 n4 h
  simp only [List.cons.injEq, true_and] at h
  obtain ⟨rfl, h⟩ := cut_unique m5 n5 h
  simp only [List.cons.injEq, true_and] at h
  obtain ⟨rfl, h⟩ := cut_unique m6 n6 h
  simp only [List.cons.injEq, true_and] at h
  have hbit : ∀ b : Bool, ' ' ∉ (if b then c!"1" else c!"0" : Str) := by decide
  obtain ⟨hl, h⟩ := cut_unique (hbit l1) (hbit l2) h
  simp only [List.cons.injEq, true_and] at h
  obtain ⟨rfl, h⟩ := cut_unique m7 n7 h
  simp only [List.cons.injEq, true_and] at h
  have hinj : ∀ b c : Bool, (if b then c!"1" else c!"0" : Str) = (if c then c!"1" else c!"0") → b = c := by decide
  have hlen : ∀ b c : Bool, (' ' :: 'm' :: 's' :: 'a' :: '=' :: ((if b then c!"1" else c!"0") ++ c!" ]") : Str).length =
      (' ' :: 'm' :: 's' :: 'a' :: '=' :: ((if c then c!"1" else c!"0") ++ c!" ]") : Str).length := by decide
  obtain ⟨rfl, h⟩ := List.append_inj' h (hlen s1 s2)
  simp only [List.cons.injEq, true_and] at h
  have hs := List.append_cancel_right h
  rw [hinj _ _ hl, hinj _ _ hs]

/-- **C77** (partial).  Each of the four lists of relays has a tag, in which the relays are described in their order. -/
theorem C77_lists (t u i e : List Marked) :
    Dict.get? (relayTags t u i e) c!"RELAYSTRUSTED" = some (join c!" " (t.map description)) ∧
    Dict.get? (relayTags t u i e) c!"RELAYSUNTRUSTED" = some (join c!" " (u.map description)) ∧
    Dict.get? (relayTags t u i e) c!"RELAYSINTERNAL" = some (join c!" " (i.map description)) ∧
    Dict.get? (relayTags t u i e) c!"RELAYSEXTERNAL" = some (join c!" " (e.map description)) := by
  have h : tagText = description := funext tagText_description
  rw [← h]
  unfold relayTags
  simp [Dict.get?]

/-- **C77** (partial).  If one external relay is known, the tags about the last external relay are about it; if none
is, there are no such tags. -/
theorem C77_single_partial (t u i : List Marked) (m : Marked) :
    (Dict.get? (relayTags t u i [m]) c!"LASTEXTERNALIP" = some m.f.ip ∧
     Dict.get? (relayTags t u i [m]) c!"LASTEXTERNALRDNS" = some m.f.rdns ∧
     Dict.get? (relayTags t u i [m]) c!"LASTEXTERNALHELO" = some m.f.helo) ∧
    Dict.get? (relayTags t u i []) c!"LASTEXTERNALIP" = none := by
  unfold relayTags
  simp [Dict.get?]

/-- **C77** is violated: the tags about the last external relay, the one that handed the message over to the
internal network and comes first in the list, are about the relay farthest away, whose data the sender can make
up. -/
theorem C77_last_violated (t u i e : List Marked) (first farthest : Marked) :
    Dict.get? (relayTags t u i (first :: e ++ [farthest])) c!"LASTEXTERNALIP" = some farthest.f.ip ∧
    Dict.get? (relayTags t u i (first :: e ++ [farthest])) c!"LASTEXTERNALRDNS" = some farthest.f.rdns ∧
    Dict.get? (relayTags t u i (first :: e ++ [farthest])) c!"LASTEXTERNALHELO" = some farthest.f.helo := by
  have h : (first :: e ++ [farthest]).getLast? = some farthest := List.getLast?_concat
  unfold relayTags
  rw [h]
  simp [Dict.get?]

/-! ## Rules about relays -/

/-- **C78** (partial).  Exactly one of these is the case: no relay has an address, all that have one are trusted, or
one is not. -/
theorem C78_cases (t u : List Fields) :
    (noRelays t u = true ↔ t ++ u = []) ∧ (allTrusted t u = true ↔ t ++ u ≠ [] ∧ ∀ r ∈ t ++ u, r ∉ u) ∧
    (noRelays t u = false ∧ allTrusted t u = false ↔ ∃ r, r ∈ u) := by
  unfold noRelays allTrusted
  cases t <;> cases u <;> simp
  rename_i a as b bs
  intro _ _
  exact ⟨b, Or.inr (Or.inl rfl), fun h => absurd rfl h⟩

/-- **C78** (partial).  `check_for_numeric_helo` is true exactly if an untrusted relay gives itself a public IPv4
address as its name. -/
theorem C78_numeric (R : Rx) (V : V4) (hV : V.addr [] = none) (u : List Fields) :
    numericHelo R V u = true ↔ ∃ r ∈ u, SaysAddress R V r := by
  unfold numericHelo SaysAddress checkHelo
  rw [List.any_eq_true]
  constructor
  · rintro ⟨r, hr, h⟩
    simp only [Bool.and_eq_true, Bool.not_eq_true'] at h
    exact ⟨r, hr, h.1.2, h.2⟩
  · rintro ⟨r, hr, h1, h2⟩
    refine ⟨r, hr, ?_⟩
    have : r.helo ≠ [] := fun h => by rw [h, hV] at h1; simp at h1
    simp [this, h1, h2]

/-- **C78** (partial).  `helo_ip_mismatch` is true exactly if an untrusted relay gives itself a public IPv4 address
that is not in the same network of 256 addresses as its own. -/
theorem C78_mismatch (R : Rx) (V : V4) (hV : V.addr [] = none) (u : List Fields) :
    heloMismatch R V u = true ↔ ∃ r ∈ u, SaysAddress R V r ∧ ∃ h i, V.addr r.helo = some h ∧ V.addr r.ip = some i ∧
      h / 256 ≠ i / 256 := by
  have hc : ∀ r, checkHelo R V r = true ↔ SaysAddress R V r := by
    intro r
    have := C78_numeric R V hV [r]
    unfold numericHelo at this
    simpa using this
  induction u with
  | nil => simp [heloMismatch]
  | cons r rs ih =>
    unfold heloMismatch
    by_cases hs : checkHelo R V r = true
    · have hs' := (hc r).1 hs
      rw [if_neg (by simp [hs])]
      cases h1 : V.addr r.helo with
      | none => have := hs'.1; simp [h1] at this
      | some h =>
        cases h2 : V.addr r.ip with
        | none =>
          simp only [ih, List.mem_cons]
          constructor
          · rintro ⟨x, hx, rest⟩; exact ⟨x, Or.inr hx, rest⟩
          · rintro ⟨x, rfl | hx, h3, h', i', h4, h5, h6⟩
            · rw [h2] at h5; simp at h5
            · exact ⟨x, hx, h3, h', i', h4, h5, h6⟩
        | some i =>
          simp only
          by_cases hd : h / 256 = i / 256
          · rw [if_neg (by simp [hd])]
            refine ih.trans ?_
            constructor
            · rintro ⟨x, hx, rest⟩; exact ⟨x, List.mem_cons_of_mem _ hx, rest⟩
            · rintro ⟨x, hx, h3, h', i', h4, h5, h6⟩
              rcases List.mem_cons.1 hx with rfl | hx
              · rw [h1] at h4; rw [h2] at h5
                injection h4 with h4; injection h5 with h5
                subst h4; subst h5
                exact absurd hd h6
              · exact ⟨x, hx, h3, h', i', h4, h5, h6⟩
          · have hne : r.helo ≠ r.ip := by
              intro he; rw [he, h2] at h1; injection h1 with h1; exact hd (by rw [h1])
            rw [if_pos (by simp [hne, hd])]
            simp only [true_iff]
            exact ⟨r, by simp, hs', h, i, h1, h2, hd⟩
    · rw [if_pos (by simpa using hs)]
      refine ih.trans ?_
      constructor
      · rintro ⟨x, hx, rest⟩; exact ⟨x, List.mem_cons_of_mem _ hx, rest⟩
      · rintro ⟨x, hx, h3, rest⟩
        rcases List.mem_cons.1 hx with rfl | hx
        · exact absurd ((hc _).2 h3) hs
        · exact ⟨x, hx, h3, rest⟩

theorem isBigIsp_iff (h : Str) : isBigIsp h = true ↔ OfProvider h := by
  have hp : bigIsps.Perm providers := by decide
  unfold isBigIsp OfProvider endsWith
  rw [List.any_eq_true]
  constructor
  · rintro ⟨d, hd, h1⟩
    simp only [Bool.or_eq_true, decide_eq_true_eq, List.isSuffixOf_iff_suffix] at h1
    refine ⟨d, hp.mem_iff.1 hd, ?_⟩
    rcases h1 with h1 | ⟨a, h1⟩
    · exact Or.inl h1
    · exact Or.inr ⟨a, by simp [← h1]⟩
  · rintro ⟨d, hd, h1⟩
    refine ⟨d, hp.mem_iff.2 hd, ?_⟩
    simp only [Bool.or_eq_true, decide_eq_true_eq, List.isSuffixOf_iff_suffix]
    rcases h1 with h1 | ⟨a, h1⟩
    · exact Or.inl h1
    · exact Or.inr ⟨a, by simp [h1]⟩

/-- **C78** (partial).  `check_for_no_rdns_dotcom_helo` is about the last untrusted relay with a public address and a
name: it is true exactly if that name is one of a large provider and the address has no name. -/
theorem C78_dotcom (R : Rx) (u : List Fields) :
    noRdnsDotcom R u false = true ↔
      ∃ r, (u.filter (fun r => decide (Received.isPrivate R r.ip = false ∧ r.helo ≠ []))).getLast? = some r ∧
        OfProvider r.helo ∧ r.rdns = [] := by
  have key : ∀ (u : List Fields) (b : Bool), noRdnsDotcom R u b =
      match (u.filter (fun r => decide (Received.isPrivate R r.ip = false ∧ r.helo ≠ []))).getLast? with
      | some r => isBigIsp r.helo && decide (r.rdns = [])
      | none => b := by
    intro u
    induction u with
    | nil => intro b; rfl
    | cons r rs ih =>
      intro b
      unfold noRdnsDotcom
      by_cases h1 : Received.isPrivate R r.ip = true
      · rw [if_pos h1, ih, List.filter_cons_of_neg (by simp [h1])]
      · have h1 : Received.isPrivate R r.ip = false := by simpa using h1
        by_cases h2 : r.helo = []
        · rw [if_neg (by simp [h1]), if_pos h2, ih, List.filter_cons_of_neg (by simp [h2])]
        · rw [if_neg (by simp [h1]), if_neg h2, ih, List.filter_cons_of_pos (by simp [h1, h2]), List.getLast?_cons]
          cases (rs.filter (fun r => decide (Received.isPrivate R r.ip = false ∧ r.helo ≠ []))).getLast? <;> rfl
  rw [key]
  cases hg : (u.filter (fun r => decide (Received.isPrivate R r.ip = false ∧ r.helo ≠ []))).getLast? with
  | none => simp
  | some r => simp [isBigIsp_iff]

/-- **C78** is violated: `check_for_sender_no_reverse`, which should be true if the address of the sending host has no
name, is false whenever it has none and true whenever it has one and is public. -/
theorem C78_no_reverse_violated (R : Rx) (u : List Fields) (r : Fields) :
    (r.rdns = [] → senderNoReverse R (u ++ [r]) = false) ∧
    (Received.isPrivate R r.ip = false → '.' ∈ r.rdns → senderNoReverse R (u ++ [r]) = true) := by
  unfold senderNoReverse
  simp only [List.getLast?_append, List.getLast?_singleton, Option.some_or]
  constructor
  · intro h; simp [h]
  · intro h1 h2; simp [h1, h2]

/-- **C78** (partial).  `check_for_from_domain_in_received_headers` is false unless a sender address is in the domain;
then it tells whether a relay with the domain in its name and in the receiving name exists, or the opposite if
that is what is asked. -/
theorem C78_from_domain_partial (domain desired : Str) (froms : List Str) (t u : List Fields)
    (hf : ∀ a ∈ froms, ∃ l d, a = l ++ '@' :: d ∧ '@' ∉ d) :
    fromDomain domain desired froms t u = true ↔
      (∃ l, l ++ '@' :: domain ∈ froms ∧ '@' ∉ domain) ∧
      (desired = c!"true" ↔ ∃ r, (r ∈ t ∨ r ∈ u) ∧ domain <:+: r.rdns ∧ domain <:+: r.by_) := by
  have hpart : ∀ a ∈ froms, ∀ l d, a = l ++ '@' :: d → '@' ∉ d →
      domainPart a = d := by
    intro a _ l d h hd
    subst h
    unfold domainPart
    rw [rsplit1_last hd]
  unfold fromDomain
  by_cases hc : (froms.map domainPart).contains domain = true
  · rw [if_neg (by simp only [hc]; decide)]
    have hex : ∃ l, l ++ '@' :: domain ∈ froms ∧ '@' ∉ domain := by
      rw [List.contains_iff_mem, List.mem_map] at hc
      obtain ⟨a, ha, hd⟩ := hc
      obtain ⟨l, d, e, hn⟩ := hf a ha
      rw [hpart a ha l d e hn] at hd
      subst hd
      exact ⟨l, e ▸ ha, hn⟩
    have hany : ((t ++ u).any (fun r => hasSub domain r.rdns && hasSub domain r.by_)) = true ↔
        ∃ r, (r ∈ t ∨ r ∈ u) ∧ domain <:+: r.rdns ∧ domain <:+: r.by_ := by
      rw [List.any_eq_true]
      simp only [List.mem_append, Bool.and_eq_true, hasSub_iff]
    by_cases hr : ((t ++ u).any (fun r => hasSub domain r.rdns && hasSub domain r.by_)) = true
    · rw [if_pos hr]
      have := hany.1 hr
      simp only [decide_eq_true_eq]
      exact ⟨fun h => ⟨hex, fun _ => this, fun _ => h⟩, fun h => h.2.2 this⟩
    · rw [if_neg hr]
      have hn := fun h => hr (hany.2 h)
      simp only [decide_eq_true_eq, ne_eq]
      exact ⟨fun h => ⟨hex, fun h' => absurd h' h, fun h' => absurd h' hn⟩, fun h h' => hn (h.2.1 h')⟩
  · rw [if_pos (by simpa using hc)]
    simp only [Bool.false_eq_true, false_iff, not_and]
    rintro ⟨l, hl, hd⟩
    refine absurd ?_ hc
    rw [List.contains_iff_mem, List.mem_map]
    exact ⟨_, hl, hpart _ hl l domain rfl hd⟩

/-- **C78** is violated: a relay counts as one of the domain if the domain only occurs in its name, so that
`paypal.com.example.net` passes for a relay of `paypal.com`. -/
theorem C78_from_domain_violated (domain : Str) (froms : List Str) (t u : List Fields) (r : Fields) (hr : r ∈ u)
    (a b : Str) (h1 : r.rdns = domain ++ a) (h2 : r.by_ = domain ++ b) : fromDomain domain c!"false" froms t u = false := by
  unfold fromDomain
  split
  · rfl
  · rw [if_pos]
    · decide
    · rw [List.any_eq_true]
      refine ⟨r, by simp [hr], ?_⟩
      rw [Bool.and_eq_true, hasSub_iff, hasSub_iff, h1, h2]
      exact ⟨(List.prefix_append _ _).isInfix, (List.prefix_append _ _).isInfix⟩

/-! ## Instances -/

/-- Expressions for one form of header. -/
def exRx : Rx where
  skip := fun _ => false
  ips := fun s => if hasSub c!"helo=[192.0.2.1]" s then [c!"[198.51.100.7]", c!"[192.0.2.1]"]
    else if hasSub c!"203.0.113.9" s then [c!"203.0.113.9"] else []
  private6 := fun _ => false
  rdns := fun _ => []
  by_ := fun _ => c!"mx"
  helo := fun s => s.takeWhile (· ≠ ' ')
  ident := fun _ => []
  id_ := fun _ => []
  envfrom := fun _ => some c!"<SRS0=x=tt=a.org=bob@l.org>"
  auth := fun _ => none
  auth3 := fun _ => false
  authVc := fun _ => none
  auth2 := fun _ => false
  auth4 := fun _ => none
  auth5 := fun _ => false

example : (parseReceived exRx [some c!"from a\n\t([198.51.100.7] helo=[192.0.2.1]) by mx; Mon"]).map (·.map (·.ip)) =
    some [c!"192.0.2.1"] := by decide +kernel
example : (parseReceived exRx [some c!"from x;y (203.0.113.9) by mx; Mon"]).map (·.map (·.ip)) = some [[]] := by
  decide +kernel
example : (parseReceived exRx [some c!"from authenticated.evil (203.0.113.9) by mx; Mon"]).map
    (·.map (fun f => (f.ip, f.auth, f.envfrom))) = some [(c!"203.0.113.9", c!"Sendmail", c!"bob@l.org")] := by
  decide +kernel
example : isPrivate exRx c!"172.16.0.1" = false ∧ isPrivate exRx c!"100.100.0.1" = true ∧
    isPrivate exRx c!"192.168.3.4" = true := by decide +kernel

/-- IPv4 addresses in a small table. -/
def exV4 : V4 := ⟨fun s => if s = c!"1.2.3.4" then some 0x01020304 else if s = c!"1.2.3.9" then some 0x01020309
  else if s = c!"9.9.9.9" then some 0x09090909 else none⟩

example : heloMismatch exRx exV4 [⟨[], c!"1.2.3.9", [], c!"1.2.3.4", [], [], [], []⟩] = false ∧
    heloMismatch exRx exV4 [⟨[], c!"9.9.9.9", [], c!"1.2.3.4", [], [], [], []⟩] = true ∧
    numericHelo exRx exV4 [⟨[], c!"9.9.9.9", [], c!"1.2.3.4", [], [], [], []⟩] = true := by decide +kernel
example : noRdnsDotcom exRx [⟨[], c!"9.9.9.9", [], c!"mail.yahoo.com", [], [], [], []⟩] false = true := by decide +kernel
example : fromDomain c!"paypal.com" c!"false" [c!"a@paypal.com"] []
    [⟨c!"paypal.com.evil.net", [], c!"paypal.com.evil.net", [], [], [], [], []⟩] = false ∧
    fromDomain c!"paypal.com" c!"false" [c!"a@paypal.com"] [] [] = true := by decide +kernel

end Verif.Props
