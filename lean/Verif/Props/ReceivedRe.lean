import Verif.Lemmas.Postfix
import Verif.Props.Received

/-!
# C118 to C122: `Received` headers with the real expressions
-/

namespace Verif.Props
open Verif Py Re Spec Received ReceivedRe

/-! ## Addresses -/

/-- The number that digits write. -/
def readNumber (s : Str) : Nat := s.foldl (fun n c => 10 * n + (c.toNat - 48)) 0

set_option maxRecDepth 8000 in
theorem decimal_inj {a b : Nat} (ha : a ≤ 255) (hb : b ≤ 255) (h : decimal a = decimal b) : a = b := by
  have e : ∀ n : Fin 256, readNumber (decimal n.val) = n.val := by decide +kernel
  have e1 := e ⟨a, by omega⟩
  have e2 := e ⟨b, by omega⟩
  simp only at e1 e2
  rw [← e1, ← e2, h]

theorem dotted_first {p x : Str} {a b c d : Nat} (ha : a ≤ 255) (hp : ∀ c ∈ p, c.isDigit = true)
    (h : p ++ '.' :: x <+: dotted a b c d) : decimal a = p ∧ x <+: decimal b ++ '.' :: (decimal c ++ '.' :: decimal d) := by
  obtain ⟨t, ht⟩ := h
  simp only [dotted, List.append_assoc, List.cons_append] at ht
  obtain ⟨h1, _, h2⟩ := digits_cut hp (decimal_digits ha).2 (by decide) (by decide) ht
  exact ⟨h1.symm, t, h2⟩

theorem public_not_private {a b c d : Nat} (h : PublicAddress a b c d) : isPrivate rx (dotted a b c d) = false := by
  have hd := dotted_chars h.a255 h.b255 h.c255 h.d255
  cases hp : isPrivate rx (dotted a b c d) with
  | false => rfl
  | true =>
    exfalso
    rcases (C76_private_partial rx _).mp hp with hp | hp
    · have second : ∀ (n : Nat) (x : Str), n ≤ 255 → decimal n ++ '.' :: x <+: decimal b ++ '.' :: (decimal c ++ '.' :: decimal d) → b = n := by
        rintro n x hn ⟨t, ht⟩
        simp only [List.append_assoc, List.cons_append] at ht
        exact decimal_inj h.b255 hn (digits_cut (decimal_digits hn).2 (decimal_digits h.b255).2 (by decide) (by decide) ht).1.symm
      rcases hp with hp | hp | hp | hp | ⟨n, h1, h2, hp⟩
      · exact h.not10 (decimal_inj h.a255 (by omega) (dotted_first (p := c!"10") (x := []) h.a255 (by decide) hp).1)
      · exact h.not127 (decimal_inj h.a255 (by omega) (dotted_first (p := c!"127") (x := []) h.a255 (by decide) hp).1)
      · have := dotted_first (p := c!"169") (x := c!"254.") h.a255 (by decide) hp
        exact h.notLinkLocal ⟨decimal_inj h.a255 (by omega) this.1, second 254 [] (by omega) this.2⟩
      · have := dotted_first (p := c!"192") (x := c!"168.") h.a255 (by decide) hp
        exact h.not192168 ⟨decimal_inj h.a255 (by omega) this.1, second 168 [] (by omega) this.2⟩
      · have := dotted_first (p := c!"100") (x := decimal n ++ c!".") h.a255 (by decide) (by simpa [decimal] using hp)
        have hb := second n [] (by omega) this.2
        exact h.notShared ⟨decimal_inj h.a255 (by omega) this.1, by omega, by omega⟩
    · obtain ⟨u, w, z, e, hr⟩ := (search_isSome private6 _).mp hp
      obtain ⟨k, hk, rfl⟩ := hr.must must_private6
      rcases hd ':' (by rw [e]; simp [hk]) with h | h <;> simp at h

theorem clean_dotted {a b c d : Nat} (ha : a ≤ 255) (hb : b ≤ 255) (hc : c ≤ 255) (hd : d ≤ 255) : cleanIp (dotted a b c d) = dotted a b c d := by
  have := C76_brackets_partial [] (dotted a b c d) [] dotted_ne (dotted_chars ha hb hc hd) (by simp) (by simp)
  simpa using this

/-- **C118** (partial).  If the server writes the address from which the connection came in brackets and no other address between it and
` by `, then this is the address of the relay, whatever stands before it: neither the name that the client gives itself nor the name
that belongs to the address can change that.  This needs a public address. -/
theorem C118_address_partial (pre z rest : Str) {a b c d : Nat} (h : PublicAddress a b c d) (hz : ∀ x ∈ z, x ≠ '.' ∧ x ≠ ':')
    (hby : ¬ c!" by " <:+: pre ++ c!"[" ++ dotted a b c d ++ c!"]" ++ z ++ c!" by") :
    getIp rx (pre ++ c!"[" ++ dotted a b c d ++ c!"]" ++ z ++ c!" by " ++ rest) = dotted a b c d := by
  obtain ⟨e1, e2⟩ := C76_by_partial rx _ rest hby
  rw [e1]
  obtain ⟨l, hl⟩ := findAll_brackets pre z h.a255 h.b255 h.c255 h.d255 hz
  rw [C76_helo_violated rx _ l (dotted a b c d) (by rw [e2]; simpa [rx] using hl), clean_dotted h.a255 h.b255 h.c255 h.d255]
  rw [clean_dotted h.a255 h.b255 h.c255 h.d255]
  exact public_not_private h

/-- **C118** is violated: the line of an Exim server has the name that the client gives itself behind the address.  If that name is an
address in brackets, it is taken for the address of the relay, whatever the address from which the connection came. -/
theorem C118_exim_violated (rdns seen rest : Str) {a b c d : Nat} (h : PublicAddress a b c d)
    (hby : ¬ c!" by " <:+: rdns ++ c!" ([" ++ seen ++ c!"] helo=[" ++ dotted a b c d ++ c!"])" ++ c!" by") :
    getIp rx (rdns ++ c!" ([" ++ seen ++ c!"] helo=[" ++ dotted a b c d ++ c!"])" ++ c!" by " ++ rest) = dotted a b c d := by
  have := C118_address_partial (rdns ++ c!" ([" ++ seen ++ c!"] helo=") c!")" rest h (by decide) (by simpa using hby)
  simpa using this

/-! ## Headers that are dropped -/

/-- **C119** (partial).  The line of a Postfix server is not dropped, whatever host name the client gives itself and whatever name
belongs to its address. -/
theorem C119_kept_partial (l : PostfixLine) (h : l.Ok) : ∃ f, parseHeader rx l.text = some f := by
  have : rx.skip l.text = false := not_skipped h
  unfold parseHeader
  rw [this]
  by_cases hx : startsWith c!"X-ORIGINATING-IP" l.text = true
  · rw [hx]; exact ⟨_, rfl⟩
  · rw [Bool.not_eq_true] at hx
    rw [hx]; exact ⟨_, rfl⟩

theorem dropped {h : Str} (hs : skip h = true) : parseHeader rx h = none := by
  have : rx.skip h = true := hs
  simp [parseHeader, this]

theorem skip_unknown {h : Str} (hs : (search unknownRe h).isSome = true) : skip h = true := by simp [skip, hs]

theorem skip_withLocal {h : Str} (hs : (search withLocal h).isSome = true) : skip h = true := by simp [skip, hs]

/-- **C119** is violated: a client that calls itself `Unknown/Local` leaves no trace, whatever the server writes about it. -/
theorem C119_unknown_violated (rest : Str) : parseHeader rx (c!"Unknown/Local (" ++ rest) = none := by
  apply dropped
  have : (search unknownRe (c!"Unknown/Local (" ++ rest)).isSome = true := by
    rw [search_isSome]
    exact ⟨[], c!"Unknown/Local (", rest, rfl, [], c!"Unknown/Local (", rfl, ⟨rfl, rfl⟩, (Reads.lit (s := c!"Unknown/Local (")).mpr rfl⟩
  exact skip_unknown this

/-- **C119** is violated: so does a client in whose line `with local ` stands anywhere, in whatever case. -/
theorem C119_with_local_violated (pre rest : Str) (c : Char) (hc : isWord c = false) (w : Str) (hw : w.map Char.toLower = c!"with local") :
    parseHeader rx (pre ++ [c] ++ w ++ ' ' :: rest) = none := by
  apply dropped
  have : (search withLocal (pre ++ [c] ++ w ++ ' ' :: rest)).isSome = true := by
    rw [search_isSome]
    refine ⟨pre ++ [c], w ++ c!" ", rest, by simp, [], w ++ c!" ", rfl, ⟨rfl, ?_⟩, w, c!" ", rfl, (Reads.ilit (s := c!"with local")).mpr hw,
      [], c!" ", rfl, .inr rfl, (Reads.lit (s := c!" ")).mpr rfl⟩
    cases w with
    | nil => simp at hw
    | cons x xs =>
      simp only [List.map_cons, List.cons.injEq] at hw
      have hx : isWord x = true := by
        have h1 := hw.1
        unfold Char.toLower at h1
        split at h1
        · rename_i hu
          simp only [isWord, Char.isAlphanum, Char.isAlpha, Char.isUpper, Bool.or_eq_true, Bool.and_eq_true, decide_eq_true_eq]
          exact .inl (.inl (.inl hu))
        · rw [h1]; decide
      simp [wordAt, hc, hx]
  exact skip_withLocal this

/-! ## The line of a Postfix server -/

theorem postfix_ip {l : PostfixLine} (h : l.Ok) : getIp rx l.text = dotted l.a l.b l.c l.d := by
  have := C118_address_partial (l.helo ++ c!" (" ++ l.rdns ++ c!" ") c!")" (l.by_ ++ (' ' :: afterBy l)) h.ip (by decide) (by
    rintro ⟨u, z, e⟩
    exact no_earlier_by h (u := u) (z := z) (by rw [e]; simp [upToAddress]))
  rw [← this, text_by]
  simp [upToAddress]

theorem rx_fields (t : Str) :
    rx.rdns t = getRdns t ∧ rx.by_ t = getBy t ∧ rx.helo t = getHelo t ∧ rx.ident t = getIdent t ∧ rx.id_ t = getId t := ⟨rfl, rfl, rfl, rfl, rfl⟩

/-- **C120** (partial).  From the line of a Postfix server all fields are read as the server has written them: the name the client
gives itself, the name and the address of the client, the name of the server, the number of the message, and for authenticated clients
the protocol; there is no sender and no identity. -/
theorem C120_postfix_partial (l : PostfixLine) (h : l.Ok) (hp : l.Plain) (hx : ¬ c!"X-ORIGINATING-IP" <+: l.helo) :
    parseHeader rx l.text = some
      { rdns := l.rdns, ip := dotted l.a l.b l.c l.d, by_ := l.by_, helo := l.helo, ident := [], id_ := l.id_, envfrom := [],
        auth := if l.proto = c!"ESMTPA" ∨ l.proto = c!"ESMTPSA" then l.proto else [] } := by
  have h1 : rx.skip l.text = false := not_skipped h
  have h2 : startsWith c!"X-ORIGINATING-IP" l.text = false := by
    cases hs : startsWith c!"X-ORIGINATING-IP" l.text with
    | false => rfl
    | true =>
      exfalso
      simp only [startsWith, List.isPrefixOf_iff_prefix] at hs
      obtain ⟨v, hv⟩ := hs
      rw [text_words, lineWords] at hv
      obtain ⟨q, hq⟩ := Words.prefix_solid hv.symm (by unfold Words.Solid; decide)
      exact hx ⟨q, hq.symm⟩
  unfold parseHeader
  rw [h1, h2]
  obtain ⟨e1, e2, e3, e4, e5⟩ := rx_fields l.text
  rw [e1, e2, e3, e4, e5, get_rdns h hp, get_by h, get_helo h hp, get_ident h, get_id h hp, postfix_ip h, get_envfrom h hp, get_auth h hp]
  simp

theorem mem_join {ws : List Str} {w : Str} (hw : w ∈ ws) {c : Char} (hc : c ∈ w) : c ∈ join [' '] ws := by
  induction ws with
  | nil => simp at hw
  | cons v vs ih =>
    cases vs with
    | nil =>
      simp at hw
      subst hw
      simpa [join] using hc
    | cons v' vs =>
      rw [Words.join_cons (by simp)]
      rcases List.mem_cons.mp hw with rfl | hw
      · exact List.mem_append_left _ hc
      · exact List.mem_append_right _ (List.mem_cons_of_mem _ (ih hw))

/-- **C120** (partial).  This holds for the header as it stands in the message: with `from`, a date, and folded in any way. -/
theorem C120_header_partial (l : PostfixLine) (h : l.Ok) (hp : l.Plain) (hx : ¬ c!"X-ORIGINATING-IP" <+: l.helo) (ps : List (Str × Str)) (date : Str)
    (hj : join c!" " (ps.map Prod.snd) = l.text) (hs : ∀ p ∈ ps, p.1 ≠ [] ∧ ∀ c ∈ p.1, isSpace c = true)
    (hw : ∀ p ∈ ps, p.2 ≠ [] ∧ ∀ c ∈ p.2, isSpace c = false) :
    parseReceived rx [some (c!"from" ++ ps.flatMap (fun p => p.1 ++ p.2) ++ ';' :: date)] = some [
      { rdns := l.rdns, ip := dotted l.a l.b l.c l.d, by_ := l.by_, helo := l.helo, ident := [], id_ := l.id_, envfrom := [],
        auth := if l.proto = c!"ESMTPA" ∨ l.proto = c!"ESMTPSA" then l.proto else [] }] := by
  cases ps with
  | nil =>
    exfalso
    have := congrArg List.length hj
    simp [join, PostfixLine.text] at this
  | cons p ps =>
    have hprep := C76_words_partial p.1 p.2 ps date hs (by
      intro q hq
      refine ⟨(hw q hq).1, fun c hc => ⟨(hw q hq).2 c hc, ?_⟩⟩
      rintro rfl
      refine no_char h (x := ';') (by decide) (by decide) ?_
      rw [← hj]
      exact mem_join (List.mem_map_of_mem hq) hc)
    have e : ((p.1, p.2) :: ps) = p :: ps := rfl
    rw [e, hj] at hprep
    unfold parseReceived
    simp only [List.contains_cons, List.contains_nil, Bool.or_false]
    rw [if_neg (by simp)]
    simp only [List.filterMap_cons, id, List.filterMap_nil, hprep, C120_postfix_partial l h hp hx]

/-- **C120** is violated: a name of a client in which `unknown` stands anywhere is lost. -/
theorem C120_unknown_violated (l : PostfixLine) (h : l.Ok) (hu : c!"unknown" <:+: l.rdns) : getRdns l.text = [] := by
  have hsub : ∀ {s : Str}, c!"unknown" <:+: s → ∀ t : Str, (hasSub c!"unknown" s || t == c!"UnknownHost") = true := by
    intro s hs t
    rw [(hasSub_iff _ _).mpr hs]; rfl
  obtain ⟨h1, _, h2⟩ := helo7_fields h
  have hne : l.rdns ≠ c!"softdnserr" := by
    intro e
    rw [e] at hu
    revert hu
    decide
  have hf : rdnsFirst l.text = l.rdns := by
    simp [rdnsFirst, h1, h2, hne]
  have hat : l.rdns.contains '@' = false := by
    simpa using host_no h.rdns (x := '@') (by decide)
  unfold getRdns
  simp only [hf, hat, no_unknown h, no_rdnsIp h.rdns, Bool.and_false, Bool.false_eq_true, if_false]
  rw [if_pos (hsub hu _)]
  decide

/-- **C120** is violated: if the client calls itself `X-ORIGINATING-IP`, or anything that begins so, nothing is read but the address. -/
theorem C120_originating_violated (l : PostfixLine) (h : l.Ok) (hx : c!"X-ORIGINATING-IP" <+: l.helo) :
    parseHeader rx l.text = some { rdns := [], ip := dotted l.a l.b l.c l.d, by_ := [], helo := [], ident := [], id_ := [], envfrom := [], auth := [] } := by
  have h1 : rx.skip l.text = false := not_skipped h
  have h2 : startsWith c!"X-ORIGINATING-IP" l.text = true := by
    simp only [startsWith, List.isPrefixOf_iff_prefix]
    rw [text_eq]
    exact hx.trans (List.prefix_append _ _)
  unfold parseHeader
  rw [h1, h2, postfix_ip h]
  simp

/-- **C120** is violated: if the client calls itself `return-path`, the name of its address is taken for the sender of the message. -/
theorem C120_sender_violated (l : PostfixLine) (h : l.Ok) (hh : l.helo = c!"return-path") (r : Str) (c : Char) (hr : l.rdns = r ++ [c]) (hc : isWord c = true) :
    getEnvfrom rx l.text = '(' :: l.rdns := by
  have key : matchRe envfromRe l.text = some ⟨('(' :: l.rdns).reverse ++ (c!"return-path ").reverse,
      ' ' :: '[' :: (dotted l.a l.b l.c l.d ++ ']' :: ')' :: afterAddress l), [(0, '(' :: l.rdns)]⟩ := by
    have ht : l.text = c!"return-path " ++ (('(' :: l.rdns) ++ (' ' :: '[' :: (dotted l.a l.b l.c l.d ++ ']' :: ')' :: afterAddress l))) := by
      rw [text_eq, hh]; simp
    have step : ∀ (X : Str) (k : St → Option St),
        m (seqs [lit c!"return-path", opt (lit c!":"), sp]) ⟨[], c!"return-path " ++ (('(' :: l.rdns) ++ X), []⟩ k =
          k ⟨(c!"return-path ").reverse, ('(' :: l.rdns) ++ X, []⟩ := by
      intro X k
      simp [seqs, lit, opt, m, sp, isSpace]
    unfold matchRe envfromRe
    rw [ht]
    simp only [seqs] at step ⊢
    rw [m_seq, dotsLazy, m]
    refine star_first dot [] _ _ _ [] [] (by simp) (by
      intro u v e hv
      simp at e
      exact absurd e.2 hv) ?_
    rw [m_seq]
    refine m_altL ?_
    refine (step _ _).trans ?_
    rw [m_seq, word]
    refine word_greedy (by simp) ?_ (by rfl) ?_
    · intro x hx
      rcases List.mem_cons.mp hx with rfl | hx
      · decide
      · simp [nonSpace, solid_host h.rdns x hx]
    · have : wordAt (('(' :: l.rdns).reverse ++ (c!"return-path ").reverse) = true := by
        rw [hr]; simp [wordAt, hc]
      rw [m, if_pos (by rw [this]; rfl)]
  have : rx.envfrom l.text = some ('(' :: l.rdns) := by
    show field envfromRe 0 l.text = _
    unfold field
    rw [key]
    simp [St.get, Dict.get?]
  unfold getEnvfrom
  rw [this]
  have hs : stripChars c!"><[]" ('(' :: l.rdns) = '(' :: l.rdns := by
    apply strip_keep
    intro x hx hb
    rcases List.mem_cons.mp hx with rfl | hx
    · revert hb; decide
    · have := host_chars h.rdns x hx
      simp only [List.mem_cons, List.not_mem_nil, or_false] at hb
      rcases hb with rfl | rfl | rfl | rfl <;> exact absurd this (by decide)
  simp only [hs]
  have hn : rsplit1 '=' ('(' :: l.rdns) = none := by
    unfold rsplit1
    rw [(split1_none_iff _ _).2]
    rintro ⟨u, v, e⟩
    have : '=' ∈ ('(' :: l.rdns).reverse := by rw [← e]; simp
    simp only [List.mem_reverse, List.mem_cons] at this
    rcases this with h' | h'
    · simp at h'
    · exact host_no h.rdns (by decide) h'
  rw [hn]

/-! ## The name of the server -/

theorem first_by {a u v y : Str} (hby : ¬ c!" by " <:+: a ++ c!" by") (e : a ++ (c!" by " ++ y) = u ++ (c!" by " ++ v)) : ∃ q, u = a ++ q := by
  rcases List.append_eq_append_iff.mp e with ⟨q, h1, _⟩ | ⟨q, h1, h2⟩
  · exact ⟨q, h1⟩
  · cases q with
    | nil => exact ⟨[], by simp [h1]⟩
    | cons c q =>
      exfalso
      have hp : c!" by " <+: (c :: q) ++ c!" by" := by
        have hp : c!" by " <+: (c :: q) ++ (c!" by " ++ y) := ⟨v, h2⟩
        rw [show (c :: q) ++ (c!" by " ++ y) = ((c :: q) ++ c!" by") ++ (' ' :: y) by simp] at hp
        exact List.prefix_of_prefix_length_le hp (List.prefix_append _ _) (by simp)
      obtain ⟨z, hz⟩ := hp
      exact hby ⟨u, z, by rw [h1, List.append_assoc, List.append_assoc, hz]⟩

/-- The expression for a server that writes an address behind its name needs `]` before ` by `. -/
theorem no_rdns3_general {a x : Str} {c : Char} (hc : c ≠ ']') (y : Str) (ha : a = x ++ [c]) (hs : ∀ c ∈ a, isSpace c = true → c = ' ')
    (hby : ¬ c!" by " <:+: a ++ c!" by") : isMatch rdnsRe3 (a ++ (c!" by " ++ y)) = false := by
  apply not_match
  rintro w z e ⟨_, _, rfl, ⟨rfl, _⟩, t, _, rfl, ht, _, _, rfl, ⟨k, rfl, hk⟩, _, _, rfl, hp1, i, _, rfl, hi, _, _, rfl, hp2, _, _, rfl, ⟨k', rfl, hk'⟩,
    _, _, rfl, hp3, _, v, rfl, ⟨k'', rfl, hk''⟩, _⟩
  rw [Reads.lit] at hp1 hp2 hp3
  subst hp1 hp2 hp3
  have ht := nonSpace_solid ((Reads.plus (p := nonSpace)).mp ht).2
  have hi2 : Words.Solid i := by
    intro c hc
    have := hi.only only_ip c hc
    rcases this with h | h | rfl | rfl
    · exact isSpace_alnum (by simp [Char.isAlphanum, h])
    · exact isSpace_alnum (by simp [Char.isAlphanum, h])
    · decide
    · decide
  have e : a ++ (c!" by " ++ y) = (t ++ k :: ('[' :: (i ++ c!"]"))) ++ (k' :: 'b' :: 'y' :: k'' :: (v ++ z)) := by rw [e]; simp
  have hsol : Words.Solid ('[' :: (i ++ c!"]")) := by
    have := solid_append (a := c!"[") (by unfold Words.Solid; decide) (solid_append hi2 (b := c!"]") (by unfold Words.Solid; decide))
    exact this
  rcases List.append_eq_append_iff.mp e with ⟨q, h1, h2⟩ | ⟨q, h1, h2⟩
  · cases q with
    | nil =>
      rw [ha, List.append_nil, show t ++ k :: ('[' :: (i ++ c!"]")) = (t ++ k :: ('[' :: i)) ++ c!"]" by simp] at h1
      have := (List.append_inj' h1 rfl).2
      simp at this
      exact hc this.symm
    | cons d q =>
      simp only [List.cons_append, List.nil_append, List.cons.injEq] at h2
      obtain ⟨rfl, h2⟩ := h2
      have hcount := congrArg (fun l => l.countP isSpace) h1
      simp only [List.countP_append, List.countP_cons, hk] at hcount
      have z1 : t.countP isSpace = 0 := List.countP_eq_zero.mpr (fun x hx => by simp [ht x hx])
      have z2 := List.countP_eq_zero.mpr (fun x hx => by simpa using hsol x hx)
      simp only [List.countP_append, List.countP_cons] at z2
      have z3 : a.countP isSpace = 0 := by
        have : isSpace ' ' = true := by decide
        simp only [this] at hcount
        simp only [if_true] at hcount
        omega
      have haS : Words.Solid a := fun x hx => by simpa using List.countP_eq_zero.mp z3 x hx
      have h3 := (Words.solid_cut ht haS hk (by decide) h1).2.2
      rw [← h3] at h2
      simp at h2
  · cases q with
    | nil =>
      rw [List.append_nil] at h1
      rw [ha, show t ++ k :: ('[' :: (i ++ c!"]")) = (t ++ k :: ('[' :: i)) ++ c!"]" by simp] at h1
      have := (List.append_inj' h1 rfl).2
      simp at this
      exact hc this
    | cons d q =>
      simp only [List.cons_append, List.cons.injEq] at h2
      obtain ⟨rfl, h2⟩ := h2
      have hk2 := hs k' (by rw [h1]; simp) hk'
      subst hk2
      match q, h1, h2 with
      | [], _, h2 => simp at h2
      | [_], _, h2 => simp at h2
      | [_, _], h1, h2 =>
        simp at h2
        obtain ⟨rfl, rfl, rfl, _⟩ := h2
        exact hby ⟨t ++ k :: ('[' :: (i ++ c!"]")), c!"by", by rw [h1]; simp⟩
      | d1 :: d2 :: d3 :: q, h1, h2 =>
        simp at h2
        obtain ⟨rfl, rfl, rfl, _⟩ := h2
        have := hs k'' (by rw [h1]; simp) hk''
        subst this
        exact hby ⟨t ++ k :: ('[' :: (i ++ c!"]")), q ++ c!" by", by rw [h1]; simp⟩

/-- **C121** (partial).  The name of the server is the word behind the first ` by `, if another word follows it. -/
theorem C121_by_partial (x w rest : Str) (c : Char) (hc : c ≠ ']') (hs : ∀ y ∈ x ++ [c], isSpace y = true → y = ' ')
    (hby : ¬ c!" by " <:+: x ++ [c] ++ c!" by") (hw : w ≠ []) (hws : ∀ y ∈ w, isSpace y = false) :
    getBy (x ++ [c] ++ c!" by " ++ w ++ c!" " ++ rest) = w := by
  have ht : x ++ [c] ++ c!" by " ++ w ++ c!" " ++ rest = (x ++ [c]) ++ (c!" by " ++ (w ++ (' ' :: rest))) := by simp
  have key : ∃ t, matchRe byRe (x ++ [c] ++ c!" by " ++ w ++ c!" " ++ rest) = some t ∧ t.groups = [(0, w)] := by
    obtain ⟨t, hx, hg⟩ := noGroup_match (r := dots) (b := ' ' :: (w.reverse ++ ((c!" by ").reverse ++ ((x ++ [c]).reverse ++ []))))
      (w := []) (a := rest) (g := [(0, w)]) trivial (by simp [dots, Reads])
    refine ⟨t, ?_, hg⟩
    unfold matchRe byRe
    simp only [seqs]
    rw [m_seq, ht, dotsLazy, m]
    refine star_first dot [] _ t _ (x ++ [c]) [] ?_ ?_ ?_
    · intro y hy
      have : y ≠ '\n' := by
        rintro rfl
        exact absurd (hs _ hy (by decide)) (by decide)
      simp [dot, this]
    · intro u v e hv
      apply m_noreads
      rintro s r ee ⟨_, y, rfl, hb, _⟩
      rw [Reads.lit] at hb
      subst hb
      obtain ⟨q, hq⟩ := first_by (u := u) (v := y ++ r) (y := w ++ (' ' :: rest)) hby (by rw [e, List.append_assoc, ee]; simp)
      have hlen := congrArg List.length hq
      have hlen2 := congrArg List.length e
      have : v.length ≠ 0 := by simpa using hv
      simp only [List.length_append] at hlen hlen2
      omega
    · rw [m_seq, m_lit, m_seq, word]
      refine word_greedy hw (fun y hy => by simp [nonSpace, hws y hy]) (by rfl) ?_
      rw [m_seq, m_lit1]
      exact hx
  obtain ⟨t, hx, hg⟩ := key
  have h3 : isMatch rdnsRe3 (x ++ [c] ++ c!" by " ++ w ++ c!" " ++ rest) = false := by
    rw [ht]
    exact no_rdns3_general hc _ rfl hs hby
  unfold getBy
  rw [h3]
  simp only [Bool.false_eq_true, if_false]
  unfold field
  rw [hx]
  simp [St.get, hg, Dict.get?]

/-- **C121** is violated: if nothing but the date follows the name of the server, the name is lost. -/
theorem C121_last_violated (x w : Str) (c : Char) (hc : c ≠ ']') (hs : ∀ y ∈ x ++ [c], isSpace y = true → y = ' ')
    (hby : ¬ c!" by " <:+: x ++ [c] ++ c!" by") (hws : ∀ y ∈ w, isSpace y = false) :
    getBy (x ++ [c] ++ c!" by " ++ w) = [] := by
  have ht : x ++ [c] ++ c!" by " ++ w = (x ++ [c]) ++ (c!" by " ++ w) := by simp
  have hsp : ' ' ∉ w := fun hm => absurd (hws ' ' hm) (by decide)
  have hb : isMatch byRe (x ++ [c] ++ c!" by " ++ w) = false := by
    apply not_match
    rintro s z e ⟨u, _, rfl, _, _, _, rfl, hb, g, _, rfl, _, _, v, rfl, hq, _⟩
    rw [Reads.lit] at hb hq
    subst hb hq
    obtain ⟨q, hq⟩ := first_by (u := u) (v := g ++ (' ' :: (v ++ z))) (y := w) hby (by rw [← ht, e]; simp)
    have e2 : c!" by " ++ w = q ++ (c!" by " ++ (g ++ (' ' :: (v ++ z)))) := by
      rw [ht, hq] at e
      apply List.append_cancel_left (as := x ++ [c])
      rw [e]; simp
    match q, e2 with
    | [], e2 => simp at e2; exact hsp (by rw [e2]; simp)
    | [_], e2 => simp at e2
    | [_, _], e2 => simp at e2
    | [_, _, _], e2 => simp at e2; exact hsp (by rw [e2.2.2.2]; simp)
    | _ :: _ :: _ :: _ :: q, e2 => simp at e2; exact hsp (by rw [e2.2.2.2.2]; simp)
  have h3 : isMatch rdnsRe3 (x ++ [c] ++ c!" by " ++ w) = false := by
    rw [ht]
    exact no_rdns3_general hc _ rfl hs hby
  unfold getBy
  rw [h3]
  simp only [Bool.false_eq_true, if_false]
  unfold field
  unfold isMatch at hb
  cases hm : matchRe byRe (x ++ [c] ++ c!" by " ++ w) with
  | none => rfl
  | some t => rw [hm] at hb; simp at hb

/-! ## The number of the message -/

/-- **C122** (partial).  The number of the message is the word behind the last `id `, without angle brackets. -/
theorem C122_id_partial (a w z : Str) (hn : '\n' ∉ a) (hw : w ≠ []) (hws : ∀ y ∈ w, isSpace y = false) (hz : z = [] ∨ ∃ c t, z = c :: t ∧ isSpace c = true)
    (hl : ¬ c!"id " <:+: c!"d " ++ w ++ z) : getId (a ++ c!"id " ++ w ++ z) = stripChars c!"<>" w := by
  have ht : a ++ c!"id " ++ w ++ z = a ++ (c!"id " ++ (w ++ z)) := by simp
  have key : matchRe idRe (a ++ c!"id " ++ w ++ z) = some ⟨w.reverse ++ ((c!"id ").reverse ++ (a.reverse ++ [])), z, [(0, w)]⟩ := by
    unfold matchRe idRe
    simp only [seqs]
    rw [m_seq, ht, dots, m]
    refine star_last dot [] _ _ _ a [] ?_ ?_ ?_
    · intro c hc
      have : c ≠ '\n' := by rintro rfl; exact hn hc
      simp [dot, this]
    · intro u v e hu _
      apply m_noreads
      rintro s r ee ⟨_, y, rfl, hb, _⟩
      rw [Reads.lit] at hb
      subst hb
      cases u with
      | nil => exact hu rfl
      | cons c u =>
        simp only [List.cons_append, List.nil_append, List.cons.injEq] at e
        exact hl ⟨u, y ++ r, by
          have := e.2
          rw [ee] at this
          simp at this ⊢
          exact this.symm⟩
    · rw [m_seq, m_lit, word]
      refine word_greedy hw (fun y hy => by simp [nonSpace, hws y hy]) ?_ rfl
      rcases hz with rfl | ⟨c, t, rfl, hc⟩
      · rfl
      · simp [headIn, nonSpace, hc]
  unfold getId field
  rw [key]
  simp [St.get, Dict.get?]

/-- **C122** is violated: the number of the message is lost if the server also writes the number of a user. -/
theorem C122_uid_violated (pre i mid u : Str) (hn : '\n' ∉ pre ++ c!" id " ++ i ++ mid) (hu : u ≠ []) (hus : ∀ y ∈ u, isSpace y = false ∧ y ≠ '<' ∧ y ≠ '>') :
    getId (pre ++ c!" id " ++ i ++ mid ++ c!" uid " ++ u) = u := by
  have := C122_id_partial (pre ++ c!" id " ++ i ++ mid ++ c!" u") u [] (by
    intro hm
    simp only [List.mem_append] at hm hn
    rcases hm with hm | hm
    · exact hn hm
    · revert hm; decide) hu (fun y hy => (hus y hy).1) (.inl rfl) (by
    rintro ⟨p, q, e⟩
    have hsp : ' ' ∉ u := fun hm => absurd (hus ' ' hm).1 (by decide)
    match p, e with
    | [], e => simp at e
    | [_], e => simp at e
    | _ :: _ :: p, e => simp at e; exact hsp (by rw [← e.2.2]; simp))
  rw [strip_keep (fun c hc hb => by
    have := hus c hc
    simp only [List.mem_cons, List.not_mem_nil, or_false] at hb
    rcases hb with rfl | rfl
    · exact this.2.1 rfl
    · exact this.2.2 rfl)] at this
  simpa using this

/-! ## These things happen -/

/-- A line. -/
def aLine : PostfixLine :=
  ⟨c!"mail.example.com", c!"mx-1.example.com", 203, 0, 113, 9, c!"mx.example.org", c!"ESMTPS", c!"4RZk1x2b", some c!"joe@example.org"⟩

theorem aLine_ok : aLine.Ok where
  helo := ⟨by decide, by decide⟩
  rdns := ⟨by decide, by decide⟩
  by_ := ⟨by decide, by decide⟩
  id_ := ⟨by decide, by decide⟩
  ip := ⟨by decide, by decide, by decide, by decide, by decide, by decide, by decide, by decide, by decide⟩
  proto := by decide
  rcpt := by decide

set_option maxRecDepth 8000 in
theorem aLine_plain : aLine.Plain where
  known := by decide +kernel
  known' := by decide
  rdnsHelo := by decide
  byHelo := by decide
  idEnd := .inr (by decide)
  envelope := by decide +kernel
  authenticated := by decide +kernel
  gmx := by decide

set_option maxRecDepth 8000 in
example : aLine.text =
    c!"mail.example.com (mx-1.example.com [203.0.113.9]) by mx.example.org (Postfix) with ESMTPS id 4RZk1x2b for <joe@example.org>" := by decide +kernel

example : parseHeader rx aLine.text = some ⟨c!"mx-1.example.com", c!"203.0.113.9", c!"mx.example.org", c!"mail.example.com", [], c!"4RZk1x2b", [], []⟩ := by
  rw [C120_postfix_partial aLine aLine_ok aLine_plain (by decide)]
  decide +kernel

set_option maxRecDepth 8000 in
example : parseReceived rx [some c!"from mail.example.com (mx-1.example.com [203.0.113.9])\n\tby mx.example.org (Postfix) with ESMTPS id 4RZk1x2b\n\tfor <joe@example.org>; Mon, 1 Jan"] =
    some [⟨c!"mx-1.example.com", c!"203.0.113.9", c!"mx.example.org", c!"mail.example.com", [], c!"4RZk1x2b", [], []⟩] := by
  refine (C120_header_partial aLine aLine_ok aLine_plain (by decide)
    [(c!" ", c!"mail.example.com"), (c!" ", c!"(mx-1.example.com"), (c!" ", c!"[203.0.113.9])"), (c!"\n\t", c!"by"), (c!" ", c!"mx.example.org"), (c!" ", c!"(Postfix)"),
      (c!" ", c!"with"), (c!" ", c!"ESMTPS"), (c!" ", c!"id"), (c!" ", c!"4RZk1x2b"), (c!"\n\t", c!"for"), (c!" ", c!"<joe@example.org>")] c!" Mon, 1 Jan"
    (by decide +kernel) (by decide) (by decide)).trans ?_
  decide +kernel

example : getIp rx c!"x (x [203.0.113.9]) by mx with SMTP" = c!"203.0.113.9" :=
  C118_address_partial c!"x (x " c!")" c!"mx with SMTP" (a := 203) (b := 0) (c := 113) (d := 9)
    ⟨by decide, by decide, by decide, by decide, by decide, by decide, by decide, by decide, by decide⟩ (by decide) (by decide +kernel)

example : getIp rx c!"a.example ([198.51.100.7] helo=[203.0.113.9]) by mx with esmtp" = c!"203.0.113.9" :=
  C118_exim_violated c!"a.example" c!"198.51.100.7" c!"mx with esmtp" (a := 203) (b := 0) (c := 113) (d := 9)
    ⟨by decide, by decide, by decide, by decide, by decide, by decide, by decide, by decide, by decide⟩ (by decide +kernel)

example : parseHeader rx c!"Unknown/Local (evil.example [203.0.113.9]) by mx (Postfix) with SMTP id 1" = none :=
  C119_unknown_violated c!"evil.example [203.0.113.9]) by mx (Postfix) with SMTP id 1"

example : parseHeader rx c!"a (b [203.0.113.9]) by mx With Local id 1" = none :=
  C119_with_local_violated c!"a (b [203.0.113.9]) by mx" c!"id 1" ' ' (by decide) c!"With Local" (by decide)

example : getRdns { aLine with rdns := c!"unknown-1.example.com" }.text = [] :=
  C120_unknown_violated _ { aLine_ok with rdns := ⟨by decide, by decide⟩ } (by decide +kernel)

example : ∃ f, parseHeader rx { aLine with helo := c!"X-ORIGINATING-IP" }.text = some f ∧ f.helo = [] :=
  ⟨_, C120_originating_violated _ { aLine_ok with helo := ⟨by decide, by decide⟩ } (by decide), rfl⟩

example : getEnvfrom rx { aLine with helo := c!"return-path" }.text = c!"(mx-1.example.com" :=
  C120_sender_violated _ { aLine_ok with helo := ⟨by decide, by decide⟩ } rfl c!"mx-1.example.co" 'm' rfl (by decide)

example : getBy c!"a (b [203.0.113.9]) by mx with SMTP" = c!"mx" :=
  C121_by_partial c!"a (b [203.0.113.9]" c!"mx" c!"with SMTP" ')' (by decide) (by decide) (by decide +kernel) (by decide) (by decide)

example : getBy c!"a (b [203.0.113.9]) by mx" = [] :=
  C121_last_violated c!"a (b [203.0.113.9]" c!"mx" ')' (by decide) (by decide) (by decide +kernel) (by decide)

example : getId c!"a by mx with SMTP id <77.1@x> for joe" = c!"77.1@x" :=
  (C122_id_partial c!"a by mx with SMTP " c!"<77.1@x>" c!" for joe" (by decide) (by decide) (by decide) (.inr ⟨' ', c!"for joe", rfl, by decide⟩) (by decide +kernel)).trans
    (by decide)

example : getId c!"a by mx with SMTP id 77 (queue) uid 501" = c!"501" :=
  C122_uid_violated c!"a by mx with SMTP" c!"77" c!" (queue)" c!"501" (by decide) (by decide) (by decide)

end Verif.Props
