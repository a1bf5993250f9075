import Verif.Spec.Net

/-!
# C25–C27: network lists
-/

namespace Verif.Props
open Verif Py Net Spec

variable {A N : Type}

/-- **C25**.  For a list of valid networks a lookup never fails; its answer is that of the first
entry containing the address, and no if there is none. -/
theorem C25_first_match (L : NetLib A N) (q : A) (l : List (Entry N)) (hv : ValidNets l) :
    (∀ n acc, FirstEntry L q l n acc → contains L q l = some acc) ∧
    (NoEntry L q l → contains L q l = some false) ∧
    (NoEntry L q l ∨ ∃ n acc, FirstEntry L q l n acc) := by
  induction l with
  | nil =>
    refine ⟨?_, fun _ => rfl, .inl (by intro e he; simp at he)⟩
    rintro n acc ⟨b, a, h, _⟩
    simp at h
  | cons e l ih =>
    obtain ⟨n0, a0⟩ := e
    cases n0 with
    | none => exact absurd rfl (hv (none, a0) (by simp))
    | some n0 =>
      obtain ⟨i1, i2, i3⟩ := ih (fun e he => hv e (List.mem_cons_of_mem _ he))
      cases hm : L.mem n0 q with
      | true =>
        refine ⟨?_, ?_, .inr ⟨n0, a0, [], l, rfl, hm, by simp⟩⟩
        · rintro n acc ⟨b, a, h, hn, hb⟩
          cases b with
          | nil =>
            simp only [List.nil_append, List.cons.injEq, Prod.mk.injEq] at h
            simp [contains, hm, h.1.2]
          | cons x b =>
            simp only [List.cons_append, List.cons.injEq] at h
            have := hb x (by simp) n0 (by rw [← h.1])
            simp [hm] at this
        · intro h
          have := h (some n0, a0) (by simp) n0 rfl
          simp [hm] at this
      | false =>
        refine ⟨?_, ?_, ?_⟩
        · rintro n acc ⟨b, a, h, hn, hb⟩
          cases b with
          | nil =>
            simp only [List.nil_append, List.cons.injEq, Prod.mk.injEq, Option.some.injEq] at h
            rw [← h.1.1, hm] at hn
            simp at hn
          | cons x b =>
            simp only [List.cons_append, List.cons.injEq] at h
            simp only [contains, hm]
            exact i1 n acc ⟨b, a, h.2, hn, fun e he => hb e (List.mem_cons_of_mem _ he)⟩
        · intro h
          simp only [contains, hm]
          exact i2 (fun e he => h e (List.mem_cons_of_mem _ he))
        · rcases i3 with i3 | ⟨n, acc, b, a, h, hn, hb⟩
          · left
            intro e he n hn
            rcases List.mem_cons.1 he with rfl | he
            · simp only [Option.some.injEq] at hn; rw [← hn]; exact hm
            · exact i3 e he n hn
          · refine .inr ⟨n, acc, (some n0, a0) :: b, a, by rw [h]; rfl, hn, ?_⟩
            intro e he n' hn'
            rcases List.mem_cons.1 he with rfl | he
            · simp only [Option.some.injEq] at hn'; rw [← hn']; exact hm
            · exact hb e he n' hn'

theorem contains_append (L : NetLib A N) (q : A) (l more : List (Entry N)) {n : N} {acc : Bool}
    (hv : ValidNets l) (h : FirstEntry L q l n acc) : contains L q (l ++ more) = some acc := by
  obtain ⟨b, a, rfl, hn, hb⟩ := h
  induction b with
  | nil => simp [contains, hn]
  | cons e b ih =>
    obtain ⟨n0, a0⟩ := e
    cases n0 with
    | none => exact absurd rfl (hv (none, a0) (by simp))
    | some n0 =>
      have := hb (some n0, a0) (by simp) n0 rfl
      simp only [List.cons_append, contains, this]
      exact ih (fun e he => hv e (List.mem_cons_of_mem _ he)) (fun e he => hb e (List.mem_cons_of_mem _ he))

/-- **C25**.  Entries added at the end, valid or not, never change the answer for an address that
is already covered. -/
theorem C25_append (L : NetLib A N) (q : A) (l more : List (Entry N)) (n : N) (acc : Bool)
    (hv : ValidNets l) (h : FirstEntry L q l n acc) :
    contains L q (l ++ more) = contains L q l := by
  rw [contains_append L q l more hv h, (C25_first_match L q l hv).1 n acc h]

/-- Numbers as addresses, intervals as networks; `bad` is invalid, `?` unreadable. -/
def natNets : NetLib Nat (Nat × Nat) where
  mem := fun n q => n.1 ≤ q && q ≤ n.2
  loop4 := (127, 127)
  loop6 := (1, 1)
  extract := fun t =>
    if t = c!"a" then some (false, some (10, 19)) else if t = c!"b" then some (false, some (20, 29))
    else if t = c!"!a" then some (true, some (10, 19)) else if t = c!"bad" then some (false, none) else none

example : ValidNets [(some (10, 12), false), (some (10, 19), true)] ∧
    FirstEntry natNets 11 [(some (10, 12), false), (some (10, 19), true)] (10, 12) false ∧
    contains natNets 11 [(some (10, 12), false), (some (10, 19), true)] = some false ∧
    contains natNets 15 [(some (10, 12), false), (some (10, 19), true)] = some true := by
  refine ⟨?_, ⟨[], _, rfl, by decide, by simp⟩, by decide, by decide⟩
  intro e he
  simp only [List.mem_cons, List.not_mem_nil, or_false] at he
  rcases he with rfl | rfl <;> simp

/-- **C25** is violated: an entry whose network is not valid (such as `172.16`) is stored all the same, and every lookup
that reaches it raises: the answer of a list is not defined by its valid entries alone. -/
theorem C25_invalid_entry_violated (L : NetLib A N) (q : A) (before after : List (Entry N)) (acc : Bool) (hv : ValidNets before)
    (hn : NoEntry L q before) : contains L q (before ++ (none, acc) :: after) = none := by
  induction before with
  | nil => rfl
  | cons e before ih =>
    obtain ⟨n, b⟩ := e
    cases n with
    | none => exact absurd rfl (hv _ (List.mem_cons_self ..))
    | some n =>
      have hm : L.mem n q = false := by
        have := hn _ (List.mem_cons_self ..)
        simpa using this
      simp only [List.cons_append, contains, hm, Bool.false_eq_true, if_false]
      exact ih (fun e he => hv e (List.mem_cons_of_mem _ he)) (fun e he => hn e (List.mem_cons_of_mem _ he))

example :
    contains natNets 25 (configure natNets [.trusted c!"bad", .trusted c!"b"]).trusted = none ∧
    contains natNets 25 (configure natNets [.trusted c!"b"]).trusted = some true := by decide

/-! ### Histories -/

theorem foldl_inv {P : Nets N → Prop} (L : NetLib A N) (hs : ∀ s op, P s → P (step L s op)) :
    ∀ (ops : List NetOp) (s : Nets N), P s → P (ops.foldl (step L) s)
  | [], _, h => h
  | op :: ops, s, h => foldl_inv L hs ops (step L s op) (hs s op h)

theorem starts_step (L : NetLib A N) (s : Nets N) (op : NetOp)
    (h : alwaysAccepted L <+: s.trusted ∧ alwaysAccepted L <+: s.internal) :
    alwaysAccepted L <+: (step L s op).trusted ∧ alwaysAccepted L <+: (step L s op).internal := by
  have ext : ∀ (l m : List (Entry N)), alwaysAccepted L <+: l → alwaysAccepted L <+: l ++ m :=
    fun l m h => h.trans (List.prefix_append l m)
  cases op with
  | trusted t =>
    cases he : L.extract t with
    | none => simpa [step, addTrusted, he] using h
    | some p =>
      cases hc : s.internalConf <;> simp [step, addTrusted, he, hc, h, ext]
  | internal t =>
    cases he : L.extract t with
    | none => simpa [step, addInternal, he] using h
    | some p =>
      cases hc : s.internalConf <;> simp [step, addInternal, he, hc, h, ext]
  | msa t =>
    cases he : L.extract t with
    | none => simpa [step, addMsa, he] using h
    | some p => simpa [step, addMsa, he] using h

/-- **C26**.  After every history of configuration operations, including ones that are rejected or
invalid, and exclusions of loopback, an address in one of the loopback networks is trusted and
internal. -/
theorem C26_loopback (L : NetLib A N) (ops : List NetOp) (q : A)
    (hq : L.mem L.loop4 q = true ∨ L.mem L.loop6 q = true) :
    contains L q (configure L ops).trusted = some true ∧
    contains L q (configure L ops).internal = some true := by
  have h := foldl_inv L (starts_step L) ops (Nets.init L)
    ⟨List.prefix_rfl, List.prefix_rfl⟩
  have key : ∀ l : List (Entry N), alwaysAccepted L <+: l → contains L q l = some true := by
    rintro l ⟨t, rfl⟩
    cases h4 : L.mem L.loop4 q with
    | true => simp [alwaysAccepted, contains, h4]
    | false =>
      have h6 : L.mem L.loop6 q = true := by
        rcases hq with h | h
        · rw [h4] at h; cases h
        · exact h
      simp [alwaysAccepted, contains, h4, h6]
  exact ⟨key _ h.1, key _ h.2⟩

example : natNets.mem natNets.loop4 127 = true ∧
    (configure natNets [.internal c!"!a", .trusted c!"bad", .msa c!"?"]).trusted.length = 4 := by decide

theorem trusted_shape (L : NetLib A N) (ops : List NetOp) (s : Nets N) :
    (ops.foldl (step L) s).trusted = s.trusted ++ trustedEntries L ops := by
  induction ops generalizing s with
  | nil => simp [trustedEntries]
  | cons op ops ih =>
    rw [List.foldl_cons, ih]
    have : (step L s op).trusted = s.trusted ++
        (match op with | .internal t => entryOf L t | .trusted t => entryOf L t | .msa _ => []) := by
      cases op with
      | trusted t =>
        cases he : L.extract t with
        | none => simp [step, addTrusted, he, entryOf]
        | some p => cases hc : s.internalConf <;> simp [step, addTrusted, he, hc, entryOf]
      | internal t => cases he : L.extract t <;> simp [step, addInternal, he, entryOf]
      | msa t => cases he : L.extract t <;> simp [step, addMsa, he]
    rw [this]
    cases op <;> simp [trustedEntries]

/-- **C27**.  As long as only trusted networks are configured, internal and trusted coincide for
every address. -/
theorem C27_coincide (L : NetLib A N) (ops : List NetOp) (h : ∀ op ∈ ops, isTrustedOp op = true) (q : A) :
    contains L q (configure L ops).internal = contains L q (configure L ops).trusted := by
  suffices ∀ (ops : List NetOp) (s : Nets N), (∀ op ∈ ops, isTrustedOp op = true) → s.internalConf = false →
      s.internal = s.trusted → (ops.foldl (step L) s).internal = (ops.foldl (step L) s).trusted by
    unfold configure
    rw [this ops (Nets.init L) h rfl rfl]
  intro ops
  induction ops with
  | nil => intro s _ _ e; exact e
  | cons op ops ih =>
    intro s h hc e
    rw [List.foldl_cons]
    have hop := h op (by simp)
    cases op with
    | internal t => simp [isTrustedOp] at hop
    | msa t => simp [isTrustedOp] at hop
    | trusted t =>
      apply ih _ (fun o ho => h o (List.mem_cons_of_mem _ ho))
      · cases he : L.extract t <;> simp [step, addTrusted, he, hc]
      · cases he : L.extract t <;> simp [step, addTrusted, he, hc, e]

theorem internal_shape (L : NetLib A N) (ops : List NetOp) (s : Nets N) (hc : s.internalConf = true) :
    (ops.foldl (step L) s).internal = s.internal ++ internalEntries L ops := by
  induction ops generalizing s with
  | nil => simp [internalEntries]
  | cons op ops ih =>
    rw [List.foldl_cons, ih]
    · have : (step L s op).internal = s.internal ++
          (match op with | .internal t => entryOf L t | _ => []) := by
        cases op with
        | trusted t => cases he : L.extract t <;> simp [step, addTrusted, he, hc]
        | internal t => cases he : L.extract t <;> simp [step, addInternal, he, hc, entryOf]
        | msa t => cases he : L.extract t <;> simp [step, addMsa, he]
      rw [this]
      cases op <;> simp [internalEntries]
    · cases op with
      | trusted t => cases he : L.extract t <;> simp [step, addTrusted, he, hc]
      | internal t => cases he : L.extract t <;> simp [step, addInternal, he, hc]
      | msa t => cases he : L.extract t <;> simp [step, addMsa, he, hc]

theorem internal_before (L : NetLib A N) (ops : List NetOp) (s : Nets N)
    (h : ∀ op ∈ ops, isTrustedOp op = true) (hc : s.internalConf = false) :
    (ops.foldl (step L) s).internalConf = false := by
  induction ops generalizing s with
  | nil => exact hc
  | cons op ops ih =>
    rw [List.foldl_cons]
    have hop := h op (by simp)
    cases op with
    | internal t => simp [isTrustedOp] at hop
    | msa t => simp [isTrustedOp] at hop
    | trusted t =>
      apply ih _ (fun o ho => h o (List.mem_cons_of_mem _ ho))
      cases he : L.extract t <;> simp [step, addTrusted, he, hc]

/-- **C27** (partial).  Once a readable internal network is given, the internal networks are
loopback and the listed internal ones, whatever trusted networks came before or come later; and
the trusted networks are loopback and all listed trusted and internal ones, in the order given.

Missing: histories in which an MSA network is configured before the first internal one
(`C27_msa_violated`). -/
theorem C27_internal_partial (L : NetLib A N) (before after : List NetOp) (t : Str)
    (hb : ∀ op ∈ before, isTrustedOp op = true) (ht : (L.extract t).isSome = true) :
    (configure L (before ++ .internal t :: after)).internal =
      alwaysAccepted L ++ internalEntries L (before ++ .internal t :: after) ∧
    (configure L (before ++ .internal t :: after)).trusted =
      alwaysAccepted L ++ trustedEntries L (before ++ .internal t :: after) := by
  refine ⟨?_, trusted_shape L _ _⟩
  have hc := internal_before L before (Nets.init L) hb rfl
  unfold configure
  rw [List.foldl_append, List.foldl_cons]
  cases he : L.extract t with
  | none => simp [he] at ht
  | some p =>
    rw [internal_shape]
    · have h0 : internalEntries L before = [] := by
        unfold internalEntries
        rw [List.flatMap_eq_nil_iff]
        intro op ho
        have := hb op ho
        cases op <;> simp_all [isTrustedOp]
      have e1 : internalEntries L (before ++ .internal t :: after) =
          internalEntries L before ++ (entryOf L t ++ internalEntries L after) := by
        simp [internalEntries]
      rw [e1, h0]
      simp [step, addInternal, he, hc, entryOf]
    · simp [step, addInternal, he]

example : (configure natNets [.trusted c!"a", .internal c!"b", .msa c!"a"]).internal =
    alwaysAccepted natNets ++ [(some (20, 29), true)] := by decide

/-- **C27**.  Every internal network is also trusted, unless an earlier trusted or internal entry
covers the address. -/
theorem C27_internal_is_trusted (L : NetLib A N) (before after : List NetOp) (t : Str) (n : N) (q : A)
    (ht : L.extract t = some (false, some n)) (hq : L.mem n q = true)
    (hv : ValidNets (trustedEntries L before)) (hn : NoEntry L q (trustedEntries L before)) :
    contains L q (configure L (before ++ .internal t :: after)).trusted = some true := by
  have shape : (configure L (before ++ .internal t :: after)).trusted =
      (alwaysAccepted L ++ trustedEntries L before ++ [(some n, true)]) ++ trustedEntries L after := by
    unfold configure
    rw [trusted_shape]
    simp [trustedEntries, entryOf, ht, Nets.init]
  rw [shape]
  have key : ∀ (l more : List (Entry N)), ValidNets l → NoEntry L q l →
      contains L q (l ++ [(some n, true)] ++ more) = some true := by
    intro l more hv hn
    exact contains_append L q _ more (n := n)
      (by
        intro e he
        rcases List.mem_append.1 he with he | he
        · exact hv e he
        · simp only [List.mem_singleton] at he; rw [he]; simp)
      ⟨l, [], by simp, hq, hn⟩
  cases h4 : L.mem L.loop4 q with
  | true => simp [alwaysAccepted, contains, h4]
  | false =>
    cases h6 : L.mem L.loop6 q with
    | true => simp [alwaysAccepted, contains, h4, h6]
    | false =>
      have := key (trustedEntries L before) (trustedEntries L after) hv hn
      simpa [alwaysAccepted, contains, h4, h6] using this

theorem msa_shape (L : NetLib A N) : ∀ (ops : List NetOp) (s : Nets N),
    (ops.foldl (step L) s).msa = s.msa ++ msaEntries L ops := by
  intro ops
  induction ops with
  | nil => intro s; simp [msaEntries]
  | cons op ops ih =>
    intro s
    rw [List.foldl_cons, ih]
    cases op with
    | trusted t =>
      cases he : L.extract t with
      | none => simp [step, addTrusted, he, msaEntries]
      | some p => cases hc : s.internalConf <;> simp [step, addTrusted, he, hc, msaEntries]
    | internal t => cases he : L.extract t <;> simp [step, addInternal, he, msaEntries]
    | msa t => cases he : L.extract t <;> simp [step, addMsa, he, msaEntries, entryOf]

/-- **C27**.  The MSA networks are exactly those of the MSA lines, in their order; no loopback address is among them. -/
theorem C27_msa (L : NetLib A N) (ops : List NetOp) : (configure L ops).msa = msaEntries L ops := by
  unfold configure
  rw [msa_shape]
  rfl

example : msaEntries natNets [.msa c!"!a", .trusted c!"b", .msa c!"?", .msa c!"b"] =
    [(some (10, 19), false), (some (20, 29), true)] := by decide

/-- **C27** is violated: with an MSA network configured before, the first internal network does not clear the trusted
ones: the networks that are only trusted stay internal. -/
theorem C27_msa_violated (L : NetLib A N) (before after : List NetOp) (m t : Str) (hb : ∀ op ∈ before, isTrustedOp op = true)
    (hm : (L.extract m).isSome = true) :
    (configure L (before ++ .msa m :: .internal t :: after)).internal =
      alwaysAccepted L ++ trustedEntries L before ++ internalEntries L (.internal t :: after) := by
  have hs : ∀ (ops : List NetOp) (s : Nets N), (∀ op ∈ ops, isTrustedOp op = true) → s.internalConf = false →
      (ops.foldl (step L) s).internal = s.internal ++ trustedEntries L ops := by
    intro ops
    induction ops with
    | nil => intro s _ _; simp [trustedEntries]
    | cons op ops ih =>
      intro s h hc
      have hop := h op (by simp)
      cases op with
      | internal t => simp [isTrustedOp] at hop
      | msa t => simp [isTrustedOp] at hop
      | trusted t =>
        rw [List.foldl_cons, ih _ (fun o ho => h o (List.mem_cons_of_mem _ ho))]
        · cases he : L.extract t <;> simp [step, addTrusted, he, hc, trustedEntries, entryOf]
        · cases he : L.extract t <;> simp [step, addTrusted, he, hc]
  unfold configure
  rw [List.foldl_append, List.foldl_cons, internal_shape]
  · have e : (step L (before.foldl (step L) (Nets.init L)) (.msa m)).internal = (before.foldl (step L) (Nets.init L)).internal := by
      cases he : L.extract m <;> simp [step, addMsa, he]
    rw [e, hs before _ hb rfl]
    rfl
  · cases he : L.extract m with
    | none => simp [he] at hm
    | some p => simp [step, addMsa, he]

/-- An address that is only trusted is internal. -/
example :
    contains natNets 15 (configure natNets [.trusted c!"a", .msa c!"b", .internal c!"b"]).internal = some true ∧
    contains natNets 15 (alwaysAccepted natNets ++
      internalEntries natNets [.trusted c!"a", .msa c!"b", .internal c!"b"]) = some false := by decide

/-- The lists are shared by all contexts of a process: a new context that configures nothing still
trusts the networks an earlier one configured, while in a fresh process it does not. -/
theorem C21_networks_violated :
    contains natNets 15 (newContext (configure natNets [.trusted c!"a"])).trusted = some true ∧
    contains natNets 15 (newContext (Nets.init natNets)).trusted = some false := by decide

end Verif.Props
