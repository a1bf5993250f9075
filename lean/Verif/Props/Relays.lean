import Verif.Spec.Net
import Verif.Props.Networks

/-!
# C28–C31: relays and envelope sender
-/

namespace Verif.Props
open Verif Py Net Relay Spec

variable {A N : Type}

/-- The state of the walk and the lists are in step: what was trusted (internal) is a beginning of
what was seen, and all of it as long as the flag holds. -/
structure WalkInv (seen : List (Relay A)) (w : Walk) (l : Lists A) : Prop where
  trust : l.trusted ++ l.untrusted = seen
  intern : l.internal ++ l.external = seen
  noUntrusted : w.trusted = true → l.untrusted = []
  noExternal : w.internal = true → l.external = []
  sub : l.internal <+: l.trusted
  imp : w.internal = true → w.trusted = true
  marks : l.marks.map Prod.snd = List.replicate l.internal.length true ++ List.replicate l.external.length false

theorem advance_mono (c p a i t m : Bool) (w : Walk) (h : w.internal = true → w.trusted = true) :
    ((advance c p a i t m w).1.trusted = true → w.trusted = true) ∧
    ((advance c p a i t m w).1.internal = true → w.internal = true) ∧
    ((advance c p a i t m w).1.internal = true → (advance c p a i t m w).1.trusted = true) := by
  obtain ⟨wt, wi, wm⟩ := w
  revert h
  cases c <;> cases p <;> cases a <;> cases i <;> cases t <;> cases m <;> cases wt <;> cases wi <;> cases wm <;>
    simp [advance]

theorem walkInv_add {seen : List (Relay A)} {w w' : Walk} {l : Lists A} (r : Relay A) (msa : Bool)
    (h : WalkInv seen w l) (h1 : w'.trusted = true → w.trusted = true)
    (h2 : w'.internal = true → w.internal = true) (h3 : w'.internal = true → w'.trusted = true) :
    WalkInv (seen ++ [r]) w' (l.add r w' msa) := by
  obtain ⟨a1, a2, a3, a4, a5, a6, a7⟩ := h
  cases ht : w'.trusted with
  | true =>
    have hu := a3 (h1 ht)
    rw [hu, List.append_nil] at a1
    cases hi : w'.internal with
    | true =>
      have hx := a4 (h2 hi)
      rw [hx, List.append_nil] at a2
      constructor <;> simp_all [Lists.add, List.replicate_succ']
    | false =>
      have s1 : l.internal <+: l.trusted ++ [r] := a5.trans (List.prefix_append _ _)
      have s2 : l.internal ++ (l.external ++ [r]) = seen ++ [r] := by rw [← List.append_assoc, a2]
      constructor <;> simp_all [Lists.add, List.replicate_succ']
  | false =>
    have hi : w'.internal = false := by
      cases hi : w'.internal with
      | false => rfl
      | true => rw [h3 hi] at ht; cases ht
    constructor <;> simp_all [Lists.add, List.replicate_succ']
    · rw [← List.append_assoc, a1]
    · rw [← List.append_assoc, a2]

theorem walk_inv (L : NetLib A N) (isPrivate : A → Bool) (s : Nets N) (rs : List (Relay A)) :
    ∀ (seen : List (Relay A)) (w : Walk) (l out : Lists A), WalkInv seen w l →
      walk L isPrivate s rs w l = some out → ∃ w', WalkInv (seen ++ located rs) w' out := by
  induction rs with
  | nil =>
    intro seen w l out h ho
    simp only [walk, Option.some.injEq] at ho
    subst ho
    exact ⟨w, by simpa [located] using h⟩
  | cons r rs ih =>
    intro seen w l out h ho
    rw [walk] at ho
    cases hip : r.ip with
    | none =>
      simp only [hip] at ho
      obtain ⟨w', hw⟩ := ih seen w l out h ho
      exact ⟨w', by simpa [located, hip] using hw⟩
    | some ip =>
      simp only [hip] at ho
      split at ho
      · rename_i i t m _ _ _
        obtain ⟨m1, m2, m3⟩ := advance_mono s.configured (isPrivate ip) r.auth i t m w h.imp
        obtain ⟨w', hw⟩ := ih (seen ++ [r]) _ _ out (walkInv_add r _ h m1 m2 m3) ho
        exact ⟨w', by simpa [located, hip] using hw⟩
      · simp at ho

theorem relays_inv (L : NetLib A N) (isPrivate : A → Bool) (s : Nets N) (rs : List (Relay A)) (out : Lists A)
    (h : parseRelays L isPrivate s rs = some out) : ∃ w, WalkInv (located rs) w out := by
  have := walk_inv L isPrivate s rs [] ⟨true, true, false⟩ ⟨[], [], [], [], []⟩ out
    ⟨rfl, rfl, fun _ => rfl, fun _ => rfl, List.prefix_rfl, fun _ => rfl, rfl⟩ h
  simpa using this

/-- **C28** and **C29**.  The relays with an address, in their order, are the trusted ones
followed by the untrusted ones, and the internal ones followed by the external ones: each is in
exactly one list of each pair, none is lost, reordered or duplicated, relays without address are
in no list, and after the first untrusted (external) relay all are untrusted (external). -/
theorem C28_partition (L : NetLib A N) (isPrivate : A → Bool) (s : Nets N) (rs : List (Relay A)) (out : Lists A)
    (h : parseRelays L isPrivate s rs = some out) :
    out.trusted ++ out.untrusted = located rs ∧ out.internal ++ out.external = located rs := by
  obtain ⟨w, hw⟩ := relays_inv L isPrivate s rs out h
  exact ⟨hw.trust, hw.intern⟩

/-- **C28**.  The field `intl` written to the relays with an address says whether the relay is in
the internal list. -/
theorem C28_marks (L : NetLib A N) (isPrivate : A → Bool) (s : Nets N) (rs : List (Relay A)) (out : Lists A)
    (h : parseRelays L isPrivate s rs = some out) :
    out.marks.map Prod.snd =
      List.replicate out.internal.length true ++ List.replicate out.external.length false := by
  obtain ⟨w, hw⟩ := relays_inv L isPrivate s rs out h
  exact hw.marks

/-- **C29**.  The internal relays are a beginning of the trusted ones. -/
theorem C29_prefix (L : NetLib A N) (isPrivate : A → Bool) (s : Nets N) (rs : List (Relay A)) (out : Lists A)
    (h : parseRelays L isPrivate s rs = some out) :
    out.trusted <+: located rs ∧ out.internal <+: located rs ∧ out.internal <+: out.trusted := by
  obtain ⟨w, hw⟩ := relays_inv L isPrivate s rs out h
  exact ⟨⟨_, hw.trust⟩, ⟨_, hw.intern⟩, hw.sub⟩

/-! ### C30 -/

theorem upTo_cons (p msa : Relay A → Bool) (r : Relay A) (rs : List (Relay A)) :
    upTo p msa (r :: rs) = if p r then (if msa r then r :: rs else r :: upTo p msa rs) else [] := by
  unfold upTo
  cases hp : p r with
  | false => simp [List.takeWhile_cons, hp]
  | true =>
    cases hm : msa r with
    | true => simp [List.takeWhile_cons, hp, hm]
    | false =>
      simp only [List.takeWhile_cons, hp, List.any_cons, hm, if_true, Bool.false_or]
      cases ((rs.takeWhile p).any msa) <;> simp

/-- The lists add up from where the walk stands. -/
theorem walk_shape (L : NetLib A N) (isPrivate : A → Bool) (s : Nets N) (rs : List (Relay A)) :
    ∀ (w : Walk) (l out : Lists A), (w.internal = true → w.trusted = true) →
      walk L isPrivate s rs w l = some out →
      let ok := fun r => inList L s.trusted r || r.auth
      let near := fun r => (inList L s.trusted r || r.auth) && (r.auth || inList L s.internal r)
      let priv := fun r => onPrivate isPrivate r || r.auth
      let msa := inList L s.msa
      (s.configured = true →
        out.trusted = l.trusted ++ (if w.trusted then (if w.msa then located rs else upTo ok msa (located rs)) else []) ∧
        out.internal = l.internal ++ (if w.internal then (if w.msa then located rs else upTo near msa (located rs)) else [])) ∧
      (s.configured = false → w.msa = false →
        out.trusted = l.trusted ++ (if w.trusted then (located rs).takeWhile priv else []) ∧
        out.internal = l.internal ++ (if w.internal then (located rs).takeWhile priv else [])) := by
  induction rs with
  | nil =>
    intro w l out _ ho
    simp only [walk, Option.some.injEq] at ho
    subst ho
    simp [located, upTo]
  | cons r rs ih =>
    intro w l out hw ho
    rw [walk] at ho
    cases hip : r.ip with
    | none =>
      simp only [hip] at ho
      have hl : located (r :: rs) = located rs := by simp [located, hip]
      rw [hl]
      exact ih w l out hw ho
    | some ip =>
      simp only [hip] at ho
      have hl : located (r :: rs) = r :: located rs := by simp [located, hip]
      rw [hl]
      split at ho
      · rename_i i t m hi ht hm
        have ei : inList L s.internal r = i := by simp [inList, hip, hi]
        have et : inList L s.trusted r = t := by simp [inList, hip, ht]
        have em : inList L s.msa r = m := by simp [inList, hip, hm]
        have ep : onPrivate isPrivate r = isPrivate ip := by simp [onPrivate, hip]
        have := ih _ _ out (advance_mono s.configured (isPrivate ip) r.auth i t m w hw).2.2 ho
        simp only at this
        obtain ⟨g1, g2⟩ := this
        simp only
        obtain ⟨wt, wi, wm⟩ := w
        constructor
        · intro hc
          obtain ⟨t1, t2⟩ := g1 hc
          rw [t1, t2, hc]
          clear ho ih g1 g2 t1 t2 hi ht hm
          cases ha : r.auth <;> cases i <;> cases t <;> cases m <;> cases wt <;> cases wi <;> cases wm <;>
            simp_all [advance, Lists.add, upTo_cons]
        · intro hc hm0
          simp only at hm0
          subst hm0
          have hmsa : (advance s.configured (isPrivate ip) r.auth i t m ⟨wt, wi, false⟩).1.msa = false := by
            rw [hc]
            cases hp : isPrivate ip <;> cases ha : r.auth <;> cases wt <;> simp [advance]
          obtain ⟨t1, t2⟩ := g2 hc hmsa
          rw [t1, t2, hc]
          clear ho ih g1 g2 t1 t2 hi ht hm hmsa
          cases hp : isPrivate ip <;> cases ha : r.auth <;> cases wt <;> cases wi <;>
            simp_all [advance, Lists.add, List.takeWhile_cons]
      · simp at ho

/-- **C30**.  With networks configured, trust extends exactly through the relays that are in the
trusted networks or authenticated; if an MSA relay is among these, through all relays.  Being
internal extends exactly through the relays that, besides, are internal or authenticated, with the
same rule for an MSA. -/
theorem C30_configured (L : NetLib A N) (isPrivate : A → Bool) (s : Nets N) (rs : List (Relay A)) (out : Lists A)
    (hc : s.configured = true) (h : parseRelays L isPrivate s rs = some out) :
    out.trusted = upTo (fun r => inList L s.trusted r || r.auth) (inList L s.msa) (located rs) ∧
    out.internal = upTo (fun r => (inList L s.trusted r || r.auth) && (r.auth || inList L s.internal r))
      (inList L s.msa) (located rs) := by
  have := (walk_shape L isPrivate s rs _ _ out (fun _ => rfl) h).1 hc
  simpa using this

/-- **C30**.  Networks count as configured exactly if a line of any of the three kinds could be read. -/
theorem C30_configured_iff (L : NetLib A N) (ops : List NetOp) :
    (configure L ops).configured = true ↔ ∃ op ∈ ops, Readable L op := by
  have key : ∀ (ops : List NetOp) (s : Nets N), (ops.foldl (step L) s).configured = true ↔
      s.configured = true ∨ ∃ op ∈ ops, Readable L op := by
    intro ops
    induction ops with
    | nil => intro s; simp
    | cons op ops ih =>
      intro s
      rw [List.foldl_cons, ih]
      have : (step L s op).configured = true ↔ s.configured = true ∨ Readable L op := by
        cases op with
        | trusted t =>
          cases he : L.extract t with
          | none => simp [step, addTrusted, he, Readable]
          | some p => cases hc : s.internalConf <;> simp [step, addTrusted, he, hc, Readable, Nets.configured]
        | internal t => cases he : L.extract t <;> simp [step, addInternal, he, Readable, Nets.configured]
        | msa t => cases he : L.extract t <;> simp [step, addMsa, he, Readable, Nets.configured]
      rw [this]
      simp only [List.mem_cons, exists_eq_or_imp, or_assoc]
  rw [configure, key]
  simp [Nets.configured, Nets.init]

/-- **C30**.  With no networks configured, trust and being internal both extend exactly through
the relays with a private address and the authenticated ones. -/
theorem C30_unconfigured (L : NetLib A N) (isPrivate : A → Bool) (s : Nets N) (rs : List (Relay A)) (out : Lists A)
    (hc : s.configured = false) (h : parseRelays L isPrivate s rs = some out) :
    out.trusted = (located rs).takeWhile (fun r => onPrivate isPrivate r || r.auth) ∧
    out.internal = (located rs).takeWhile (fun r => onPrivate isPrivate r || r.auth) := by
  have := (walk_shape L isPrivate s rs _ _ out (fun _ => rfl) h).2 hc rfl
  simpa using this

theorem walk_marks (L : NetLib A N) (isPrivate : A → Bool) (s : Nets N) (rs : List (Relay A)) :
    ∀ (w : Walk) (l out : Lists A), walk L isPrivate s rs w l = some out →
      out.marks.map Prod.fst = l.marks.map Prod.fst ++
        (if s.configured && w.trusted && !w.msa then
          msaField (fun r => inList L s.trusted r || r.auth) (inList L s.msa) (located rs)
         else (located rs).map (fun _ => false)) := by
  induction rs with
  | nil =>
    intro w l out ho
    simp only [walk, Option.some.injEq] at ho
    subst ho
    simp [located, msaField]
  | cons r rs ih =>
    intro w l out ho
    rw [walk] at ho
    cases hip : r.ip with
    | none =>
      simp only [hip] at ho
      have hl : located (r :: rs) = located rs := by simp [located, hip]
      rw [hl]
      exact ih w l out ho
    | some ip =>
      simp only [hip] at ho
      have hl : located (r :: rs) = r :: located rs := by simp [located, hip]
      rw [hl]
      split at ho
      · rename_i i t m hi ht hm
        have et : inList L s.trusted r = t := by simp [inList, hip, ht]
        have em : inList L s.msa r = m := by simp [inList, hip, hm]
        rw [ih _ _ out ho]
        obtain ⟨wt, wi, wm⟩ := w
        clear ho ih hi ht hm
        cases hc : s.configured <;> cases hp : isPrivate ip <;> cases ha : r.auth <;> cases i <;> cases t <;>
          cases m <;> cases wt <;> cases wi <;> cases wm <;>
          simp_all [advance, Lists.add, msaField]
      · simp at ho

/-- **C30**.  The field `msa` is set exactly for the relay at which the trust state is frozen. -/
theorem C30_msa_field (L : NetLib A N) (isPrivate : A → Bool) (s : Nets N) (rs : List (Relay A)) (out : Lists A)
    (h : parseRelays L isPrivate s rs = some out) :
    out.marks.map Prod.fst =
      if s.configured then msaField (fun r => inList L s.trusted r || r.auth) (inList L s.msa) (located rs)
      else (located rs).map (fun _ => false) := by
  have := walk_marks L isPrivate s rs _ _ out h
  simpa using this

/-- **C28**.  With valid networks every list of relays is classified. -/
theorem C28_total (L : NetLib A N) (isPrivate : A → Bool) (s : Nets N) (rs : List (Relay A))
    (hi : ValidNets s.internal) (ht : ValidNets s.trusted) (hm : ValidNets s.msa) :
    (parseRelays L isPrivate s rs).isSome = true := by
  have key : ∀ (l : List (Entry N)) (q : A), ValidNets l → ∃ b, contains L q l = some b := by
    intro l q hv
    obtain ⟨h1, h2, h3⟩ := C25_first_match L q l hv
    rcases h3 with h | ⟨n, acc, h⟩
    · exact ⟨_, h2 h⟩
    · exact ⟨_, h1 n acc h⟩
  suffices ∀ w l, (walk L isPrivate s rs w l).isSome = true from this _ _
  induction rs with
  | nil => intro w l; rfl
  | cons r rs ih =>
    intro w l
    rw [walk]
    cases hip : r.ip with
    | none => exact ih w l
    | some ip =>
      obtain ⟨i, e1⟩ := key s.internal ip hi
      obtain ⟨t, e2⟩ := key s.trusted ip ht
      obtain ⟨m, e3⟩ := key s.msa ip hm
      simp only [e1, e2, e3]
      exact ih _ _

def relay (ip : Nat) (auth : Bool) (from_ : Str) : Relay Nat := ⟨some ip, auth, from_, []⟩
def demoRelays : List (Relay Nat) :=
  [relay 25 false c!"in@x", ⟨none, false, [], []⟩, relay 15 false [], relay 99 false c!" a@b ", relay 25 false []]

example : (configure natNets [.trusted c!"a", .internal c!"b"]).configured = true ∧
    ∃ out, parseRelays natNets (fun _ => false) (configure natNets [.trusted c!"a", .internal c!"b"]) demoRelays = some out ∧
      out.internal.map Relay.ip = [some 25] ∧ out.trusted.map Relay.ip = [some 25, some 15] ∧
      out.untrusted.map Relay.ip = [some 99, some 25] := ⟨by decide, _, rfl, by decide, by decide, by decide⟩
example : (Nets.init natNets).configured = false ∧
    ∃ out, parseRelays natNets (fun q => q < 30) (Nets.init natNets) demoRelays = some out ∧
      out.trusted.map Relay.ip = [some 25, some 15] := ⟨by decide, _, rfl, by decide⟩
example : ∃ out, parseRelays natNets (fun _ => false) (configure natNets [.trusted c!"a", .msa c!"a"])
      [relay 15 false [], relay 99 false []] = some out ∧ out.trusted.map Relay.ip = [some 15, some 99] :=
  ⟨_, rfl, by decide⟩

example : ∃ out, parseRelays natNets (fun _ => false) (configure natNets [.trusted c!"a", .msa c!"a"])
      [relay 15 false [], relay 15 false []] = some out ∧ out.marks.map Prod.fst = [true, false] :=
  ⟨_, rfl, by decide⟩

/-- **C28** is violated: if looking up the address of one relay in the trusted networks reaches an invalid network
(`C25_invalid_entry_violated`), the classification of all relays fails. -/
theorem C28_invalid_network_violated (L : NetLib A N) (isPrivate : A → Bool) (s : Nets N) (rs : List (Relay A)) (r : Relay A) (ip : A)
    (hr : r ∈ rs) (hip : r.ip = some ip) (hc : contains L ip s.trusted = none) : parseRelays L isPrivate s rs = none := by
  unfold parseRelays
  generalize (⟨true, true, false⟩ : Walk) = w
  generalize (⟨[], [], [], [], []⟩ : Lists A) = l
  induction rs generalizing w l with
  | nil => exact absurd hr (by simp)
  | cons x rs ih =>
    rcases List.mem_cons.1 hr with rfl | hr
    · simp only [walk, hip, hc]
      cases contains L ip s.internal <;> rfl
    · simp only [walk]
      split
      · exact ih hr _ _
      · split
        · exact ih hr _ _
        · rfl

/-- One invalid network in the configuration makes the classification of relays fail. -/
example :
    parseRelays natNets (fun _ => false) (configure natNets [.trusted c!"bad"]) demoRelays = none := by decide

/-! ### C31 -/

theorem headers_first (addrs : Str → List Str) (hs : List Str) :
    senderFromHeaders addrs hs = firstSender (hs.map (fun h => ((addrs h).head?).getD [])) := by
  unfold firstSender
  induction hs with
  | nil => rfl
  | cons h hs ih =>
    rw [senderFromHeaders, ih]
    cases ha : addrs h with
    | nil => simp [ha]
    | cons a as => cases a <;> simp [ha]

/-- **C31**.  If there are external relays, the envelope sender is the one recorded by the first of
them, or unknown: whatever the headers say is irrelevant. -/
theorem C31_external (addrs : Str → List Str) (always : Bool) (conf : List Str) (l : Lists A)
    (r : Relay A) (rest : List (Relay A)) (h : l.external = r :: rest) :
    parseSender addrs always conf l = firstSender [r.envfrom] := by
  unfold parseSender firstSender
  cases he : r.envfrom <;> simp [h, he]

/-- **C31**.  Without external relays, it is the first non-empty one of: the sender recorded by the
last trusted relay (unless `always_trust_envelope_sender` is set), and the first address of each
configured (else default) sender header, in order. -/
theorem C31_no_external (L : NetLib A N) (isPrivate : A → Bool) (s : Nets N) (rs : List (Relay A))
    (addrs : Str → List Str) (always : Bool) (conf : List Str) (l : Lists A)
    (hp : parseRelays L isPrivate s rs = some l) (h : l.external = []) :
    parseSender addrs always conf l =
      firstSender ((if always then [] else [((l.trusted.getLast?).map Relay.envfrom).getD []]) ++
        ((if conf = [] then [c!"X-Sender", c!"X-Envelope-From", c!"Envelope-Sender", c!"Return-Path"] else conf).map
          (fun h => ((addrs h).head?).getD []))) := by
  obtain ⟨w, hw⟩ := relays_inv L isPrivate s rs l hp
  have hu : l.untrusted = [] := by
    have e := hw.intern
    rw [h, List.append_nil] at e
    have t := hw.trust
    obtain ⟨x, hx⟩ := hw.sub
    have hlen := congrArg List.length t
    rw [← hx, ← e] at hlen
    simp only [List.length_append] at hlen
    exact List.eq_nil_of_length_eq_zero (by omega)
  unfold parseSender
  simp only [h, hu, headers_first, defaultSenderHeaders]
  cases always with
  | true => simp
  | false =>
    cases ht : l.trusted.getLast? with
    | none => simp [firstSender]
    | some r => cases he : r.envfrom <;> simp [firstSender, he]

example : ∃ l, parseRelays natNets (fun _ => false) (configure natNets [.trusted c!"a", .internal c!"b"]) demoRelays = some l ∧
    l.external ≠ [] ∧ parseSender (fun _ => [c!"forged@x"]) false [] l = none := ⟨_, rfl, by decide, by decide⟩
example : ∃ l, parseRelays natNets (fun _ => true) (Nets.init natNets) demoRelays = some l ∧ l.external = [] ∧
    parseSender (fun _ => [c!"h@x"]) false [] l = some c!"h@x" := ⟨_, rfl, by decide, by decide⟩

end Verif.Props
