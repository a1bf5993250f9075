import Verif.Spec.Services
import Verif.Lemmas.Headers
import Verif.Lemmas.Py
import Verif.Lemmas.Split
import Verif.Props.DnsEval

/-!
# Services: C112 to C117
-/

namespace Verif.Props
open Verif Py Services

/-! ### Pyzor -/

theorem lists_iff (max n w : Int) : Lists max (some (n, w)) ↔ max ≤ n ∧ w = 0 := by
  constructor
  · rintro ⟨k, h, hk⟩
    injection h with h
    injection h with h1 h2
    exact ⟨h1 ▸ hk, h2⟩
  · rintro ⟨h, rfl⟩; exact ⟨n, rfl, h⟩

theorem pyzorLoop_exact (ask : Str → Answer) (max : Int) (servers : List Str) (st : Asked) :
    (pyzorLoop ask max servers st).1 = some true ↔
      ∃ a s b, servers = a ++ s :: b ∧ (∀ x ∈ a, Answers (ask x)) ∧ Lists max (ask s) := by
  induction servers generalizing st with
  | nil => simp [pyzorLoop]
  | cons s rest ih =>
    unfold pyzorLoop
    cases h : ask s with
    | none =>
      simp only [h]
      constructor
      · intro hh; cases hh
      · rintro ⟨a, x, b, h1, h2, h3⟩
        exfalso
        cases a with
        | nil =>
          injection h1 with h1 _
          subst h1
          rw [h] at h3
          obtain ⟨_, h4, _⟩ := h3
          cases h4
        | cons y a =>
          injection h1 with h1 _
          subst h1
          exact h2 s (by simp) h
    | some p =>
      obtain ⟨n, w⟩ := p
      simp only [h]
      by_cases hc : max ≤ n ∧ w = 0
      · rw [if_pos hc]
        exact iff_of_true rfl ⟨[], s, rest, rfl, by simp, by rw [h]; exact (lists_iff ..).2 hc⟩
      · rw [if_neg hc, ih]
        constructor
        · rintro ⟨a, x, b, h1, h2, h3⟩
          refine ⟨s :: a, x, b, by rw [h1]; rfl, ?_, h3⟩
          intro y hy
          rcases List.mem_cons.1 hy with rfl | hy
          · unfold Answers; rw [h]; simp
          · exact h2 y hy
        · rintro ⟨a, x, b, h1, h2, h3⟩
          cases a with
          | nil =>
            injection h1 with h1 _
            subst h1
            rw [h] at h3
            exact absurd ((lists_iff ..).1 h3) hc
          | cons y a =>
            injection h1 with _ h1
            exact ⟨a, x, b, h1, fun z hz => h2 z (by simp [hz]), h3⟩

/-- **C112**, in part.  A message is found by Pyzor exactly if the plugin is on and some server lists it, all servers before it
answering. -/
theorem C112_exact_partial (use : Bool) (ask : Str → Answer) (max : Int) (servers : List Str) :
    holds (checkPyzor use ask max servers).1 = true ↔
      use = true ∧ ∃ a s b, servers = a ++ s :: b ∧ (∀ x ∈ a, Answers (ask x)) ∧ Lists max (ask s) := by
  have hh : ∀ r : Option Bool, holds r = true ↔ r = some true := by
    intro r; cases r with
    | none => simp [holds]
    | some b => simp [holds]
  rw [hh]
  unfold checkPyzor
  cases use with
  | false => simp
  | true =>
    simp only [Bool.not_true, Bool.false_eq_true, if_false, true_and]
    exact pyzorLoop_exact ..

/-- **C112**, in part.  If all servers answer, it is found exactly if some server lists it. -/
theorem C112_answering_partial (ask : Str → Answer) (max : Int) (servers : List Str) (h : ∀ s ∈ servers, Answers (ask s)) :
    holds (checkPyzor true ask max servers).1 = true ↔ ∃ s ∈ servers, Lists max (ask s) := by
  rw [C112_exact_partial]
  constructor
  · rintro ⟨_, a, s, b, rfl, _, h3⟩
    exact ⟨s, by simp, h3⟩
  · rintro ⟨s, hs, h3⟩
    obtain ⟨a, b, rfl⟩ := List.append_of_mem hs
    exact ⟨rfl, a, s, b, rfl, fun x hx => h x (by simp [hx]), h3⟩

/-- **C112** is violated: a server that does not answer hides what the servers after it know. -/
theorem C112_fail_violated (ask : Str → Answer) (max : Int) (a b : List Str) (s : Str) (hs : ask s = none)
    (ha : ∀ x ∈ a, ¬ Lists max (ask x)) : holds (checkPyzor true ask max (a ++ s :: b)).1 = false := by
  rw [Bool.eq_false_iff]
  intro h
  obtain ⟨_, a', s', b', h1, h2, h3⟩ := (C112_exact_partial ..).1 h
  have : ∀ (a a' : List Str), a ++ s :: b = a' ++ s' :: b' → (∀ x ∈ a, ¬ Lists max (ask x)) → (∀ x ∈ a', Answers (ask x)) → False := by
    intro a
    induction a with
    | nil =>
      intro a' h1 _ h2
      cases a' with
      | nil =>
        injection h1 with h1 _
        subst h1
        rw [hs] at h3
        obtain ⟨_, h4, _⟩ := h3
        cases h4
      | cons y a' =>
        injection h1 with h1 _
        subst h1
        exact h2 s (by simp) hs
    | cons x a ih =>
      intro a' h1 ha h2
      cases a' with
      | nil =>
        injection h1 with h1 _
        subst h1
        exact ha x (by simp) h3
      | cons y a' =>
        injection h1 with _ h1
        exact ih a' h1 (fun z hz => ha z (by simp [hz])) (fun z hz => h2 z (by simp [hz]))
  exact this a a' h1 ha h2

theorem pyzorLoop_asked (ask : Str → Answer) (max : Int) (servers : List Str) (st : Asked) :
    ∃ l, Upto ask max servers l ∧ (pyzorLoop ask max servers st).2.servers = st.servers ++ l ∧
      (pyzorLoop ask max servers st).2.tags = ((l.filterMap ask).getLast?.or st.tags) := by
  induction servers generalizing st with
  | nil => exact ⟨[], .done, by simp [pyzorLoop], by simp [pyzorLoop]⟩
  | cons s rest ih =>
    unfold pyzorLoop
    cases h : ask s with
    | none => exact ⟨[s], .stop (.inl h), by simp, by simp [h]⟩
    | some p =>
      obtain ⟨n, w⟩ := p
      simp only
      by_cases hc : max ≤ n ∧ w = 0
      · rw [if_pos hc]
        exact ⟨[s], .stop (.inr (by rw [h]; exact (lists_iff ..).2 hc)), rfl, by simp [h]⟩
      · rw [if_neg hc]
        obtain ⟨l, h1, h2, h3⟩ := ih { tags := some (n, w), servers := st.servers ++ [s] }
        refine ⟨s :: l, .step (by rw [h]; simp) (by rw [h, lists_iff]; exact hc) h1, by rw [h2]; simp, ?_⟩
        rw [h3]
        simp only [List.filterMap_cons, h]
        rw [List.getLast?_cons]
        cases (l.filterMap ask).getLast? <;> simp

/-- **C112**.  The servers that are asked, and what the tags of the message say: the last answer. -/
theorem C112_asked (ask : Str → Answer) (max : Int) (servers : List Str) :
    ∃ l, Upto ask max servers l ∧ (checkPyzor true ask max servers).2 = ⟨(l.filterMap ask).getLast?, l⟩ ∧
      (checkPyzor false ask max servers).2 = ⟨none, []⟩ := by
  obtain ⟨l, h1, h2, h3⟩ := pyzorLoop_asked ask max servers ⟨none, []⟩
  refine ⟨l, h1, ?_, rfl⟩
  unfold checkPyzor
  simp only [Bool.not_true, Bool.false_eq_true, if_false]
  cases hp : (pyzorLoop ask max servers ⟨none, []⟩).2 with
  | mk t sv =>
    rw [hp] at h2 h3
    simp only [List.nil_append] at h2
    simp only [Option.or_none] at h3
    rw [h2, h3]

/-- Three servers: one lists the message, one does not, one fails. -/
def toyAsk : Str → Answer := fun s => if s = c!"a" then some (3, 0) else if s = c!"b" then some (9, 0) else if s = c!"w" then some (9, 1) else none
example : holds (checkPyzor true toyAsk 5 [c!"a", c!"w", c!"b"]).1 = true ∧ holds (checkPyzor true toyAsk 5 [c!"a", c!"x", c!"b"]).1 = false ∧
    (checkPyzor true toyAsk 5 [c!"a", c!"x", c!"b"]).2 = ⟨some (3, 0), [c!"a", c!"x"]⟩ := by decide +kernel
example : Lists 5 (toyAsk c!"b") ∧ toyAsk c!"x" = none := ⟨⟨9, by decide, by decide⟩, by decide⟩

theorem reportLoop_ok (ok : Str → Bool) (digest : Str) (spam : Bool) (a b : List Str) (h : ∀ s ∈ a, ok s = true) :
    reportLoop ok digest spam (a ++ b) =
      (a.map (fun s => ⟨s, digest, spam⟩) ++ (reportLoop ok digest spam b).1, (reportLoop ok digest spam b).2) := by
  induction a with
  | nil => rfl
  | cons s a ih =>
    rw [List.cons_append]
    conv => lhs; unfold reportLoop
    rw [if_pos (h s (by simp)), ih (fun x hx => h x (by simp [hx]))]
    rfl

/-- **C113**, in part.  If all servers can be reached, each is told once, in order, with the digest and the class; if the plugin is off
none is. -/
theorem C113_told_partial (ok : Str → Bool) (stored : Option Str) (digest : Str) (spam : Bool) (servers : List Str)
    (hd : ∀ d, stored = some d → d = digest) (h : ∀ s ∈ servers, ok s = true) :
    pyzorReport true ok stored digest spam servers = (servers.map (fun s => ⟨s, digest, spam⟩), true) ∧
    pyzorReport false ok stored digest spam servers = ([], true) := by
  have e : stored.getD digest = digest := by
    cases stored with
    | none => rfl
    | some d => exact hd d rfl
  constructor
  · unfold pyzorReport
    rw [e]
    have := reportLoop_ok ok digest spam servers [] h
    rw [List.append_nil] at this
    simpa [reportLoop] using this
  · rfl

/-- **C113** is violated: the servers after one that cannot be reached are not told, and reporting raises. -/
theorem C113_fail_violated (ok : Str → Bool) (stored : Option Str) (digest : Str) (spam : Bool) (a b : List Str) (s : Str)
    (h : ∀ s ∈ a, ok s = true) (hs : ok s = false) :
    pyzorReport true ok stored digest spam (a ++ s :: b) = ((a ++ [s]).map (fun s => ⟨s, stored.getD digest, spam⟩), false) := by
  unfold pyzorReport
  simp only [Bool.not_true, Bool.false_eq_true, if_false]
  rw [reportLoop_ok _ _ _ _ _ h]
  simp [reportLoop, hs]

example : pyzorReport true (fun s => s ≠ c!"b") none c!"d" true [c!"a", c!"b", c!"c"] = ([⟨c!"a", c!"d", true⟩, ⟨c!"b", c!"d", true⟩], false) := by
  decide +kernel

/-! ### Razor -/

/-- **C114**, in part.  The first check of a message finds it exactly if the plugin is on and the program ends with code 0. -/
theorem C114_first_partial (use : Bool) (run : Run) :
    holds (checkRazor use none run).1 = true ↔ use = true ∧ run = .code 0 := by
  unfold checkRazor
  cases use with
  | false => simp [holds]
  | true =>
    cases run with
    | cannotStart => simp [holds]
    | broken => simp [holds]
    | code n => simp [holds]

theorem checkAll_kept (use : Bool) (r : Int) (runs : List Run) :
    checkAll use (some r) runs = (List.replicate runs.length (some (use && r != 0)), 0) := by
  induction runs with
  | nil => rfl
  | cons x xs ih =>
    unfold checkAll checkRazor
    cases use with
    | false =>
      simp only [Bool.not_false, if_true, ih]
      simp [List.replicate_succ]
    | true =>
      simp only [Bool.not_true, Bool.false_eq_true, if_false, ih]
      simp [List.replicate_succ]

theorem checkAll_off (kept : Option Int) (runs : List Run) :
    checkAll false kept runs = (List.replicate runs.length (some false), 0) := by
  induction runs generalizing kept with
  | nil => rfl
  | cons x xs ih =>
    unfold checkAll checkRazor
    simp [ih, List.replicate_succ]

/-- **C114**.  However many rules ask, the program is run once for a message that is checked, and never if the plugin is off. -/
theorem C114_once (runs : List Run) (h : runs ≠ []) : (checkAll true none runs).2 = 1 ∧ (checkAll false none runs).2 = 0 := by
  refine ⟨?_, by rw [checkAll_off]⟩
  cases runs with
  | nil => exact absurd rfl h
  | cons r rest =>
    unfold checkAll checkRazor
    cases r <;> simp only [Bool.not_true, Bool.false_eq_true, if_false]
    · rw [checkAll_kept]; rfl
    · rw [checkAll_kept]; rfl
    · rename_i n
      by_cases hn : n = 1 ∨ n = 0
      · simp [hn, checkAll_kept]
      · simp [hn, checkAll_kept]

/-- **C114** is violated: for a message that Razor knows only the first rule holds, and for one it does not know all rules hold but the
first. -/
theorem C114_again_violated (rest : List Run) :
    (checkAll true none (.code 0 :: rest)).1 = some true :: List.replicate rest.length (some false) ∧
    (checkAll true none (.code 1 :: rest)).1 = some false :: List.replicate rest.length (some true) := by
  constructor
  · unfold checkAll checkRazor
    simp [checkAll_kept]
  · unfold checkAll checkRazor
    simp [checkAll_kept]

/-- **C114**.  If the program cannot be started, cannot be talked to, or ends with another code, no rule holds for the message. -/
theorem C114_failed (r : Run) (rest : List Run) (h0 : r ≠ .code 0) (h1 : r ≠ .code 1) :
    ∀ v ∈ (checkAll true none (r :: rest)).1, holds v = false := by
  have key : (checkAll true none (r :: rest)).1 = (checkRazor true none r).1 :: List.replicate rest.length (some false) := by
    unfold checkAll checkRazor
    cases r with
    | cannotStart => simp [checkAll_kept]
    | broken => simp [checkAll_kept]
    | code n =>
      have a0 : n ≠ 0 := fun e => h0 (by rw [e])
      have a1 : n ≠ 1 := fun e => h1 (by rw [e])
      simp [checkAll_kept, a0, a1]
  intro v hv
  rw [key] at hv
  rcases List.mem_cons.1 hv with rfl | hv
  · rw [Bool.eq_false_iff]
    intro hh
    exact h0 ((C114_first_partial true r).1 hh).2
  · rw [(List.mem_replicate.1 hv).2]; rfl

example : (checkAll true none [.code 1, .code 1, .code 1]).1 = [some false, some true, some true] := by decide +kernel

/-! ### Countries of relays -/

theorem country_code (geo4 geo6 : Geo) (ip : Ip) (c : Str) : country geo4 geo6 ip = c ↔ Code geo4 geo6 ip c := by
  constructor
  · rintro rfl
    unfold country
    cases hp : ip.priv with
    | true => exact .priv hp
    | false =>
      cases hv : ip.v4 with
      | true =>
        cases geo4 with
        | none => exact .unknown4 hp hv (by intro f hf; cases hf)
        | some f =>
          simp only [Bool.false_eq_true, if_false, if_true]
          by_cases hf : f ip.text = []
          · rw [if_pos hf]; exact .unknown4 hp hv (by intro g hg; injection hg with e; rw [← e]; exact hf)
          · rw [if_neg hf]; exact .known4 hp hv rfl hf
      | false =>
        cases geo6 with
        | none => exact .unknown6 hp hv (by intro f hf; cases hf)
        | some f =>
          simp only [Bool.false_eq_true, if_false]
          by_cases hf : f ip.text = []
          · rw [if_pos hf]; exact .unknown6 hp hv (by intro g hg; injection hg with e; rw [← e]; exact hf)
          · rw [if_neg hf]; exact .known6 hp hv rfl hf
  · intro h
    unfold country
    cases h with
    | priv h => simp [h]
    | known4 h1 h2 h3 h4 => simp [h1, h2, h3, h4]
    | known6 h1 h2 h3 h4 => simp [h1, h2, h3, h4]
    | unknown4 h1 h2 h3 =>
      cases geo4 with
      | none => simp [h1, h2]
      | some f => simp [h1, h2, h3 f rfl]
    | unknown6 h1 h2 h3 =>
      cases geo6 with
      | none => simp [h1, h2]
      | some f => simp [h1, h2, h3 f rfl]

theorem headerIps_of (parse : Str → Option Ip) (relays : List Str) (ips : List Ip) :
    headerIps parse relays = some ips ↔ Addresses parse relays ips := by
  unfold Addresses
  induction relays generalizing ips with
  | nil => cases ips <;> simp [headerIps]
  | cons t ts ih =>
    unfold headerIps
    cases h1 : parse t with
    | none => cases ips <;> simp [h1]
    | some ip =>
      cases h2 : headerIps parse ts with
      | none =>
        cases ips with
        | nil => simp
        | cons i is =>
          have := ih is
          rw [h2] at this
          simp only [List.map_cons, h1, List.cons.injEq]
          constructor
          · intro h; cases h
          · rintro ⟨_, h⟩; exact absurd (this.2 h) (by simp)
      | some r =>
        cases ips with
        | nil => simp
        | cons i is =>
          have := ih is
          rw [h2] at this
          simp only [List.map_cons, h1, List.cons.injEq, Option.some.injEq] at this ⊢
          rw [this]

/-- **C115**, in part.  The tag, and the header that is added, name the countries of all relays in order; nothing else in the message
changes, and a message without relays gets neither. -/
theorem C115_tag_partial (parse : Str → Option Ip) (geo4 geo6 : Geo) (relays : List Str) (ips : List Ip) (m : Mail.Msg)
    (h : Addresses parse relays ips) :
    (relays = [] → addCountries parse geo4 geo6 relays m = some (m, none)) ∧
    (relays ≠ [] → ∃ codes : List Str, Codes geo4 geo6 ips codes ∧
      addCountries parse geo4 geo6 relays m =
        some ({ m with headers := m.headers.append c!"X-Relay-Countries" (some (join c!" " codes)) }, some (join c!" " codes))) := by
  have hi := (headerIps_of parse relays ips).2 h
  constructor
  · rintro rfl
    rfl
  · intro hne
    refine ⟨ips.map (country geo4 geo6), ?_, ?_⟩
    · clear hi h
      induction ips with
      | nil => exact .nil
      | cons i is ih => exact .cons ((country_code ..).1 rfl) ih
    · unfold addCountries
      rw [hi]
      cases ips with
      | nil =>
        unfold Addresses at h
        simp at h
        exact absurd h hne
      | cons i is => rfl

/-- **C115**, in part.  If no code contains a space, the words of the tag are the codes. -/
theorem C115_words_partial (codes : List Str) (h : ∀ c ∈ codes, ' ' ∉ c) (hne : codes ≠ []) : splitChar ' ' (join c!" " codes) = codes :=
  splitChar_join ' ' codes hne h

/-- **C115**, in part.  A rule sees exactly the header that was added if the message has no such header of its own, or if decoded headers
are kept and nobody asked for this one before. -/
theorem C115_seen_partial (L : Mail.MailLib) (parse : Str → Option Ip) (geo4 geo6 : Geo) (relays : List Str) (hs mhs : List (Str × Str))
    (m' : Mail.Msg) (tag : Str) (h : addCountries parse geo4 geo6 relays (Mail.Msg.ofHeaders hs mhs) = some (m', some tag))
    (hc : L.lazy = false ∨ ∀ p ∈ hs, lower p.1 ≠ lower c!"X-Relay-Countries") :
    (Mail.getDecoded L c!"X-Relay-Countries" m').1 = [some tag] := by
  obtain ⟨m1, hm⟩ : ∃ m1 : Mail.Msg, m1 = { Mail.Msg.ofHeaders hs mhs with
      headers := (Mail.Msg.ofHeaders hs mhs).headers.append c!"X-Relay-Countries" (some tag) } := ⟨_, rfl⟩
  have e : m' = m1 := by
    unfold addCountries at h
    cases hi : headerIps parse relays with
    | none => rw [hi] at h; cases h
    | some ips =>
      rw [hi] at h
      cases ips with
      | nil => simp at h
      | cons i is =>
        simp only [Option.some.injEq, Prod.mk.injEq] at h
        rw [hm, ← h.1, h.2]
  have hf : m1.headers.find c!"X-Relay-Countries" = some [some tag] := by
    rw [hm]
    unfold Mail.Headers.append
    rw [Mail.find_put]
    simp [Mail.Msg.ofHeaders, Mail.Headers.find, Dict.get?]
  rw [e]
  unfold Mail.getDecoded
  rcases hc with hl | hl
  · rw [hl, hf]; rfl
  · have hr : Mail.getRaw m1 c!"X-Relay-Countries" = [] := by
      rw [Mail.getRaw_eq (hs := hs) (by rw [hm]; rfl)]
      cases hv : Spec.rawValues hs c!"X-Relay-Countries" with
      | nil => rfl
      | cons v vs =>
        have : v ∈ Spec.rawValues hs c!"X-Relay-Countries" := by rw [hv]; simp
        obtain ⟨p, hp, _, h2⟩ := Mail.rawValues_mem this
        exact absurd h2 (hl p hp)
    rw [hr, hf]
    split <;> rfl

/-- **C115** is violated: in lazy mode, which is the default, rules also see what the message itself claims in headers of this name. -/
theorem C115_forged_violated (L : Mail.MailLib) (parse : Str → Option Ip) (geo4 geo6 : Geo) (relays : List Str) (hs mhs : List (Str × Str))
    (n v : Str) (hv : (n, v) ∈ hs) (hn : lower n = lower c!"X-Relay-Countries") (m' : Mail.Msg) (tag : Str) (hl : L.lazy = true)
    (h : addCountries parse geo4 geo6 relays (Mail.Msg.ofHeaders hs mhs) = some (m', some tag)) :
    L.decode v ∈ (Mail.getDecoded L c!"X-Relay-Countries" m').1 := by
  have hr : m'.raw = Mail.collect hs := by
    unfold addCountries at h
    cases hi : headerIps parse relays with
    | none => rw [hi] at h; cases h
    | some ips =>
      rw [hi] at h
      cases ips with
      | nil => simp at h
      | cons i is =>
        simp only [Option.some.injEq, Prod.mk.injEq] at h
        rw [← h.1]
        rfl
  unfold Mail.getDecoded
  rw [hl]
  simp only [if_true]
  rw [Mail.getRaw_eq hr]
  refine List.mem_append_left _ (List.mem_map_of_mem ?_)
  unfold Spec.rawValues
  exact List.mem_map.2 ⟨(n, v), List.mem_filter.2 ⟨hv, by simpa using hn⟩, rfl⟩

/-- **C115** is violated: one relay without address and the message cannot be processed. -/
theorem C115_none_violated (parse : Str → Option Ip) (geo4 geo6 : Geo) (relays : List Str) (m : Mail.Msg) (t : Str) (ht : t ∈ relays)
    (hp : parse t = none) : addCountries parse geo4 geo6 relays m = none := by
  have : headerIps parse relays = none := by
    cases h : headerIps parse relays with
    | none => rfl
    | some ips =>
      have := (headerIps_of ..).1 h
      unfold Addresses at this
      have h1 : parse t ∈ relays.map parse := List.mem_map_of_mem ht
      rw [this, hp] at h1
      simp at h1
  unfold addCountries
  rw [this]

/-- Addresses of one letter, capitals for private ones. -/
def toyParse : Str → Option Ip := fun t => if t = [] then none else some ⟨t.all (fun c => c.isUpper), true, t⟩
example : (addCountries toyParse (some fun t => if t = c!"x" then c!"NL" else []) none [c!"x", c!"A", c!"y"] (Mail.Msg.ofHeaders [] [])).map
    (·.2) = some (some c!"NL ** XX") := by decide +kernel
example : Addresses toyParse [c!"x", c!"A"] [⟨false, true, c!"x"⟩, ⟨true, true, c!"A"⟩] := by unfold Addresses; decide +kernel
example : toyParse [] = none := rfl

/-! ### SpamCop -/

theorem usableTo_iff (to : Str) : usableTo to = true ↔ Usable to := by
  unfold usableTo Usable
  rw [List.contains_iff_mem]
  constructor
  · intro h
    cases to with
    | nil => simp at h
    | cons x xs =>
      simp only [List.drop_succ_cons, List.drop_zero] at h
      obtain ⟨a, b, e⟩ := List.append_of_mem h
      have hne : xs ≠ [] := by intro h0; rw [h0] at h; simp at h
      refine ⟨x :: a, b ++ [xs.getLast hne], by simp, by simp, ?_⟩
      have := List.dropLast_concat_getLast hne
      rw [e] at this
      conv => lhs; rw [← this]
      simp
  · rintro ⟨a, b, ha, hb, rfl⟩
    cases a with
    | nil => exact absurd rfl ha
    | cons x a =>
      simp only [List.cons_append, List.drop_succ_cons, List.drop_zero]
      rw [List.dropLast_append_of_ne_nil (by simp)]
      refine List.mem_append_right _ ?_
      cases b with
      | nil => exact absurd rfl hb
      | cons y b => simp

theorem join_split (c : Char) (s : Str) : splitChar c s ≠ [] ∧ join [c] (splitChar c s) = s := by
  induction s with
  | nil => exact ⟨by simp [splitChar], rfl⟩
  | cons x xs ih =>
    unfold splitChar
    by_cases hx : x = c
    · subst hx
      refine ⟨by simp, ?_⟩
      simp only [beq_self_eq_true, if_true]
      cases hs : splitChar x xs with
      | nil => exact absurd hs ih.1
      | cons w ws => rw [hs] at ih; simp [join, ih.2]
    · cases hs : splitChar c xs with
      | nil => exact absurd hs ih.1
      | cons w ws =>
        rw [hs] at ih
        simp only [beq_iff_eq, hx, if_false]
        refine ⟨by simp, ?_⟩
        cases ws with
        | nil => have := ih.2; simp only [join] at this ⊢; rw [this]
        | cons w' ws => have := ih.2; simp only [join, List.cons_append] at this ⊢; rw [this]

theorem split_before (c : Char) (a b : Str) (h : c ∉ a) : splitChar c (a ++ c :: b) = a :: splitChar c b := by
  induction a with
  | nil => simp [splitChar]
  | cons x a ih =>
    have hc : x ≠ c := fun e => h (by simp [e])
    rw [List.cons_append, splitChar, ih (fun hm => h (by simp [hm]))]
    simp [hc]

theorem split_one (c : Char) (a : Str) (h : c ∉ a) : splitChar c a = [a] := by
  have := Py.splitChar_join c [a] (by simp) (by simpa using h)
  simpa [join] using this

theorem mailDate_iff (mktime : Str → Option Int) (received : List (Option Str)) (t : Int) :
    mailDate mktime received = some t ↔ Stamped mktime received t := by
  constructor
  · intro h
    unfold mailDate at h
    split at h
    · rename_i r more
      split at h
      · rename_i a date rest hs
        have hj := (join_split ';' r).2
        have hm : ∀ w ∈ splitChar ';' r, ';' ∉ w := fun w hw => splitChar_sep ';' r w hw
        rw [hs] at hj hm
        cases rest with
        | nil =>
          refine ⟨a, date, [], more, hm a (by simp), hm date (by simp), .inl rfl, ?_, h⟩
          rw [← hj]; simp [join]
        | cons w ws =>
          refine ⟨a, date, ';' :: join [';'] (w :: ws), more, hm a (by simp), hm date (by simp), .inr ⟨_, rfl⟩, ?_, h⟩
          rw [← hj]; simp [join]
      · cases h
    · cases h
  · rintro ⟨a, date, rest, more, h1, h2, h3, rfl, h5⟩
    unfold mailDate
    simp only
    rw [split_before ';' a _ h1]
    rcases h3 with rfl | ⟨r, rfl⟩
    · rw [List.append_nil, split_one ';' date h2]
      exact h5
    · rw [split_before ';' date r h2]
      exact h5

theorem cut_iff (max : Nat) (original sent : Str) : cut max original = sent ↔ Carries max original sent := by
  unfold cut Carries
  by_cases h : max * 1024 < original.length
  · rw [if_pos h]
    constructor
    · rintro rfl
      exact .inr ⟨h, original.drop (max * 1024), (List.take_append_drop ..).symm, by rw [List.length_take]; omega, rfl⟩
    · rintro (⟨h1, _⟩ | ⟨_, _, _, _, h2⟩)
      · omega
      · exact h2.symm
  · rw [if_neg h]
    constructor
    · rintro rfl
      exact .inl ⟨by omega, rfl⟩
    · rintro (⟨_, h1⟩ | ⟨h1, _⟩)
      · exact h1.symm
      · exact absurd h1 h

/-- **C116**, in part.  What is sent to SpamCop, and when: there is an address to send it to, and the message is dated not more than two
days ago.  What is sent goes from the configured sender to that address and carries the message, cut if it is too long. -/
theorem C116_sent_partial (s : Cop) (mktime : Str → Option Int) (now : Int) (send : Report → Bool) (received : List (Option Str))
    (raw : Str) (ok : Bool) (r : Report) :
    copReport s mktime now send received raw = some (ok, some r) ↔
      Usable s.toAddr ∧ (∃ t, Stamped mktime received t ∧ t ≠ 0 ∧ now - 2 * 24 * 60 * 60 ≤ t) ∧
      r.sender = s.fromAddr ∧ r.receiver = s.toAddr ∧ Carries s.maxSize raw r.original ∧ ok = send r := by
  unfold copReport
  by_cases hu : usableTo s.toAddr = true
  · rw [hu]
    simp only [Bool.not_true, Bool.false_eq_true, if_false]
    have hu' := (usableTo_iff _).1 hu
    cases hd : mailDate mktime received with
    | none =>
      simp only
      constructor
      · intro h; cases h
      · rintro ⟨_, ⟨t, h1, _⟩, _⟩
        rw [(mailDate_iff ..).2 h1] at hd
        cases hd
    | some d =>
      simp only
      by_cases hc : d = 0 ∨ d < now - 2 * 86400
      · rw [if_pos hc]
        constructor
        · intro h; cases h
        · rintro ⟨_, ⟨t, h1, h2, h3⟩, _⟩
          rw [(mailDate_iff ..).2 h1] at hd
          injection hd with hd
          omega
      · rw [if_neg hc]
        constructor
        · intro h
          injection h with h
          injection h with h1 h2
          injection h2 with h2
          subst h2
          exact ⟨hu', ⟨d, (mailDate_iff ..).1 hd, by omega, by omega⟩, rfl, rfl, (cut_iff ..).1 rfl, h1.symm⟩
        · rintro ⟨_, _, h1, h2, h3, h4⟩
          have : r = ⟨s.fromAddr, s.toAddr, cut s.maxSize raw⟩ := by
            cases r with
            | mk a b c =>
              simp only at h1 h2 h3
              rw [h1, h2, (cut_iff ..).2 h3]
          rw [h4, this]
  · rw [Bool.not_eq_true] at hu
    rw [hu]
    simp only [Bool.not_false, if_true]
    constructor
    · intro h; cases h
    · rintro ⟨h, _⟩
      rw [(usableTo_iff _).2 h] at hu
      cases hu

/-- **C116** is violated: the option `dont_report_to_spamcop` has no effect on reporting; only a function that nothing calls looks at
it. -/
theorem C116_option_violated (s : Cop) (mktime : Str → Option Int) (now : Int) (send : Report → Bool) (received : List (Option Str))
    (raw : Str) : copReport { s with dont := true } mktime now send received raw = copReport { s with dont := false } mktime now send received raw ∧
      spamcopReport { s with dont := true } mktime now send received raw = some (false, none) := ⟨rfl, rfl⟩

/-- **C116** is violated: reporting raises for a message without `Received` header, or if the first one has no date. -/
theorem C116_undated_violated (s : Cop) (mktime : Str → Option Int) (now : Int) (send : Report → Bool) (received : List (Option Str))
    (raw : Str) (hu : Usable s.toAddr) (h : ∀ t, ¬ Stamped mktime received t) : copReport s mktime now send received raw = none := by
  unfold copReport
  rw [(usableTo_iff _).2 hu]
  cases hd : mailDate mktime received with
  | none => rfl
  | some d => exact absurd ((mailDate_iff ..).1 hd) (h d)

/-- Dates are one digit. -/
def toyTime : Str → Option Int := fun t => match t with | [c] => some (c.toNat - 48 : Int) | _ => none
example : Stamped toyTime [some c!"from a by b;7", some c!"x"] 7 :=
  ⟨c!"from a by b", c!"7", [], _, by decide, by decide, .inl rfl, rfl, rfl⟩
example : Usable c!"a@b" := ⟨c!"a", c!"b", by decide, by decide, rfl⟩
example : copReport ⟨true, [], c!"a@b", 0⟩ toyTime 8 (fun _ => true) [some c!"from a by b;7"] c!"spam" =
    some (true, some ⟨[], c!"a@b", c!"\n[truncated by OrangeAssassin]\n"⟩) := by decide +kernel
example : ∀ t, ¬ Stamped toyTime [some c!"by b"] t := by
  rintro t ⟨a, b, c, d, _, _, _, h, _⟩
  simp only [List.cons.injEq, Option.some.injEq] at h
  have : ';' ∈ c!"by b" := by rw [h.1]; simp
  revert this; decide

/-! ### Databases -/

theorem dsnParts_of {a b : Str} (c : Str) (ha : ':' ∉ a) (hb : ':' ∉ b) : dsnParts (a ++ ':' :: (b ++ ':' :: c)) = some (a, b, c) := by
  unfold dsnParts
  rw [split1_char_append _ ha]
  simp only
  rw [split1_char_append _ hb]

theorem url_eq (driver user password hostname db : Str) :
    url driver user password hostname db = driver ++ c!"://" ++ credentials user password ++ hostname ++ c!"/" ++ db := by
  unfold url credentials
  by_cases h : user = [] ∨ password = []
  · rw [if_pos h, if_pos h]; simp
  · rw [if_neg h, if_neg h]; simp

theorem pairs_written (kvs : List (Str × Str)) (h : Plain kvs) :
    ∃ d, pairs (kvs.map fun p => p.1 ++ c!"=" ++ p.2) = some d ∧ ∀ k, Setting kvs k (Dict.get? d k) := by
  induction kvs with
  | nil => exact ⟨[], rfl, fun k => by simp [Dict.get?, Setting]⟩
  | cons p ps ih =>
    obtain ⟨k0, v0⟩ := p
    obtain ⟨d, h1, h2⟩ := ih (fun q hq => h q (by simp [hq]))
    obtain ⟨hk, _, hv, _⟩ := h (k0, v0) (by simp)
    have hs : splitChar '=' (k0 ++ c!"=" ++ v0) = [k0, v0] := by
      rw [List.append_assoc, List.singleton_append, split_before '=' k0 v0 hk, split_one '=' v0 hv]
    refine ⟨if Dict.has d k0 then d else (k0, v0) :: d, ?_, ?_⟩
    · rw [List.map_cons]
      unfold pairs
      simp only [hs, h1]
    · intro k
      have hk2 := h2 k
      have hz := h2 k0
      by_cases hh : Dict.has d k0 = true
      · rw [if_pos hh]
        cases hg : Dict.get? d k with
        | none =>
          rw [hg] at hk2
          intro q hq
          rcases List.mem_cons.1 hq with rfl | hq
          · intro e
            simp only at e
            subst e
            unfold Dict.has at hh
            rw [hg] at hh
            cases hh
          · exact hk2 q hq
        | some v =>
          rw [hg] at hk2
          obtain ⟨a, b, e, hb⟩ := hk2
          exact ⟨(k0, v0) :: a, b, by rw [e]; rfl, hb⟩
      · rw [if_neg hh]
        have hn : Dict.get? d k0 = none := by
          unfold Dict.has at hh
          cases hg : Dict.get? d k0 with
          | none => rfl
          | some v => rw [hg] at hh; exact absurd rfl hh
        rw [hn] at hz
        rw [Dict.get?_cons]
        by_cases e : k0 = k
        · subst e
          simp only [if_true]
          exact ⟨[], ps, rfl, hz⟩
        · rw [if_neg e]
          cases hg : Dict.get? d k with
          | none =>
            rw [hg] at hk2
            intro q hq
            rcases List.mem_cons.1 hq with rfl | hq
            · exact e
            · exact hk2 q hq
          | some v =>
            rw [hg] at hk2
            obtain ⟨a, b, e, hb⟩ := hk2
            exact ⟨(k0, v0) :: a, b, by rw [e]; rfl, hb⟩

theorem dbi_prefix (a rest : Str) (h : upper a = c!"DBI") : startsWith c!"DBI" (upper (a ++ rest)) = true := by
  have : upper (a ++ rest) = c!"DBI" ++ upper rest := by
    unfold upper at h ⊢
    rw [List.map_append, h]
  rw [this]
  rfl

theorem dbi_ne (a rest : Str) (h : upper a = c!"DBI") : a ++ rest ≠ [] := by
  intro e
  have : a = [] := (List.append_eq_nil_iff.1 e).1
  subst this
  cases h

theorem dbi_not {dsn : Str} (h : ¬ ∃ rest, upper dsn = c!"DBI" ++ rest) : ¬ startsWith c!"DBI" (upper dsn) = true := by
  intro hs
  obtain ⟨r, hr⟩ := List.isPrefixOf_iff_prefix.1 hs
  exact h ⟨r, hr.symm⟩

/-- **C117**, in part.  Settings for MySQL, `DBI:mysql:database:host`: SQLAlchemy, or else the MySQL library, gets that database, that
host, and user and password if both are given. -/
theorem C117_mysql_partial (dbi drv db host user password : Str) (h1 : upper dbi = c!"DBI") (h2 : ':' ∉ dbi) (h3 : lower drv = c!"mysql")
    (h4 : ':' ∉ drv) (h5 : ':' ∉ db) :
    engine true (dbi ++ ':' :: (drv ++ ':' :: (db ++ ':' :: host))) user password =
      some (.url (c!"mysql+pymysql://" ++ credentials user password ++ host ++ c!"/" ++ db)) ∧
    ∃ m : MySql, engine false (dbi ++ ':' :: (drv ++ ':' :: (db ++ ':' :: host))) user password = some (.mysql m) ∧ m.host = host ∧ m.db = db ∧
      (user ≠ [] → password ≠ [] → m.user = some user ∧ m.password = some password) ∧
      (user = [] ∨ password = [] → m.user = none ∧ m.password = none) := by
  unfold engine
  rw [if_neg (dbi_ne _ _ h1), if_pos (dbi_prefix _ _ h1), if_neg (dbi_ne _ _ h1), if_pos (dbi_prefix _ _ h1)]
  simp only [Bool.not_true, Bool.false_eq_true, if_false, Bool.not_false, if_true]
  unfold toAlchemy toMysql
  rw [dsnParts_of _ h2 h4]
  simp only [h3, if_true]
  rw [split1_char_append _ h5]
  refine ⟨by simp only [url_eq]; simp, ?_⟩
  by_cases hc : user = [] ∨ password = []
  · refine ⟨⟨host, db, none, none⟩, by simp [hc], rfl, rfl, ?_, fun _ => ⟨rfl, rfl⟩⟩
    intro hu hp
    exact absurd hc (by simp [hu, hp])
  · refine ⟨⟨host, db, some user, some password⟩, by simp [hc], rfl, rfl, fun _ _ => ⟨rfl, rfl⟩, fun h => absurd h hc⟩

theorem setting_unique {kvs : List (Str × Str)} {k : Str} {x y : Option Str} (hx : Setting kvs k x) (hy : Setting kvs k y) : x = y := by
  have last : ∀ (kvs : List (Str × Str)) (v w : Str), Setting kvs k (some v) → Setting kvs k (some w) → v = w := by
    intro kvs
    induction kvs with
    | nil => rintro v w ⟨a, b, h, _⟩; simp at h
    | cons p ps ih =>
      rintro v w ⟨a, b, h1, h2⟩ ⟨a', b', h3, h4⟩
      cases a with
      | nil =>
        injection h1 with e1 e2
        cases a' with
        | nil => injection h3 with e3 _; rw [e1] at e3; injection e3
        | cons q a' =>
          injection h3 with _ e4
          rw [e2] at e4
          exact absurd rfl (h2 (k, w) (by rw [e4]; simp))
      | cons q a =>
        injection h1 with _ e2
        cases a' with
        | nil =>
          injection h3 with _ e4
          rw [e4] at e2
          exact absurd rfl (h4 (k, v) (by rw [e2]; simp))
        | cons q' a' =>
          injection h3 with _ e4
          exact ih v w ⟨a, b, e2, h2⟩ ⟨a', b', e4, h4⟩
  cases x with
  | none =>
    cases y with
    | none => rfl
    | some w => obtain ⟨a, b, h, _⟩ := hy; exact absurd rfl (hx (k, w) (by rw [h]; simp))
  | some v =>
    cases y with
    | none => obtain ⟨a, b, h, _⟩ := hx; exact absurd rfl (hy (k, v) (by rw [h]; simp))
    | some w => rw [last kvs v w hx hy]

theorem split_written (kvs : List (Str × Str)) (hk : kvs ≠ []) (hp : Plain kvs) :
    ∃ d, pairs (splitChar ';' (written kvs)) = some d ∧ ∀ k x, Setting kvs k x → Dict.get? d k = x := by
  obtain ⟨d, h1, h2⟩ := pairs_written kvs hp
  refine ⟨d, ?_, fun k x hx => setting_unique (h2 k) hx⟩
  unfold written
  rw [Py.splitChar_join ';' _ (by simpa using hk), h1]
  intro w hw
  obtain ⟨p, hp1, rfl⟩ := List.mem_map.1 hw
  obtain ⟨_, a, _, b⟩ := hp p hp1
  simp [a, b]

/-- **C117**, in part.  Settings for PostgreSQL, `DBI:Pg:key=value;key=value`: the database, the host and the port are what the settings
say, the defaults being `spamassassin` and `localhost`. -/
theorem C117_pg_partial (dbi drv user password : Str) (kvs : List (Str × Str)) (db host port : Option Str) (h1 : upper dbi = c!"DBI")
    (h2 : ':' ∉ dbi) (h3 : lower drv = c!"pg") (h4 : ':' ∉ drv) (hk : kvs ≠ []) (hp : Plain kvs) (hdb : Setting kvs c!"dbname" db)
    (hh : Setting kvs c!"host" host) (hpo : Setting kvs c!"port" port) :
    engine true (dbi ++ ':' :: (drv ++ ':' :: written kvs)) user password =
      some (.url (c!"postgresql://" ++ credentials user password ++ host.getD c!"localhost" ++
        (match port with
          | some p => c!":" ++ p
          | none => []) ++ c!"/" ++ db.getD c!"spamassassin")) := by
  obtain ⟨d, e1, e2⟩ := split_written kvs hk hp
  unfold engine
  rw [if_neg (dbi_ne _ _ h1), if_pos (dbi_prefix _ _ h1)]
  simp only [Bool.not_true, Bool.false_eq_true, if_false]
  unfold toAlchemy
  rw [dsnParts_of _ h2 h4]
  have n1 : ¬ (c!"pg" = c!"mysql") := by decide
  simp only [h3, n1, if_false, if_true, e1, e2 _ _ hdb, e2 _ _ hh, e2 _ _ hpo, url_eq]
  cases port <;> simp

/-- **C117**, in part.  Settings for SQLite: only the file counts. -/
theorem C117_sqlite_partial (dbi drv user password : Str) (kvs : List (Str × Str)) (db : Str) (h1 : upper dbi = c!"DBI")
    (h2 : ':' ∉ dbi) (h3 : lower drv = c!"sqlite") (h4 : ':' ∉ drv) (hk : kvs ≠ []) (hp : Plain kvs) (hdb : Setting kvs c!"dbname" (some db)) :
    engine true (dbi ++ ':' :: (drv ++ ':' :: written kvs)) user password = some (.url (c!"sqlite:///" ++ db)) := by
  obtain ⟨d, e1, e2⟩ := split_written kvs hk hp
  unfold engine
  rw [if_neg (dbi_ne _ _ h1), if_pos (dbi_prefix _ _ h1)]
  simp only [Bool.not_true, Bool.false_eq_true, if_false]
  unfold toAlchemy
  rw [dsnParts_of _ h2 h4]
  have n1 : ¬ (c!"sqlite" = c!"mysql") := by decide
  have n2 : ¬ (c!"sqlite" = c!"pg") := by decide
  simp only [h3, n1, n2, if_false, if_true, e1, e2 _ _ hdb]
  simp [url]

/-- **C117**, in part.  Without settings there is no database; a URL is used as it is. -/
theorem C117_other_partial (alchemy : Bool) (dsn user password : Str) :
    engine alchemy [] user password = some .none ∧
    (dsn ≠ [] → (¬ ∃ rest, upper dsn = c!"DBI" ++ rest) → engine true dsn user password = some (.url dsn)) := by
  refine ⟨rfl, fun h0 h => ?_⟩
  unfold engine
  rw [if_neg h0, if_neg (dbi_not h)]
  rfl

/-- **C117** is violated: different users and passwords give the same URL. -/
theorem C117_same_violated (dbi drv db host a b c : Str) (h1 : upper dbi = c!"DBI") (h2 : ':' ∉ dbi) (h3 : lower drv = c!"mysql")
    (h4 : ':' ∉ drv) (h5 : ':' ∉ db) (ha : a ≠ []) (hc : c ≠ []) :
    engine true (dbi ++ ':' :: (drv ++ ':' :: (db ++ ':' :: host))) (a ++ c!":" ++ b) c =
      engine true (dbi ++ ':' :: (drv ++ ':' :: (db ++ ':' :: host))) a (b ++ c!":" ++ c) := by
  rw [(C117_mysql_partial dbi drv db host _ _ h1 h2 h3 h4 h5).1, (C117_mysql_partial dbi drv db host _ _ h1 h2 h3 h4 h5).1]
  congr 2
  simp [credentials, ha, hc]

/-- **C117** is violated: a user without password is forgotten. -/
theorem C117_nopassword_violated (dbi drv db host user : Str) (h1 : upper dbi = c!"DBI") (h2 : ':' ∉ dbi) (h3 : lower drv = c!"mysql")
    (h4 : ':' ∉ drv) (h5 : ':' ∉ db) (alchemy : Bool) :
    engine alchemy (dbi ++ ':' :: (drv ++ ':' :: (db ++ ':' :: host))) user [] =
      engine alchemy (dbi ++ ':' :: (drv ++ ':' :: (db ++ ':' :: host))) [] [] := by
  unfold engine toAlchemy toMysql
  rw [dsnParts_of _ h2 h4]
  simp only [h3, if_true]
  rw [split1_char_append _ h5]
  simp [url]

/-- **C117** is violated: a URL without SQLAlchemy ends with an exception, and so does any setting that is not understood; a driver
that is not known is taken for an empty URL. -/
theorem C117_raises_violated (dsn user password : Str) (h0 : dsn ≠ []) :
    ((¬ ∃ rest, upper dsn = c!"DBI" ++ rest) → engine false dsn user password = none) ∧
    (∀ dbi drv rest, dsn = dbi ++ ':' :: (drv ++ ':' :: rest) → upper dbi = c!"DBI" → ':' ∉ dbi → ':' ∉ drv →
      lower drv ∉ [c!"mysql", c!"pg", c!"sqlite"] →
      engine true dsn user password = some (.url []) ∧ engine false dsn user password = some .none) := by
  constructor
  · intro h
    unfold engine
    rw [if_neg h0, if_neg (dbi_not h)]
    rfl
  · rintro dbi drv rest rfl h1 h2 h4 h5
    simp only [List.mem_cons, List.not_mem_nil, or_false, not_or] at h5
    unfold engine
    rw [if_neg h0, if_pos (dbi_prefix _ _ h1), if_neg h0, if_pos (dbi_prefix _ _ h1)]
    unfold toAlchemy toMysql
    rw [dsnParts_of _ h2 h4]
    simp [h5.1, h5.2.1, h5.2.2]

example : engine true c!"DBI:Pg:dbname=sa;host=h;port=1" c!"u" c!"p" = some (.url c!"postgresql://u:p@h:1/sa") := by decide +kernel
example : written [(c!"dbname", c!"sa"), (c!"host", c!"h")] = c!"dbname=sa;host=h" ∧ Plain [(c!"dbname", c!"sa"), (c!"host", c!"h")] ∧
    Setting [(c!"dbname", c!"sa"), (c!"host", c!"h")] c!"dbname" (some c!"sa") ∧ Setting [(c!"dbname", c!"sa"), (c!"host", c!"h")] c!"port" none :=
  ⟨by decide, by intro p hp; simp at hp; rcases hp with rfl | rfl <;> decide, ⟨[], [(c!"host", c!"h")], rfl, by simp⟩, by
    intro p hp; simp at hp; rcases hp with rfl | rfl <;> decide⟩
example : engine false c!"DBI:mysql:sa:h" c!"u" c!"p" = some (.mysql ⟨c!"h", c!"sa", some c!"u", some c!"p"⟩) ∧
    engine false c!"sqlite:///x" [] [] = none ∧ engine true c!"DBI:Oracle:x" c!"u" c!"p" = some (.url []) := by decide +kernel

end Verif.Props
