import Verif.Spec.Dns
import Verif.Lemmas.Py

/-!
# C32: DNS query restrictions, C33: availability test
-/

namespace Verif.Props
open Verif Py Dns Spec

theorem split1_dot_covers {q p x : Str} (h : split1 c!"." q = some (x, p)) :
    q = x ++ '.' :: p ∧ '.' ∉ x := by
  have := split1_spec h
  exact ⟨by simpa using this, split1_char_first h⟩

/-- Everything covering `q` is `q` or covers its parent. -/
theorem covers_parent {q x p b : Str} (e : q = x ++ '.' :: p) (hx : '.' ∉ x) :
    Covers b q ↔ b = q ∨ Covers b p := by
  constructor
  · rintro (h | ⟨y, h⟩)
    · exact .inl h
    · right
      rw [e] at h
      rcases List.append_eq_append_iff.1 h with ⟨z, h1, h2⟩ | ⟨z, h1, h2⟩
      · cases z with
        | nil => simp at h2; exact .inl h2.symm
        | cons c z =>
          simp only [List.cons_append, List.cons.injEq] at h2
          exact .inr ⟨z, h2.2⟩
      · cases z with
        | nil => simp at h2; exact .inl h2
        | cons c z =>
          simp only [List.cons_append, List.cons.injEq] at h2
          exact absurd (by rw [h1, ← h2.1]; simp) hx
  · rintro (h | h | ⟨y, h⟩)
    · exact .inl h
    · exact .inr ⟨x, by rw [e, h]⟩
    · exact .inr ⟨x ++ '.' :: y, by rw [e, h]; simp⟩

theorem covers_length {a q : Str} (h : Covers a q) : a.length ≤ q.length := by
  rcases h with rfl | ⟨x, rfl⟩
  · exact Nat.le_refl _
  · simp; omega

theorem climb_spec (t : Dict Str Bool) (k : Nat) : ∀ q : Str, q.length < k →
    (∃ a d, Closest t q a d ∧ climb t k q = some d) ∨
    ((∀ a, Covers a q → Dict.get? t a = none) ∧ climb t k q = some false) := by
  induction k with
  | zero => intro q h; omega
  | succ k ih =>
    intro q hk
    cases hg : Dict.get? t q with
    | some b =>
      left
      exact ⟨q, b, ⟨.inl rfl, hg, fun b' _ hc _ => covers_length hc⟩, by simp [climb, hg]⟩
    | none =>
      cases hs : split1 c!"." q with
      | none =>
        right
        refine ⟨?_, by simp [climb, hg, hs]⟩
        rintro a (rfl | ⟨x, rfl⟩)
        · exact hg
        · exfalso
          exact (split1_none_iff _ _).1 hs ⟨x, a, by simp⟩
      | some pr =>
        obtain ⟨x, p⟩ := pr
        obtain ⟨e, hx⟩ := split1_dot_covers hs
        have hlen : p.length < k := by rw [e] at hk; simp at hk; omega
        have hc : climb t (k + 1) q = climb t k p := by simp [climb, hg, hs]
        rw [hc]
        rcases ih p hlen with ⟨a, d, ⟨h1, h2, h3⟩, h4⟩ | ⟨h1, h2⟩
        · left
          refine ⟨a, d, ⟨(covers_parent e hx).2 (.inr h1), h2, ?_⟩, h4⟩
          intro b d' hb hd
          rcases (covers_parent e hx).1 hb with rfl | hb
          · rw [hg] at hd; cases hd
          · exact h3 b d' hb hd
        · right
          refine ⟨?_, h2⟩
          intro a ha
          rcases (covers_parent e hx).1 ha with rfl | ha
          · exact hg
          · exact h1 a ha

theorem closest_unique {t : Dict Str Bool} {q a b : Str} {d e : Bool} (h : Closest t q a d) (h' : Closest t q b e) :
    d = e := by
  obtain ⟨h1, h2, h3⟩ := h
  obtain ⟨g1, g2, g3⟩ := h'
  have l1 := h3 b e g1 g2
  have l2 := g3 a d h1 h2
  have : a = b := by
    rcases h1 with rfl | ⟨x, hx⟩ <;> rcases g1 with rfl | ⟨y, hy⟩
    · rfl
    · have := congrArg List.length hy; simp at this; omega
    · have := congrArg List.length hx; simp at this; omega
    · have hl : x.length = y.length := by
        have e1 := congrArg List.length hx
        have e2 := congrArg List.length hy
        simp at e1 e2; omega
      rw [hx] at hy
      have := (List.append_inj hy hl).2
      simpa using this
  rw [this, g2] at h2
  simpa using h2.symm

/-- **C32**.  For every name, however deep, the search ends; the query is restricted exactly if the
closest listed name covering it is denied. -/
theorem C32_closest (d : Iface) (q : Str) :
    ∃ r, restricted d (q.length + 1) q = some r ∧
      (r = true ↔ ∃ a, Closest d.restrictions q a true) := by
  unfold restricted
  by_cases he : d.restrictions = []
  · refine ⟨false, by simp [he], ?_⟩
    rw [he]
    simp [Closest]
  · rw [if_neg he]
    rcases climb_spec d.restrictions (q.length + 1) q (by omega) with ⟨a, b, h1, h2⟩ | ⟨h1, h2⟩
    · refine ⟨b, h2, ?_⟩
      constructor
      · rintro rfl; exact ⟨a, h1⟩
      · rintro ⟨a', h'⟩; exact closest_unique h1 h'
    · refine ⟨false, h2, ?_⟩
      simp only [Bool.false_eq_true, false_iff, not_exists]
      intro a h
      have hg := h.2.1
      rw [h1 a h.1] at hg
      cases hg

/-- **C32**.  A restricted query asks the resolver nothing, neither for the name nor for an
availability test, and changes nothing. -/
theorem C32_suppressed (d : Iface) (q a : Str) (r : Read) (h : Closest d.restrictions q a true) :
    query r q d = (false, false, d) := by
  obtain ⟨b, h1, h2⟩ := C32_closest d q
  have : b = true := h2.2 ⟨a, h⟩
  subst this
  simp [query, h1]

/-- **C32**.  Any other query reaches the resolver exactly if DNS is available. -/
theorem C32_allowed (d : Iface) (q : Str) (r : Read) (h : ¬ ∃ a, Closest d.restrictions q a true) :
    query r q d = available r d := by
  obtain ⟨b, h1, h2⟩ := C32_closest d q
  have : b = false := by
    cases b with
    | false => rfl
    | true => exact absurd (h2.1 rfl) h
  subst this
  simp [query, h1]

def demoDns : Iface := { Iface.init 0 with restrictions := [(c!"com", true), (c!"ok.com", false)] }
example : Closest demoDns.restrictions c!"a.b.com" c!"com" true := by
  refine ⟨.inr ⟨c!"a.b", rfl⟩, by decide, ?_⟩
  intro b d hb hd
  have hm : b = c!"com" ∨ b = c!"ok.com" := by
    by_cases h1 : b = c!"com"
    · exact .inl h1
    · by_cases h2 : b = c!"ok.com"
      · exact .inr h2
      · exfalso
        have : Dict.get? demoDns.restrictions b = none := by
          simp [demoDns, Dict.get?, Ne.symm h1, Ne.symm h2]
        rw [this] at hd; cases hd
  rcases hm with rfl | rfl
  · simp
  · exact absurd hb (by
      rintro (h | ⟨x, h⟩)
      · simp at h
      · have hl := congrArg List.length h
        simp at hl
        simp [hl] at h)
example : restricted demoDns 9 c!"a.b.com" = some true ∧ restricted demoDns 9 c!"x.ok.com" = some false ∧
    restricted demoDns 9 c!"a.org" = some false := by decide

/-- **C32** (partial).  The table made from well-formed lines says for each name what its last line
says.  Missing: malformed lines (`C32_malformed_violated`). -/
theorem C32_table_partial (lines : List (Bool × Str)) (prev : Option (Str × Str)) (t : Dict Str Bool) :
    readRestrictions (lines.map (fun l => restrictionLine l.1 l.2)) prev t =
      some (lines.foldl (fun (t : Dict Str Bool) (l : Bool × Str) => Dict.set t l.2 l.1) t) := by
  induction lines generalizing prev t with
  | nil => rfl
  | cons l ls ih =>
    obtain ⟨deny, name⟩ := l
    cases deny with
    | true =>
      have : split1 c!" " (restrictionLine true name) = some (c!"deny", name) :=
        split1_char_append (c := ' ') (a := c!"deny") name (by decide)
      simp only [List.map_cons, readRestrictions, this, List.foldl_cons]
      simp [ih]
    | false =>
      have : split1 c!" " (restrictionLine false name) = some (c!"allow", name) :=
        split1_char_append (c := ' ') (a := c!"allow") name (by decide)
      simp only [List.map_cons, readRestrictions, this, List.foldl_cons]
      simp [ih]

/-- **C32** is violated: a first value without a blank makes loading the rules fail, although it is meant to be
reported and skipped. -/
theorem C32_malformed_violated (v : Str) (hv : ' ' ∉ v) (vs : List Str) (t : Dict Str Bool) : readRestrictions (v :: vs) none t = none := by
  have h : split1 c!" " v = none := by
    rw [split1_none_iff]
    rintro ⟨a, b, e⟩
    exact hv (by rw [← e]; simp)
  simp only [readRestrictions, h]

example :
    readRestrictions [c!"deny", restrictionLine true c!"com"] none [] = none := by decide

/-! ### C33 -/

theorem query_cases (r : Read) (q : Str) (d : Iface) :
    query r q d = (false, false, d) ∨ query r q d = available r d := by
  unfold query
  split
  · exact .inr rfl
  · exact .inl rfl

/-- **C33**.  Configured with anything that does not start with `test`, a fresh interface never
sends a test query, whatever is asked when; and queries that are not restricted reach the resolver
exactly if the setting is `yes`. -/
theorem C33_no_test (now : Int) (t : Dict Str Bool) (value : Str) (hv : ¬ c!"test" <+: value)
    (h : List (Read × Str)) :
    ∀ x ∈ (queries h (setAvailable value { Iface.init now with restrictions := t })).1,
      x.2 = false ∧ (x.1 = true → value = c!"yes") := by
  have hs : startsWith c!"test" value = false := by
    cases hx : startsWith c!"test" value with
    | false => rfl
    | true => exact absurd (List.isPrefixOf_iff_prefix.1 hx) hv
  suffices ∀ (h : List (Read × Str)) (d : Iface), d.test = false → d.avail = decide (value = c!"yes") →
      ∀ x ∈ (queries h d).1, x.2 = false ∧ (x.1 = true → value = c!"yes") from
    this h _ (by simp [setAvailable, Iface.init, hs]) (by simp [setAvailable])
  intro h
  induction h with
  | nil => intro d _ _ x hx; simp [queries] at hx
  | cons e rest ih =>
    obtain ⟨r, q⟩ := e
    intro d ht ha x hx
    have hav : available r d = (d.avail, false, d) := by simp [available, ht]
    have hq : (query r q d).2.1 = false ∧ (query r q d).2.2 = d ∧ ((query r q d).1 = true → d.avail = true) := by
      rcases query_cases r q d with h | h
      · rw [h]; simp
      · rw [h, hav]; simp
    simp only [queries, List.mem_cons] at hx
    rcases hx with rfl | hx
    · refine ⟨hq.1, fun h1 => ?_⟩
      have := hq.2.2 h1
      rw [ha] at this
      simpa using this
    · rw [hq.2.1] at hx
      exact ih d ht ha x hx

/-- **C33**.  In test mode, a query makes a test exactly if it is not restricted and the time of
the next test has come; the answer is then that of the test, which is kept, and the next test is
due one interval after this one.  Otherwise the kept answer is used and nothing changes. -/
theorem C33_test_mode (d : Iface) (r : Read) (q : Str) (ht : d.test = true)
    (hq : ¬ ∃ a, Closest d.restrictions q a true) :
    (d.nextTest ≤ r.now → (query r q d).2.1 = true ∧ (query r q d).1 = r.answers.any id ∧
      (query r q d).2.2 = { d with avail := r.answers.any id, nextTest := r.later + d.interval }) ∧
    (r.now < d.nextTest → query r q d = (d.avail, false, d)) := by
  rw [C32_allowed d q r hq]
  unfold available
  constructor
  · intro h; simp [ht, h]
  · intro h
    have : ¬ d.nextTest ≤ r.now := by omega
    simp [this]

theorem queries_yes (t : Dict Str Bool) (h : List (Read × Str)) : ∀ (d : Iface), d.test = false → d.avail = true →
    d.restrictions = t → (queries h d).2 = d := by
  induction h with
  | nil => intro d _ _ _; rfl
  | cons e rest ih =>
    obtain ⟨r, q⟩ := e
    intro d ht ha hr
    have hav : available r d = (d.avail, false, d) := by simp [available, ht]
    have hq : (query r q d).2.2 = d := by
      rcases query_cases r q d with h | h
      · rw [h]
      · rw [h, hav]
    simp only [queries]
    rw [hq]
    exact ih d ht ha hr

/-- **C33**.  Configured with `yes`, every query that is not restricted reaches the resolver, after
whatever history. -/
theorem C33_yes (now : Int) (t : Dict Str Bool) (h : List (Read × Str)) (r : Read) (q : Str)
    (hq : ¬ ∃ a, Closest t q a true) :
    (query r q (queries h (setAvailable c!"yes" { Iface.init now with restrictions := t })).2).1 = true := by
  rw [queries_yes t h _ (by simp [setAvailable, Iface.init]; decide) (by simp [setAvailable]) rfl,
    C32_allowed _ q r hq]
  simp [available, setAvailable, Iface.init, show startsWith c!"test" c!"yes" = false by decide]

/-- **C33**.  Configured with a value starting with `test`, a fresh interface makes a test with the
first query that is not restricted. -/
theorem C33_first_test (now : Int) (t : Dict Str Bool) (value : Str) (hv : c!"test" <+: value) (r : Read)
    (q : Str) (hq : ¬ ∃ a, Closest t q a true) (hr : now ≤ r.now) :
    (query r q (setAvailable value { Iface.init now with restrictions := t })).2.1 = true ∧
    (query r q (setAvailable value { Iface.init now with restrictions := t })).1 = r.answers.any id := by
  have ht : (setAvailable value { Iface.init now with restrictions := t }).test = true := by
    have hv' : startsWith c!"test" value = true := List.isPrefixOf_iff_prefix.2 hv
    simp [setAvailable, hv']
  have := (C33_test_mode _ r q ht hq).1 hr
  exact ⟨this.1, this.2.1⟩

/-- Times of the tests made in a history. -/
def testTimes : List (Read × Str) → Iface → List (Int × Int)
  | [], _ => []
  | (r, q) :: rest, d =>
    let a := query r q d
    (if a.2.1 then [(r.now, r.later)] else []) ++ testTimes rest a.2.2

/-- **C33**.  Over every history, each test starts at least one interval after the previous one
ended: availability is tested at most once per interval. -/
theorem C33_at_most_once_per_interval (h : List (Read × Str)) (d : Iface) (hc : ClockOk h)
    (hi : 0 ≤ d.interval) :
    (testTimes h d).Pairwise (fun a b => a.2 + d.interval ≤ b.1) := by
  suffices ∀ (h : List (Read × Str)) (d : Iface), ClockOk h → 0 ≤ d.interval →
      (∀ x ∈ testTimes h d, d.nextTest ≤ x.1) ∧
      (testTimes h d).Pairwise (fun a b => a.2 + d.interval ≤ b.1) from (this h d hc hi).2
  intro h
  induction h with
  | nil => intro d _ _; simp [testTimes]
  | cons e rest ih =>
    obtain ⟨r, q⟩ := e
    intro d hc hi
    have hr : ClockOk rest := by
      cases rest with
      | nil => trivial
      | cons e' rest' => exact hc.2.2
    have hlater : r.now ≤ r.later := by
      cases rest with
      | nil => exact hc
      | cons e' rest' => exact hc.1
    simp only [testTimes]
    rcases query_cases r q d with hq | hq
    · rw [hq]
      simpa using ih d hr hi
    · rw [hq]
      unfold available
      by_cases hx : (d.test && decide (d.nextTest ≤ r.now)) = true
      · rw [if_pos hx]
        have hx' : d.nextTest ≤ r.now := by simp at hx; exact hx.2
        obtain ⟨i1, i2⟩ := ih { d with avail := r.answers.any id, nextTest := r.later + d.interval } hr hi
        simp only [if_true, List.singleton_append]
        refine ⟨?_, ?_⟩
        · intro x hm
          rcases List.mem_cons.1 hm with rfl | hm
          · exact hx'
          · have := i1 x hm
            simp only at this
            omega
        · rw [List.pairwise_cons]
          exact ⟨fun x hm => i1 x hm, i2⟩
      · rw [if_neg hx]
        simpa using ih d hr hi

def testing : Iface := setAvailable c!"test" (Iface.init 0)
def dnsHistory : List (Read × Str) :=
  [(⟨0, 1, [false, true]⟩, c!"a.com"), (⟨5, 5, [false]⟩, c!"b.com"), (⟨700, 701, [false]⟩, c!"c.com"), (⟨702, 702, [true]⟩, c!"d.com")]
example : ClockOk dnsHistory ∧ testing.interval = 600 ∧ testTimes dnsHistory testing = [(0, 1), (700, 701)] ∧
    (queries dnsHistory testing).1 = [(true, true), (true, false), (false, true), (false, false)] := by
  refine ⟨?_, by decide, by decide, by decide⟩
  simp [dnsHistory, ClockOk]

/-- Outside the claim's histories: setting `no` after `test` does not end the tests. -/
example : (query ⟨0, 1, [true]⟩ c!"a.com" (setAvailable c!"no" testing)).2.1 = true := by decide


/-! ### C59: DNS settings -/

theorem addServer_fold (servers : List (Str × Option Str)) (p : Str)
    (hp : ∀ s ∈ servers, s.2 = none ∨ s.2 = some p) : ∀ (acc : Option Str × List Str),
    (acc.1 = none ∨ acc.1 = some p) →
    (servers.map some).foldl addServer acc =
      (if acc.1 = some p ∨ ∃ s ∈ servers, s.2 = some p then some p else none,
       acc.2 ++ servers.map (·.1)) := by
  induction servers with
  | nil =>
    rintro ⟨a, l⟩ (h | h) <;> simp at h <;> simp [h]
  | cons s ss ih =>
    rintro ⟨a, l⟩ ha
    have hs := hp s (List.mem_cons_self ..)
    have ih' := ih (fun x hx => hp x (List.mem_cons_of_mem _ hx))
    obtain ⟨addr, port⟩ := s
    simp only [List.map_cons, List.foldl_cons]
    simp only at hs ha
    have hmem : ∀ po : Option Str, (∃ s ∈ (addr, po) :: ss, s.2 = some p) ↔ (po = some p ∨ ∃ s ∈ ss, s.2 = some p) := by
      intro po; simp
    rcases ha with rfl | rfl <;> rcases hs with rfl | rfl <;> simp only [addServer] <;>
      simp only [hmem] <;> simp <;> rw [ih' _ (by simp)] <;>
      by_cases hx : ∃ s ∈ ss, s.2 = some p <;> simp [hx]

/-- **C59** (partial).  Servers that agree on their port, or give none, are all used, in order, with
that port, else 53.  Missing: the options that have no effect (`C59_…_violated`). -/
theorem C59_servers_partial (o : Options) (r : Resolver) (servers : List (Str × Option Str)) (p : Str) (n : Int)
    (h1 : o.servers = servers.map some) (h2 : servers ≠ []) (h3 : ∀ s ∈ servers, s.2 = none ∨ s.2 = some p)
    (h4 : int? p = some n) :
    configureDns o r = some { r with nameservers := servers.map (·.1),
                                     port := if ∃ s ∈ servers, s.2 = some p then n else 53 } := by
  unfold configureDns
  rw [h1, addServer_fold servers p h3 (none, []) (.inl rfl)]
  have hne : servers.map (·.1) ≠ [] := by simpa using h2
  simp only [List.nil_append, hne, if_false]
  by_cases hx : ∃ s ∈ servers, s.2 = some p
  · have : (none = some p ∨ ∃ s ∈ servers, s.2 = some p) := .inr hx
    rw [if_pos this, if_pos hx]
    simp [h4]
  · have : ¬ ((none : Option Str) = some p ∨ ∃ s ∈ servers, s.2 = some p) := by simpa using hx
    rw [if_neg this, if_neg hx]
    have : int? c!"53" = some 53 := by decide
    simp [this]

/-- **C59**.  Without usable servers the resolver keeps its own. -/
theorem C59_default (o : Options) (r : Resolver) (h : ∀ s ∈ o.servers, s = none) :
    configureDns o r = some r := by
  have : ∀ l : List (Option (Str × Option Str)), (∀ s ∈ l, s = none) → ∀ acc, l.foldl addServer acc = acc := by
    intro l
    induction l with
    | nil => intro _ acc; rfl
    | cons s ss ih =>
      intro h acc
      rw [h s (List.mem_cons_self ..)] at *
      exact ih (fun x hx => h x (List.mem_cons_of_mem _ hx)) acc
  simp [configureDns, this _ h]

def demoResolver : Resolver := ⟨[c!"127.0.0.1"], 53, false, 0, 30000, 2000, 600000⟩
def demoOptions : Options :=
  ⟨[some (c!"10.0.0.1", none), some (c!"10.0.0.2", some c!"5353")], 10000, 1000, c!"rotate, edns=1024", c!"5m"⟩
example : configureDns demoOptions demoResolver =
    some { demoResolver with nameservers := [c!"10.0.0.1", c!"10.0.0.2"], port := 5353 } := by decide

/-- **C59 is violated** by `dns_options`, `default_dns_lifetime`, `default_dns_timeout` and `dns_test_interval`: whatever
they are, the resolver keeps its times, its interval and its order of servers, and the payload is 4096. -/
theorem C59_options_violated (o : Options) (r r' : Resolver) (h : configureDns o r = some r') :
    (applyDnsOptions o r').lifetime = r.lifetime ∧ (applyDnsOptions o r').timeout = r.timeout ∧
    (applyDnsOptions o r').testInterval = r.testInterval ∧ (applyDnsOptions o r').rotate = r.rotate ∧
    (applyDnsOptions o r').payload = 4096 := by
  have : r'.lifetime = r.lifetime ∧ r'.timeout = r.timeout ∧ r'.testInterval = r.testInterval ∧ r'.rotate = r.rotate := by
    unfold configureDns at h
    simp only at h
    split at h
    · rw [← Option.some.inj h]; exact ⟨rfl, rfl, rfl, rfl⟩
    · split at h
      · rw [← Option.some.inj h]; exact ⟨rfl, rfl, rfl, rfl⟩
      · cases h
  exact ⟨this.1, this.2.1, this.2.2.1, this.2.2.2, rfl⟩

example : ∃ r, (configureDns demoOptions demoResolver).map (applyDnsOptions demoOptions) = some r ∧
    r.rotate = false ∧ r.payload = 4096 ∧ r.lifetime = 30000 ∧ r.timeout = 2000 ∧
    r.testInterval = 600000 ∧ setInterval demoOptions.testInterval = some 300000 :=
  ⟨_, rfl, by decide⟩

/-- The units of an interval, in milliseconds. -/
def IntervalUnit (c : Char) (k : Int) : Prop :=
  (c = 's' ∧ k = 1000) ∨ (c = 'm' ∧ k = 60 * 1000) ∨ (c = 'h' ∧ k = 60 * 60 * 1000) ∨ (c = 'd' ∧ k = 24 * 60 * 60 * 1000) ∨
  (c = 'w' ∧ k = 7 * 24 * 60 * 60 * 1000)

/-- **C59**.  What the setter of the interval would understand: a number with a unit, or a number of seconds. -/
theorem C59_interval (body : Str) (c : Char) (n : Int) :
    (∀ k, IntervalUnit c k → int? body = some n → setInterval (body ++ [c]) = some (n * k)) ∧
    ((∀ k, ¬ IntervalUnit c k) → int? (body ++ [c]) = some n → setInterval (body ++ [c]) = some (n * 1000)) := by
  constructor
  · rintro k (⟨rfl, rfl⟩ | ⟨rfl, rfl⟩ | ⟨rfl, rfl⟩ | ⟨rfl, rfl⟩ | ⟨rfl, rfl⟩) h <;>
      simp [setInterval, h]
  · intro hu h
    have h1 : c ≠ 's' := fun e => hu 1000 (.inl ⟨e, rfl⟩)
    have h2 : c ≠ 'm' := fun e => hu _ (.inr (.inl ⟨e, rfl⟩))
    have h3 : c ≠ 'h' := fun e => hu _ (.inr (.inr (.inl ⟨e, rfl⟩)))
    have h4 : c ≠ 'd' := fun e => hu _ (.inr (.inr (.inr (.inl ⟨e, rfl⟩))))
    have h5 : c ≠ 'w' := fun e => hu _ (.inr (.inr (.inr (.inr ⟨e, rfl⟩))))
    simp [setInterval, h, h1, h2, h3, h4, h5]

example : IntervalUnit 'w' (7 * 24 * 60 * 60 * 1000) ∧ int? c!"12" = some 12 ∧ (∀ k, ¬ IntervalUnit '2' k) ∧
    setInterval c!"12" = some 12000 ∧ setInterval c!"12h" = some 43200000 :=
  ⟨by simp [IntervalUnit], by decide, by simp [IntervalUnit], by decide, by decide⟩

end Verif.Props
