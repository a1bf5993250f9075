import Verif.Model.Restore
import Verif.Lemmas.ShortCircuit
import Verif.Props.Meta
import Verif.Props.DnsEval
import Verif.Spec.Net

/-!
# C166: rules that were compiled and restored
-/

namespace Verif.Props
open Verif Py ShortCircuit Restore

variable {S Y A N : Type} [PyNum S]

/-! ## Processing the rules a second time -/

theorem resolve_keeps (rs : DefSet) (k : Nat) : ∀ n d done, (∀ x ∈ done, x ∈ (resolve rs k n d done).2) ∧
    (∀ s c, d = .metaR s c → (resolve rs k n d done).1 = .ok → n ∈ (resolve rs k n d done).2) := by
  induction k with
  | zero =>
    intro n d done
    cases d <;> simp [resolve]
  | succ k ih =>
    have hsub : ∀ ms done, ∀ x ∈ done, x ∈ (resolveSubs rs (resolve rs k) ms done).2 := by
      intro ms
      induction ms with
      | nil => intro done x hx; exact hx
      | cons m ms ihm =>
        intro done x hx
        unfold resolveSubs
        cases rs.get m with
        | none => exact hx
        | some d =>
          have hx' := (ih m d done).1 x hx
          simp only
          generalize hr : resolve rs k m d done = r at hx'
          obtain ⟨e, done'⟩ := r
          cases e
          · exact ihm done' x hx'
          · exact hx'
          · exact hx'
    intro n d done
    cases d with
    | plain => simp [resolve]
    | metaR subs compiles =>
      unfold resolve
      by_cases hn : n ∈ done
      · rw [if_pos hn]
        exact ⟨fun x hx => hx, fun _ _ _ _ => hn⟩
      rw [if_neg hn]
      cases compiles with
      | false => exact ⟨fun x hx => hx, fun _ _ _ h => by simp at h⟩
      | true =>
        have hs := hsub subs done
        simp only [Bool.not_true, Bool.false_eq_true, if_false]
        generalize hr : resolveSubs rs (resolve rs k) subs done = r at hs
        obtain ⟨e, done'⟩ := r
        cases e
        · exact ⟨fun x hx => List.mem_cons_of_mem _ (hs x hx), fun _ _ _ _ => by simp⟩
        · exact ⟨hs, fun _ _ _ h => by simp at h⟩
        · exact ⟨hs, fun _ _ _ h => by simp at h⟩

/-- The rules of one of the two lists. -/
def side (b : Bool) (rs : DefSet) : Dict Str Def := if b then rs.checked else rs.notChecked

theorem side_del (b : Bool) (rs : DefSet) (n : Str) :
    side b (rs.del b n) = Dict.del (side b rs) n ∧ side (!b) (rs.del b n) = side (!b) rs := by
  cases b <;> simp [side, DefSet.del]

theorem mem_keys_del {V : Type} (d : Dict Str V) (n m : Str) : m ∈ Dict.keys (Dict.del d n) ↔ m ∈ Dict.keys d ∧ m ≠ n := by
  unfold Dict.keys Dict.del
  simp only [List.mem_map, List.mem_filter, Bool.not_eq_true', decide_eq_false_iff_not]
  constructor
  · rintro ⟨p, ⟨hp, hn⟩, rfl⟩
    exact ⟨⟨p, hp, rfl⟩, hn⟩
  · rintro ⟨⟨p, hp, rfl⟩, hn⟩
    exact ⟨p, ⟨hp, hn⟩, rfl⟩

theorem postItems_left (p b : Bool) : ∀ (items : List (Str × Def)) (rs rs' : DefSet) (done done' : List Str),
    postItems p b items rs done = (.ok, rs', done') →
      (∀ x ∈ done, x ∈ done') ∧ side (!b) rs' = side (!b) rs ∧
      (∀ n ∈ Dict.keys (side b rs'), n ∈ Dict.keys (side b rs)) ∧
      (∀ n ∈ Dict.keys (side b rs), (∀ d, (n, d) ∈ items → d = .plain) → n ∈ Dict.keys (side b rs')) ∧
      (∀ n s c, (n, Def.metaR s c) ∈ items → n ∈ Dict.keys (side b rs') → n ∈ done') := by
  intro items
  induction items with
  | nil =>
    intro rs rs' done done' h
    unfold postItems at h
    cases h
    exact ⟨fun x hx => hx, rfl, fun n hn => hn, fun n hn _ => hn, fun n s c h => by simp at h⟩
  | cons it items ih =>
    intro rs rs' done done' h
    obtain ⟨n0, d0⟩ := it
    unfold postItems at h
    obtain ⟨hk, hm⟩ := resolve_keeps rs (metaMaxRecursion + 1) n0 d0 done
    have hp0 : d0 = .plain → (resolve rs (metaMaxRecursion + 1) n0 d0 done).1 = .ok := by
      rintro rfl
      simp [resolve]
    generalize hr : resolve rs (metaMaxRecursion + 1) n0 d0 done = r at h hk hm hp0
    obtain ⟨e, done1⟩ := r
    cases e with
    | ok =>
      obtain ⟨h1, h2, h3, h4, h5⟩ := ih rs rs' done1 done' h
      refine ⟨fun x hx => h1 x (hk x hx), h2, h3, fun n hn ha => h4 n hn fun d hd => ha d (by simp [hd]), ?_⟩
      intro n s c hi hn
      rcases List.mem_cons.1 hi with hi | hi
      · injection hi with e1 e2
        subst e1
        exact h1 _ (hm s c e2.symm rfl)
      · exact h5 n s c hi hn
    | invalid =>
      simp only at h
      cases p with
      | true => simp at h
      | false =>
        simp only [Bool.false_eq_true, if_false] at h
        obtain ⟨h1, h2, h3, h4, h5⟩ := ih (rs.del b n0) rs' done1 done' h
        obtain ⟨hd1, hd2⟩ := side_del b rs n0
        refine ⟨fun x hx => h1 x (hk x hx), h2.trans hd2, ?_, ?_, ?_⟩
        · intro n hn
          have := h3 n hn
          rw [hd1, mem_keys_del] at this
          exact this.1
        · intro n hn ha
          apply h4 n
          · rw [hd1, mem_keys_del]
            refine ⟨hn, ?_⟩
            rintro rfl
            exact absurd (hp0 (ha d0 (by simp))) (by simp)
          · intro d hd
            exact ha d (by simp [hd])
        · intro n s c hi hn
          rcases List.mem_cons.1 hi with hi | hi
          · injection hi with e1 e2
            subst e1
            have := h3 n hn
            rw [hd1, mem_keys_del] at this
            exact absurd rfl this.2
          · exact h5 n s c hi hn
    | syntaxErr => simp at h

theorem postItems_again (p b : Bool) (rs : DefSet) (done : List Str) : ∀ (items : List (Str × Def)),
    (∀ n s c, (n, Def.metaR s c) ∈ items → n ∈ done) → postItems p b items rs done = (.ok, rs, done) := by
  intro items
  induction items with
  | nil => intro _; rfl
  | cons it items ih =>
    intro h
    obtain ⟨n, d⟩ := it
    have hr : resolve rs (metaMaxRecursion + 1) n d done = (.ok, done) := by
      cases d with
      | plain => simp [resolve]
      | metaR s c => simp [resolve, h n s c (by simp)]
    unfold postItems
    rw [hr]
    exact ih fun n s c hi => h n s c (by simp [hi])

theorem resolveAll_again (p : Bool) (rs : DefSet) (done : List Str)
    (h : ∀ n s c, (n, Def.metaR s c) ∈ rs.checked ++ rs.notChecked → n ∈ done) :
    resolveAll p rs done = (.ok, rs, done) := by
  unfold resolveAll
  rw [postItems_again p true rs done _ fun n s c hi => h n s c (by simp [hi])]
  exact postItems_again p false rs done _ fun n s c hi => h n s c (by simp [hi])

/-- The first time it is `callPostparsing`. -/
theorem resolveAll_first (p : Bool) (rs : DefSet) :
    ((resolveAll p rs []).1, (resolveAll p rs []).2.1) = callPostparsing p rs := by
  unfold resolveAll callPostparsing
  generalize postItems p true rs.checked rs [] = r
  obtain ⟨e, rs1, done1⟩ := r
  cases e <;> rfl

/-- What is left after the first time: nothing but meta rules is dropped, and every meta rule that is left has been
processed. -/
theorem resolveAll_left {p : Bool} {rs ds : DefSet} {done done' : List Str}
    (h : resolveAll p rs done = (.ok, ds, done')) :
    (∀ n ∈ Dict.keys rs.checked, (∀ d, (n, d) ∈ rs.checked → d = .plain) → n ∈ Dict.keys ds.checked) ∧
    (∀ n ∈ Dict.keys rs.notChecked, (∀ d, (n, d) ∈ rs.notChecked → d = .plain) → n ∈ Dict.keys ds.notChecked) ∧
    (∀ n s c, (n, Def.metaR s c) ∈ rs.checked → n ∈ Dict.keys ds.checked → n ∈ done') ∧
    (∀ n s c, (n, Def.metaR s c) ∈ rs.notChecked → n ∈ Dict.keys ds.notChecked → n ∈ done') := by
  unfold resolveAll at h
  generalize hr : postItems p true rs.checked rs done = r at h
  obtain ⟨e, rs1, done1⟩ := r
  cases e with
  | invalid => simp at h
  | syntaxErr => simp at h
  | ok =>
    simp only at h
    obtain ⟨a1, a2, a3, a4, a5⟩ := postItems_left p true _ _ _ _ _ hr
    obtain ⟨b1, b2, b3, b4, b5⟩ := postItems_left p false _ _ _ _ _ h
    simp only [side, if_true, Bool.not_true, Bool.false_eq_true, if_false, Bool.not_false] at a2 a3 a4 a5 b2 b3 b4 b5
    rw [a2] at b4 b5
    rw [b2]
    exact ⟨a4, b4, fun n s c hi hn => b1 n (a5 n s c hi hn), b5⟩

/-! ## The zones -/

theorem zones_some (l : List DnsEval.Rule) : ∀ z0, (DnsEval.zonesFrom z0 l).isSome = true ↔
    ∀ r ∈ l, DnsEval.zoneFns.contains r.fn = true → ∃ a b rest, r.args = a :: b :: rest := by
  induction l with
  | nil => intro z0; simp [DnsEval.zonesFrom]
  | cons r l ih =>
    intro z0
    unfold DnsEval.zonesFrom
    by_cases hf : DnsEval.zoneFns.contains r.fn = true
    · rw [if_pos hf]
      split
      · rename_i a b rest ha
        rw [ih]
        constructor
        · intro h r' hr' hf'
          rcases List.mem_cons.1 hr' with rfl | hr'
          · exact ⟨a, b, rest, ha⟩
          · exact h r' hr' hf'
        · intro h r' hr' hf'
          exact h r' (by simp [hr']) hf'
      · rename_i hno
        constructor
        · intro h; simp at h
        · intro h
          obtain ⟨a, b, rest, ha⟩ := h r (by simp) hf
          exact absurd ha (hno a b rest)
    · rw [if_neg hf, ih]
      constructor
      · intro h r' hr' hf'
        rcases List.mem_cons.1 hr' with rfl | hr'
        · exact absurd hf' hf
        · exact h r' hr' hf'
      · intro h r' hr' hf'
        exact h r' (by simp [hr']) hf'

theorem filterMap_filter_none {α β : Type} (f : α → Option β) (p : α → Bool) (l : List α)
    (h : ∀ x ∈ l, p x = false → f x = none) : (l.filter p).filterMap f = l.filterMap f := by
  induction l with
  | nil => rfl
  | cons x l ih =>
    have ih := ih fun y hy => h y (by simp [hy])
    by_cases hp : p x = true
    · rw [List.filter_cons_of_pos hp]
      simp only [List.filterMap_cons, ih]
    · rw [List.filter_cons_of_neg hp, ih, List.filterMap_cons, h x (by simp) (by simpa using hp)]

theorem keys_filter {V : Type} (d : Dict Str V) (p : Str → Bool) :
    Dict.keys (d.filter fun q => p q.1) = (Dict.keys d).filter p := by
  unfold Dict.keys
  rw [List.filter_map]
  rfl

/-- Of the eval rules none is lost. -/
theorem evals_keep (c : Site A N) (p : Bool) (rs : SRules S Y) (ds : DefSet) (done done' : List Str)
    (h : resolveAll p (defs c rs) done = (.ok, ds, done')) : evals c (keep ds rs) = evals c rs := by
  obtain ⟨h1, h2, _, _⟩ := resolveAll_left h
  have hk : ∀ (d : Dict Str (SRule S Y)) n, n ∈ Dict.keys (d.map fun q => (q.1, (c.kind q.1).toDef)) ↔ n ∈ Dict.keys d := by
    intro d n
    simp [Dict.keys]
  have hm : ∀ (d : Dict Str (SRule S Y)) (ks : List Str),
      (∀ n ∈ Dict.keys (d.map fun q => (q.1, (c.kind q.1).toDef)),
        (∀ e, (n, e) ∈ (d.map fun q => (q.1, (c.kind q.1).toDef)) → e = Def.plain) → n ∈ ks) →
      ∀ x ∈ Dict.keys d, decide (x ∈ ks) = false → (c.kind x).evalRule = none := by
    intro d ks hd x hx hn
    generalize hkx : c.kind x = k
    cases k with
    | metaR s cc => rfl
    | other => rfl
    | evalR r =>
      exfalso
      apply of_decide_eq_false hn
      apply hd x ((hk d x).2 hx)
      intro e he
      rw [List.mem_map] at he
      obtain ⟨q, _, he⟩ := he
      injection he with e1 e2
      rw [e1, hkx] at e2
      exact e2.symm
  unfold evals keep
  simp only
  rw [keys_filter rs.checked fun n => decide (n ∈ Dict.keys ds.checked),
    keys_filter rs.notChecked fun n => decide (n ∈ Dict.keys ds.notChecked),
    List.filterMap_append, List.filterMap_append, filterMap_filter_none _ _ _ (hm rs.checked _ h1),
    filterMap_filter_none _ _ _ (hm rs.notChecked _ h2)]

theorem evals_perm (c : Site A N) (rs rs' : SRules S Y) (h : (Dict.keys rs.checked).Perm (Dict.keys rs'.checked))
    (h' : Dict.keys rs.notChecked = Dict.keys rs'.notChecked) : (evals c rs).Perm (evals c rs') := by
  unfold evals
  rw [h']
  exact (h.append_right _).filterMap _

theorem priority_perm (rs : SRules S Y) : (Dict.keys (sorted rs).checked).Perm (Dict.keys rs.checked) :=
  (sortedBy_perm _ rs.checked).map _

theorem configure_keys (lines : List Str) (rs : SRules S Y) (hn : (Dict.keys rs.checked).Nodup)
    (hn' : (Dict.keys rs.notChecked).Nodup) :
    Dict.keys (configure lines rs).checked = Dict.keys rs.checked ∧
    Dict.keys (configure lines rs).notChecked = Dict.keys rs.notChecked := by
  obtain ⟨w, hw⟩ := configure_any (S := S) (Y := Y) lines
  rw [hw rs hn hn']
  exact withW_nodup w rs

/-! ## The theorems -/

/-- Where the two states may differ, and where they do not. -/
theorem restored_state (c : Site A N) (rules : SRules S Y) (hn : (Dict.keys rules.checked).Nodup)
    (hn' : (Dict.keys rules.notChecked).Nodup) (now : Int) (st : State S Y N) (h : parsed c rules now = some st) :
    ∃ st', restored c st = some st' ∧ st'.linked = st.linked ∧ st'.done = st.done ∧ st'.nets = st.nets ∧
      st'.iface = st.iface ∧
      st'.resolver = { st.resolver with payload := c.lib.payload, rotate := c.lib.rotate } ∧
      st'.rules = configure c.lines st.rules ∧
      DnsEval.zones (evals c rules) = some st.zones ∧
      DnsEval.zones (evals c (sorted (configure c.lines rules))) = some st'.zones ∧
      (∃ ds, st.rules = keep ds (sorted (configure c.lines rules))) ∧
      (Dict.keys st.rules.checked).Nodup ∧ (Dict.keys st.rules.notChecked).Nodup := by
  obtain ⟨hc1, hc2⟩ := configure_keys c.lines rules hn hn'
  unfold parsed hookEnd at h
  cases hd : Dns.configureDns c.dns (start c rules now : State S Y N).resolver with
  | none => simp [hd] at h
  | some r =>
  cases ha : addNetworks c (start c rules now : State S Y N).nets with
  | none => simp [hd, ha] at h
  | some nets =>
  cases hz : DnsEval.zones (evals c (start c rules now : State S Y N).rules) with
  | none => simp [hd, ha, hz] at h
  | some z =>
  simp only [hd, ha, hz] at h
  unfold postParsing at h
  simp only at h
  generalize hr : resolveAll c.paranoid (defs c (sorted (configure c.lines rules))) [] = q
  rw [show (start c rules now : State S Y N).rules = rules from rfl, show (start c rules now : State S Y N).done = [] from rfl,
    hr] at h
  obtain ⟨e, ds, done⟩ := q
  cases e with
  | invalid => simp at h
  | syntaxErr => simp at h
  | ok =>
  simp only at h
  cases ht : Dns.readRestrictions c.restrictions none
      (Dns.setAvailable c.available (start c rules now : State S Y N).iface).restrictions with
  | none => simp [ht] at h
  | some t =>
  simp only [ht, Option.some.injEq] at h
  obtain ⟨l1, l2, l3, l4⟩ := resolveAll_left hr
  have hz' : ∃ z', DnsEval.zones (evals c (keep ds (sorted (configure c.lines rules)))) = some z' := by
    rw [← Option.isSome_iff_exists]
    have hz0 : DnsEval.zonesFrom [] (evals c rules) = some z := hz
    unfold DnsEval.zones
    rw [zones_some]
    have := (zones_some _ _).1 (by rw [hz0]; rfl : (DnsEval.zonesFrom [] (evals c rules)).isSome = true)
    rw [evals_keep c c.paranoid _ ds [] done hr]
    intro r hr' hf
    refine this r ?_ hf
    refine ((evals_perm c (sorted (configure c.lines rules)) rules ?_ ?_).mem_iff).1 hr'
    · rw [← hc1]; exact priority_perm _
    · exact hc2
  obtain ⟨z', hz'⟩ := hz'
  have hkn : (Dict.keys (keep ds (sorted (configure c.lines rules))).checked).Nodup := by
    unfold keep
    simp only
    rw [keys_filter _ fun n => decide (n ∈ Dict.keys ds.checked)]
    apply List.Pairwise.filter
    show (Dict.keys (sorted (configure c.lines rules)).checked).Nodup
    rw [(priority_perm _).nodup_iff, hc1]
    exact hn
  have hkn' : (Dict.keys (keep ds (sorted (configure c.lines rules))).notChecked).Nodup := by
    unfold keep
    simp only
    rw [keys_filter _ fun n => decide (n ∈ Dict.keys ds.notChecked)]
    apply List.Pairwise.filter
    show (Dict.keys (configure c.lines rules).notChecked).Nodup
    rw [hc2]
    exact hn'
  obtain ⟨k1, k2⟩ := configure_keys c.lines _ hkn hkn'
  have hag : resolveAll c.paranoid (defs c (configure c.lines (keep ds (sorted (configure c.lines rules))))) done =
      (.ok, defs c (configure c.lines (keep ds (sorted (configure c.lines rules)))), done) := by
    apply resolveAll_again
    have side : ∀ (d d0 : Dict Str (SRule S Y)) (ks : List Str),
        Dict.keys d = Dict.keys (d0.filter fun p => decide (p.1 ∈ ks)) →
        (∀ n s cc, (n, Def.metaR s cc) ∈ d0.map (fun p => (p.1, (c.kind p.1).toDef)) → n ∈ ks → n ∈ done) →
        ∀ n s cc, (n, Def.metaR s cc) ∈ d.map (fun p => (p.1, (c.kind p.1).toDef)) → n ∈ done := by
      intro d d0 ks hk hl n s cc hi
      rw [List.mem_map] at hi
      obtain ⟨p, hp, he⟩ := hi
      injection he with e1 e2
      have hmem : n ∈ Dict.keys d := List.mem_map.2 ⟨p, hp, e1⟩
      rw [hk, keys_filter _ fun n => decide (n ∈ ks), List.mem_filter] at hmem
      obtain ⟨hm1, hm2⟩ := hmem
      refine hl n s cc ?_ (of_decide_eq_true hm2)
      obtain ⟨p0, hp0, e0⟩ := List.mem_map.1 hm1
      refine List.mem_map.2 ⟨p0, hp0, ?_⟩
      rw [e0, ← e1, e2]
    intro n s cc hi
    rcases List.mem_append.1 hi with hi | hi
    · exact side _ _ _ k1 l3 n s cc hi
    · exact side _ _ _ k2 l4 n s cc hi
  have hkeep : ∀ rs : SRules S Y, keep (defs c rs) rs = rs := by
    intro rs
    unfold keep defs
    have : ∀ d : Dict Str (SRule S Y),
        d.filter (fun p => decide (p.1 ∈ Dict.keys (d.map fun p => (p.1, (c.kind p.1).toDef)))) = d := by
      intro d
      rw [List.filter_eq_self]
      intro p hp
      simp only [decide_eq_true_eq, Dict.keys, List.map_map, List.mem_map]
      exact ⟨p, hp, rfl⟩
    simp only [this]
  have hd' : ∃ r', Dns.configureDns c.dns (thaw c st : State S Y N).resolver = some r' ∧
      r' = { st.resolver with payload := c.lib.payload, rotate := c.lib.rotate } := by
    subst h
    unfold thaw start at *
    unfold Dns.configureDns at hd ⊢
    simp only [Dns.applyDnsOptions] at hd ⊢
    split at hd
    · rename_i he
      injection hd with hd
      subst hd
      rw [if_pos he]
      exact ⟨_, rfl, rfl⟩
    · rename_i he
      rw [if_neg he]
      split at hd
      · injection hd with hd
        subst hd
        exact ⟨_, rfl, rfl⟩
      · cases hd
  obtain ⟨r', hd', hre⟩ := hd'
  have hrest : restored c st = some { st with
      resolver := r', iface := Dns.setAvailable c.available st.iface, nets := nets,
      rules := configure c.lines st.rules, zones := z' } := by
    unfold restored hookEnd
    rw [hd']
    simp only
    rw [show (thaw c st).nets = (start c rules now : State S Y N).nets from rfl, ha]
    simp only
    rw [show (thaw c st).rules = keep ds (sorted (configure c.lines rules)) by rw [← h]; rfl, hz']
    simp only
    rw [show (thaw c st).done = done by rw [← h]; rfl, hag]
    simp only [hkeep]
    subst h
    rfl
  refine ⟨_, hrest, rfl, rfl, ?_, ?_, hre, rfl, ?_, ?_, ⟨ds, ?_⟩, ?_, ?_⟩
  · subst h; rfl
  · subst h
    simp only [Dns.setAvailable]
    congr 1
    simp
  · subst h; exact hz
  · rw [← evals_keep c c.paranoid _ ds [] done hr]; exact hz'
  · subst h; rfl
  · subst h; exact hkn
  · subst h; exact hkn'

theorem foldlM_steps (L : Net.NetLib A N) (add : Str → Net.Nets N → Option (Net.Nets N)) (op : Str → Net.NetOp)
    (hop : ∀ t s s', add t s = some s' → Net.step L s (op t) = s') : ∀ (l : List Str) (s s' : Net.Nets N),
    l.foldlM (fun s t => add t s) s = some s' → (l.map op).foldl (Net.step L) s = s' := by
  intro l
  induction l with
  | nil => intro s s' h; simpa using h
  | cons t l ih =>
    intro s s' h
    rw [List.foldlM_cons] at h
    cases ha : add t s with
    | none => rw [ha] at h; simp at h
    | some s1 =>
      rw [ha] at h
      rw [List.map_cons, List.foldl_cons, hop t s s1 ha]
      exact ih s1 s' h

/-- What the parsed rules are: all trusted networks of the configuration, then the internal ones, then the MSA ones are
added to the lists; the restrictions are read in order; the zones are those of the rules in the order of the files; the rules
are sorted, and those that can not be used are left out. -/
theorem C166_parsed (c : Site A N) (rules : SRules S Y) (now : Int) (st : State S Y N) (h : parsed c rules now = some st) :
    st.nets = Verif.Spec.configure c.net (c.trusted.map .trusted ++ c.internal.map .internal ++ c.msa.map .msa) ∧
    st.iface = { (Dns.setAvailable c.available (Dns.Iface.init now)) with restrictions := st.iface.restrictions } ∧
    Dns.readRestrictions c.restrictions none [] = some st.iface.restrictions ∧
    DnsEval.zones (evals c rules) = some st.zones ∧
    st.linked = sorted (configure c.lines rules) ∧
    ∃ ds, callPostparsing c.paranoid (defs c (sorted (configure c.lines rules))) = (.ok, ds) ∧
      st.rules = keep ds (sorted (configure c.lines rules)) := by
  unfold parsed hookEnd at h
  cases hd : Dns.configureDns c.dns (start c rules now : State S Y N).resolver with
  | none => simp [hd] at h
  | some r =>
  cases ha : addNetworks c (start c rules now : State S Y N).nets with
  | none => simp [hd, ha] at h
  | some nets =>
  cases hz : DnsEval.zones (evals c (start c rules now : State S Y N).rules) with
  | none => simp [hd, ha, hz] at h
  | some z =>
  simp only [hd, ha, hz] at h
  unfold postParsing at h
  simp only at h
  have hf := resolveAll_first c.paranoid (defs c (sorted (configure c.lines rules)))
  generalize hr : resolveAll c.paranoid (defs c (sorted (configure c.lines rules))) [] = q at hf
  rw [show (start c rules now : State S Y N).rules = rules from rfl,
    show (start c rules now : State S Y N).done = [] from rfl, hr] at h
  obtain ⟨e, ds, done⟩ := q
  cases e with
  | invalid => simp at h
  | syntaxErr => simp at h
  | ok =>
  simp only at h
  cases ht : Dns.readRestrictions c.restrictions none
      (Dns.setAvailable c.available (start c rules now : State S Y N).iface).restrictions with
  | none => simp [ht] at h
  | some t =>
  simp only [ht, Option.some.injEq] at h
  subst h
  refine ⟨?_, rfl, ht, hz, rfl, ds, hf.symm, rfl⟩
  have ha : addNetworks c (Net.Nets.init c.net) = some nets := ha
  unfold addNetworks at ha
  cases h1 : c.trusted.foldlM (fun s t => Net.addTrusted c.net t s) (Net.Nets.init c.net) with
  | none => simp [h1] at ha
  | some s1 =>
    simp only [h1] at ha
    cases h2 : c.internal.foldlM (fun s t => Net.addInternal c.net t s) s1 with
    | none => simp [h2] at ha
    | some s2 =>
      simp only [h2] at ha
      unfold Verif.Spec.configure
      rw [List.foldl_append, List.foldl_append,
        foldlM_steps c.net (Net.addTrusted c.net) .trusted (by intro t s s' h; simp [Net.step, h]) _ _ _ h1,
        foldlM_steps c.net (Net.addInternal c.net) .internal (by intro t s s' h; simp [Net.step, h]) _ _ _ h2,
        foldlM_steps c.net (Net.addMsa c.net) .msa (by intro t s s' h; simp [Net.step, h]) _ _ _ ha]

theorem exists_last {α : Type} (P : α → Prop) (l : List α) (h : ∃ x ∈ l, P x) :
    ∃ pre x post, l = pre ++ x :: post ∧ P x ∧ ∀ y ∈ post, ¬ P y := by
  induction l with
  | nil => obtain ⟨x, hx, _⟩ := h; simp at hx
  | cons a l ih =>
    by_cases hl : ∃ x ∈ l, P x
    · obtain ⟨pre, x, post, e, hx, hp⟩ := ih hl
      exact ⟨a :: pre, x, post, by rw [e]; rfl, hx, hp⟩
    · obtain ⟨x, hx, hP⟩ := h
      rcases List.mem_cons.1 hx with rfl | hx
      · exact ⟨[], x, l, rfl, hP, fun y hy hy' => hl ⟨y, hy, hy'⟩⟩
      · exact absurd ⟨x, hx, hP⟩ hl

theorem zones_agree (l : List DnsEval.Rule) (z : Dict Str Str) (hz : DnsEval.zones l = some z) (zone : Str)
    (hc : ∀ r ∈ l, ∀ r' ∈ l, ∀ s s', Gives r zone s → Gives r' zone s' → s = s') (server : Str) :
    Dict.get? z zone = some server ↔ ∃ r ∈ l, Gives r zone server := by
  rw [C86_zone_partial l z hz zone server]
  constructor
  · rintro ⟨pre, r, post, e, hg, _⟩
    exact ⟨r, by rw [e]; simp, hg⟩
  · rintro ⟨r, hr, hg⟩
    obtain ⟨pre, x, post, e, ⟨s, hx⟩, hp⟩ := exists_last (fun r => Names r zone) l ⟨r, hr, server, hg⟩
    have : server = s := hc r hr x (by rw [e]; simp) server s hg hx
    subst this
    exact ⟨pre, x, post, e, hx, hp⟩

/-- Wrapping a rule again as it was wrapped changes nothing. -/
theorem link_again (bonus : Bonus S) (st : SRules S Y) (d : Nat) (r : SRule S Y) (w : List Str) :
    link bonus st d ((r.add w).add w) = link bonus st d (r.add w) := by
  unfold link
  rw [run_eq, run_eq]
  simp only [SRule.add]
  congr 1
  cases r.wraps with
  | cons t ts => rfl
  | nil => cases w with
    | nil => rfl
    | cons t ts => rfl

/-- **C166** (partial).  Rules that were parsed without an exception can be restored, and then every message gets
the results, the score and the tags that it would have got from the rules as they were parsed: rules configured
for short-circuiting, which are wrapped once more when the rules are restored, meta rules and rules dropped
included.  The networks, the availability of DNS and the restrictions on queries, the name servers and their port
are the same.  A zone has the same list if the rules that define it agree.  Missing: the size of the answers that
the resolver asks for (`C166_edns_violated`), and zones on which rules disagree (`C166_zones_violated`). -/
theorem C166_restored_partial (c : Site A N) (rules : SRules S Y) (hn : (Dict.keys rules.checked).Nodup)
    (hn' : (Dict.keys rules.notChecked).Nodup) (now : Int) (st : State S Y N) (h : parsed c rules now = some st) :
    ∃ st', restored c st = some st' ∧
      (∀ bonus depth m, check bonus st' depth m = check bonus st depth m) ∧
      st'.nets = st.nets ∧ st'.iface = st.iface ∧
      st'.resolver = { st.resolver with payload := c.lib.payload, rotate := c.lib.rotate } ∧
      ∀ zone, (∀ n ∈ Dict.keys rules.checked ++ Dict.keys rules.notChecked,
          ∀ n' ∈ Dict.keys rules.checked ++ Dict.keys rules.notChecked, ∀ r r', c.kind n = .evalR r → c.kind n' = .evalR r' →
          ∀ s s', Gives r zone s → Gives r' zone s' → s = s') →
        Dict.get? st'.zones zone = Dict.get? st.zones zone := by
  obtain ⟨st', hr, hl, hdone, hnets, hif, hres, hrules, hz, hz', ⟨ds, hk⟩, k1, k2⟩ := restored_state c rules hn hn' now st h
  refine ⟨st', hr, ?_, hnets, hif, hres, ?_⟩
  · intro bonus depth m
    unfold check
    congr 1
    obtain ⟨w, hw⟩ := configure_any (S := S) (Y := Y) c.lines
    rw [hl, hrules, hw st.rules k1 k2]
    unfold withW
    simp only
    rw [List.map_map]
    apply List.map_congr_left
    intro p hp
    have hin : p ∈ (withW w rules).checked := by
      rw [← hw rules hn hn']
      rw [hk] at hp
      unfold keep at hp
      have := (List.mem_filter.1 hp).1
      exact ((sortedBy_perm _ _).mem_iff).1 this
    unfold withW at hin
    simp only [List.mem_map] at hin
    obtain ⟨q, _, rfl⟩ := hin
    simp only [Function.comp, Prod.mk.injEq, true_and]
    exact link_again bonus _ depth q.2 (w q.1)
  · intro zone hag
    have hp : (evals c (sorted (configure c.lines rules))).Perm (evals c rules) := by
      obtain ⟨c1, c2⟩ := configure_keys c.lines rules hn hn'
      refine evals_perm c _ rules ?_ c2
      rw [← c1]
      exact priority_perm _
    have hc : ∀ r ∈ evals c rules, ∀ r' ∈ evals c rules, ∀ s s', Gives r zone s → Gives r' zone s' → s = s' := by
      intro r hr r' hr' s s' hg hg'
      unfold evals at hr hr'
      rw [List.mem_filterMap] at hr hr'
      obtain ⟨n, hn, hkn⟩ := hr
      obtain ⟨n', hn', hkn'⟩ := hr'
      refine hag n hn n' hn' r r' ?_ ?_ s s' hg hg'
      · cases hx : c.kind n <;> simp [hx, Kind.evalRule] at hkn
        rw [hkn]
      · cases hx : c.kind n' <;> simp [hx, Kind.evalRule] at hkn'
        rw [hkn']
    apply Option.ext
    intro server
    rw [zones_agree _ _ hz zone hc server, zones_agree _ _ hz' zone (fun r hr r' hr' =>
      hc r (hp.mem_iff.1 hr) r' (hp.mem_iff.1 hr')) server]
    exact exists_congr fun r => and_congr_left fun _ => hp.mem_iff

/-- The size of the answers that the parsed rules ask for is forgotten: the resolver of the restored rules has the
value of the library. -/
theorem C166_edns_violated (c : Site A N) (rules : SRules S Y) (hn : (Dict.keys rules.checked).Nodup)
    (hn' : (Dict.keys rules.notChecked).Nodup) (now : Int) (st st' : State S Y N) (h : parsed c rules now = some st)
    (h' : restored c st = some st') (hp : c.lib.payload ≠ 4096) :
    st.resolver.payload = 4096 ∧ st'.resolver.payload ≠ 4096 := by
  obtain ⟨st2, hr, _, _, _, _, hres, _⟩ := restored_state c rules hn hn' now st h
  rw [h'] at hr
  injection hr with hr
  subst hr
  refine ⟨?_, by rw [hres]; exact hp⟩
  unfold parsed at h
  cases hh : hookEnd c (start c rules now : State S Y N) with
  | none => simp [hh] at h
  | some s1 =>
    simp only [hh] at h
    unfold postParsing at h
    split at h
    · split at h
      · cases h
      · injection h with h
        subst h
        rfl
    · cases h

/-- Two rules give a zone different lists, and the one that is written first has the lower priority: the parsed
rules ask the list of the second, the restored rules the list of the first. -/
theorem C166_zones_violated (c : Site A N) (a b : Str) (ra rb : SRule S Y) (hne : a ≠ b)
    (hprio : ra.base.priority < rb.base.priority) (fa fb : Str) (ha : DnsEval.ZoneRule fa) (hb : DnsEval.ZoneRule fb)
    (za zb sa sb : Str) (hid : DnsEval.zoneId za = DnsEval.zoneId zb)
    (ka : c.kind a = .evalR ⟨fa, [za, sa]⟩) (kb : c.kind b = .evalR ⟨fb, [zb, sb]⟩) (now : Int) (st st' : State S Y N)
    (h : parsed c ⟨[(a, ra), (b, rb)], []⟩ now = some st) (h' : restored c st = some st') :
    Dict.get? st.zones (DnsEval.zoneId za) = some sb ∧ Dict.get? st'.zones (DnsEval.zoneId za) = some sa := by
  have hn : (Dict.keys [(a, ra), (b, rb)]).Nodup := by simp [Dict.keys, hne]
  have hn' : (Dict.keys ([] : Dict Str (SRule S Y))).Nodup := by simp [Dict.keys]
  obtain ⟨st2, hr, _, _, _, _, _, _, hz, hz', _⟩ := restored_state c ⟨[(a, ra), (b, rb)], []⟩ hn hn' now st h
  rw [h'] at hr
  injection hr with hr
  subst hr
  have fa' := (zoneFns_iff fa).2 ha
  have fb' := (zoneFns_iff fb).2 hb
  constructor
  · have : evals c (⟨[(a, ra), (b, rb)], []⟩ : SRules S Y) = [⟨fa, [za, sa]⟩, ⟨fb, [zb, sb]⟩] := by
      simp [evals, Dict.keys, ka, kb, Kind.evalRule]
    rw [this] at hz
    unfold DnsEval.zones DnsEval.zonesFrom at hz
    simp only [fa', if_true] at hz
    unfold DnsEval.zonesFrom at hz
    simp only [fb', if_true] at hz
    unfold DnsEval.zonesFrom at hz
    injection hz with hz
    rw [← hz, hid, Dict.get?_set, if_pos rfl]
  · obtain ⟨w, hw⟩ := configure_any (S := S) (Y := Y) c.lines
    have : evals c (sorted (configure c.lines ⟨[(a, ra), (b, rb)], []⟩)) = [⟨fb, [zb, sb]⟩, ⟨fa, [za, sa]⟩] := by
      rw [hw _ hn hn']
      simp [evals, sorted, withW, sortedBy, insertBy, SRule.add, Dict.keys, ka, kb, Kind.evalRule, hprio]
    rw [this] at hz'
    unfold DnsEval.zones DnsEval.zonesFrom at hz'
    simp only [fb', if_true] at hz'
    unfold DnsEval.zonesFrom at hz'
    simp only [fa', if_true] at hz'
    unfold DnsEval.zonesFrom at hz'
    injection hz' with hz'
    rw [← hz', Dict.get?_set, if_pos rfl]

theorem call_left {p : Bool} {rs ds : DefSet} (h : callPostparsing p rs = (.ok, ds)) :
    (∀ n ∈ Dict.keys ds.checked, n ∈ Dict.keys rs.checked) ∧ (∀ n ∈ Dict.keys ds.notChecked, n ∈ Dict.keys rs.notChecked) := by
  unfold callPostparsing at h
  generalize hr : postItems p true rs.checked rs [] = r at h
  obtain ⟨e, rs1, done1⟩ := r
  cases e with
  | invalid => simp at h
  | syntaxErr => simp at h
  | ok =>
    simp only at h
    obtain ⟨-, a2, a3, -, -⟩ := postItems_left p true _ _ _ _ _ hr
    generalize hr2 : postItems p false rs1.notChecked rs1 done1 = r at h
    obtain ⟨e, rs2, done2⟩ := r
    simp only [Prod.mk.injEq] at h
    obtain ⟨rfl, rfl⟩ := h
    obtain ⟨-, b2, b3, -, -⟩ := postItems_left p false _ _ _ _ _ hr2
    have a2' : rs1.notChecked = rs.notChecked := a2
    have b2' : rs2.checked = rs1.checked := b2
    have a3' : ∀ n ∈ Dict.keys rs1.checked, n ∈ Dict.keys rs.checked := a3
    have b3' : ∀ n ∈ Dict.keys rs2.notChecked, n ∈ Dict.keys rs1.notChecked := b3
    rw [b2', ← a2']
    exact ⟨a3', b3'⟩

theorem get_keys (rs : DefSet) (n : Str) : rs.get n ≠ none ↔ n ∈ Dict.keys rs.checked ∨ n ∈ Dict.keys rs.notChecked := by
  unfold DefSet.get
  rw [Dict.mem_keys_iff, Dict.mem_keys_iff]
  cases Dict.get? rs.checked n <;> simp [Option.ne_none_iff_exists']

/-- What a rule is, as far as it is known to a set of rules. -/
theorem defs_get (c : Site A N) (rs : SRules S Y) (n : Str) (h : n ∈ Dict.keys rs.checked ∨ n ∈ Dict.keys rs.notChecked) :
    (defs c rs).get n = some (c.kind n).toDef := by
  have hm : ∀ d : Dict Str (SRule S Y), Dict.get? (d.map fun p => (p.1, (c.kind p.1).toDef)) n = (Dict.get? d n).map fun _ => (c.kind n).toDef := by
    intro d
    induction d with
    | nil => rfl
    | cons q d ih =>
      rw [List.map_cons, Dict.get?_cons, Dict.get?_cons]
      by_cases hq : q.1 = n
      · simp [hq]
      · simp only [hq, if_false]; exact ih
  unfold DefSet.get defs
  simp only [hm]
  rw [Dict.mem_keys_iff, Dict.mem_keys_iff] at h
  cases h1 : Dict.get? rs.checked n with
  | some x => rfl
  | none =>
    cases h2 : Dict.get? rs.notChecked n with
    | some x => rfl
    | none => simp [h1, h2] at h

/-- The names of the rules that are left. -/
def Left (st : State S Y N) (n : Str) : Prop := n ∈ Dict.keys st.rules.checked ∨ n ∈ Dict.keys st.rules.notChecked

/-- **C166**.  Of the parsed rules, and so of the restored ones, every rule that is not a meta rule is left, and a meta rule that
is left refers only to rules that are left. -/
theorem C166_usable (c : Site A N) (rules : SRules S Y) (hn : (Dict.keys rules.checked ++ Dict.keys rules.notChecked).Nodup)
    (hp : c.paranoid = false) (hc : ∀ n subs cc, c.kind n = .metaR subs cc → cc = true)
    (now : Int) (st st' : State S Y N) (h : parsed c rules now = some st) (h' : restored c st = some st') :
    (∀ n, Left st' n ↔ Left st n) ∧
    (∀ n ∈ Dict.keys rules.checked ++ Dict.keys rules.notChecked, (∀ subs cc, c.kind n ≠ .metaR subs cc) → Left st n) ∧
    ∀ n subs cc, Left st n → c.kind n = .metaR subs cc → ∀ m ∈ subs, Left st m := by
  have hn1 := (List.nodup_append.mp hn).1
  have hn2 := (List.nodup_append.mp hn).2.1
  obtain ⟨k1, k2⟩ := configure_keys c.lines rules hn1 hn2
  have kp := priority_perm (configure c.lines rules)
  generalize hs : sorted (configure c.lines rules) = R at kp
  have kn : Dict.keys R.notChecked = Dict.keys rules.notChecked := by rw [← hs]; exact k2
  rw [k1] at kp
  obtain ⟨-, -, -, -, -, ds, hcall, hrules⟩ := C166_parsed c rules now st h
  rw [hs] at hcall hrules
  rw [hp] at hcall
  have hmem : ∀ n, (n ∈ Dict.keys R.checked ∨ n ∈ Dict.keys R.notChecked) ↔ n ∈ Dict.keys rules.checked ++ Dict.keys rules.notChecked := by
    intro n; rw [kp.mem_iff, kn, List.mem_append]
  have dk1 : Dict.keys (defs c R).checked = Dict.keys R.checked := by simp [defs, Dict.keys]
  have dk2 : Dict.keys (defs c R).notChecked = Dict.keys R.notChecked := by simp [defs, Dict.keys]
  have hdist : (defs c R).Distinct := by
    unfold DefSet.Distinct
    rw [dk1, dk2, kn]
    exact ((kp.append_right _).nodup_iff).mpr hn
  have hget : ∀ n d, (defs c R).get n = some d → (n ∈ Dict.keys R.checked ∨ n ∈ Dict.keys R.notChecked) ∧ d = (c.kind n).toDef := by
    intro n d hd
    have hx : n ∈ Dict.keys R.checked ∨ n ∈ Dict.keys R.notChecked := by
      rw [← dk1, ← dk2]; exact (get_keys _ n).mp (by rw [hd]; simp)
    rw [defs_get c R n hx] at hd
    exact ⟨hx, (Option.some.inj hd).symm⟩
  have hcomp : Verif.Spec.AllCompile (defs c R).get := by
    intro n subs cc hd
    have hk := (hget n _ hd).2
    generalize hkk : c.kind n = k at hk
    cases k with
    | metaR s x =>
      injection hk with e1 e2
      rw [e2]; exact hc n s x hkk
    | evalR r => cases hk
    | other => cases hk
  obtain ⟨ds', hcall', hle, -, hclosed, hwithin⟩ := C09_resolution (defs c R) hdist hcomp
  rw [hcall] at hcall'
  injection hcall' with _ e
  subst e
  obtain ⟨l1, l2⟩ := call_left hcall
  rw [dk1] at l1
  rw [dk2] at l2
  have hleft : ∀ n, Left st n ↔ ds.get n ≠ none := by
    intro n
    unfold Left
    rw [get_keys, hrules]
    unfold keep
    simp only
    rw [keys_filter R.checked fun n => decide (n ∈ Dict.keys ds.checked), keys_filter R.notChecked fun n => decide (n ∈ Dict.keys ds.notChecked)]
    simp only [List.mem_filter, decide_eq_true_eq]
    constructor
    · rintro (⟨-, h⟩ | ⟨-, h⟩)
      · exact Or.inl h
      · exact Or.inr h
    · rintro (h | h)
      · exact Or.inl ⟨l1 n h, h⟩
      · exact Or.inr ⟨l2 n h, h⟩
  refine ⟨?_, ?_, ?_⟩
  · intro n
    obtain ⟨st2, hr, -, -, -, -, -, hrr, -, -, -, m1, m2⟩ := restored_state c rules hn1 hn2 now st h
    rw [h'] at hr
    injection hr with hr
    subst hr
    obtain ⟨q1, q2⟩ := configure_keys c.lines st.rules m1 m2
    unfold Left
    rw [hrr, q1, q2]
  · intro n hm hk
    have hin := (hmem n).mpr hm
    have hd := defs_get c R n hin
    have : (c.kind n).toDef = Def.plain := by
      generalize hkk : c.kind n = k
      cases k with
      | metaR s x => exact absurd hkk (hk s x)
      | evalR r => rfl
      | other => rfl
    rw [this] at hd
    rw [hleft, hwithin n (.plain hd), hd]
    simp
  · intro n subs cc hl hk m hm
    rw [hleft] at hl ⊢
    refine hclosed n m hl ?_
    cases hg : ds.get n with
    | none => exact absurd hg hl
    | some d =>
      have hd := hle n d hg
      have := (hget n d hd).2
      rw [hk] at this
      rw [this] at hd
      exact ⟨subs, cc, hd, hm⟩

/-! ## The hypotheses can be met -/

def rsNet : Net.NetLib Nat Nat where
  mem n a := n == a
  loop4 := 0
  loop6 := 1
  extract t := if t = c!"bad" then none else some (false, some t.length)

def rsRule (name : Str) (prio : Int) (v : MatchValue) : Str × SRule Int Unit :=
  (name, { base := ⟨name, [1], none, [], prio, 1⟩, rtype := [], body := .plain fun s => (.ret v, s), wraps := [] })

def rsMeta (name sub : Str) : Str × SRule Int Unit :=
  (name, { base := ⟨name, [2], none, [], 0, 2⟩, rtype := [], body := .metaR (.call sub fun v => .ret v), wraps := [] })

/-- Two lists for the zone `z`, a meta rule over a short-circuited rule and one over no rule. -/
def rsRules : SRules Int Unit :=
  ⟨[rsRule c!"A" 0 (.val 0), rsRule c!"B" 5 (.val 0), rsMeta c!"M" c!"__S", rsMeta c!"X" c!"NONE", rsRule c!"C" (-1) (.val 1)],
   [rsRule c!"__S" 0 (.val 1)]⟩

def rsSite : Site Nat Nat where
  net := rsNet
  trusted := [c!"net3"]
  internal := [c!"net10"]
  msa := []
  dns := ⟨[some (c!"10.0.0.1", some c!"5353"), none], 5, 5, [], c!"10m"⟩
  available := c!"yes"
  restrictions := [c!"deny example.com"]
  lib := ⟨[c!"127.0.0.1"], 53, false, 0, 30000, 2000, 0⟩
  lines := [c!"__S spam", c!"C on", c!"nonsense"]
  kind n := if n = c!"A" then .evalR ⟨c!"check_rbl", [c!"z", c!"a.example."]⟩
    else if n = c!"B" then .evalR ⟨c!"check_rbl", [c!"z-last", c!"b.example."]⟩
    else if n = c!"M" then .metaR [c!"__S"] true
    else if n = c!"X" then .metaR [c!"NONE"] true
    else .other
  paranoid := false

def rsState : Option (State Int Unit Nat) := parsed rsSite rsRules 0

/-- The short-circuited rule inside the meta rule ends the check: its score and the bonus are counted, once, before
and after restoring; the meta rule over no rule is gone. -/
example : rsState.map (fun st => Dict.keys st.rules.checked) = some [c!"B", c!"A", c!"M", c!"C"] ∧
    rsState.map (fun st => (check ⟨100, -100⟩ st 11 ⟨0, [], [], ⟨[], ()⟩⟩).score) = some 101 ∧
    (rsState.bind (restored rsSite)).map (fun st => (check ⟨100, -100⟩ st 11 ⟨0, [], [], ⟨[], ()⟩⟩).score) = some 101 ∧
    (rsState.bind (restored rsSite)).map (fun st => st.nets) = rsState.map (fun st => st.nets) ∧
    (rsState.bind (restored rsSite)).map (fun st => st.resolver.nameservers) = some [c!"10.0.0.1"] ∧
    (rsState.bind (restored rsSite)).map (fun st => (st.resolver.payload, st.iface.restrictions)) =
      some (0, [(c!"example.com", true)]) ∧
    rsState.map (fun st => Dict.get? st.zones c!"z") = some (some c!"b.example.") ∧
    (rsState.bind (restored rsSite)).map (fun st => Dict.get? st.zones c!"z") = some (some c!"a.example.") := by
  decide +kernel

example : (Dict.keys rsRules.checked).Nodup ∧ (Dict.keys rsRules.notChecked).Nodup ∧ rsState.isSome = true ∧
    rsSite.lib.payload ≠ 4096 := by
  decide +kernel

example : (Dict.keys rsRules.checked ++ Dict.keys rsRules.notChecked).Nodup ∧ (rsState.bind (restored rsSite)).isSome = true ∧
    ∀ n subs cc, rsSite.kind n = .metaR subs cc → cc = true := by
  refine ⟨by decide +kernel, by decide +kernel, ?_⟩
  intro n subs cc h
  simp only [rsSite] at h
  repeat' split at h
  all_goals first | cases h; rfl | cases h

end Verif.Props
