import Verif.Props.ScanText
import Verif.Spec.Local

/-!
# C174: rules have no effect on rules that do not mention them
-/

namespace Verif.Props
open Verif Py Mail Parser Scan Spec Build

variable {S R V C : Type} [PyNum S]

theorem firstMentions_filter (K : Str → Bool) (l : List Str) : (firstMentions l).filter K = firstMentions (l.filter K) := by
  induction l with
  | nil => rfl
  | cons n ns ih =>
    rw [firstMentions]
    by_cases hk : K n = true
    · rw [List.filter_cons_of_pos hk, List.filter_cons_of_pos hk, firstMentions, ← ih, List.filter_filter, List.filter_filter]
      congr 2
      funext x
      rw [Bool.and_comm]
    · rw [List.filter_cons_of_neg hk, List.filter_cons_of_neg hk, ← ih, List.filter_filter]
      apply List.filter_congr
      intro x _
      cases hx : K x with
      | false => rfl
      | true =>
        have : x ≠ n := by rintro rfl; exact hk hx
        simp [this]

theorem filter_names {K : Str → Bool} {as as' : List (Str × Str × PVal)} (h : as.filter (fun a => K a.1) = as'.filter (fun a => K a.1)) :
    (as.map (fun a => a.1)).filter K = (as'.map (fun a => a.1)).filter K := by
  rw [List.filter_map, List.filter_map]
  exact congrArg (List.map fun a => a.1) h

theorem works_apart {K : Str → Bool} {rules rules' : Conds R} (hr : ∀ n, K n = true → rules n = rules' n)
    (hc : ∀ n e, K n = true → rules n = some (.combine e) → ∀ y ∈ e.names, K y = true) {k : Nat} {n : Str} (h : Works rules k n) :
    K n = true → Works rules' k n := by
  induction h with
  | plain h1 h2 => intro hk; exact .plain (hr _ hk ▸ h1) h2
  | combine h1 _ ih => intro hk; exact .combine (hr _ hk ▸ h1) (fun y hy => ih y hy (hc _ _ hk h1 y hy))

theorem gives_apart {L : ReLib R} {m : Facts} {K : Str → Bool} {rules rules' : Conds R} (hr : ∀ n, K n = true → rules n = rules' n)
    (hc : ∀ n e, K n = true → rules n = some (.combine e) → ∀ y ∈ e.names, K y = true) {n : Str} {v : Int} (h : Gives L rules m n v) :
    K n = true → Gives L rules' m n v := by
  induction h with
  | yes h1 h2 h3 => intro hk; exact .yes (hr _ hk ▸ h1) h2 h3
  | no h1 h2 h3 => intro hk; exact .no (hr _ hk ▸ h1) h2 h3
  | answer h1 => intro hk; exact .answer (hr _ hk ▸ h1)
  | combine env h1 _ h3 ih => intro hk; exact .combine env (hr _ hk ▸ h1) (fun y hy => ih y hy (hc _ _ hk h1 y hy)) h3

theorem order_pairwise {N : List Str} {docs : Str → Doc S R} {rules : Conds R} {o : List Str} (ho : InOrder N docs rules o) (K : Str → Bool) :
    (o.filter K).Pairwise (fun a b => (docs b).priority ≤ (docs a).priority ∧
      ((docs a).priority = (docs b).priority → [a, b].Sublist (N.filter K))) := by
  refine List.pairwise_iff_forall_sublist.2 ?_
  intro a b hab
  have hab' : [a, b].Sublist o := hab.trans List.filter_sublist
  refine ⟨List.pairwise_iff_forall_sublist.1 ho.sorted hab', fun e => ?_⟩
  have := hab'.filter (fun n => decide ((docs n).priority = (docs a).priority))
  simp only [List.filter_cons, decide_true, if_true, e, List.filter_nil] at this
  have h2 := ((e ▸ this).trans (ho.stable _)).filter K
  have ha : K a = true := (List.mem_filter.1 (hab.subset (by simp))).2
  have hb : K b = true := (List.mem_filter.1 (hab.subset (by simp))).2
  simpa [List.filter_cons, ha, hb] using h2

theorem mem_firstMentions' (l : List Str) (n : Str) : n ∈ firstMentions l ↔ n ∈ l := by
  induction l with
  | nil => simp [firstMentions]
  | cons x xs ih =>
    rw [firstMentions, List.mem_cons, List.mem_filter, ih, List.mem_cons]
    by_cases h : n = x <;> simp [h]

/-- What is evaluated in a configuration. -/
theorem understood_scan (E : ScanEnv S R V C) (c0 c : C) (files : List Str) (m : Facts) (as : List (Str × Str × PVal)) (good : Str → Bool)
    (docs : Str → Doc S R) (h : Understood E c0 files m c as good docs) (hm : Reads E.mail m.headers m.dec m.addrs)
    (hmp : ∀ q ∈ m.partHeaders, E.mail.decode q.2 = some (m.dec q.2)) (ops : List Access) :
    ∃ (st : MsgSt S Seen) (order : List Str) (val : Str → Int),
      scan E c0 files ⟨m.text, m.rawText, m.raw, m.uris, accessed E.mail m.headers m.partHeaders ops⟩ = some st ∧
      InOrder ((firstMentions (as.map (fun a => a.1))).filter good) docs (rulesOf as good docs) order ∧
      (∀ n ∈ order, Gives E.re (rulesOf as good docs) m n (val n)) ∧
      st.checked = order.map (fun n => (n, val n)) ∧
      st.score = total 0 ((order.filter (fun n => decide (val n ≠ 0))).map (fun n => (docs n).score)) := by
  obtain ⟨lines, hf, ht⟩ := h.text
  exact C141_text_partial E h.tolerant c0 c files lines as hf ht good docs m hm hmp ops h.says h.parts h.answers h.depth

/-- The part of the orders that two configurations agree about. -/
theorem agree_orders {L : ReLib R} {m : Facts} {K : Str → Bool} {as as' : List (Str × Str × PVal)} {good good' : Str → Bool} {docs docs' : Str → Doc S R}
    (ha : Agree K as as' good good' docs docs') {o o' : List Str} {v v' : Str → Int}
    (h : InOrder ((firstMentions (as.map (fun a => a.1))).filter good) docs (rulesOf as good docs) o)
    (h' : InOrder ((firstMentions (as'.map (fun a => a.1))).filter good') docs' (rulesOf as' good' docs') o')
    (g : ∀ n ∈ o, Gives L (rulesOf as good docs) m n (v n)) (g' : ∀ n ∈ o', Gives L (rulesOf as' good' docs') m n (v' n)) :
    o'.filter K = o.filter K ∧ ∀ n ∈ o.filter K, v' n = v n := by
  have hnames := filter_names ha.lines
  have hN : ((firstMentions (as.map (fun a => a.1))).filter good).filter K = ((firstMentions (as'.map (fun a => a.1))).filter good').filter K := by
    have e1 : ∀ (l : List Str) (f : Str → Bool), (l.filter f).filter K = (l.filter K).filter f := by
      intro l f
      rw [List.filter_filter, List.filter_filter]
      congr 1
      funext x
      rw [Bool.and_comm]
    rw [e1, e1, firstMentions_filter K, firstMentions_filter K, hnames]
    apply List.filter_congr
    intro x hx
    have hk : K x = true := by
      rw [← firstMentions_filter] at hx
      exact (List.mem_filter.1 hx).2
    exact (ha.same x hk).2.symm
  have hdef : ∀ n, K n = true → (n ∈ (firstMentions (as.map (fun a => a.1))).filter good ↔ n ∈ (firstMentions (as'.map (fun a => a.1))).filter good') := by
    intro n hk
    have : ∀ l : List Str, n ∈ l ↔ n ∈ l.filter K := fun l => by simp [hk]
    rw [this, hN, ← this]
  have hr : ∀ n, K n = true → rulesOf as good docs n = rulesOf as' good' docs' n := by
    intro n hk
    unfold rulesOf
    by_cases hn : n ∈ (firstMentions (as.map (fun a => a.1))).filter good
    · rw [if_pos hn, if_pos ((hdef n hk).1 hn), (ha.same n hk).1]
    · rw [if_neg hn, if_neg (fun x => hn ((hdef n hk).2 x))]
  have hc : ∀ n e, K n = true → rulesOf as good docs n = some (.combine e) → ∀ y ∈ e.names, K y = true := by
    intro n e hk he
    unfold rulesOf at he
    split at he
    · exact ha.closed n e hk (Option.some.inj he)
    · cases he
  have hc' : ∀ n e, K n = true → rulesOf as' good' docs' n = some (.combine e) → ∀ y ∈ e.names, K y = true :=
    fun n e hk he => hc n e hk (by rw [hr n hk]; exact he)
  have hmem : ∀ n, n ∈ o'.filter K ↔ n ∈ o.filter K := by
    intro n
    rw [List.mem_filter, List.mem_filter, h.exact, h'.exact]
    constructor
    · rintro ⟨⟨a, b, c, k, d⟩, hk⟩
      exact ⟨⟨(hdef n hk).2 a, b, (ha.same n hk).1 ▸ c, k, works_apart (fun n hk => (hr n hk).symm) hc' d hk⟩, hk⟩
    · rintro ⟨⟨a, b, c, k, d⟩, hk⟩
      exact ⟨⟨(hdef n hk).1 a, b, by rw [(ha.same n hk).1]; exact c, k, works_apart hr hc d hk⟩, hk⟩
  have hnd : (((firstMentions (as.map (fun a => a.1))).filter good).filter K).Nodup := ((firstMentions_nodup _).filter _).filter _
  have hp' := order_pairwise h' K
  rw [← hN] at hp'
  have he : o'.filter K = o.filter K := by
    refine List.Perm.eq_of_pairwise ?_ hp' ?_ ((List.perm_ext_iff_of_nodup (h'.once.filter _) (h.once.filter _)).2 hmem)
    · intro a b _ _ hab hba
      have e : (docs' a).priority = (docs' b).priority := by omega
      exact (two_orders hnd (hab.2 e) (hba.2 e.symm)).elim
    · refine (order_pairwise h K).imp_of_mem ?_
      intro a b ma mb hab
      rw [(ha.same a (List.mem_filter.1 ma).2).1, (ha.same b (List.mem_filter.1 mb).2).1]
      exact hab
  refine ⟨he, fun n hn => ?_⟩
  have hk := (List.mem_filter.1 hn).2
  exact gives_unique (gives_apart (fun n hk => (hr n hk).symm) hc' (g' n (List.mem_filter.1 (he ▸ hn)).1) hk) (g n (List.mem_filter.1 hn).1)

theorem map_filter_fst (K : Str → Bool) (o : List Str) (v : Str → Int) :
    (o.map (fun n => (n, v n))).filter (fun p => K p.1) = (o.filter K).map (fun n => (n, v n)) := by
  rw [List.filter_map]
  rfl

/-- **C174** (the part that holds).  Two configurations say the same about some rules, which mention only each other.  Whatever else the
configurations say, and in which order: if both can be understood, the same ones of these rules are evaluated, in the same order, with
the same results. -/
theorem C174_local_partial (E : ScanEnv S R V C) (c0 c c' : C) (files files' : List Str) (m : Facts) (as as' : List (Str × Str × PVal))
    (good good' : Str → Bool) (docs docs' : Str → Doc S R) (h : Understood E c0 files m c as good docs)
    (h' : Understood E c0 files' m c' as' good' docs') (K : Str → Bool) (ha : Agree K as as' good good' docs docs')
    (hm : Reads E.mail m.headers m.dec m.addrs) (hmp : ∀ q ∈ m.partHeaders, E.mail.decode q.2 = some (m.dec q.2)) (ops : List Access) :
    ∃ st st' : MsgSt S Seen,
      scan E c0 files ⟨m.text, m.rawText, m.raw, m.uris, accessed E.mail m.headers m.partHeaders ops⟩ = some st ∧
      scan E c0 files' ⟨m.text, m.rawText, m.raw, m.uris, accessed E.mail m.headers m.partHeaders ops⟩ = some st' ∧
      st'.checked.filter (fun p => K p.1) = st.checked.filter (fun p => K p.1) := by
  obtain ⟨st, o, v, h1, h2, h3, h4, _⟩ := understood_scan E c0 c files m as good docs h hm hmp ops
  obtain ⟨st', o', v', h1', h2', h3', h4', _⟩ := understood_scan E c0 c' files' m as' good' docs' h' hm hmp ops
  obtain ⟨e, hv⟩ := agree_orders ha h2 h2' h3 h3'
  refine ⟨st, st', h1, h1', ?_⟩
  rw [h4, h4', map_filter_fst, map_filter_fst, e]
  apply List.map_congr_left
  intro n hn
  rw [hv n hn]

theorem total_perm (hadd : ∀ a b c : S, a + b + c = a + c + b) {l l' : List S} (h : l.Perm l') (z : S) : total z l = total z l' := by
  unfold total
  induction h generalizing z with
  | nil => rfl
  | cons x _ ih => exact ih _
  | swap x y l => simp only [List.foldl_cons]; rw [hadd]
  | trans _ _ ih1 ih2 => rw [ih1, ih2]

/-- **C174** (the part that holds).  Rules are added anywhere in the configuration, under names that it did not mention.  Then the rules that
were there are evaluated as before, and the score of the message is what it was, plus the scores of the added rules that hold (rounding
aside: if the order of addition does not matter). -/
theorem C174_added_partial (E : ScanEnv S R V C) (c0 c c' : C) (files files' : List Str) (m : Facts) (as as' : List (Str × Str × PVal))
    (good good' : Str → Bool) (docs docs' : Str → Doc S R) (h : Understood E c0 files m c as good docs)
    (h' : Understood E c0 files' m c' as' good' docs') (K : Str → Bool) (ha : Agree K as as' good good' docs docs')
    (hall : ∀ a ∈ as, K a.1 = true)
    (hm : Reads E.mail m.headers m.dec m.addrs) (hmp : ∀ q ∈ m.partHeaders, E.mail.decode q.2 = some (m.dec q.2)) (ops : List Access) :
    ∃ st st' : MsgSt S Seen,
      scan E c0 files ⟨m.text, m.rawText, m.raw, m.uris, accessed E.mail m.headers m.partHeaders ops⟩ = some st ∧
      scan E c0 files' ⟨m.text, m.rawText, m.raw, m.uris, accessed E.mail m.headers m.partHeaders ops⟩ = some st' ∧
      st.checked = st'.checked.filter (fun p => K p.1) ∧
      ((∀ a b c : S, a + b + c = a + c + b) →
        st'.score = total st.score ((st'.checked.filter (fun p => !K p.1 && decide (p.2 ≠ 0))).map (fun p => (docs' p.1).score))) := by
  obtain ⟨st, o, v, h1, h2, h3, h4, h5⟩ := understood_scan E c0 c files m as good docs h hm hmp ops
  obtain ⟨st', o', v', h1', h2', h3', h4', h5'⟩ := understood_scan E c0 c' files' m as' good' docs' h' hm hmp ops
  obtain ⟨e, hv⟩ := agree_orders ha h2 h2' h3 h3'
  have hk : o.filter K = o := by
    refine List.filter_eq_self.2 fun n hn => ?_
    have := (List.mem_filter.1 ((h2.exact n).1 hn).1).1
    rw [mem_firstMentions'] at this
    obtain ⟨a, ha', rfl⟩ := List.mem_map.1 this
    exact hall a ha'
  rw [hk] at e hv
  refine ⟨st, st', h1, h1', ?_, fun hadd => ?_⟩
  · rw [h4, h4', map_filter_fst, e]
    apply List.map_congr_left
    intro n hn
    rw [hv n hn]
  · rw [h5', h5, h4']
    have hperm : ((o'.filter (fun n => decide (v' n ≠ 0))).map (fun n => (docs' n).score)).Perm
        ((o.filter (fun n => decide (v n ≠ 0))).map (fun n => (docs n).score) ++
          (((o'.map (fun n => (n, v' n))).filter (fun p => !K p.1 && decide (p.2 ≠ 0))).map (fun p => (docs' p.1).score))) := by
      have p1 : ((o'.filter (fun n => decide (v' n ≠ 0))).filter K ++ (o'.filter (fun n => decide (v' n ≠ 0))).filter (fun n => !K n)).Perm
          (o'.filter (fun n => decide (v' n ≠ 0))) := List.filter_append_perm _ _
      refine (p1.map _).symm.trans ?_
      rw [List.map_append]
      apply List.Perm.of_eq
      congr 1
      · have : (o'.filter (fun n => decide (v' n ≠ 0))).filter K = o.filter (fun n => decide (v n ≠ 0)) := by
          rw [List.filter_filter, ← e, List.filter_filter]
          apply List.filter_congr
          intro n hn
          cases hkn : K n with
          | false => simp
          | true =>
            have : n ∈ o := by
              rw [← e]
              exact List.mem_filter.2 ⟨hn, hkn⟩
            rw [hv n this, Bool.true_and, Bool.and_true]
        rw [this]
        apply List.map_congr_left
        intro n hn
        have hno := (List.mem_filter.1 hn).1
        rw [← hk] at hno
        rw [(ha.same n (List.mem_filter.1 hno).2).1]
      · rw [List.filter_map, List.map_map, List.filter_filter]
        rfl
    rw [total_perm hadd hperm]
    unfold total
    rw [List.foldl_append]

/-- **C174** is violated: if the score of one rule is no number, there are no rules at all, whatever the other lines say, and no message can
be checked. -/
theorem C174_score_violated (E : ScanEnv S R V C) (htol : E.parser.paranoid = false) (c0 c : C) (files lines : List Str)
    (as : List (Str × Str × PVal)) (hf : Lines E.parser ⟨[], false, c0⟩ [] files lines) (ht : RuleText E.parser c0 lines as c) (n t s w : Str)
    (h1 : lastValue as n c!"type" = some (.str t)) (h2 : t ∈ ruleTypes) (h3 : lastValue as n c!"score" = some (.str s)) (h4 : w ∈ splitWs s)
    (h5 : E.float w = none) (x : Seen) : scan E c0 files x = none := by
  have hread := read_rules E.parser htol ht []
  have hparse : Scan.parseFiles E.parser files ⟨[], false, c0⟩ = (⟨as.foldl assign [], false, c⟩, none) := by
    rw [parseFiles_text E.parser _ hf _ rfl rfl (by rw [hread]), hread]
  have hat : ∀ a, ((Dict.get? (as.foldl assign []) n).bind (fun d => Dict.get? d a)) = lastValue as n a := by
    intro a
    have := attr_foldl as [] n a
    rw [this]
    cases lastValue as n a <;> rfl
  obtain ⟨d, hd⟩ : ∃ d, Dict.get? (as.foldl assign []) n = some d := by
    have := hat c!"type"
    rw [h1] at this
    cases hg : Dict.get? (as.foldl assign []) n with
    | none => rw [hg] at this; cases this
    | some d => exact ⟨d, rfl⟩
  have ha : ∀ a, Dict.get? d a = lastValue as n a := by
    intro a
    have := hat a
    rw [hd] at this
    exact this
  have hm := Dict.mem_of_get? _ hd
  obtain ⟨before, after, he⟩ := List.append_of_mem hm
  have hb := (C18_score_violated (E.build c) n d t s w (by rw [ha, h1]) h2 (by rw [ha, h3]) h4 h5 before after { checked := [], notChecked := [] }).1
  rw [← he] at hb
  unfold scan load
  rw [hparse]
  simp only
  cases hx : build (E.build c) (as.foldl assign []) { checked := [], notChecked := [] } with
  | mk rs e =>
    rw [hx] at hb
    cases e with
    | none => exact absurd rfl hb
    | some e => rfl

/-! ### The hypotheses are met -/

/-- One file, another that adds a rule and the score of a rule that is not there, and one with a score that is no number. -/
def localFiles (f : Str) : Option (List Str) :=
  if f = c!"/etc/a.cf" then some [c!"body A /buy/"]
  else if f = c!"/etc/b.cf" then some [c!"body B /now/", c!"score B 3", c!"score X 2"]
  else if f = c!"/etc/c.cf" then some [c!"body B /now/", c!"score B much"]
  else none

def localEnv : ScanEnv Int (Str × ReFlags) Unit (List Str) :=
  { preEnv with parser := { preEnv.parser with files := localFiles } }

def localAs : List (Str × Str × PVal) := [(c!"A", c!"type", .str c!"body"), (c!"A", c!"value", .str c!"/buy/")]

def localBs : List (Str × Str × PVal) :=
  [(c!"B", c!"type", .str c!"body"), (c!"B", c!"value", .str c!"/now/"), (c!"B", c!"score", .str c!"3"), (c!"X", c!"score", .str c!"2")]

def localDocs (n : Str) : Doc Int (Str × ReFlags) :=
  if n = c!"B" then ⟨.body (c!"now", wantFlags []), 3, 0⟩ else ⟨.body (c!"buy", wantFlags []), 1, 0⟩

def localFacts : Facts := ⟨c!"buy now", [], [], [], [(c!"To", c!"me")], [], id, fun _ => [], fun _ _ _ => 0⟩

theorem local_rule {c : List Str} {l : Str} {ls : List Str} {a as : List (Str × Str × PVal)} {c' : List Str}
    (h : assigns (localEnv.parser.isCmd c) l = a) (h1 : Defining l) (h2 : ¬ Skipped l) (h3 : keyword l ∈ known2)
    (h4 : RuleText localEnv.parser c ls as c') : RuleText localEnv.parser c (l :: ls) (a ++ as) c' := by
  subst h
  exact .rule h1 h2 (Or.inl h3) rfl h4

theorem local_plain : ∀ (ls : List Str), (∀ l ∈ ls, Plain l) → ∀ k f done, Counted localEnv.parser ⟨[], false, []⟩ k f done ls ls := by
  intro ls
  induction ls with
  | nil => intro _ k f done; exact .nil
  | cons l ls ih => intro h k f done; exact .line (h l (by simp)) (ih (fun x hx => h x (by simp [hx])) _ _ _)

theorem local_buy (as : List (Str × Str × PVal)) (n : Str) (h1 : lastValue as n c!"type" = some (.str c!"body"))
    (h2 : lastValue as n c!"value" = some (.str c!"/buy/")) (h3 : lastValue as n c!"score" = none) (h4 : lastValue as n c!"tflags" = none)
    (h5 : lastValue as n c!"priority" = none) (h6 : documentedScore n (none : Option (List Int)) [] (localEnv.conf []) = some 1) :
    Says localEnv.float localEnv.re (localEnv.conf []) as n ⟨.body (c!"buy", wantFlags []), 1, 0⟩ := by
  refine ⟨⟨c!"body", c!"/buy/", h1, h2, Or.inl (.body ⟨'/', '/', [], [], c!"buy", [], [], ?_⟩)⟩,
    ⟨none, [], Or.inl ⟨h3, rfl⟩, Or.inl ⟨h4, rfl⟩, h6, by simp⟩, Or.inl ⟨h5, rfl⟩⟩
  exact ⟨⟨by unfold Delimiters; decide, by unfold Blank; decide, by decide, by decide, by decide, by unfold Blank; decide⟩,
    by unfold NoPerlisms; decide, by decide, by decide, by decide, by decide⟩

/-- Nothing is combined here. -/
theorem local_depth (as : List (Str × Str × PVal)) (good : Str → Bool) (n : Str) (k : Nat) (h : Works (rulesOf as good localDocs) k n) :
    Works (rulesOf as good localDocs) 11 n := by
  have hc : ∀ e, rulesOf as good localDocs n ≠ some (.combine e) := by
    intro e
    unfold rulesOf localDocs
    split
    · split <;> simp
    · simp
  cases h with
  | plain h1 h2 => exact .plain h1 h2
  | combine h1 h2 => exact absurd h1 (hc _)

theorem local_asks (n fn : Str) (args : List Str) (t : Str) : (localDocs n).cond ≠ .asks fn args t := by
  unfold localDocs
  split <;> simp

theorem local_zero (n : Str) : (localDocs n).priority = 0 := by
  unfold localDocs
  split <;> rfl

set_option maxRecDepth 8000 in
theorem local_few : Understood localEnv [] [c!"/etc/a.cf"] localFacts [] localAs (fun n => n != c!"X") localDocs where
  tolerant := rfl
  text := by
    refine ⟨[c!"body A /buy/"] ++ [], .file rfl (local_plain _ (by decide) _ _ _) .nil, ?_⟩
    exact local_rule (a := localAs) (as := []) (by decide +kernel) (by decide) (by decide) (by decide) .nil
  says := by
    intro n hn
    rw [show firstMentions (localAs.map (fun a => a.1)) = [c!"A"] by decide +kernel] at hn
    simp only [List.mem_cons, List.not_mem_nil, or_false] at hn
    subst hn
    exact ⟨fun _ => local_buy _ _ (by decide +kernel) (by decide +kernel) (by decide +kernel) (by decide +kernel) (by decide +kernel)
      (by decide +kernel), fun h => absurd h (by decide)⟩
  parts := fun n _ _ => local_zero n
  answers := fun n _ fn args t h => absurd h (local_asks n fn args t)
  depth := local_depth _ _

set_option maxRecDepth 8000 in
theorem local_more : Understood localEnv [] [c!"/etc/a.cf", c!"/etc/b.cf"] localFacts [] (localAs ++ localBs) (fun n => n != c!"X") localDocs where
  tolerant := rfl
  text := by
    refine ⟨[c!"body A /buy/"] ++ ([c!"body B /now/", c!"score B 3", c!"score X 2"] ++ []),
      .file rfl (local_plain _ (by decide) _ _ _) (.file rfl (local_plain _ (by decide) _ _ _) .nil), ?_⟩
    refine local_rule (a := localAs) (as := localBs) (by decide +kernel) (by decide) (by decide) (by decide) ?_
    refine local_rule (a := localBs.take 2) (as := localBs.drop 2) (by decide +kernel) (by decide) (by decide) (by decide) ?_
    refine local_rule (a := (localBs.drop 2).take 1) (as := localBs.drop 3) (by decide +kernel) (by decide) (by decide) (by decide) ?_
    exact local_rule (a := localBs.drop 3) (as := []) (by decide +kernel) (by decide) (by decide) (by decide) .nil
  says := by
    intro n hn
    rw [show firstMentions ((localAs ++ localBs).map (fun a => a.1)) = [c!"A", c!"B", c!"X"] by decide +kernel] at hn
    simp only [List.mem_cons, List.not_mem_nil, or_false] at hn
    rcases hn with rfl | rfl | rfl
    · exact ⟨fun _ => local_buy _ _ (by decide +kernel) (by decide +kernel) (by decide +kernel) (by decide +kernel) (by decide +kernel)
        (by decide +kernel), fun h => absurd h (by decide)⟩
    · refine ⟨fun _ => ?_, fun h => absurd h (by decide)⟩
      refine ⟨⟨c!"body", c!"/now/", by decide +kernel, by decide +kernel, Or.inl (.body ⟨'/', '/', [], [], c!"now", [], [], ?_⟩)⟩,
        ⟨some [3], [], Or.inr ⟨c!"3", [3], by decide +kernel, by decide +kernel, by decide, rfl⟩, Or.inl ⟨by decide +kernel, rfl⟩,
          by decide +kernel, by simp⟩, Or.inl ⟨by decide +kernel, rfl⟩⟩
      exact ⟨⟨by unfold Delimiters; decide, by unfold Blank; decide, by decide, by decide, by decide, by unfold Blank; decide⟩,
        by unfold NoPerlisms; decide, by decide, by decide, by decide, by decide⟩
    · exact ⟨fun h => absurd h (by decide), fun _ => .undefined (by decide +kernel)⟩
  parts := fun n _ _ => local_zero n
  answers := fun n _ fn args t h => absurd h (local_asks n fn args t)
  depth := local_depth _ _

set_option maxRecDepth 8000 in
example : Agree (fun n => n == c!"A") localAs (localAs ++ localBs) (fun n => n != c!"X") (fun n => n != c!"X") localDocs localDocs ∧
    (∀ a ∈ localAs, (a.1 == c!"A") = true) := by
  refine ⟨⟨by decide +kernel, fun _ _ => ⟨rfl, rfl⟩, ?_⟩, by decide⟩
  intro n e _ h
  exact absurd h (by unfold localDocs; split <;> simp)

set_option maxRecDepth 8000 in
example : ((scan localEnv [] [c!"/etc/a.cf"] preSeen).map (fun st => (st.checked, st.score))) = some ([(c!"A", 1)], 1) ∧
    ((scan localEnv [] [c!"/etc/a.cf", c!"/etc/b.cf"] preSeen).map (fun st => (st.checked, st.score))) =
      some ([(c!"A", 1), (c!"B", 1)], 4) ∧
    (scan localEnv [] [c!"/etc/a.cf", c!"/etc/c.cf"] preSeen).isNone := by
  decide +kernel

end Verif.Props
