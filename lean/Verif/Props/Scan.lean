import Verif.Spec.Scan
import Verif.Props.Sections
import Verif.Props.Build
import Verif.Props.Meta
import Verif.Props.MetaExpr
import Verif.Props.HeaderRule
import Verif.Props.Matching
import Verif.Lemmas.Tokens

/-!
# C141: from rule files to the score of a message
-/

namespace Verif.Props
open Verif Py Spec Build Parser Scan

variable {S R V C : Type} [PyNum S]

/-! ### Reading the files -/

theorem firstMentions_nodup : ∀ l : List Str, (firstMentions l).Nodup
  | [] => by simp [firstMentions]
  | n :: ns => by
    rw [firstMentions, List.nodup_cons]
    exact ⟨by simp, (firstMentions_nodup ns).filter _⟩

/-- What is known about the parsed rules. -/
theorem results_of (E : Env C) (hcmd : ∀ c k v t, E.isCmd (E.parseConfig c k v).1 t = E.isCmd c t)
    (lines : List Str) (hd : ∀ l ∈ lines, Defining l) (c0 : C)
    (hn : (readText E lines { results := [], ignore := false, ctx := c0 }).2 = none) :
    let as := lines.flatMap (assigns (E.isCmd c0))
    let res := (readText E lines { results := [], ignore := false, ctx := c0 }).1.results
    res.map Prod.fst = firstMentions (as.map (fun a => a.1)) ∧
    ∀ p ∈ res, ∀ a, Dict.get? p.2 a = lastValue as p.1 a := by
  intro as res
  obtain ⟨h1, h2⟩ := C13_last_line_wins_partial E (fun _ s => (s, none)) [] hcmd lines hd
    { results := [], ignore := false, ctx := c0 } rfl rfl hn
  refine ⟨h2, fun p hp a => ?_⟩
  have hnd : (Dict.keys res).Nodup := by
    have : Dict.keys res = firstMentions (as.map (fun a => a.1)) := h2
    rw [this]; exact firstMentions_nodup _
  have hg := Dict.get?_of_mem res hnd (show (p.1, p.2) ∈ res from hp)
  have := h1 p.1 a
  unfold State.attr at this
  have e : (parseLines E (fun _ s => (s, none)) [] lines { results := [], ignore := false, ctx := c0 }).1.results = res := rfl
  rw [e, hg] at this
  exact this

/-! ### What lines can assign -/

theorem assigns_shape (g : Str → Bool) (raw : Str) : ∀ x ∈ assigns g raw,
    (x.2.1 ≠ c!"tflags" ∧ ∃ s, x.2.2 = .str s) ∨ (x.2.1 = c!"tflags" ∧ ∃ v, x.2.2 = .list (splitWs v)) := by
  intro x hx
  unfold assigns at hx
  split at hx
  · cases hx
  · split at hx
    · split at hx
      · split at hx
        · simp only [List.mem_cons, List.not_mem_nil, or_false] at hx
          rcases hx with rfl | rfl | rfl <;> exact Or.inl ⟨by simp, _, rfl⟩
        · simp only [List.mem_cons, List.not_mem_nil, or_false] at hx
          rcases hx with rfl | rfl <;> exact Or.inl ⟨by simp, _, rfl⟩
      · split at hx
        · rename_i ht
          simp only [List.mem_cons, List.not_mem_nil, or_false] at hx
          subst hx; exact Or.inr ⟨ht, _, rfl⟩
        · split at hx
          · rename_i hne _
            simp only [List.mem_cons, List.not_mem_nil, or_false] at hx
            subst hx; exact Or.inl ⟨hne, _, rfl⟩
          · cases hx
    · cases hx

theorem lastValue_mem {as : List (Str × Str × PVal)} {n a : Str} {v : PVal} (h : lastValue as n a = some v) :
    (n, a, v) ∈ as := by
  unfold lastValue at h
  cases hf : as.reverse.find? (fun x => decide (x.1 = n) && decide (x.2.1 = a)) with
  | none => rw [hf] at h; cases h
  | some x =>
    rw [hf] at h
    simp only [Option.map_some, Option.some.injEq] at h
    have h1 := List.find?_some hf
    have h2 := List.mem_of_find?_eq_some hf
    simp only [Bool.and_eq_true, decide_eq_true_eq] at h1
    obtain ⟨x1, x2, x3⟩ := x
    simp only at h h1
    rw [← h1.1, ← h1.2, ← h]
    simpa using h2

/-- Only `tflags` has a list, of words. -/
def Shaped (as : List (Str × Str × PVal)) : Prop := ∀ x ∈ as,
  (x.2.1 ≠ c!"tflags" ∧ ∃ s, x.2.2 = .str s) ∨ (x.2.1 = c!"tflags" ∧ ∃ v, x.2.2 = .list (splitWs v))

theorem shaped_lines (g : Str → Bool) (lines : List Str) : Shaped (lines.flatMap (assigns g)) := by
  intro x hx
  obtain ⟨l, -, hl⟩ := List.mem_flatMap.1 hx
  exact assigns_shape g l _ hl

theorem last_text {as : List (Str × Str × PVal)} (hsh : Shaped as) {n a : Str} (ha : a ≠ c!"tflags") :
    lastValue as n a = none ∨ ∃ s, lastValue as n a = some (.str s) := by
  cases h : lastValue as n a with
  | none => exact Or.inl rfl
  | some v =>
    rcases hsh _ (lastValue_mem h) with ⟨-, s, hs⟩ | ⟨ht, -⟩
    · simp only at hs; subst hs; exact Or.inr ⟨s, rfl⟩
    · exact absurd ht ha

theorem last_flags {as : List (Str × Str × PVal)} (hsh : Shaped as) {n : Str} {l : List Str}
    (h : lastValue as n c!"tflags" = some (.list l)) : l.map strip = l := by
  rcases hsh _ (lastValue_mem h) with ⟨ht, -⟩ | ⟨-, v, hv⟩
  · exact absurd rfl ht
  · simp only [PVal.list.injEq] at hv
    subst hv
    have : ∀ w ∈ splitWs v, strip w = w := by
      intro w hw
      have hword := (Tokens.split_infix hw).2
      obtain ⟨hne, hns⟩ := hword
      cases w with
      | nil => exact absurd rfl hne
      | cons c cs =>
        exact strip_self ⟨c, cs, rfl, hns c (by simp)⟩ ⟨_, _, (List.dropLast_concat_getLast hne).symm, hns _ (List.getLast_mem hne)⟩
    rw [List.map_congr_left this, List.map_id']

/-! ### Building one rule -/

theorem preprocess_parts (c : ScoreConf) (b : BaseRule S) :
    (b.preprocess c).priority = b.priority ∧ (b.preprocess c).name = b.name := by
  unfold BaseRule.preprocess
  repeat' split
  all_goals exact ⟨rfl, rfl⟩

/-- Neither the description nor the priority influences the score. -/
theorem init_score {name : Str} {given : Option (List S)} {desc prio : Option Str} {tf : Option (List Str)} {b : BaseRule S}
    (h : BaseRule.init name given desc prio tf = .ok b) (c : ScoreConf) :
    ∃ b', BaseRule.init name given none none tf = .ok b' ∧ (b'.preprocess c).score = (b.preprocess c).score := by
  have pre : ∀ (sc : List S) (d1 d2 : Str) (p1 p2 : Int) (x : S), (BaseRule.preprocess c ⟨name, sc, tf, d1, p1, x⟩).score =
      (BaseRule.preprocess c ⟨name, sc, tf, d2, p2, x⟩).score := by
    intro sc d1 d2 p1 p2 x
    unfold BaseRule.preprocess
    simp only
    repeat' split
    all_goals first | rfl | simp_all
  unfold BaseRule.init at h ⊢
  simp only at h ⊢
  split at h
  · split at h
    · rename_i s0 rest he hl
      rw [if_pos hl]
      simp only [Except.ok.injEq] at h
      subst h
      exact ⟨_, rfl, pre _ _ _ _ _ _⟩
    · cases h
  · cases h

/-- The score of a rule as built is the documented one. -/
theorem built_score {name : Str} {given : Option (List S)} {flags : List Str} {desc prio : Option Str} {b : BaseRule S}
    {tf : Option (List Str)} {c : ScoreConf} {x : S} (htf : tf = none ∧ flags = [] ∨ tf = some flags)
    (h : BaseRule.init name given desc prio tf = .ok b) (h4 : ∀ a b d e, given = some [a, b, d, e] → a ≠ 0)
    (hd : documentedScore name given flags c = some x) : (b.preprocess c).score = x := by
  obtain ⟨b', hb, he⟩ := init_score h c
  rw [← he]
  rcases htf with ⟨rfl, rfl⟩ | rfl
  · have := C06_no_flags_partial name given c h4
    rw [hb, hd] at this
    simpa [Except.toOption] using this
  · have := C06_score_selection_partial name given flags c h4
    unfold codeScore at this
    rw [hb, hd] at this
    simpa using this

theorem pattern_of {L : ReLib R} {s : Str} {r : R} (h : PatternText L s r) (neg : Bool) :
    perl2re L s neg = .ok { re := r, neg := neg } := by
  obtain ⟨d, e, lead, pre, text, flags, trail, hw, hp, hne, hh, rfl, hc⟩ := h
  rw [C17_text_partial L text neg hw hp hh (fun h => absurd h hne)]
  unfold compiled
  rw [hc]

/-- The header rule does what the condition asks, and leaves the message as something that was only read. -/
def HeaderDoes (ML : Mail.MailLib) (L : ReLib R) (m : Facts) (c : Cond R) (h : HRule R) : Prop :=
  ∀ ops, ∃ b ops', h.run ML L (accessed ML m.headers m.partHeaders ops) = (some b, accessed ML m.headers m.partHeaders ops') ∧
    (b = true ↔ c.Holds L m)

/-- The object built for a condition. -/
inductive KindFor (E : ScanEnv S R V C) (c : C) (m : Facts) : Cond R → Kind R V → Prop
  | body (r) : KindFor E c m (.body r) (.body ⟨r, false⟩)
  | rawbody (r) : KindFor E c m (.rawbody r) (.rawbody ⟨r, false⟩)
  | full (r) : KindFor E c m (.full r) (.full ⟨r, false⟩)
  | uri (r) : KindFor E c m (.uri r) (.uri ⟨r, false⟩)
  | header {d h} : d.Test → HeaderDoes E.mail E.re m d h → KindFor E c m d (.header h)
  | asks {fn args t vals} : (∀ x, Shows E.mail m x → ∃ x', Shows E.mail m x' ∧
      (E.evalFn c fn vals (some t) x = (some (m.answers fn args t), x') ∨
        E.evalFn c fn vals (some t) x = (none, x') ∧ m.answers fn args t = 0)) → KindFor E c m (.asks fn args t) (.eval fn vals (some t))
  | combine {e text} : compileMeta text = some e → (∀ n, n ∈ MetaExpr.findNames [] text ↔ n ∈ e.names) →
      (∀ n ∈ e.names, n ∉ MetaExpr.ownNames) → KindFor E c m (.combine e) (.metaR text)

theorem accessed_more (ML : Mail.MailLib) (hs mhs : List (Str × Str)) (ops : List Access) (a : Access) :
    a.run ML (accessed ML hs mhs ops) = accessed ML hs mhs (ops ++ [a]) := by
  unfold accessed; simp

theorem anyHeader_reads (ML : Mail.MailLib) (L : ReLib R) (p : Pat R) (hs mhs : List (Str × Str)) :
    ∀ (ns : List Str) (ops : List Access), ∃ ops', (anyHeader ML L p ns (accessed ML hs mhs ops)).2 = accessed ML hs mhs ops'
  | [], ops => ⟨ops, rfl⟩
  | n :: ns, ops => by
    have hm := accessed_more ML hs mhs ops (.decoded n)
    unfold anyHeader
    cases hg : Mail.getDecoded ML n (accessed ML hs mhs ops) with
    | mk vs m1 =>
      have hm1 : m1 = accessed ML hs mhs (ops ++ [.decoded n]) := by
        rw [← hm]; show _ = (Mail.getDecoded ML n _).2; rw [hg]
      subst hm1
      simp only
      split
      · exact anyHeader_reads ML L p hs mhs ns _
      · exact ⟨_, rfl⟩

/-- Header rules only read. -/
theorem run_reads (ML : Mail.MailLib) (L : ReLib R) (h : HRule R) (hs mhs : List (Str × Str)) (ops : List Access) :
    ∃ ops', (h.run ML L (accessed ML hs mhs ops)).2 = accessed ML hs mhs ops' := by
  cases h with
  | exists_ n => exact ⟨ops, rfl⟩
  | all p => exact ⟨_, accessed_more ML hs mhs ops .all⟩
  | multi ns p => exact anyHeader_reads ML L p hs mhs ns ops
  | mime raw n p =>
    cases raw with
    | true => exact ⟨ops, rfl⟩
    | false => exact ⟨_, accessed_more ML hs mhs ops (.mime n)⟩
  | pattern view n p =>
    cases view with
    | raw => exact ⟨ops, rfl⟩
    | decoded => exact ⟨_, accessed_more ML hs mhs ops (.decoded n)⟩
    | addr =>
      refine ⟨_, (?_ : _ = _).trans (accessed_more ML hs mhs ops (.addr n))⟩
      show (HRule.run ML L _ (.pattern .addr n p)).2 = (Mail.getAddr ML n _).2
      simp only [HRule.run]
      cases hg : Mail.getAddr ML n (accessed ML hs mhs ops) with
      | mk o m1 => cases o <;> rfl
    | name =>
      refine ⟨_, (?_ : _ = _).trans (accessed_more ML hs mhs ops (.name n))⟩
      show (HRule.run ML L _ (.pattern .name n p)).2 = (Mail.getName ML n _).2
      simp only [HRule.run]
      cases hg : Mail.getName ML n (accessed ML hs mhs ops) with
      | mk o m1 => cases o <;> rfl

/-- From the result for every order of accesses. -/
theorem header_does {ML : Mail.MailLib} {L : ReLib R} {m : Facts} {c : Cond R} {h : HRule R} {b : Bool}
    (hr : ∀ ops, (h.run ML L (accessed ML m.headers m.partHeaders ops)).1 = some b) (hb : b = true ↔ c.Holds L m) :
    HeaderDoes ML L m c h := by
  intro ops
  obtain ⟨ops', ho⟩ := run_reads ML L h m.headers m.partHeaders ops
  exact ⟨b, ops', Prod.ext (hr ops) ho, hb⟩

theorem test_eq (L : ReLib R) (r : R) (neg : Bool) (t : Str) :
    (Pat.test L ⟨r, neg⟩ t = true) ↔ L.search r t = !neg := by
  unfold Pat.test
  cases neg <;> simp

theorem headerRule_not_mime {L : ReLib R} {v : Str} {rule : HRule R} (h : headerRule L v = .ok (some rule)) :
    ∀ a b d, rule ≠ .mime a b d := by
  intro a b d he
  subst he
  unfold headerRule at h
  simp only at h
  repeat' split at h
  all_goals cases h

/-- What a header definition is built as. -/
theorem header_built {ML : Mail.MailLib} {L : ReLib R} {m : Facts} (hm : Reads ML m.headers m.dec m.addrs) {v : Str} {c : Cond R}
    (h : Means L c!"header" v c) : c.Test ∧ ∃ rule, headerRule L v = .ok (some rule) ∧ (∀ a b d, rule ≠ .mime a b d) ∧
      HeaderDoes ML L m c rule := by
  generalize ht : c!"header" = t at h
  cases h with
  | body _ => cases ht
  | rawbody _ => cases ht
  | full _ => cases ht
  | uri _ => cases ht
  | combine _ _ => cases ht
  | partHeader _ _ _ _ => cases ht
  | @header view neg name sp pat r h1 h2 h3 h4 h5 =>
    refine ⟨trivial, ?_⟩
    have key := fun ops => C16_pattern_partial L view neg name [] sp pat _ h1 h2 (by intro c hc; cases hc) h3 (pattern_of h4 neg) h5
      hm m.partHeaders ops
    simp only [List.nil_append] at key
    obtain ⟨rule, hr, -⟩ := key []
    refine ⟨rule, hr, headerRule_not_mime hr,
      header_does (b := (viewTexts m.dec m.addrs m.headers name view).any (Pat.test L ⟨r, neg⟩)) ?_ ?_⟩
    · intro ops
      obtain ⟨rule', hr', ho⟩ := key ops
      rw [hr] at hr'
      simp only [Except.ok.injEq, Option.some.injEq] at hr'
      subst hr'
      exact ho
    · simp only [List.any_eq_true, test_eq]; rfl
  | @recipients neg sp pat r h3 h4 h5 =>
    refine ⟨trivial, ?_⟩
    have key := fun ops => C16_groups L neg c!"ToCc" [c!"To", c!"Cc"] [] sp pat _ (by simp) (by intro c hc; cases hc) h3
      (pattern_of h4 neg) h5 hm.decodes m.partHeaders ops
    simp only [List.nil_append] at key
    obtain ⟨rule, hr, -⟩ := key []
    refine ⟨rule, hr, headerRule_not_mime hr, header_does
      (b := [c!"To", c!"Cc"].any (fun h => (rawValues m.headers h).any (fun v => Pat.test L ⟨r, neg⟩ (m.dec v)))) ?_ ?_⟩
    · intro ops
      obtain ⟨rule', hr', ho⟩ := key ops
      rw [hr] at hr'
      simp only [Except.ok.injEq, Option.some.injEq] at hr'
      subst hr'
      exact ho
    · simp only [List.any_eq_true, test_eq]; rfl
  | @messageId neg sp pat r h3 h4 h5 =>
    refine ⟨trivial, ?_⟩
    have key := fun ops => C16_groups L neg c!"MESSAGEID" [c!"Message-Id", c!"Resent-Message-Id", c!"X-Message-Id"] [] sp pat _
      (by simp) (by intro c hc; cases hc) h3 (pattern_of h4 neg) h5 hm.decodes m.partHeaders ops
    simp only [List.nil_append] at key
    obtain ⟨rule, hr, -⟩ := key []
    refine ⟨rule, hr, headerRule_not_mime hr, header_does
      (b := [c!"Message-Id", c!"Resent-Message-Id", c!"X-Message-Id"].any
        (fun h => (rawValues m.headers h).any (fun v => Pat.test L ⟨r, neg⟩ (m.dec v)))) ?_ ?_⟩
    · intro ops
      obtain ⟨rule', hr', ho⟩ := key ops
      rw [hr] at hr'
      simp only [Except.ok.injEq, Option.some.injEq] at hr'
      subst hr'
      exact ho
    · simp only [List.any_eq_true, test_eq]; rfl
  | @present name h1 h2 =>
    refine ⟨trivial, ?_⟩
    have key := fun ops => C16_exists_partial L name [] h1 (by intro c hc; cases hc) h2 ML m.headers m.partHeaders ops
    simp only [List.append_nil] at key
    obtain ⟨rule, hr, -⟩ := key []
    refine ⟨rule, hr, headerRule_not_mime hr, ?_⟩
    intro ops
    obtain ⟨rule', hr', ho1, ho2⟩ := key ops
    rw [hr] at hr'
    simp only [Except.ok.injEq, Option.some.injEq] at hr'
    subst hr'
    obtain ⟨ops', ho⟩ := run_reads ML L rule m.headers m.partHeaders ops
    by_cases hx : ∃ p ∈ m.headers, lower p.1 = lower name
    · exact ⟨true, ops', Prod.ext (ho1.mpr hx) ho, by simpa [Cond.Holds] using hx⟩
    · exact ⟨false, ops', Prod.ext (ho2.mpr hx) ho, by simpa [Cond.Holds] using hx⟩

/-- A rule as it comes out of the definition. -/
structure Built (E : ScanEnv S R V C) (c : C) (m : Facts) (n : Str) (d : Doc S R) (r : RuleDef S R V) : Prop where
  name : r.base.name = n
  score : r.base.score = d.score
  priority : r.base.priority = d.priority
  kind : KindFor E c m d.cond r.kind

theorem one_built (E : ScanEnv S R V C) (c : C) {m : Facts} (hm : Reads E.mail m.headers m.dec m.addrs)
    (hmp : ∀ q ∈ m.partHeaders, E.mail.decode q.2 = some (m.dec q.2)) {as : List (Str × Str × PVal)} (hsh : Shaped as) {n : Str} {doc : Doc S R} (hs : Says E.float E.re (E.conf c) as n doc)
    (ha : ∀ fn args tg, doc.cond = .asks fn args tg → Answers E c m fn args tg)
    (h0 : lastValue as n c!"type" = some (.str c!"mimeheader") → doc.priority = 0)
    {d : Data} (hd : ∀ a, Dict.get? d a = lastValue as n a) :
    ∃ r, one (E.build c) n d = .ok r ∧ Built E c m n doc r := by
  obtain ⟨⟨t, v, ht, hv, hmean⟩, ⟨given, flags, hgiven, hflags, hscore, h4⟩, hprio⟩ := hs
  rw [← hd] at ht hv h0
  have hS : Scores (E.build c) d given := by
    rcases hgiven with ⟨h1, h2⟩ | ⟨s, fs, h1, h2, h3, h4⟩
    · exact Or.inl ⟨by rw [hd]; exact h1, h2⟩
    · exact Or.inr ⟨s, fs, by rw [hd]; exact h1, h2, h3, h4⟩
  have hT : ∀ a, a ≠ c!"tflags" → Textual d a := by
    intro a ha
    unfold Textual
    rw [hd]
    exact last_text hsh ha
  obtain ⟨tf, hF, htf⟩ : ∃ tf, Flags d tf ∧ (tf = none ∧ flags = [] ∨ tf = some flags) := by
    rcases hflags with ⟨h1, h2⟩ | ⟨h1, h2⟩
    · exact ⟨none, Or.inl ⟨by rw [hd]; exact h1, rfl⟩, Or.inl ⟨rfl, h2⟩⟩
    · exact ⟨some flags, Or.inr ⟨flags, h1, by rw [hd]; exact h2, by rw [last_flags hsh h2]⟩, Or.inr rfl⟩
  obtain ⟨hkw, b, hi⟩ := mkBase_good (E := E.build c) n hS (hT c!"describe" (by decide)) (hT c!"priority" (by decide)) hF
  have hb : mkBase n ⟨given, attr d c!"describe", attr d c!"priority", tf⟩ = .ok b := hi
  have hpr : b.priority = doc.priority := by
    obtain ⟨p1, p2, p3⟩ := C04_priority n given _ tf b _ hi
    rcases hprio with ⟨h1, h2⟩ | ⟨s, h1, h2⟩
    · rw [h2]; apply p2; unfold attr; rw [hd, h1]
    · apply p1 (strip s) _ ?_ h2
      unfold attr; rw [hd, h1]
  have fin : ∀ kind : Kind R V, KindFor E c m doc.cond kind →
      Built E c m n doc ({ base := b.preprocess (E.conf c), kind := kind } : RuleDef S R V) := by
    intro kind hk
    refine ⟨?_, built_score htf hi h4 hscore, ?_, hk⟩
    · rw [(preprocess_parts _ b).2]; exact mkBase_name hb
    · rw [(preprocess_parts _ b).1]; exact hpr
  rcases hmean with hmean | ⟨rfl, tg, fn, args, trail, htg, rfl, ⟨hc1, hc2, hc3, hc4⟩, hcond⟩
  case inr =>
    obtain ⟨hk, vals, hvals, hans⟩ := ha fn args tg hcond
    refine ⟨_, ?_, fin (.eval fn vals (some tg)) (hcond ▸ .asks hans)⟩
    rw [← hd] at htg
    have hcall := C58_call_partial (E.build c) n fn trail args vals (some tg) _ b hb hc1 hc2 hc4 hc3 hvals
    have hk' : (E.build c).hasEval fn = true := hk
    unfold one
    simp [ht, Build.getRule, Parser.ruleTypes, hkw, hv, textAttr, htg, hcall, preprocess, hk']
    rfl
  have build : ∀ kind : Kind R V, (∀ f a t, kind ≠ .eval f a t) → KindFor E c m doc.cond kind →
      Build.getRule (E.build c) n t d = .ok (some { base := b, kind := kind }) →
      ∃ r, one (E.build c) n d = .ok r ∧ Built E c m n doc r := by
    intro kind hne hk hg
    refine ⟨_, ?_, fin kind hk⟩
    unfold one
    simp only [ht, hg]
    unfold preprocess
    cases kind with
    | eval f a t => exact absurd rfl (hne f a t)
    | _ => rfl
  have pat : ∀ {mk : Pat R → Kind R V} {r : R}, OnePattern t mk → PatternText E.re v r →
      Build.getRule (E.build c) n t d = .ok (some { base := b, kind := mk ⟨r, false⟩ }) := by
    intro mk r hk hp
    have := pattern_of hp false
    have hp' : perl2re (E.build c).re v false = .ok ⟨r, false⟩ := this
    cases hk <;> simp [Build.getRule, Parser.ruleTypes, hkw, hv, patternRule, hp', mkRule, hb]
  have head : t = c!"header" → ∃ r, one (E.build c) n d = .ok r ∧ Built E c m n doc r := by
    intro he
    subst he
    obtain ⟨hnc, rule, hr, hnm, hdo⟩ := header_built hm hmean
    refine build (.header rule) (by intro f a t h; cases h) (.header hnc hdo) ?_
    have hr' : headerRule (E.build c).re v = .ok (some rule) := hr
    have : headerKind n ⟨given, attr d c!"describe", attr d c!"priority", tf⟩ (.ok (some rule)) =
        (mkRule n ⟨given, attr d c!"describe", attr d c!"priority", tf⟩ (.header rule) : Except RuleErr (Option (RuleDef S R V))) := by
      cases rule with
      | mime a b d => exact absurd rfl (hnm a b d)
      | _ => rfl
    simp [Build.getRule, Parser.ruleTypes, hkw, hv, hr', this, mkRule, hb]
  generalize hcond : doc.cond = cond at hmean build
  cases hmean with
  | @body _ r hp => exact build (.body ⟨_, false⟩) (by intro f a t h; cases h) (.body r) (pat .body hp)
  | @rawbody _ r hp => exact build (.rawbody ⟨_, false⟩) (by intro f a t h; cases h) (.rawbody r) (pat .rawbody hp)
  | @full _ r hp => exact build (.full ⟨_, false⟩) (by intro f a t h; cases h) (.full r) (pat .full hp)
  | @uri _ r hp => exact build (.uri ⟨_, false⟩) (by intro f a t h; cases h) (.uri r) (pat .uri hp)
  | header => exact head rfl
  | recipients => exact head rfl
  | messageId => exact head rfl
  | present => exact head rfl
  | @partHeader raw neg name sp pt r p1 p2 p3 p4 =>
    have key := fun ops => C16_mime_partial E.re raw neg name [] sp pt _ p1 (by intro c hc; cases hc) p2 (pattern_of p3 neg) p4
      hmp m.headers ops
    simp only [List.nil_append] at key
    obtain ⟨rule, hr, -⟩ := key []
    have hdo : HeaderDoes E.mail E.re m doc.cond rule := by
      rw [hcond]
      refine header_does (b := (rawValues m.partHeaders name).any (fun v => Pat.test E.re ⟨r, neg⟩ (if raw then v else m.dec v))) ?_ ?_
      · intro ops
        obtain ⟨rule', hr', ho⟩ := key ops
        rw [hr] at hr'
        simp only [Except.ok.injEq, Option.some.injEq] at hr'
        subst hr'
        exact ho
      · simp only [List.any_eq_true, test_eq]; rfl
    obtain ⟨a1, a2, a3, rfl⟩ : ∃ a b d, rule = .mime a b d := by
      unfold mimeHeaderRule at hr
      simp only at hr
      repeat' split at hr
      all_goals first | cases hr; exact ⟨_, _, _, rfl⟩ | cases hr
    obtain ⟨b0, hb0, hp0⟩ : ∃ b0, BaseRule.init n given (attr d c!"describe") none tf = .ok b0 ∧ b0.priority = 0 := by
      unfold BaseRule.init at hi ⊢
      simp only at hi ⊢
      split at hi
      · split at hi
        · rename_i s0 rest he hl
          rw [if_pos hl]
          exact ⟨_, rfl, rfl⟩
        · cases hi
      · cases hi
    refine ⟨{ base := b0.preprocess (E.conf c), kind := .header (.mime a1 a2 a3) }, ?_, ?_, built_score htf hb0 h4 hscore, ?_, ?_⟩
    · have hr' : mimeHeaderRule (E.build c).re (name ++ (if raw then c!":raw" else []) ++ sp ++ opText neg ++ pt) =
          .ok (some (.mime a1 a2 a3)) := hr
      generalize name ++ (if raw then c!":raw" else []) ++ sp ++ opText neg ++ pt = v at hv hr'
      have hmk : mkBase n ⟨given, attr d c!"describe", none, tf⟩ = .ok b0 := hb0
      unfold one
      simp only [ht]
      have : Build.getRule (E.build c) n c!"mimeheader" d = .ok (some { base := b0, kind := .header (.mime a1 a2 a3) }) := by
        simp [Build.getRule, Parser.ruleTypes, hkw, hv, hr', headerKind, mkRule, hmk]
      rw [this]
      rfl
    · show (b0.preprocess (E.conf c)).name = n
      rw [(preprocess_parts _ b0).2]; exact mkBase_name (k := ⟨given, attr d c!"describe", none, tf⟩) hb0
    · show (b0.preprocess (E.conf c)).priority = doc.priority
      rw [(preprocess_parts _ b0).1, hp0, h0 ht]
    · exact .header (hcond ▸ trivial) hdo
  | @combine _ e hlex hpl =>
    refine build (.metaR v) (by intro f a t h; cases h) ?_ ?_
    · refine .combine ?_ (C10_meaning_partial v e hlex hpl (fun _ => 0)).2.1
        (fun n hn => by simp [MetaExpr.ownNames, (hpl n hn).2.2.2.2.1, (hpl n hn).2.2.2.2.2])
      have hp : MetaExpr.PlainToks (MetaExpr.write 0 e) := fun n hm => hpl n ((MetaExpr.names_write e 0 n).1 hm)
      unfold compileMeta
      rw [MetaExpr.written_eq] at hlex
      rw [MetaExpr.lex_translate' hlex hp]
      have := MetaExpr.parseAll_write false e
      simpa [MetaExpr.cv] using this
    · simp [Build.getRule, Parser.ruleTypes, hkw, hv, mkRule, hb]

end Verif.Props
