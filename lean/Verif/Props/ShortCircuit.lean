import Verif.Lemmas.ShortCircuit

/-!
# C52: short-circuiting
-/

namespace Verif.Props
open Verif Py ShortCircuit

variable {S Y : Type} [PyNum S]

/-- A configured rule that matches when its turn comes is counted once, with its bonus, and nothing runs after
it: the message stays as it is right after the match.  The rules before it, whatever they are, asked nothing to
stop; the rules after it are arbitrary.  Missing: when the rule is listed more than once the first line decides
(`C52_last_line_violated`, `C52_off_violated`), and a rule that matches with an empty text
(`C52_empty_text_violated`). -/
theorem C52_stops_partial (bonus : Bonus S) (conf : List Setting) (hc : ∀ c ∈ conf, c.Written)
    (st : SRules S Y) (hf : Fresh st) (d : Nat)
    (pre post : Dict Str (SRule S Y)) (name : Str) (r : SRule S Y)
    (hst : st.checked = pre ++ (name, r) :: post)
    (type : Str) (more : List Str) (ht : asked conf name = type :: more) (s s0 s1 : M S Y) (v : MatchValue) :
    let st' := configure (conf.map Setting.line) st
    Passes ((linkAll bonus st' d st'.checked).take pre.length) s s0 →
    own (callSub bonus st' d) r.body s0 = (.ret v, s1) → Hit v →
    Counted { r.base with name := name } bonus type v s1 (runRules (linkAll bonus st' d st'.checked) s) := by
  intro st' hp ho hv
  have hname : r.base.name = name := hf.name (name, r) (by simp [hst])
  have hb : ({ r.base with name := name } : BaseRule S) = r.base := by rw [← hname]
  rw [hb]
  have he : st' = withW (asked conf) st := configure_eq conf hc st hf.nodup hf.nodup'
  have hchk : st'.checked = pre.map (fun p => (p.1, p.2.add (asked conf p.1))) ++
      (name, r.add (type :: more)) :: post.map (fun p => (p.1, p.2.add (asked conf p.1))) := by
    rw [he]
    unfold withW
    simp only [hst, List.map_append, List.map_cons, ht]
  unfold linkAll at hp ⊢
  rw [hchk] at hp ⊢
  rw [List.map_append, List.map_cons] at hp ⊢
  rw [List.take_append_of_le_length (by simp), List.take_of_length_le (by simp)] at hp
  rw [passes_run hp]
  obtain ⟨s2, hs2, hcnt⟩ := wrap_counted r.base bonus type (own (callSub bonus st' d) r.body) s0 s1 v ho ((truthy_iff v).2 hv)
  have hw : (r.add (type :: more)).wraps = type :: more := by
    unfold SRule.add
    rw [hf.unwrapped (name, r) (by simp [hst])]
    rfl
  have hrun : (r.add (type :: more)).run bonus (callSub bonus st' d) s0 = (.stop, s2) := by
    rw [run_eq, hw]
    exact hs2
  unfold runRules link
  simp only
  rw [hrun]
  exact hcnt

/-- The same inside a meta rule: when its expression comes to a configured sub-rule that matches, the meta rule
stops there. -/
theorem C52_inside_meta (bonus : Bonus S) (conf : List Setting) (hc : ∀ c ∈ conf, c.Written)
    (st : SRules S Y) (hf : Fresh st) (d : Nat) (r : SRule S Y) (p : Prog) (hr : r.body = .metaR p)
    (name : Str) (sub : SRule S Y) (hsub : st.get name = some sub)
    (type : Str) (more : List Str) (ht : asked conf name = type :: more) (s s0 s1 : M S Y) (v : MatchValue) :
    let st' := configure (conf.map Setting.line) st
    Reaches (callSub bonus st' (d + 1)) p s name s0 →
    own (callSub bonus st' d) sub.body s0 = (.ret v, s1) → Hit v →
    ∃ s2, (link bonus st' (d + 1) r).run s = (.stop, s2) ∧ Counted sub.base bonus type v s1 s2 := by
  intro st' hreach ho hv
  have he : st' = withW (asked conf) st := configure_eq conf hc st hf.nodup hf.nodup'
  have hw : sub.wraps = [] := by
    unfold SRules.get at hsub
    cases h1 : Dict.get? st.checked name with
    | some x =>
      rw [h1] at hsub
      simp only [Option.some.injEq] at hsub
      subst hsub
      exact hf.unwrapped _ (Dict.mem_of_get? _ h1)
    | none =>
      rw [h1] at hsub
      exact hf.unwrapped' _ (Dict.mem_of_get? _ hsub)
  obtain ⟨s2, hs2, hcnt⟩ := wrap_counted sub.base bonus type (own (callSub bonus st' d) sub.body) s0 s1 v ho
    ((truthy_iff v).2 hv)
  have hcall : callSub bonus st' (d + 1) name s0 = (.stop, s2) := by
    unfold callSub
    rw [show st'.get name = some (sub.add (asked conf name)) by rw [he, withW_get, hsub]; rfl]
    simp only
    rw [run_eq]
    have hwr : (sub.add (asked conf name)).wraps = type :: more := by unfold SRule.add; rw [hw, ht]; rfl
    rw [hwr]
    exact hs2
  have hown : own (callSub bonus st' (d + 1)) r.body s = (.stop, s2) := by
    rw [hr]
    show evalProg _ p s = _
    clear hr ho hs2 hsub ht
    induction hreach with
    | here n k s => unfold evalProg; rw [hcall]
    | later n k s v s' m s0 h1 _ ih => unfold evalProg; rw [h1]; exact ih hcall
  refine ⟨s2, ?_, hcnt⟩
  unfold link
  simp only
  rw [run_eq]
  cases r.wraps with
  | nil => exact hown
  | cons t ts =>
    show wrap _ _ _ _ _ = _
    rw [wrap_falsy _ _ _ _ _ (by intro v s' h; rw [hown] at h; simp at h), hown]

/-- Whenever checking stops, however deep inside meta rules, it is because one configured rule matched, and the
message stays as it is right after that match, with that rule counted once. -/
theorem C52_only_cause (bonus : Bonus S) (conf : List Setting) (hc : ∀ c ∈ conf, c.Written)
    (st : SRules S Y) (hf : Fresh st) (hs : NoOtherStop st) (d : Nat)
    (pre post : Dict Str (Rule S (Rest Y))) (name : Str) (r : Rule S (Rest Y)) (s s0 s2 : M S Y) :
    let st' := configure (conf.map Setting.line) st
    linkAll bonus st' d st'.checked = pre ++ (name, r) :: post →
    Passes pre s s0 → r.run s0 = (.stop, s2) →
    runRules (linkAll bonus st' d st'.checked) s = s2 ∧
    ∃ rule type more d' sa sb v, st.get rule.base.name = some rule ∧ asked conf rule.base.name = type :: more ∧
      own (callSub bonus st' d') rule.body sa = (.ret v, sb) ∧ Hit v ∧
      Counted rule.base bonus type v sb s2 := by
  intro st' hl hp hr
  have he : st' = withW (asked conf) st := configure_eq conf hc st hf.nodup hf.nodup'
  have hnm : ∀ n r, st.get n = some r → r.base.name = n ∧ r.wraps = [] := by
    intro n r h
    unfold SRules.get at h
    cases h1 : Dict.get? st.checked n with
    | some x =>
      rw [h1] at h
      simp only [Option.some.injEq] at h
      subst h
      exact ⟨hf.name _ (Dict.mem_of_get? _ h1), hf.unwrapped _ (Dict.mem_of_get? _ h1)⟩
    | none =>
      rw [h1] at h
      simp only at h
      exact ⟨hf.name' _ (Dict.mem_of_get? _ h), hf.unwrapped' _ (Dict.mem_of_get? _ h)⟩
  have hprog : ∀ (call : Str → Run S Y) (p : Prog) (s s2 : M S Y), evalProg call p s = (.stop, s2) →
      ∃ n s', call n s' = (.stop, s2) := by
    intro call p
    induction p with
    | ret v => intro s s2 h; simp [evalProg] at h
    | fail => intro s s2 h; simp [evalProg] at h
    | call n k ih =>
      intro s s2 h
      unfold evalProg at h
      generalize hx : call n s = x at h
      obtain ⟨o, s'⟩ := x
      cases o with
      | ret v => exact ih v s' s2 h
      | raised => simp at h
      | stop => exact ⟨n, s, by rw [hx]; exact h⟩
  -- a rule that stops: either it was itself configured and matched, or a sub-rule stopped
  have hrule : ∀ (d : Nat) (n : Str) (x : SRule S Y) (s s2 : M S Y), st.get n = some x →
      (x.add (asked conf n)).run bonus (callSub bonus st' d) s = (.stop, s2) →
      (∃ rule type more d' sa sb v, st.get rule.base.name = some rule ∧ asked conf rule.base.name = type :: more ∧
        own (callSub bonus st' d') rule.body sa = (.ret v, sb) ∧ Hit v ∧
        Counted rule.base bonus type v sb s2) ∨ ∃ n s', callSub bonus st' d n s' = (.stop, s2) := by
    intro d n x s s2 hg h
    obtain ⟨hn, hw⟩ := hnm n x hg
    have hown : own (callSub bonus st' d) x.body s = (.stop, s2) →
        ∃ n s', callSub bonus st' d n s' = (.stop, s2) := by
      intro ho
      cases hb : x.body with
      | plain run =>
        rw [hb] at ho
        exact absurd (by rw [show run s = _ from ho]) (hs n x run hg hb s)
      | metaR p =>
        rw [hb] at ho
        exact hprog _ p s s2 ho
    rw [run_eq] at h
    have hwr : (x.add (asked conf n)).wraps = asked conf n := by unfold SRule.add; rw [hw]; rfl
    rw [hwr] at h
    cases ha : asked conf n with
    | nil =>
      rw [ha] at h
      exact Or.inr (hown h)
    | cons t ts =>
      rw [ha] at h
      simp only at h
      have h' : wrap x.base bonus t (own (callSub bonus st' d) x.body) s = (.stop, s2) := h
      by_cases hv : ∀ v s', own (callSub bonus st' d) x.body s = (.ret v, s') → truthy v = false
      · rw [wrap_falsy _ _ _ _ _ hv] at h'
        exact Or.inr (hown h')
      · simp only [Classical.not_forall] at hv
        obtain ⟨v, s', ho, hv⟩ := hv
        obtain ⟨s3, h3, hc3⟩ := wrap_counted x.base bonus t _ s s' v ho (by simpa using hv)
        rw [h3] at h'
        simp only [Prod.mk.injEq, true_and] at h'
        subst h'
        exact Or.inl ⟨x, t, ts, d, s, s', v, by rw [hn]; exact hg, by rw [hn]; exact ha, ho, (truthy_iff v).1 (by simpa using hv), hc3⟩
  have hsub : ∀ (d : Nat) (n : Str) (s s2 : M S Y), callSub bonus st' d n s = (.stop, s2) →
      ∃ rule type more d' sa sb v, st.get rule.base.name = some rule ∧ asked conf rule.base.name = type :: more ∧
        own (callSub bonus st' d') rule.body sa = (.ret v, sb) ∧ Hit v ∧
        Counted rule.base bonus type v sb s2 := by
    intro d
    induction d with
    | zero => intro n s s2 h; simp [callSub] at h
    | succ d ih =>
      intro n s s2 h
      unfold callSub at h
      have hg : st'.get n = (st.get n).map fun r => r.add (asked conf n) := by rw [he]; exact withW_get _ _ _
      rw [hg] at h
      cases hx : st.get n with
      | none => rw [hx] at h; simp at h
      | some x =>
        rw [hx] at h
        simp only [Option.map_some] at h
        rcases hrule d n x s s2 hx h with h | ⟨m, s', h⟩
        · exact h
        · exact ih m s' s2 h
  refine ⟨?_, ?_⟩
  · rw [hl, passes_run hp]
    unfold runRules
    rw [hr]
  · have hmem : (name, r) ∈ linkAll bonus st' d st'.checked := by rw [hl]; simp
    unfold linkAll at hmem
    rw [he] at hmem
    simp only [withW, List.map_map, List.mem_map, Function.comp, Prod.mk.injEq, Prod.exists] at hmem
    obtain ⟨n, x, hx, hn, hr'⟩ := hmem
    subst hr'
    have hg : st.get n = some x := by
      unfold SRules.get
      rw [Dict.get?_of_mem _ hf.nodup hx]
    have hr2 : (x.add (asked conf n)).run bonus (callSub bonus st' d) s0 = (.stop, s2) := by
      rw [he]; exact hr
    rcases hrule d n x s0 s2 hg hr2 with h | ⟨m, s', h⟩
    · exact h
    · exact hsub d m s' s2 h

/-- A rule that no setting asks to short-circuit, and a configured rule that does not match this time, behave as if
the plugin were not there (their sub-rules being what they are). -/
theorem C52_rule_unaffected (bonus : Bonus S) (conf : List Setting) (hc : ∀ c ∈ conf, c.Written)
    (st : SRules S Y) (hf : Fresh st) (d : Nat) (name : Str) (r : SRule S Y) (hr : st.get name = some r) (s : M S Y) :
    let st' := configure (conf.map Setting.line) st
    (asked conf name = [] ∨ ∀ v s', own (callSub bonus st' d) r.body s = (.ret v, s') → ¬ Hit v) →
    ∃ r', st'.get name = some r' ∧ r'.base = r.base ∧ r'.body = r.body ∧
      (link bonus st' d r').run s = own (callSub bonus st' d) r.body s := by
  intro st' h
  have he : st' = withW (asked conf) st := configure_eq conf hc st hf.nodup hf.nodup'
  have hw : r.wraps = [] := by
    unfold SRules.get at hr
    cases h1 : Dict.get? st.checked name with
    | some x =>
      rw [h1] at hr
      simp only [Option.some.injEq] at hr
      subst hr
      exact hf.unwrapped _ (Dict.mem_of_get? _ h1)
    | none =>
      rw [h1] at hr
      exact hf.unwrapped' _ (Dict.mem_of_get? _ hr)
  refine ⟨r.add (asked conf name), by rw [he, withW_get, hr]; rfl, rfl, rfl, ?_⟩
  unfold link
  simp only
  rw [run_eq]
  have hwr : (r.add (asked conf name)).wraps = asked conf name := by unfold SRule.add; rw [hw]; rfl
  rw [hwr]
  rcases h with h | h
  · rw [h]; rfl
  · cases asked conf name with
    | nil => rfl
    | cons t ts => exact wrap_falsy _ _ _ _ _ fun v s' e => (truthy_false v).2 (h v s' e)

/-- If no configured rule ever matches, checking any message ends as without the plugin. -/
theorem C52_unaffected (bonus : Bonus S) (conf : List Setting) (hc : ∀ c ∈ conf, c.Written)
    (st : SRules S Y) (hf : Fresh st)
    (h : ∀ name r, st.get name = some r → asked conf name ≠ [] → ∀ d s v s',
      own (callSub bonus st d) r.body s = (.ret v, s') → ¬ Hit v) (d : Nat) (s : M S Y) :
    let st' := configure (conf.map Setting.line) st
    runRules (linkAll bonus st' d st'.checked) s = runRules (linkAll bonus st d st.checked) s := by
  intro st'
  have he : st' = withW (asked conf) st := configure_eq conf hc st hf.nodup hf.nodup'
  have hrun : ∀ d n x, st.get n = some x → x.wraps = [] →
      (x.add (asked conf n)).run bonus (callSub bonus st d) = x.run bonus (callSub bonus st d) := by
    intro d n x hx hw
    rw [run_eq, run_eq]
    have hwr : (x.add (asked conf n)).wraps = asked conf n := by unfold SRule.add; rw [hw]; rfl
    rw [hwr, hw]
    cases ha : asked conf n with
    | nil => rfl
    | cons t ts =>
      funext s
      exact wrap_falsy _ _ _ _ _ (fun v s' ho => (truthy_false v).2 <| h n x hx (by rw [ha]; simp) d s v s' ho)
  have hwr : ∀ n x, st.get n = some x → x.wraps = [] := by
    intro n r hr
    unfold SRules.get at hr
    cases h1 : Dict.get? st.checked n with
    | some x =>
      rw [h1] at hr
      simp only [Option.some.injEq] at hr
      subst hr
      exact hf.unwrapped _ (Dict.mem_of_get? _ h1)
    | none =>
      rw [h1] at hr
      exact hf.unwrapped' _ (Dict.mem_of_get? _ hr)
  have hcall : ∀ d, callSub bonus st' d = callSub bonus st d := by
    intro d
    induction d with
    | zero => rfl
    | succ d ih =>
      funext n s
      unfold callSub
      rw [ih, he, withW_get]
      cases hx : st.get n with
      | none => rfl
      | some x =>
        simp only [Option.map_some]
        rw [hrun d n x hx (hwr n x hx)]
  have hl : linkAll bonus st' d st'.checked = linkAll bonus st d st.checked := by
    unfold linkAll
    rw [show st'.checked = st.checked.map (fun p => (p.1, p.2.add (asked conf p.1))) by rw [he]; rfl, List.map_map]
    apply List.map_congr_left
    intro p hp
    have hg : st.get p.1 = some p.2 := by
      unfold SRules.get
      rw [Dict.get?_of_mem _ hf.nodup hp]
    simp only [Function.comp, link, Prod.mk.injEq, true_and, Rule.mk.injEq]
    exact ⟨rfl, rfl, by rw [hcall]; exact hrun d p.1 p.2 hg (hwr _ _ hg)⟩
  rw [hl]

/-! ## Where the code disagrees -/

def scRule (name : Str) (score : Int) (v : MatchValue) : Str × SRule Int Unit :=
  (name, { base := ⟨name, [score], none, [], 0, score⟩, rtype := [], body := .plain fun s => (.ret v, s), wraps := [] })

def scMsg : M Int Unit := ⟨0, [], [], ⟨[], ()⟩⟩

def scRun (lines : List Str) (rules : Dict Str (SRule Int Unit)) : M Int Unit :=
  let st := configure lines ⟨rules, []⟩
  runRules (linkAll ⟨100, -100⟩ st 11 st.checked) scMsg

/-- **C52** is violated: later settings of a rule have no effect.  Whatever lines follow, the rule counts as its first setting says, with or
without a bonus. -/
theorem C52_last_line_violated (bonus : Bonus S) (conf later : List Setting) (hc : ∀ c ∈ conf ++ later, c.Written) (st : SRules S Y)
    (hf : Fresh st) (d : Nat) (pre post : Dict Str (SRule S Y)) (name : Str) (r : SRule S Y) (hst : st.checked = pre ++ (name, r) :: post)
    (type : Str) (more : List Str) (ht : asked conf name = type :: more) (s s0 s1 : M S Y) (v : MatchValue) :
    let st' := configure ((conf ++ later).map Setting.line) st
    Passes ((linkAll bonus st' d st'.checked).take pre.length) s s0 → own (callSub bonus st' d) r.body s0 = (.ret v, s1) → Hit v →
    Counted { r.base with name := name } bonus type v s1 (runRules (linkAll bonus st' d st'.checked) s) := by
  refine C52_stops_partial bonus (conf ++ later) hc st hf d pre post name r hst type (more ++ asked later name) ?_ s s0 s1 v
  unfold asked at ht ⊢
  rw [List.filter_append, List.map_append, ht]
  rfl

/-- **C52** is violated: short-circuiting cannot be switched off again.  A line `NAME off` anywhere changes nothing at all. -/
theorem C52_off_violated (before after : List Setting) (c : Setting) (hc : ∀ x ∈ before ++ c :: after, x.Written) (hoff : c.type = c!"off")
    (st : SRules S Y) (hf : Fresh st) :
    configure ((before ++ c :: after).map Setting.line) st = configure ((before ++ after).map Setting.line) st := by
  rw [configure_eq _ hc st hf.nodup hf.nodup',
    configure_eq (before ++ after) (fun x hx => hc x (by
      rcases List.mem_append.1 hx with h | h
      · exact List.mem_append.2 (Or.inl h)
      · exact List.mem_append.2 (Or.inr (List.mem_cons_of_mem _ h)))) st hf.nodup hf.nodup']
  congr 1
  funext n
  unfold asked
  rw [List.filter_append, List.filter_append, List.filter_cons_of_neg]
  rw [hoff]
  simp

/-- **C52** is violated: a rule that matches with an empty text, which counts as matched, does not stop the checking, however it is
configured. -/
theorem C52_empty_text_violated (bonus : Bonus S) (conf : List Setting) (hc : ∀ c ∈ conf, c.Written) (st : SRules S Y) (hf : Fresh st) (d : Nat)
    (name : Str) (r : SRule S Y) (hr : st.get name = some r) (s s' : M S Y) :
    let st' := configure (conf.map Setting.line) st
    own (callSub bonus st' d) r.body s = (.ret (.text []), s') →
    ∃ r', st'.get name = some r' ∧ (link bonus st' d r').run s = (.ret (.text []), s') := by
  intro st' h
  obtain ⟨r', h1, -, -, h2⟩ := C52_rule_unaffected bonus conf hc st hf d name r hr s (Or.inr (fun v s'' hv hh => by
    have := h.symm.trans hv
    cases this
    exact hh.2 rfl))
  exact ⟨r', h1, h2.trans h⟩

example :
    (scRun [c!"A on", c!"A spam"] [scRule c!"A" 2 (.val 1), scRule c!"B" 1 (.val 1)]).score = 2 ∧
    (scRun [c!"A spam"] [scRule c!"A" 2 (.val 1), scRule c!"B" 1 (.val 1)]).score = 102 := by
  decide +kernel

example :
    (scRun [c!"A on", c!"A off"] [scRule c!"A" 2 (.val 1), scRule c!"B" 1 (.val 1)]).checked = [(c!"A", 1)] := by
  decide +kernel

example :
    (scRun [c!"A spam"] [scRule c!"A" 2 (.text []), scRule c!"B" 1 (.val 1)]).checked = [(c!"A", 1), (c!"B", 1)] ∧
    (scRun [c!"A spam"] [scRule c!"A" 2 (.text []), scRule c!"B" 1 (.val 1)]).score = 3 := by
  decide +kernel

/-! ## The hypotheses can be met -/

def scMeta : SRule Int Unit where
  base := ⟨c!"M", [5], none, [], 0, 5⟩
  rtype := c!"meta"
  body := .metaR (.call c!"__B" (fun v => .ret v))
  wraps := []

def scDemo : SRules Int Unit :=
  ⟨[scRule c!"A" 1 (.val 1), (c!"M", scMeta), scRule c!"C" 1 (.val 1)], [scRule c!"__B" 0 (.val 1)]⟩

example : Fresh scDemo := ⟨by decide, by decide, by decide, by decide, by decide, by decide⟩

example : (Setting.mk [] c!"__B" c!" " c!"spam").Written :=
  ⟨by decide, ⟨by decide, by decide⟩, ⟨by decide, by decide⟩, ⟨by decide, by decide⟩⟩

/-- The sub-rule of a meta rule stops everything: the meta rule itself is not counted. -/
example : let st := configure [c!"__B spam"] scDemo
    let s := runRules (linkAll ⟨100, -100⟩ st 11 st.checked) scMsg
    s.score = 101 ∧ s.checked = [(c!"A", 1), (c!"__B", 1)] ∧
      s.rest.tags = [(c!"SCRULE", c!"__B"), (c!"SCTYPE", c!"spam"), (c!"SC", c!"__B (spam)")] := by
  decide +kernel

example : asked [⟨[], c!"__B", c!" ", c!"spam"⟩, ⟨[], c!"A", c!" ", c!"off"⟩] c!"__B" = [c!"spam"] := by decide

end Verif.Props
