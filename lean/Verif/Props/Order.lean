import Verif.Props.Local

/-!
# C175: the order of the lines and the priorities decide nothing but the order
-/

namespace Verif.Props
open Verif Py Mail Parser Scan Spec Build

variable {S R V C : Type} [PyNum S]

/-- The rules that two configurations evaluate if they define the same rules. -/
theorem same_orders {L : ReLib R} {m : Facts} {as as' : List (Str × Str × PVal)} {good good' : Str → Bool} {docs docs' : Str → Doc S R}
    (hd : SameRules as as' good good' docs docs') {o o' : List Str} {v v' : Str → Int}
    (h : InOrder ((firstMentions (as.map (fun a => a.1))).filter good) docs (rulesOf as good docs) o)
    (h' : InOrder ((firstMentions (as'.map (fun a => a.1))).filter good') docs' (rulesOf as' good' docs') o')
    (g : ∀ n ∈ o, Gives L (rulesOf as good docs) m n (v n)) (g' : ∀ n ∈ o', Gives L (rulesOf as' good' docs') m n (v' n)) :
    o'.Perm o ∧ ∀ n ∈ o, v' n = v n := by
  have hdef : ∀ n, n ∈ (firstMentions (as.map (fun a => a.1))).filter good ↔ n ∈ (firstMentions (as'.map (fun a => a.1))).filter good' := by
    intro n
    rw [List.mem_filter, List.mem_filter, mem_firstMentions', mem_firstMentions', List.mem_map, List.mem_map]
    constructor
    · rintro ⟨⟨a, ha, rfl⟩, hg⟩
      exact (hd.defined a.1).1 ⟨⟨a, ha, rfl⟩, hg⟩
    · rintro ⟨⟨a, ha, rfl⟩, hg⟩
      exact (hd.defined a.1).2 ⟨⟨a, ha, rfl⟩, hg⟩
  have hsame : ∀ n, n ∈ (firstMentions (as.map (fun a => a.1))).filter good →
      (docs' n).cond = (docs n).cond ∧ ((docs' n).score = 0 ↔ (docs n).score = 0) := by
    intro n hn
    rw [List.mem_filter, mem_firstMentions', List.mem_map] at hn
    obtain ⟨⟨a, ha, rfl⟩, hg⟩ := hn
    exact ⟨hd.cond a ha hg, hd.zero a ha hg⟩
  have hr : rulesOf as good docs = rulesOf as' good' docs' := by
    funext n
    unfold rulesOf
    by_cases hn : n ∈ (firstMentions (as.map (fun a => a.1))).filter good
    · rw [if_pos hn, if_pos ((hdef n).1 hn), (hsame n hn).1]
    · rw [if_neg hn, if_neg (fun x => hn ((hdef n).2 x))]
  have hmem : ∀ n, n ∈ o' ↔ n ∈ o := by
    intro n
    rw [h.exact, h'.exact, ← hr, ← hdef n]
    constructor
    · rintro ⟨a, b, c, d⟩
      exact ⟨a, b, fun e => c ((hsame n a).2.2 e), d⟩
    · rintro ⟨a, b, c, d⟩
      exact ⟨a, b, fun e => c ((hsame n a).2.1 e), d⟩
  refine ⟨(List.perm_ext_iff_of_nodup h'.once h.once).2 hmem, fun n hn => ?_⟩
  have := g' n ((hmem n).2 hn)
  rw [← hr] at this
  exact gives_unique this (g n hn)

/-- **C175** (the part that holds).  Two configurations that can be understood define the same rules, in any order, in any files, with any
priorities.  Then they find the same in every message; only the order of the results can differ.  If the scores are the same as well and
addition does not depend on the order of the summands, the scores of the message are the same. -/
theorem C175_order_partial (E : ScanEnv S R V C) (c0 c c' : C) (files files' : List Str) (m : Facts) (as as' : List (Str × Str × PVal))
    (good good' : Str → Bool) (docs docs' : Str → Doc S R) (h : Understood E c0 files m c as good docs)
    (h' : Understood E c0 files' m c' as' good' docs') (hd : SameRules as as' good good' docs docs')
    (hm : Reads E.mail m.headers m.dec m.addrs) (hmp : ∀ q ∈ m.partHeaders, E.mail.decode q.2 = some (m.dec q.2)) (ops : List Access) :
    ∃ st st' : MsgSt S Seen,
      scan E c0 files ⟨m.text, m.rawText, m.raw, m.uris, accessed E.mail m.headers m.partHeaders ops⟩ = some st ∧
      scan E c0 files' ⟨m.text, m.rawText, m.raw, m.uris, accessed E.mail m.headers m.partHeaders ops⟩ = some st' ∧
      st'.checked.Perm st.checked ∧
      ((∀ a b c : S, a + b + c = a + c + b) → (∀ a ∈ as, good a.1 = true → (docs' a.1).score = (docs a.1).score) → st'.score = st.score) := by
  obtain ⟨st, o, v, h1, h2, h3, h4, h5⟩ := understood_scan E c0 c files m as good docs h hm hmp ops
  obtain ⟨st', o', v', h1', h2', h3', h4', h5'⟩ := understood_scan E c0 c' files' m as' good' docs' h' hm hmp ops
  obtain ⟨p, hv⟩ := same_orders hd h2 h2' h3 h3'
  refine ⟨st, st', h1, h1', ?_, fun hadd hs => ?_⟩
  · rw [h4, h4', show o.map (fun n => (n, v n)) = o.map (fun n => (n, v' n)) from List.map_congr_left fun n hn => by rw [hv n hn]]
    exact p.map _
  · rw [h5, h5']
    have e1 : o.filter (fun n => decide (v n ≠ 0)) = o.filter (fun n => decide (v' n ≠ 0)) :=
      List.filter_congr fun n hn => by rw [hv n hn]
    have e2 : (o.filter (fun n => decide (v' n ≠ 0))).map (fun n => (docs n).score) =
        (o.filter (fun n => decide (v' n ≠ 0))).map (fun n => (docs' n).score) := by
      apply List.map_congr_left
      intro n hn
      have := ((h2.exact n).1 (List.mem_filter.1 hn).1).1
      rw [List.mem_filter, mem_firstMentions', List.mem_map] at this
      obtain ⟨⟨a, ha, rfl⟩, hg⟩ := this
      exact (hs a ha hg).symm
    rw [e1, e2]
    exact total_perm hadd ((p.filter _).map _) _

/-! ### The hypotheses are met -/

set_option maxRecDepth 8000 in
theorem local_swapped : Understood localEnv [] [c!"/etc/b.cf", c!"/etc/a.cf"] localFacts [] (localBs ++ localAs) (fun n => n != c!"X") localDocs where
  tolerant := rfl
  text := by
    refine ⟨[c!"body B /now/", c!"score B 3", c!"score X 2"] ++ ([c!"body A /buy/"] ++ []),
      .file rfl (local_plain _ (by decide) _ _ _) (.file rfl (local_plain _ (by decide) _ _ _) .nil), ?_⟩
    refine local_rule (a := localBs.take 2) (as := localBs.drop 2 ++ localAs) (by decide +kernel) (by decide) (by decide) (by decide) ?_
    refine local_rule (a := (localBs.drop 2).take 1) (as := localBs.drop 3 ++ localAs) (by decide +kernel) (by decide) (by decide) (by decide) ?_
    refine local_rule (a := localBs.drop 3) (as := localAs) (by decide +kernel) (by decide) (by decide) (by decide) ?_
    exact local_rule (a := localAs) (as := []) (by decide +kernel) (by decide) (by decide) (by decide) .nil
  says := by
    intro n hn
    rw [show firstMentions ((localBs ++ localAs).map (fun a => a.1)) = [c!"B", c!"X", c!"A"] by decide +kernel] at hn
    simp only [List.mem_cons, List.not_mem_nil, or_false] at hn
    rcases hn with rfl | rfl | rfl
    · refine ⟨fun _ => ?_, fun h => absurd h (by decide)⟩
      refine ⟨⟨c!"body", c!"/now/", by decide +kernel, by decide +kernel, Or.inl (.body ⟨'/', '/', [], [], c!"now", [], [], ?_⟩)⟩,
        ⟨some [3], [], Or.inr ⟨c!"3", [3], by decide +kernel, by decide +kernel, by decide, rfl⟩, Or.inl ⟨by decide +kernel, rfl⟩,
          by decide +kernel, by simp⟩, Or.inl ⟨by decide +kernel, rfl⟩⟩
      exact ⟨⟨by unfold Delimiters; decide, by unfold Blank; decide, by decide, by decide, by decide, by unfold Blank; decide⟩,
        by unfold NoPerlisms; decide, by decide, by decide, by decide, by decide⟩
    · exact ⟨fun h => absurd h (by decide), fun _ => .undefined (by decide +kernel)⟩
    · exact ⟨fun _ => local_buy _ _ (by decide +kernel) (by decide +kernel) (by decide +kernel) (by decide +kernel) (by decide +kernel)
        (by decide +kernel), fun h => absurd h (by decide)⟩
  parts := fun n _ _ => local_zero n
  answers := fun n _ fn args t h => absurd h (local_asks n fn args t)
  depth := local_depth _ _

set_option maxRecDepth 8000 in
example : SameRules (localAs ++ localBs) (localBs ++ localAs) (fun n => n != c!"X") (fun n => n != c!"X") localDocs localDocs := by
  refine ⟨fun n => ?_, fun _ _ _ => rfl, fun _ _ _ => Iff.rfl⟩
  simp only [List.mem_append, or_comm]

set_option maxRecDepth 8000 in
example : ((scan localEnv [] [c!"/etc/b.cf", c!"/etc/a.cf"] preSeen).map (fun st => (st.checked, st.score))) =
    some ([(c!"B", 1), (c!"A", 1)], 4) := by
  decide +kernel

/-! ### Rounding -/

/-- Numbers with 53 binary digits of precision, as multiples of 2⁻⁶⁰: the doubles of this size. -/
structure Double where
  k : Int
deriving DecidableEq

/-- The nearest number with 53 digits; of two, the even one. -/
def nearest53 (a : Nat) : Nat :=
  if a < 2 ^ 53 then a
  else
    let s := Nat.log2 a - 52
    let q := a / 2 ^ s
    let r := a % 2 ^ s
    (if 2 * r > 2 ^ s ∨ (2 * r = 2 ^ s ∧ q % 2 = 1) then q + 1 else q) * 2 ^ s

instance instPyNumDouble : PyNum Double where
  add a b := ⟨(a.k + b.k).sign * nearest53 (a.k + b.k).natAbs⟩
  zero := ⟨0⟩
  one := ⟨2 ^ 60⟩
  neg a := ⟨-a.k⟩
  le a b := a.k ≤ b.k
  decEq := inferInstance
  decLe a b := inferInstanceAs (Decidable (a.k ≤ b.k))

/-- The doubles that `0.1`, `0.2` and `0.3` are read as. -/
def tenths (s : Str) : Option Double :=
  if strip s = c!"0.1" then some ⟨0x1999999999999a * 16⟩
  else if strip s = c!"0.2" then some ⟨0x1999999999999a * 32⟩
  else if strip s = c!"0.3" then some ⟨0x13333333333333 * 64⟩
  else none

def tenthsA : List Str := [c!"body A /b/", c!"score A 0.1"]
def tenthsB : List Str := [c!"body B /u/", c!"score B 0.2"]
def tenthsC : List Str := [c!"body C /y/", c!"score C 0.3"]

def tenthsFiles (f : Str) : Option (List Str) :=
  if f = c!"a" then some tenthsA else if f = c!"b" then some tenthsB else if f = c!"c" then some tenthsC else none

def tenthsEnv : ScanEnv Double (Str × ReFlags) Unit (List Str) where
  parser := { preEnv.parser with files := tenthsFiles }
  float := tenths
  re := textLib
  evalArg := fun _ => .ok ()
  hasEval := fun _ _ => false
  cmd := fun _ _ => none
  conf := fun _ => ⟨false, false, false, false⟩
  mail := plainMail false
  evalFn := fun _ _ _ _ x => (none, x)
  plugin := fun _ _ x => (none, x)

set_option maxRecDepth 8000 in
/-- **C175** is violated by rounding: three rules with the scores 0.1, 0.2 and 0.3 in three files add up to 0.6000000000000001 or to 0.6,
depending on the order in which the files are read. -/
theorem C175_rounding_violated :
    ∃ (st st' : MsgSt Double Seen), scan tenthsEnv [] [c!"a", c!"b", c!"c"] preSeen = some st ∧
      scan tenthsEnv [] [c!"c", c!"b", c!"a"] preSeen = some st' ∧
      st.checked = [(c!"A", 1), (c!"B", 1), (c!"C", 1)] ∧ st'.checked = st.checked.reverse ∧
      st.score = ⟨0x13333333333334 * 128⟩ ∧ st'.score = ⟨0x13333333333333 * 128⟩ := by
  have h1 : (scan tenthsEnv [] [c!"a", c!"b", c!"c"] preSeen).map (fun st => (st.checked, st.score)) =
    some ([(c!"A", 1), (c!"B", 1), (c!"C", 1)], ⟨0x13333333333334 * 128⟩) := by decide +kernel
  have h2 : (scan tenthsEnv [] [c!"c", c!"b", c!"a"] preSeen).map (fun st => (st.checked, st.score)) =
    some ([(c!"C", 1), (c!"B", 1), (c!"A", 1)], ⟨0x13333333333333 * 128⟩) := by decide +kernel
  rw [Option.map_eq_some_iff] at h1 h2
  obtain ⟨st, e1, f1⟩ := h1
  obtain ⟨st', e2, f2⟩ := h2
  rw [Prod.mk.injEq] at f1 f2
  exact ⟨st, st', e1, e2, f1.1, by rw [f1.1, f2.1]; rfl, f1.2, f2.2⟩

end Verif.Props
