import Verif.Model.FreeHeader
import Verif.Props.AllFrom

/-!
# C183: free mail is noticed in every header of the name
-/

namespace Verif.Props
open Verif Py FreeMail FreeHeader

theorem first_spec (hs : List (Str × Str)) (name : Str) :
    (first hs name = none ↔ ∀ h ∈ hs, lower h.1 ≠ lower name) ∧
    ∀ v, first hs name = some v ↔ ∃ before k after, hs = before ++ (k, v) :: after ∧ lower k = lower name ∧ ∀ h ∈ before, lower h.1 ≠ lower name := by
  induction hs with
  | nil => simp [first]
  | cons h hs ih =>
    obtain ⟨k, v⟩ := h
    unfold first
    by_cases hk : lower k = lower name
    · rw [if_pos hk]
      refine ⟨⟨fun h => (by cases h), fun h => absurd hk (h (k, v) (by simp))⟩, fun w => ?_⟩
      constructor
      · intro h
        injection h with h
        subst h
        exact ⟨[], k, hs, rfl, hk, by simp⟩
      · rintro ⟨before, k', after, e, hk', hb⟩
        cases before with
        | nil =>
          injection e with e1 e2
          injection e1 with e3 e4
          rw [e4]
        | cons x xs =>
          injection e with e1 e2
          subst e1
          exact absurd hk (hb (k, v) (by simp))
    · rw [if_neg hk]
      refine ⟨?_, fun w => ?_⟩
      · rw [ih.1]
        simp [hk]
      · rw [ih.2 w]
        constructor
        · rintro ⟨before, k', after, e, hk', hb⟩
          refine ⟨(k, v) :: before, k', after, by rw [e]; rfl, hk', ?_⟩
          intro x hx
          rcases List.mem_cons.mp hx with rfl | hx
          · exact hk
          · exact hb x hx
        · rintro ⟨before, k', after, e, hk', hb⟩
          cases before with
          | nil =>
            injection e with e1 e2
            injection e1 with e3 e4
            rw [e3] at hk
            exact absurd hk' hk
          | cons x xs =>
            injection e with e1 e2
            exact ⟨xs, k', after, e2, hk', fun y hy => hb y (by simp [hy])⟩

theorem firstFree_plain (c : Conf) (es : List Str) (ht : ∀ e ∈ es, isFreemail c e ≠ none) :
    (firstFree c none es).getD false = true ↔ ∃ e ∈ es, isFreemail c e = some true := by
  induction es with
  | nil => simp [firstFree]
  | cons e es ih =>
    unfold firstFree
    cases hf : isFreemail c e with
    | none => exact absurd hf (ht e (by simp))
    | some b =>
      cases b with
      | true => simp [hf]
      | false =>
        dsimp only
        rw [ih fun x hx => ht x (by simp [hx])]
        simp [hf]

/-- **C183**, part.  If there is one header of the name, the rule without an expression holds exactly if one of the addresses in it has
free mail.  Missing: several headers of the name (`C183_second_violated`). -/
theorem C183_one_partial (find : Str → List Str) (c : Conf) (name : Str) (hn : name ≠ []) (hs : List (Str × Str)) (k v : Str)
    (h1 : (k, v) ∈ hs) (hk : lower k = lower name) (h2 : ∀ h ∈ hs, lower h.1 = lower name → h.2 = v) (hv : v ≠ [])
    (ht : ∀ e ∈ find v, isFreemail c e ≠ none) :
    namedRule find c none name hs = true ↔ ∃ h ∈ hs, lower h.1 = lower name ∧ ∃ e ∈ find h.2, isFreemail c e = some true := by
  have hf : first hs name = some v := by
    cases h : first hs name with
    | none => exact absurd hk ((first_spec hs name).1.mp h _ h1)
    | some w =>
      obtain ⟨before, k', after, e, hk', -⟩ := ((first_spec hs name).2 w).mp h
      rw [← h2 (k', w) (by rw [e]; simp) hk']
  unfold namedRule
  rw [if_neg hn, hf]
  dsimp only
  rw [if_neg hv]
  show (firstFree c none (find v)).getD false = true ↔ _
  rw [firstFree_plain c (find v) ht]
  constructor
  · rintro ⟨e, he, hfree⟩
    exact ⟨(k, v), h1, hk, e, he, hfree⟩
  · rintro ⟨h, hh, hl, e, he, hfree⟩
    rw [h2 h hh hl] at he
    exact ⟨e, he, hfree⟩

/-- **C183**, negation.  What comes after the first header of the name is not looked at: neither by the rule about a named header nor, for
From and Reply-To, by the rule about different addresses. -/
theorem C183_second_violated (find : Str → List Str) (c : Conf) (rx : Rx) (name k v : Str) (before after : List (Str × Str))
    (hk : lower k = lower name) (hb : ∀ h ∈ before, lower h.1 ≠ lower name) :
    namedRule find c rx name (before ++ (k, v) :: after) = namedRule find c rx name [(k, v)] ∧
    addressOf find (before ++ (k, v) :: after) name = (find v).headD [] := by
  have h1 : first (before ++ (k, v) :: after) name = some v := ((first_spec _ name).2 v).mpr ⟨before, k, after, rfl, hk, hb⟩
  have h2 : first [(k, v)] name = some v := ((first_spec _ name).2 v).mpr ⟨[], k, [], rfl, hk, by simp⟩
  constructor
  · unfold namedRule
    rw [h1, h2]
  · unfold addressOf
    rw [h1]

/-- **C183**, negation.  A first header of the name without free mail makes the rule about a named header false, whatever the headers after
it; an empty one does. -/
theorem C183_hidden_violated (find : Str → List Str) (c : Conf) (rx : Rx) (name k v : Str) (before after : List (Str × Str))
    (hk : lower k = lower name) (hb : ∀ h ∈ before, lower h.1 ≠ lower name) (hv : v = [] ∨ ∀ e ∈ find v, isFreemail c e = some false) :
    namedRule find c rx name (before ++ (k, v) :: after) = false := by
  rw [(C183_second_violated find c rx name k v before after hk hb).1]
  have h2 : first [(k, v)] name = some v := ((first_spec _ name).2 v).mpr ⟨[], k, [], rfl, hk, by simp⟩
  unfold namedRule
  by_cases hn : name = []
  · rw [if_pos hn]
  · rw [if_neg hn, h2]
    dsimp only
    by_cases he : v = []
    · rw [if_pos he]
    · rw [if_neg he]
      have hall : ∀ e ∈ find v, isFreemail c e = some false := hv.resolve_left he
      have hfree : ∀ (r : Option (Str → Bool)) (es : List Str), (∀ e ∈ es, isFreemail c e = some false) → firstFree c r es = some false := by
        intro r es
        induction es with
        | nil => intro _; rfl
        | cons e es ih =>
          intro h
          unfold firstFree
          rw [h e (by simp)]
          exact ih fun x hx => h x (by simp [hx])
      unfold checkHeader
      cases rx with
      | none => dsimp only; rw [hfree none _ hall]; rfl
      | some o =>
        cases o with
        | none => rfl
        | some m => dsimp only; rw [hfree (some m) _ hall]; rfl

/-- **C183**, negation.  With a second Reply-To header the addresses that are compared are those of the first one: without free mail there, the
rule is false by default, however many other Reply-To headers lead to free mail. -/
theorem C183_reply_violated (find : Str → List Str) (c : Conf) (sender : Option Str) (k v : Str) (before after : List (Str × Str))
    (hk : lower k = lower c!"Reply-To") (hb : ∀ h ∈ before, lower h.1 ≠ lower c!"Reply-To")
    (hv : isFreemail c ((find v).headD []) = some false) (b : Body) :
    (replyRule find c none sender (before ++ (k, v) :: after) b).1 = false := by
  unfold replyRule
  rw [(C183_second_violated find c none c!"Reply-To" k v before after hk hb).2]
  have hcore : ∀ f, (replyCore c (decide (optionOf none = c!"reply")) f ((find v).headD []) b).1 = false := by
    intro f
    have : decide (optionOf none = c!"reply") = false := by decide
    rw [this]
    unfold replyCore
    rw [hv]
    cases isFreemail c f with
    | none => rfl
    | some ff => cases ff <;> rfl
  unfold checkReplyto
  rw [if_neg (by decide)]
  split
  · cases sender with
    | none => rfl
    | some s =>
      dsimp only
      split
      · rfl
      · exact hcore _
  · exact hcore _

/-! ## The hypotheses can be met -/

/-- Addresses are separated by spaces. -/
def wordsOfHeader (v : Str) : List Str := (splitWs v).filter fun w => decide ('@' ∈ w)

example : namedRule wordsOfHeader toyConf none c!"Errors-To" [(c!"From", c!"x@y.example"), (c!"errors-to", c!"a@b.example you@gmx.de")] = true ∧
    namedRule wordsOfHeader toyConf none c!"From" [(c!"From", c!"x@y.example"), (c!"From", c!"you@gmx.de")] = false ∧
    AllFrom.rule fromLib toyConf none [] (Spec.accessed fromLib [(c!"From", c!"x@y.example"), (c!"From", c!"you@gmx.de")] [] []) = true ∧
    (replyRule wordsOfHeader toyConf none (some c!"x@y.example") [(c!"From", c!"you@gmx.de"), (c!"Reply-To", c!"me@b.example"), (c!"Reply-To", c!"i@gmx.de")]
      ⟨[], false, []⟩).1 = false ∧
    (replyRule wordsOfHeader toyConf none (some c!"x@y.example") [(c!"From", c!"you@gmx.de"), (c!"Reply-To", c!"i@gmx.de"), (c!"Reply-To", c!"me@b.example")]
      ⟨[], false, []⟩).1 = true := by
  decide +kernel

end Verif.Props
