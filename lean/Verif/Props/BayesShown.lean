import Verif.Props.BayesTouch

/-!
# C145: the tokens in the tags are tokens of the message
-/

namespace Verif.Props
open Verif Py BayesScore BayesScan

theorem set_mem {V : Type} (d : Dict Str V) (k : Str) (v : V) : ∀ x ∈ Dict.set d k v, x = (k, v) ∨ x ∈ d := by
  induction d with
  | nil => intro x hx; exact Or.inl (by simpa [Dict.set] using hx)
  | cons y d ih =>
    intro x hx
    unfold Dict.set at hx
    split at hx
    · rename_i hk
      rcases List.mem_cons.mp hx with h | h
      · exact Or.inl (by rw [h, hk])
      · exact Or.inr (List.mem_cons_of_mem _ h)
    · rcases List.mem_cons.mp hx with h | h
      · exact Or.inr (by simp [h])
      · rcases ih x h with h | h
        · exact Or.inl h
        · exact Or.inr (List.mem_cons_of_mem _ h)

/-- The dictionary of the tokens has only tokens of the message. -/
theorem msgTokens_mem (ts : List (Str × Str)) : ∀ x ∈ msgTokens ts, x ∈ ts := by
  have : ∀ (l : List (Str × Str)) (d : Dict Str Str), ∀ x ∈ l.foldl (fun d t => Dict.set d t.1 t.2) d, x ∈ l ∨ x ∈ d := by
    intro l
    induction l with
    | nil => intro d x hx; exact Or.inr hx
    | cons y l ih =>
      intro d x hx
      rcases ih _ x hx with h | h
      · exact Or.inl (List.mem_cons_of_mem _ h)
      · rcases set_mem _ _ _ x h with h | h
        · exact Or.inl (by simp [h])
        · exact Or.inr h
  intro x hx
  rcases this ts [] x hx with h | h
  · exact h
  · cases h

/-- What is kept for the tags: the text of a token of the message whose hash the database knows, on the side of its probability. -/
def ShownOk (b : Base → Prop) (m : BayesScan.Msg) (l : Loc) : Prop :=
  (∀ e ∈ l.hammy, e.2 < 1 / 2) ∧ (∀ e ∈ l.spammy, ¬ e.2 < 1 / 2) ∧
  ∀ e ∈ l.hammy ++ l.spammy, ∃ ts h, m.tokens = some ts ∧ (h, e.1) ∈ ts ∧
    ∃ x, b x ∧ ∃ hs rows r, x.rows hs = some rows ∧ r ∈ rows ∧ r.token = h

theorem scan_shown (E : Dkim.Engine) (comb : Nat → Nat → List Rat → Option Rat) (o : Opts) (b : Base) (m : BayesScan.Msg) (p : Plug) (l : Loc)
    (hrows : ∀ ts rows, b.rows ts = some rows → ∀ r ∈ rows, r.token ∈ ts) :
    (scan E comb o b m p l).2 = l ∨ ShownOk (· = b) m (scan E comb o b m p l).2 := by
  unfold scan
  split
  · exact .inl rfl
  · dsimp only
    split
    · exact .inl rfl
    · exact .inl rfl
    · split
      · exact .inl rfl
      · exact .inl rfl
      · split
        · exact .inl rfl
        · split
          · exact .inl rfl
          · rename_i ts hts
            split
            · exact .inl rfl
            · rename_i rows hr
              split
              · exact .inl rfl
              · rename_i pw hpw
                split
                · exact .inl rfl
                · right
                  have key : ∀ e ∈ (chosen pw).map (fun x => ((Dict.get? (msgTokens ts) x.1).getD c!"(unknown)", x.2)),
                      ∃ ts h, m.tokens = some ts ∧ (h, e.1) ∈ ts ∧
                        ∃ x, x = b ∧ ∃ hs rows r, x.rows hs = some rows ∧ r ∈ rows ∧ r.token = h := by
                    intro e he
                    obtain ⟨x, hx, rfl⟩ := List.mem_map.mp he
                    obtain ⟨r, hr1, hr2⟩ := table_keys _ _ _ _ _ hpw x (chosen_mem pw x hx)
                    have hk : r.token ∈ (msgTokens ts).map Prod.fst := hrows _ _ hr r hr1
                    cases hg : Dict.get? (msgTokens ts) x.1 with
                    | none =>
                      exfalso
                      rw [hr2] at hg
                      exact (Dict.get?_eq_none_iff _ _).mp hg hk
                    | some v =>
                      refine ⟨ts, x.1, hts, ?_, b, rfl, _, rows, r, hr, hr1, hr2.symm⟩
                      exact msgTokens_mem ts _ (Dict.mem_of_get? _ hg)
                  have all : ∀ l' : Loc, l'.hammy = ((chosen pw).map (fun x => ((Dict.get? (msgTokens ts) x.1).getD c!"(unknown)", x.2))).filter (fun x => decide (x.2 < 1 / 2)) →
                      l'.spammy = ((chosen pw).map (fun x => ((Dict.get? (msgTokens ts) x.1).getD c!"(unknown)", x.2))).filter (fun x => !decide (x.2 < 1 / 2)) →
                      ShownOk (· = b) m l' := by
                    intro l' h1 h2
                    refine ⟨?_, ?_, ?_⟩
                    · intro e he; rw [h1] at he; exact of_decide_eq_true (List.mem_filter.mp he).2
                    · intro e he; rw [h2] at he
                      have := (List.mem_filter.mp he).2
                      simpa using this
                    · intro e he
                      rw [h1, h2] at he
                      rcases List.mem_append.mp he with he | he
                      · exact key e (List.mem_filter.mp he).1
                      · exact key e (List.mem_filter.mp he).1
                  split
                  · exact all _ rfl rfl
                  · split
                    · exact all _ rfl rfl
                    · split
                      · exact all _ rfl rfl
                      · exact all _ rfl rfl

/-- **C145**.  Whatever rules of the classifier ran on a message, with whatever database that answers only what it is asked: each
token shown in a tag is the text of a token of this message, and the database has a row for the hash of that token.  The tag of
hammy tokens shows those with a probability below one half, the other tag the others. -/
theorem C145_shown (E : Dkim.Engine) (comb : Nat → Nat → List Rat → Option Rat) (o : Opts) (m : BayesScan.Msg) (rs : List BayesRule) (p : Plug)
    (hrows : ∀ r ∈ rs, ∀ ts rows, r.base.rows ts = some rows → ∀ row ∈ rows, row.token ∈ ts) :
    ShownOk (fun b => ∃ r ∈ rs, r.base = b) m (locAfter E comb o m p Loc.start rs).2 := by
  have key : ∀ (bs rs : List BayesRule) (p : Plug) (l : Loc), (∀ r ∈ rs, r ∈ bs) →
      (∀ r ∈ rs, ∀ ts rows, r.base.rows ts = some rows → ∀ row ∈ rows, row.token ∈ ts) →
      ShownOk (fun b => ∃ r ∈ bs, r.base = b) m l → ShownOk (fun b => ∃ r ∈ bs, r.base = b) m (locAfter E comb o m p l rs).2 := by
    intro bs rs
    induction rs with
    | nil => intro p l _ _ h; exact h
    | cons r rs ih =>
      intro p l hb hr h
      unfold locAfter
      refine ih _ _ (fun x hx => hb x (by simp [hx])) (fun x hx => hr x (by simp [hx])) ?_
      rcases checkRule_loc E comb o m r p l with e | ⟨sc, e, -⟩
      · rw [e]; exact h
      · rw [e]
        rcases scan_shown E comb o r.base m p l (hr r (by simp)) with e' | ⟨h1, h2, h3⟩
        · rw [e']; exact h
        · refine ⟨h1, h2, ?_⟩
          intro e he
          obtain ⟨ts, k, a1, a2, b, rfl, rest⟩ := h3 e he
          exact ⟨ts, k, a1, a2, r.base, ⟨r, hb r (by simp), rfl⟩, rest⟩
  refine key rs rs p Loc.start (fun _ h => h) hrows ⟨?_, ?_, ?_⟩ <;> intro e he <;> cases he

/-- The database of the example answers only what it is asked, and a token is shown. -/
example : (∀ ts rows, (bayesBase true).rows ts = some rows → ∀ row ∈ rows, row.token ∈ ts) ∧
    (locAfter noEngine bayesComb (bayesOpts []) bayesMsg Plug.init Loc.start [⟨bayesBase true, 1 / 2, none⟩]).2.spammy.map Prod.fst = [c!"pills"] := by
  refine ⟨?_, by decide +kernel⟩
  intro ts rows h row hr
  simp only [bayesBase, Option.some.injEq] at h
  subst h
  split at hr
  · rename_i hm
    rw [List.mem_singleton.mp hr]
    exact hm
  · cases hr

end Verif.Props
