import Verif.Props.BayesTouch
import Verif.Model.Bayes

/-!
# C178: old tokens leave the Bayes database
-/

namespace Verif.Props
open Verif Py

/-- The tokens in the table that were last seen before a limit. -/
def oldTokens (limit : Int) (d : Bayes.Db) : List Str :=
  (d.toks.filter fun x => decide (x.2.2.2 < limit)).map Prod.fst

theorem tokChange_toks (a b : Int) (ts : List (Str × Str)) (t : Int) (d : Bayes.Db) :
    (Bayes.mysqlStore.tokChange a b ts t d).2.toks = d.toks := by
  cases ts <;> rfl

/-- A computation that leaves the tokens as they are. -/
def KeepsToks {A : Type} (x : Bayes.M Bayes.Db A) : Prop := ∀ d, (x d).2.toks = d.toks

theorem KeepsToks.bind {A B : Type} {x : Bayes.M Bayes.Db A} {f : A → Bayes.M Bayes.Db B} (hx : KeepsToks x) (hf : ∀ a, KeepsToks (f a)) :
    KeepsToks (x.bind f) := by
  intro d
  have h := hx d
  unfold Bayes.M.bind
  generalize x d = r at h
  obtain ⟨r, d'⟩ := r
  cases r with
  | error e => exact h
  | ok a => exact (hf a d').trans h

theorem KeepsToks.pure {A : Type} (a : A) : KeepsToks (Bayes.M.pure a) := fun _ => rfl

/-- A store none of whose operations changes the tokens. -/
structure ToksKept (st : Bayes.Store Bayes.Db) : Prop where
  get : ∀ m, KeepsToks (st.seenGet m)
  put : ∀ m f, KeepsToks (st.seenPut m f)
  del : ∀ m, KeepsToks (st.seenDelete m)
  num : ∀ s h, KeepsToks (st.nChange s h)
  tok : ∀ s h ts t, KeepsToks (st.tokChange s h ts t)

theorem mysql_kept : ToksKept Bayes.mysqlStore where
  get := by
    intro m d
    show (match Dict.get? d.seen m with | none => _ | some f => _ : Except Bayes.Exn (Option Str) × Bayes.Db).2.toks = _
    cases Dict.get? d.seen m <;> rfl
  put := fun _ _ _ => rfl
  del := fun _ _ => rfl
  num := fun _ _ _ => rfl
  tok := fun a b ts t d => tokChange_toks a b ts t d

theorem alchemy_kept : ToksKept Bayes.alchemyStore where
  get := mysql_kept.get
  put := mysql_kept.put
  del := fun _ _ => rfl
  num := mysql_kept.num
  tok := mysql_kept.tok

theorem forget_kept {st : Bayes.Store Bayes.Db} (h : ToksKept st) (u : Bool) (m : Bayes.Mail) : KeepsToks (Bayes.forgetMessage st u m) := by
  unfold Bayes.forgetMessage
  split
  · exact .pure _
  · unfold Bayes.forgetTrapped
    refine (h.get _).bind fun s => ?_
    split
    · exact .pure _
    · repeat' first | exact .pure _ | exact h.del _ | exact h.num _ _ | exact h.tok _ _ _ _ | refine KeepsToks.bind ?_ fun _ => ?_ | split | unfold Bayes.unstore

theorem learn_kept {st : Bayes.Store Bayes.Db} (h : ToksKept st) (u : Bool) (now : Int) (b : Bool) (m : Bayes.Mail) : KeepsToks (Bayes.learnMessage st u now b m) := by
  have hs : KeepsToks (Bayes.storeMail st now b m) := by
    unfold Bayes.storeMail
    dsimp only
    repeat' first | exact .pure _ | exact h.put _ _ | exact h.num _ _ | exact h.tok _ _ _ _ | refine KeepsToks.bind ?_ fun _ => ?_ | split
  unfold Bayes.learnMessage
  split
  · exact .pure _
  · unfold Bayes.learnTrapped
    refine (h.get _).bind fun s => ?_
    repeat' first | exact .pure _ | exact hs | exact forget_kept h _ _ | refine KeepsToks.bind ?_ fun _ => ?_ | split

theorem run_kept {st : Bayes.Store Bayes.Db} (h : ToksKept st) (now : Int) (d : Bayes.Db) (ops : List Bayes.Op) : (Bayes.run st now d ops).toks = d.toks := by
  induction ops generalizing d with
  | nil => rfl
  | cons o ops ih =>
    refine (ih _).trans ?_
    cases o with
    | learn b m => exact learn_kept h true now b m d
    | forget m => exact forget_kept h true m d

/-- **C178**, negation.  Whatever is learned and forgotten, with both stores, at whatever time: the tokens that were last seen before
a limit are still there, for every limit. -/
theorem C178_expired_violated (now limit : Int) (d : Bayes.Db) (ops : List Bayes.Op) :
    oldTokens limit (Bayes.run Bayes.mysqlStore now d ops) = oldTokens limit d ∧
    oldTokens limit (Bayes.run Bayes.alchemyStore now d ops) = oldTokens limit d := by
  unfold oldTokens
  rw [run_kept mysql_kept, run_kept alchemy_kept]
  exact ⟨rfl, rfl⟩

/-- **C178**, negation.  Checking messages removes no token either: every row of the table is still there, with its user, its
token and its counts. -/
theorem C178_checked_violated (E : Dkim.Engine) (comb : Nat → Nat → List Rat → Option Rat) (k : BayesScan.Kind) (db : BayesScan.Db)
    (calls : List BayesScan.Call) (i : Nat) (r : BayesScan.DbRow) (h : db.tokens[i]? = some r) :
    ∃ r', (BayesScan.afterCalls E comb k db calls).tokens[i]? = some r' ∧ r'.id = r.id ∧ r'.row = r.row := by
  obtain ⟨_, hs⟩ := C163_kept E comb k db calls
  generalize BayesScan.afterCalls E comb k db calls = d' at hs
  have e := congrArg (fun l => l[i]?) hs
  simp only [List.getElem?_map, h, Option.map_some] at e
  cases h' : d'.tokens[i]? with
  | none => rw [h'] at e; cases e
  | some r' =>
    rw [h'] at e
    simp only [Option.map_some, Option.some.injEq, Prod.mk.injEq] at e
    obtain ⟨e1, e2, e3, e4⟩ := e
    refine ⟨r', rfl, e1.symm, ?_⟩
    obtain ⟨_, ⟨_, _, _⟩, _⟩ := r
    obtain ⟨_, ⟨_, _, _⟩, _⟩ := r'
    simp_all

/-- A token last seen in 1970 is still there after learning and forgetting in 2026. -/
example : oldTokens 1000 (Bayes.run Bayes.mysqlStore 1790000000 ⟨[], [(1, 0)], [(c!"old", (1, 0, 5)), (c!"new", (1, 0, 1789000000))]⟩
      [.learn true ⟨c!"m1", [], 1790000000⟩, .forget ⟨c!"m1", [], 1790000000⟩]) = [c!"old"] := by
  decide +kernel

end Verif.Props
