import Verif.Model.Bayes

/-!
# Specification of learning
-/

namespace Verif.Bayes
open Verif Py

/-- What a database of learned messages means: which messages are learned and as what, how many of
each class, and for each token in how many messages of each class it occurs. -/
structure Learned where
  status : Str → Option Bool
  nspam : Int
  nham : Int
  spam : Str → Int
  ham : Str → Int

/-- What learning expects of a store: `seen_get` gives the recorded flag or nothing, `seen_put` and
`seen_delete` record and remove it, and the two functions that change counts add to them. -/
structure Contract {D : Type} (st : Store D) (abs : D → Learned) : Prop where
  seenGet : ∀ m d, st.seenGet m d =
    (.ok ((abs d).status m |>.map fun b => if b then c!"s" else c!"h"), d)
  seenPut : ∀ m (b : Bool) d, (st.seenPut m (if b then c!"s" else c!"h") d).1 = .ok () ∧
    abs (st.seenPut m (if b then c!"s" else c!"h") d).2 =
      { abs d with status := fun x => if x = m then some b else (abs d).status x }
  seenDelete : ∀ m d, (st.seenDelete m d).1 = .ok () ∧
    abs (st.seenDelete m d).2 = { abs d with status := fun x => if x = m then none else (abs d).status x }
  nChange : ∀ s h d, (st.nChange s h d).1 = .ok () ∧
    abs (st.nChange s h d).2 = { abs d with nspam := (abs d).nspam + s, nham := (abs d).nham + h }
  tokChange : ∀ s h tokens t d, (st.tokChange s h tokens t d).1 = .ok () ∧
    abs (st.tokChange s h tokens t d).2 =
      { abs d with
        spam := fun k => (abs d).spam k + if k ∈ tokens.map Prod.fst then s else 0
        ham := fun k => (abs d).ham k + if k ∈ tokens.map Prod.fst then h else 0 }

/-- Nothing learned. -/
def nothing : Learned := ⟨fun _ => none, 0, 0, fun _ => 0, fun _ => 0⟩

/-- A store that does what is expected: it keeps the counts themselves. -/
def ledger : Store Learned where
  seenGet := fun m d => (.ok (d.status m |>.map fun b => if b then c!"s" else c!"h"), d)
  seenPut := fun m f d => (.ok (), { d with status := fun x => if x = m then some (f == c!"s") else d.status x })
  seenDelete := fun m d => (.ok (), { d with status := fun x => if x = m then none else d.status x })
  nChange := fun s h d => (.ok (), { d with nspam := d.nspam + s, nham := d.nham + h })
  tokChange := fun s h tokens _ d => (.ok (), { d with
    spam := fun k => d.spam k + if k ∈ tokens.map Prod.fst then s else 0
    ham := fun k => d.ham k + if k ∈ tokens.map Prod.fst then h else 0 })

/-- What the history says about a message: as what it was last learned, unless forgotten since. -/
def lastSaid (ops : List Op) (id : Str) : Option Bool :=
  ops.foldl (fun s op => if op.mail.msgid = id then
    (match op with
    | .learn b _ => some b
    | .forget _ => none) else s) none

/-- The identifiers in the history, each once. -/
def ids (ops : List Op) : List Str := (ops.map (fun op => op.mail.msgid)).eraseDups

/-- The messages that are learned as this class after the history. -/
def learnedAs (ops : List Op) (b : Bool) : List Str :=
  (ids ops).filter fun id => decide (lastSaid ops id = some b)

/-- The counts that the history calls for; `tokens` gives the tokens of a message. -/
def expected (tokens : Str → List (Str × Str)) (ops : List Op) : Learned where
  status := lastSaid ops
  nspam := (learnedAs ops true).length
  nham := (learnedAs ops false).length
  spam := fun k => ((learnedAs ops true).filter fun id => decide (k ∈ (tokens id).map Prod.fst)).length
  ham := fun k => ((learnedAs ops false).filter fun id => decide (k ∈ (tokens id).map Prod.fst)).length

end Verif.Bayes
