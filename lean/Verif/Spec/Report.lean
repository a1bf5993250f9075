import Verif.Model.Report

/-! # Specification vocabulary for templates and header modifications -/

namespace Verif.Spec
open Verif Py

/-- A template as its author sees it: plain text and tags. -/
inductive Seg where
  | lit (s : Str)
  | tag (t : Str)
deriving DecidableEq

/-- How it is written. -/
def Seg.text : Seg → Str
  | .lit s => s
  | .tag t => c!"_" ++ t ++ c!"_"

/-- What it should become. -/
def Seg.shown (value : Str → Str) : Seg → Str
  | .lit s => s
  | .tag t => value t

/-- A tag consists of capital letters. -/
def TagName (t : Str) : Prop := ∀ c ∈ t, 'A' ≤ c ∧ c ≤ 'Z'

/-- Plain text without tags, and in which no tag is begun at the end: after every underscore and
the capital letters that follow it comes a character other than an underscore. -/
def PlainText : Str → Prop
  | [] => True
  | c :: s => (c = '_' → ∃ u d s', s = u ++ d :: s' ∧ TagName u ∧ d ≠ '_' ∧ ¬ ('A' ≤ d ∧ d ≤ 'Z')) ∧ PlainText s

/-- What may stand at the end of a template: nothing, or an underscore and capital letters. -/
def PlainTail (t : Str) : Prop := t = [] ∨ ∃ u, TagName u ∧ t = '_' :: u

def Seg.Ok : Seg → Prop
  | .lit s => PlainText s ∧ '%' ∉ s
  | .tag t => TagName t

/-- Same header name, whatever the case. -/
def SameName (a b : Str) : Prop := lower a = lower b

instance (a b : Str) : Decidable (SameName a b) := inferInstanceAs (Decidable (_ = _))

/-- A requested modification. -/
inductive Change where
  | add (name value : Str)
  | remove (name : Str)
deriving DecidableEq

/-- The change removes the headers called `n`. -/
def Change.removes (n : Str) : Change → Prop
  | .add _ _ => False
  | .remove m => SameName m n

/-- What the changes add under the name `n`, in order. -/
def additions (n : Str) : List Change → List (Str × Str)
  | [] => []
  | .add m v :: chs => if SameName m n then (m, v) :: additions n chs else additions n chs
  | .remove _ :: chs => additions n chs

/-- The headers called `n` after the changes: if none removes them, the old ones and then what was
added; else what was added since the last removal. -/
def HeadersAfter (n : Str) (chs : List Change) (old new : List (Str × Str)) : Prop :=
  ((∀ ch ∈ chs, ¬ ch.removes n) ∧ new = old ++ additions n chs) ∨
  (∃ before ch after, chs = before ++ ch :: after ∧ ch.removes n ∧ (∀ x ∈ after, ¬ x.removes n) ∧
    new = additions n after)

end Verif.Spec
