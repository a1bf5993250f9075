import Verif.Model.ReplaceTags

/-!
# Specification of tags in patterns
-/

namespace Verif.ReplaceTags
open Verif Py

/-- A tag as it is written in a pattern: a name in angle brackets. -/
def IsTag (t : Str) : Prop := ∃ x, x ≠ [] ∧ '<' ∉ x ∧ '>' ∉ x ∧ t = c!"<" ++ x ++ c!">"

/-- A pattern is a sequence of texts and tags. -/
inductive Piece where
  | text (t : Str)
  | tag (t : Str)
deriving DecidableEq

/-- How a pattern is written. -/
def render : List Piece → Str
  | [] => []
  | .text t :: ps => t ++ render ps
  | .tag t :: ps => t ++ render ps

/-- Texts are not empty and have no angle brackets. -/
def Plain (ps : List Piece) : Prop :=
  ∀ p ∈ ps, match p with
    | .text t => t ≠ [] ∧ '<' ∉ t ∧ '>' ∉ t
    | .tag t => IsTag t

/-- Texts are not empty, contain no tag, and do not follow each other. -/
def Proper : List Piece → Prop
  | [] => True
  | .tag t :: ps => IsTag t ∧ Proper ps
  | .text t :: ps => t ≠ [] ∧ (∀ u, IsTag u → ¬ u <:+: t) ∧ (∀ u, ps.head? ≠ some (.text u)) ∧ Proper ps

/-- A configuration line defines a name: the name, white space and the value. -/
def Defines (line name value : Str) : Prop :=
  ∃ lead sp, (∀ c ∈ lead, isSpace c = true) ∧ (∀ c ∈ sp, isSpace c = true) ∧ sp ≠ [] ∧
    name ≠ [] ∧ (∀ c ∈ name, isSpace c = false) ∧ (∃ c cs, value = c :: cs ∧ isSpace c = false) ∧
    line = lead ++ name ++ sp ++ value

/-- The last line that defines a name gives it this value. -/
def LastDefines (lines : List Str) (name value : Str) : Prop :=
  ∃ a l b, lines = a ++ l :: b ∧ Defines l name value ∧ ∀ l' ∈ b, ∀ v, ¬ Defines l' name v

/-- The pattern goes on with a defined tag. -/
def followed (val : Str → Option Str) : List Piece → Bool
  | .tag u :: _ => (val u).isSome
  | _ => false

/-- A pattern with its tags replaced: each defined tag by its value between `pre` and `post`, and `inter` between
two defined tags that follow each other. -/
def expand (val : Str → Option Str) (pre inter post : Str) : List Piece → Str
  | [] => []
  | .text t :: ps => t ++ expand val pre inter post ps
  | .tag t :: ps =>
    match val t with
    | none => t ++ expand val pre inter post ps
    | some v =>
      pre ++ v ++ post ++ (if followed val ps then inter else []) ++ expand val pre inter post ps

/-- The tags `<pre X>`, `<inter X>` and `<post X>` of a pattern say what to put around and between tags: the
values of those that occur. -/
def metaText (defs : Dict Str Str) (ps : List Piece) : Str :=
  (defs.filter fun d => decide (Piece.tag d.1 ∈ ps)).flatMap Prod.snd

/-- Without them. -/
def without (defs : Dict Str Str) (ps : List Piece) : List Piece :=
  ps.filter fun p => decide (∀ d ∈ defs, p ≠ .tag d.1)

end Verif.ReplaceTags
