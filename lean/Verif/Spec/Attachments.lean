import Verif.Model.Attachments

/-! # Specification: the images and the documents of a message -/

namespace Verif.Attachments
open Verif Py

/-- Whether a part is an image of a type; `all` is any type. -/
def ofType (t : Str) (p : Part) : Bool := decide (p.maintype = c!"image") && (decide (t = c!"all") || decide (p.subtype = t))

/-- Whether a part is a PDF document. -/
def isPdf (p : Part) : Bool := decide (p.maintype = c!"application") && decide (p.subtype = c!"pdf")

/-- The area of an image, nothing if it cannot be opened. -/
def areaOf : Opened → Nat
  | .size w h => w * h
  | _ => 0

/-- The images in a document. -/
def imagesOf : Reader → List XObject
  | .document _ pages => (pages.flatMap fun p => p.objects.getD []).filter (fun o => decide (o.subtype = c!"/Image"))
  | _ => []

/-- A number is in a range without a greatest number, or with one. -/
def Within (n lo : Int) (hi : Option Int) : Prop := lo ≤ n ∧ ∀ h, hi = some h → n ≤ h

instance (n lo : Int) (hi : Option Int) : Decidable (Within n lo hi) :=
  match hi with
  | none => decidable_of_iff (lo ≤ n) ⟨fun h => ⟨h, by intro _ e; cases e⟩, fun h => h.1⟩
  | some x => decidable_of_iff (lo ≤ n ∧ n ≤ x) ⟨fun h => ⟨h.1, by rintro _ ⟨⟩; exact h.2⟩, fun h => ⟨h.1, h.2 x rfl⟩⟩

/-- A number as an argument of a rule writes it: as a number, or in quotes. -/
def Written : Arg → Int → Prop
  | .num n, x => n = x
  | .text t, x => int? t = some x

/-- A ratio as an argument of a rule writes it; `parse` is the value of a text. -/
def WrittenRatio (parse : Str → Option Rat) : Arg → Rat → Prop
  | .num n, x => (n : Rat) = x
  | .text t, x => parse t = some x

/-- The bounds of a rule, as its arguments write them: numbers, or texts of numbers; the greatest number is not written as the
number zero. -/
structure Bounds (lo : Arg) (hi : Option Arg) (l : Int) (h : Option Int) : Prop where
  low : Written lo l
  high : match hi, h with
    | none, none => True
    | some a, some x => Written a x ∧ a ≠ .num 0
    | _, _ => False

end Verif.Attachments
