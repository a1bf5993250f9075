import Verif.Model.Conf

namespace Verif.Conf
open Verif Py

/-- The values contributed by one line of an option that may be given several times. -/
def lineValues : OptType → Str → List Str
  | .appendSplit, v => splitWs v
  | _, v => [v]

/-- Giving the option `c` clears the option `key`. -/
def Clears {F : Type} (cls : Cls F) (c key : Str) : Prop :=
  ∃ keys, Dict.get? cls c = some (.clear, .list keys) ∧ key ∈ keys

/-- Everything the lines give for `key`, in order. -/
def givenValues (t : OptType) (key : Str) (lines : List (Str × Str)) : List Str :=
  (lines.filter (fun l => l.1 = key)).flatMap (fun l => lineValues t l.2)

/-- A context created from the class attribute as it is now. -/
def fresh {F : Type} (cls : Cls F) : St F := ⟨cls, init cls⟩

/-- What the value text of an option prescribes, per type: `none` means the text is ill-typed,
`some none` that the option keeps its value, `some (some v)` the new value. -/
def prescribed {F : Type} (fe : FloatEnv F) : OptType → Str → Option (Option (OptVal F))
  | .int, v => if v = [] then some none else (int? v).map (fun n => some (.int n))
  | .float, v => if v = [] then some none else (fe.parse v).map (fun x => some (.float x))
  | .bool, v => some (some (.bool (lower v = c!"1" || lower v = c!"true")))
  | .str, v => some (some (.str v))
  | .list, v => some (some (.list (splitChar ',' v)))
  | _, _ => none

/-- The seven-day week, as factors of the units of a time value. -/
def unitSeconds : Char → Option Nat
  | 's' => some 1
  | 'm' => some 60
  | 'h' => some 3600
  | 'd' => some 86400
  | 'w' => some 604800
  | _ => none

/-- The last well-typed value given for `key`, or the default. -/
def lastGood {F : Type} (fe : FloatEnv F) (t : OptType) (key : Str) (lines : List (Str × Str)) (dflt : OptVal F) : OptVal F :=
  (((lines.filter (fun l => l.1 = key)).filterMap (fun l => (prescribed fe t l.2).join)).getLast?).getD dflt

end Verif.Conf
