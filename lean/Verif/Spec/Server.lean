import Verif.Model.Server

/-!
# Specification of the server's rulesets and of the configuration files
-/

namespace Verif.Server
open Verif Py

/-! ### Paths -/

/-- The directories a path goes through, from the root: `.` and empty components stay, `..` goes
up.  (Symbolic links are not considered.) -/
def walk : List Str → List Str → List Str
  | done, [] => done
  | done, c :: cs =>
    if c = [] ∨ c = c!"." then walk done cs
    else if c = c!".." then walk done.dropLast cs
    else walk (done ++ [c]) cs

/-- Where an absolute path leads. -/
def place (path : Str) : List Str := walk [] (splitChar '/' path)

/-- The path lies below the home directory of the user. -/
def InUserArea (path user : Str) : Prop := ∃ rest, place path = [c!"home", user] ++ rest

instance (path user : Str) : Decidable (InUserArea path user) :=
  decidable_of_iff ((place path).take 2 = [c!"home", user]) (by
    constructor
    · intro h; exact ⟨(place path).drop 2, by rw [← h, List.take_append_drop]⟩
    · rintro ⟨rest, h⟩; rw [h]; rfl)

/-! ### Configuration files -/

/-- `f` is a file with the extension in the directory. -/
def FileOf (os : Os) (dir ext f : Str) : Prop :=
  ∃ name, name ∈ os.listdir (os.expanduser dir) ∧ ext <:+ name ∧ f = joinStep (os.expanduser dir) name

/-- The files of the directory with the extension, in ascending order, each as often as listed. -/
def SortedFiles (os : Os) (dir ext : Str) (l : List Str) : Prop :=
  l.Pairwise (fun a b => a ≤ b) ∧
  l.Perm (((os.listdir (os.expanduser dir)).filter (fun n => decide (ext <:+ n))).map
    (joinStep (os.expanduser dir)))

/-! ### Histories -/

variable {Rs Res Files Pref G : Type}

/-- The event is caused by this user: a request in this name, or a change of this user's
preferences. -/
def byUser (v : Str) : Op Files Pref → Bool
  | .request (some u) => decide (u = v)
  | .editPrefs u _ => decide (u = v)
  | _ => false

/-- The history without what one user did. -/
def without (v : Str) (ops : List (Op Files Pref)) : List (Op Files Pref) :=
  ops.filter (fun op => !byUser v op)

/-- What everyone but one user got. -/
def others {A : Type} (v : Str) (log : List (Option Str × A)) : List (Option Str × A) :=
  log.filter (fun r => !decide (r.1 = some v))

def isReload : Op Files Pref → Bool
  | .reload => true
  | _ => false

/-- The preferences the user had at some moment of the history. -/
def hadPrefs (s : St Rs Res Files Pref G) (ops : List (Op Files Pref)) (u : Str) (p : Pref) : Prop :=
  s.prefs u = some p ∨ .editPrefs u (some p) ∈ ops

open Verif.Parser

/-- What a ruleset says: the definitions of the rules, the plugins, and one option. -/
def view {F : Type} (key : Str) (rs : State (GCtx F)) :
    Dict Str (Dict Str PVal) × Context.Ctx Unit × Option (Conf.OptVal F) :=
  (rs.results, rs.ctx.reg, rs.ctx.conf.read key)

/-- The option is set by its last line, not by adding up lines. -/
def Scalar {F : Type} (cls : Conf.Cls F) (key : Str) : Prop :=
  ∃ t d, Dict.get? cls key = some (t, d) ∧ t ≠ .append ∧ t ≠ .appendSplit

end Verif.Server
