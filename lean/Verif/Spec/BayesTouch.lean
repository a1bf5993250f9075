import Verif.Model.BayesTouch

/-!
# Specification of what a scan leaves in the database
-/

namespace Verif.BayesScan
open Verif Py BayesScore

/-- Two databases with the same numbers of messages and the same rows, apart from the access times. -/
def SameLearned (d d' : Db) : Prop :=
  d.vars = d'.vars ∧ d.tokens.map (fun r => (r.id, r.row.token, r.row.spam, r.row.ham)) = d'.tokens.map (fun r => (r.id, r.row.token, r.row.spam, r.row.ham))

/-- The rows of some tokens, and no others, get a new access time. -/
def Touched (t : Int) (toks : List Str) (d d' : Db) : Prop :=
  d'.vars = d.vars ∧ d'.tokens.length = d.tokens.length ∧
  ∀ (i : Nat) (r r' : DbRow), d.tokens[i]? = some r → d'.tokens[i]? = some r' →
    r'.id = r.id ∧ r'.row = r.row ∧ (r.row.token ∈ toks → r'.atime = t) ∧ (r.row.token ∉ toks → r'.atime = r.atime)

end Verif.BayesScan
