import Verif.Model.Links
import Verif.Model.Re

/-!
# Redirections in addresses: `HTTP_REDIR` in `oa/plugins/uri_eval.py`
-/

namespace Verif.Links
open Verif Py Re

/-- `[^\/:\?]` (oa/plugins/uri_eval.py 20). -/
def hostChar (c : Char) : Bool := c != '/' && c != ':' && c != '?'

/-- `^https?:\/\/[^\/:\?]+.+?`, the first group of `HTTP_REDIR` (oa/plugins/uri_eval.py 20). -/
def sourceRe : Re :=
  seqs [.bol, lit c!"http", opt (lit c!"s"), lit c!"://", plus hostChar, .chr dot, .star false dot]

/-- `https?:\/{0,2}?[^\/:\?]+`, the second group of `HTTP_REDIR` without the `.*` at its end (oa/plugins/uri_eval.py 20). -/
def destRe : Re :=
  seqs [lit c!"http", opt (lit c!"s"), lit c!":", .alt .eps (.seq (lit c!"/") (.alt .eps (lit c!"/"))), plus hostChar]

/-- `HTTP_REDIR` (oa/plugins/uri_eval.py 20). -/
def redirRe : Re := .seq (.group 1 sourceRe) (.group 2 (.seq destRe (.star true dot)))

/-- `HTTP_REDIR.match(uri).groups()` (oa/plugins/uri_eval.py 39-41). -/
def redirOf (uri : Str) : Option (Str × Str) :=
  (matchRe redirRe uri).map fun t => ((t.get 1).getD [], (t.get 2).getD [])

end Verif.Links
