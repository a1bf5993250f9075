import Verif.Model.Re

/-!
# Words about stocks: `check_stock_info` in `oa/plugins/body_eval.py`
-/

namespace Verif.BodyEval
open Verif Py Re

/-- `STOCK_RE` (oa/plugins/body_eval.py 17-30), with `re.I`, `re.X` and `re.M`, where `^` is the beginning of a line; `word` tells which
characters `\w` stands for.  Simplification: of the characters that `re.I` takes for a letter only those of ASCII are known. -/
def stockRe (word : Char → Bool) : Re := alts [
  seqs [.nbehind (fun c => c != '\n'), ilit c!"trad", .alt (ilit c!"e") (ilit c!"ing"), ilit c!"date"],
  seqs [ilit c!"company", opt (ilit c!"name")],
  seqs [ilit c!"s", opt (.chr word), .alt
    (seqs [ilit c!"t", opt (.chr word), ilit c!"o", opt (.chr word), ilit c!"c", opt (.chr word), ilit c!"k"])
    (seqs [ilit c!"y", opt (.chr word), ilit c!"m",
      opt (seqs [opt (.chr word), ilit c!"b", opt (.chr word), ilit c!"o", opt (.chr word), ilit c!"l"])])],
  seqs [ilit c!"t", .alt (ilit c!"arget") (ilit c!"icker")],
  seqs [.alt (ilit c!"opening") (ilit c!"current"), ilit c!"p", opt (ilit c!"rice")],
  seqs [ilit c!"p", .alt (ilit c!"rojected") (ilit c!"osition")],
  ilit c!"expectations",
  seqs [ilit c!"week", opt (ilit c!"s"), ilit c!"high"],
  ilit c!"marketperformance",
  seqs [alts [ilit c!"year", ilit c!"week", ilit c!"month", ilit c!"day", ilit c!"price"],
    .alt (ilit c!"target") (seqs [ilit c!"estimate", opt (ilit c!"s")])],
  ilit c!"sector",
  seqs [ilit c!"r", .alt (ilit c!"ecommendation") (ilit c!"ating")]]

/-- `sum(1 for _ in STOCK_RE.finditer(text))` (oa/plugins/body_eval.py 218). -/
def stockCount (word : Char → Bool) (text : Str) : Nat := (findAll (stockRe word) text).length

/-- `check_stock_info` (oa/plugins/body_eval.py 205-219) on the text of the target; `minwords` is the value of `int(minwords)`,
`none` if that raises. -/
def stockInfo (word : Char → Bool) (text : Str) (minwords : Option Int) : Option Bool :=
  match minwords with
  | none => none
  | some n => some (decide ((stockCount word text : Int) ≥ n))

end Verif.BodyEval
