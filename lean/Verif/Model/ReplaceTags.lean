import Verif.Model.Parser

/-!
# Tags in patterns: `oa/plugins/replace_tags.py`

Simplification: `replace_start` and `replace_end` contain no percent sign (they become part of a format string).
-/

namespace Verif.ReplaceTags
open Verif Py

/-- The options (oa/plugins/replace_tags.py 19-30). -/
structure Opts where
  start : Str := c!"<"
  stop : Str := c!">"
  pre : List Str
  inter : List Str
  post : List Str
  tag : List Str
  rules : List Str

/-- `prepare_tags` (oa/plugins/replace_tags.py 32-64); `extra` is the text before the name.  Messages are not
modelled. -/
def prepareTags (o : Opts) (extra : Str) (lines : List Str) : Dict Str Str :=
  lines.foldl (fun d config =>
    match splitNone 1 config with
    | [name, value] => Dict.set d (o.start ++ extra ++ name ++ o.stop) value
    | _ => d) []

/-- `get_metatags` (oa/plugins/replace_tags.py 66-78): the values of the tags that occur, and what is left. -/
def getMetatags : Dict Str Str → Str → Str × Str
  | [], s => ([], s)
  | (t, v) :: d, s =>
    if hasSub t s then
      let (r, s') := getMetatags d (replace t [] s)
      (v ++ r, s')
    else getMetatags d s

/-- A match of `<[^<>]+>` at the beginning (oa/plugins/replace_tags.py 11). -/
def tagAt : Str → Option Str
  | '<' :: cs =>
    let name := cs.takeWhile (fun c => c ≠ '<' && c ≠ '>')
    match cs.drop name.length with
    | '>' :: _ => if name = [] then none else some ('<' :: name ++ c!">")
    | _ => none
  | _ => none

/-- `SPLIT_TAGS.split(value)` (oa/plugins/replace_tags.py 88): texts and tags in turn.  The number says how many
characters belong to the last tag. -/
def splitTags : Nat → Str → List Str
  | _, [] => [[]]
  | n + 1, _ :: cs => splitTags n cs
  | 0, c :: cs =>
    match tagAt (c :: cs) with
    | some t => [] :: t :: splitTags (t.length - 1) cs
    | none =>
      match splitTags 0 cs with
      | w :: ws => (c :: w) :: ws
      | [] => [[c]]

/-- The test for a tag right behind the current one (oa/plugins/replace_tags.py 103-109). -/
def tagFollows (tags : Dict Str Str) : List Str → Bool
  | gap :: next :: _ => decide (gap = []) && Dict.has tags next
  | _ => false

/-- The loop over the parts (oa/plugins/replace_tags.py 89-109). -/
def expandParts (tags : Dict Str Str) (pre inter post : Str) : List Str → Str
  | [] => []
  | v :: rest =>
    match Dict.get? tags v with
    | none => v ++ expandParts tags pre inter post rest
    | some r =>
      pre ++ r ++ post ++ (if tagFollows tags rest then inter else []) ++ expandParts tags pre inter post rest

/-- `replace_tags` (oa/plugins/replace_tags.py 80-110). -/
def replaceTags (o : Opts) (value : Str) : Str :=
  let (pre, value) := getMetatags (prepareTags o c!"pre " o.pre) value
  let (inter, value) := getMetatags (prepareTags o c!"inter " o.inter) value
  let (post, value) := getMetatags (prepareTags o c!"post " o.post) value
  expandParts (prepareTags o [] o.tag) pre inter post (splitTags 0 value)

/-- The loop over the listed rules (oa/plugins/replace_tags.py 120-130); `none` is the `KeyError` of a rule
without a value, or the exception of a value that is no text. -/
def replaceRules (o : Opts) : List Str → Dict Str (Dict Str Parser.PVal) → Option (Dict Str (Dict Str Parser.PVal))
  | [], results => some results
  | name :: names, results =>
    match Dict.get? results name with
    | none => replaceRules o names results
    | some data =>
      match Dict.get? data c!"value" with
      | some (.str v) =>
        replaceRules o names (Dict.set results name (Dict.set data c!"value" (.str (replaceTags o v))))
      | _ => none

/-- `finish_parsing_start` (oa/plugins/replace_tags.py 112-130). -/
def finishParsingStart (o : Opts) (results : Dict Str (Dict Str Parser.PVal)) :
    Option (Dict Str (Dict Str Parser.PVal)) := replaceRules o o.rules results

end Verif.ReplaceTags
