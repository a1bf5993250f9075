import Verif.Model.Build

/-!
# Links: `oa/html_parser.py`, `oa/plugins/uri_detail.py`, `oa/plugins/uri_eval.py`

Python's `HTMLParser` is a parameter: a text is given by the events it causes.  So are `urlparse`, `unquote` and
`ipaddress`.  Exceptions are `none`.
-/

namespace Verif.Links
open Verif Py

/-- What is used of `urllib`. -/
structure UrlLib where
  /-- `urlparse(u)`: scheme and network location; `none` is `ValueError` -/
  parse : Str → Option (Str × Str)
  unquote : Str → Str

/-- The dictionary of a link (oa/html_parser.py 66-72); `text` is missing for links not found in HTML. -/
structure Link where
  raw : Str
  scheme : Str
  cleaned : Str
  domain : Str
  text : Option (List Str)
deriving DecidableEq

/-- `parse_link` (oa/html_parser.py 64-73), without the type. -/
def parseLink (U : UrlLib) (value : Str) : Option Link :=
  (U.parse value).map fun p => { raw := value, scheme := p.1, cleaned := U.unquote value, domain := p.2, text := none }

/-- The calls `HTMLParser.feed` makes (a tag `<x/>` is a start and an end); an attribute may have no value. -/
inductive Event where
  | start (tag : Str) (attrs : List (Str × Option Str))
  | stop (tag : Str)
  | data (text : Str)
deriving DecidableEq

/-- Links by address and type. -/
abbrev LinkDict := Dict Str (Dict Str Link)

/-- The attributes of the parser (oa/html_parser.py 23-27). -/
structure PState where
  links : LinkDict
  last : Option Str
  cur : Option Str
deriving DecidableEq

/-- The parser when it is created (oa/html_parser.py 17-27). -/
def PState.init : PState := { links := [], last := none, cur := none }

/-- The tags with links (oa/html_parser.py 34). -/
def isTag (tag : Str) : Bool := decide (tag = c!"a") || decide (tag = c!"link")

/-- The attributes with links (oa/html_parser.py 38). -/
def isProp (prop : Str) : Bool := decide (prop = c!"href") || decide (prop = c!"src")

/-- One round of the loop over attributes (oa/html_parser.py 36-50).  `unquote(None)` raises. -/
def handleAttr (U : UrlLib) (tag : Str) (s : PState) (attr : Str × Option Str) : Option PState :=
  if isProp attr.1 then
    match attr.2 with
    | none => none
    | some value =>
      match parseLink U value with
      | none => none
      | some link =>
        match Dict.get? s.links value with
        | some types =>
          match Dict.get? types tag with
          | some old => some { s with
              links := Dict.set s.links value (Dict.set types tag { link with text := old.text }), cur := some value }
          | none => some { s with
              links := Dict.set s.links value (Dict.set types tag { link with text := some [] }), cur := some value }
        | none => some { s with
            links := Dict.set s.links value [(tag, { link with text := some [] })], cur := some value }
  else some s

/-- The loop over attributes. -/
def handleAttrs (U : UrlLib) (tag : Str) : List (Str × Option Str) → PState → Option PState
  | [], s => some s
  | a :: as, s => (handleAttr U tag s a).bind (handleAttrs U tag as)

/-- `handle_data` (oa/html_parser.py 56-62). -/
def handleData (text : Str) (s : PState) : Option PState :=
  match s.last, s.cur with
  | some tag, some value =>
    if text = [] ∨ value = [] then some s
    else match Dict.get? s.links value with
      | none => none
      | some types => match Dict.get? types tag with
        | none => none
        | some link => match link.text with
          | none => none
          | some ts => some { s with
              links := Dict.set s.links value (Dict.set types tag { link with text := some (ts ++ [text]) }) }
  | _, _ => some s

/-- One call of `HTMLParser` (oa/html_parser.py 30-62). -/
def handle (U : UrlLib) (s : PState) : Event → Option PState
  | .start tag attrs => if isTag tag then handleAttrs U tag attrs { s with last := some tag } else some s
  | .stop _ => some { s with last := none, cur := none }
  | .data text => handleData text s

/-- `parser.feed`. -/
def feed (U : UrlLib) : List Event → PState → Option PState
  | [], s => some s
  | e :: es, s => (handle U s e).bind (feed U es)

/-- The loop over `msg.uri_list` (oa/html_parser.py 81-85). -/
def addUris (U : UrlLib) : List Str → LinkDict → Option LinkDict
  | [], ls => some ls
  | u :: us, ls =>
    if Dict.has ls u then addUris U us ls
    else match parseLink U u with
      | none => none
      | some link => addUris U us (Dict.set ls u [(c!"parsed", link)])

/-- `parsed_metadata` (oa/html_parser.py 76-87): the links of a message from the events of its raw text and its
`uri_list`. -/
def links (U : UrlLib) (events : List Event) (uris : List Str) : Option LinkDict :=
  (feed U events PState.init).bind fun s => addUris U uris s.links

/-! ### `uri_detail` rules -/

/-- `[\=\!\~]` (oa/plugins/uri_detail.py 18). -/
def isOp (c : Char) : Bool := c == '=' || c == '!' || c == '~'

/-- `URI_DRREG` (oa/plugins/uri_detail.py 17-18) at the beginning of a text: key, operator, expression with its slashes,
and the rest.  Simplification: `\w` is ASCII. -/
def checkAt (s : Str) : Option ((Str × Str × Str) × Str) :=
  let key := s.takeWhile MetaExpr.isWord
  let r := s.drop key.length
  let sp := r.takeWhile isSpace
  let r := r.drop sp.length
  let op := (r.take 2).takeWhile isOp
  let r := r.drop op.length
  let sp' := r.takeWhile isSpace
  let r := r.drop sp'.length
  if sp = [] ∨ op = [] ∨ sp' = [] then none
  else match r with
    | '/' :: r =>
      let body := r.takeWhile fun c => c != '/' && c != '\n'
      match r.drop body.length with
      | '/' :: rest => some ((key, op, '/' :: body ++ ['/']), rest)
      | _ => none
    | _ => none

/-- `URI_DRREG.findall` (oa/plugins/uri_detail.py 57); the fuel is the length of the text. -/
def findChecks : Nat → Str → List (Str × Str × Str)
  | 0, _ => []
  | _, [] => []
  | n + 1, c :: s =>
    match checkAt (c :: s) with
    | some (check, rest) => check :: findChecks n rest
    | none => findChecks n s

/-- `perl2re(regex, oper)` (oa/regex.py 84-111): another operator gives `None`. -/
def detailPattern {R : Type} (L : ReLib R) (regex op : Str) : Except RuleErr (Option (Pat R)) :=
  if op = c!"=~" then (perl2re L regex false).map some
  else if op = c!"!~" then (perl2re L regex true).map some
  else match rsplit1 '/' (lstripChars ['/'] regex) with
    | none => .error .invalidRegex
    | some _ => .ok none

/-- The loop of `get_rule_kwargs` (oa/plugins/uri_detail.py 58-61). -/
def detailPatterns {R : Type} (L : ReLib R) : List (Str × Str × Str) → Except RuleErr (List (Str × Option (Pat R)))
  | [] => .ok []
  | (key, op, regex) :: cs =>
    match detailPattern L regex op with
    | .error e => .error e
    | .ok p => match detailPatterns L cs with
      | .error e => .error e
      | .ok ps => .ok ((key, p) :: ps)

/-- A `uri_detail` rule. -/
structure DetailRule (S R : Type) where
  base : BaseRule S
  checks : List (Str × Option (Pat R))

/-- `URIDetailRule.get_rule` (oa/plugins/uri_detail.py 26-27, 54-63, oa/rules/base.py 134-139): only the patterns are taken
from the configuration. -/
def detailRule {S R : Type} [PyNum S] (L : ReLib R) (name : Str) (d : Build.Data) : Except RuleErr (DetailRule S R) :=
  match Dict.get? d c!"value" with
  | some (.str value) =>
    match detailPatterns L (findChecks value.length value) with
    | .error e => .error e
    | .ok ps => match BaseRule.init name none none none none with
      | .error e => .error e
      | .ok b => .ok { base := b, checks := ps }
  | _ => .error .other

/-- The value of a key of a link: `none` if the key is missing; `some none` for a list, which cannot be searched. -/
def Link.value (l : Link) (key : Str) : Option (Option Str) :=
  if key = c!"raw" then some (some l.raw)
  else if key = c!"scheme" then some (some l.scheme)
  else if key = c!"cleaned" then some (some l.cleaned)
  else if key = c!"domain" then some (some l.domain)
  else if key = c!"text" then l.text.map fun _ => none
  else none

/-- `check_single_item` (oa/plugins/uri_detail.py 29-42). -/
def checkItem {R : Type} (L : ReLib R) (l : Link) : List (Str × Option (Pat R)) → Option Bool
  | [] => some true
  | (key, p) :: cs =>
    match l.value key with
    | none => some false
    | some data => match p, data with
      | some p, some data => if p.test L data then checkItem L l cs else some false
      | _, _ => none

/-- `for … : if check(item): return True`. -/
def firstTrue {α : Type} (f : α → Option Bool) : List α → Option Bool
  | [] => some false
  | a :: as => match f a with
    | none => none
    | some true => some true
    | some false => firstTrue f as

/-- `URIDetailRule.match` (oa/plugins/uri_detail.py 44-52); an exception is `False` (oa/rules/ruleset.py 349-352). -/
def detailMatch {R : Type} (L : ReLib R) (checks : List (Str × Option (Pat R))) (ls : LinkDict) : Bool :=
  (firstTrue (fun l => checkItem L l checks) (ls.flatMap fun p => p.2.map Prod.snd)).getD false

/-! ### `uri_eval` rules -/

/-- `check_uri_truncated` (oa/plugins/uri_eval.py 86-96). -/
def truncated (ls : LinkDict) : Bool :=
  ls.any fun p => p.2.any fun q => isTag q.1 && decide (p.1.length > 8192)

/-- `extract_url_from_text` (oa/plugins/uri_eval.py 75-84). -/
def urlsOf (texts : List Str) : List Str :=
  texts.flatMap fun t => (splitWs t).filter (startsWith c!"https://")

/-- The loop over the addresses in a link's text (oa/plugins/uri_eval.py 65-72); `isIp` is whether `ip_address` accepts a
text. -/
def otherHost (U : UrlLib) (isIp : Str → Bool) : List Str → Option Bool
  | [] => some false
  | u :: us => match U.parse u with
    | none => none
    | some (_, host) => if isIp host then otherHost U isIp us
      else if startsWith c!"https://" u then some true else otherHost U isIp us

/-- `check_https_ip_mismatch` (oa/plugins/uri_eval.py 50-73): `none` is an exception. -/
def ipMismatch (U : UrlLib) (isIp : Str → Bool) : LinkDict → Option Bool
  | [] => some false
  | (_, types) :: rest =>
    match Dict.get? types c!"a" with
    | none => ipMismatch U isIp rest
    | some a =>
      if isIp a.domain then
        match otherHost U isIp (urlsOf (a.text.getD [])) with
        | none => none
        | some true => some true
        | some false => ipMismatch U isIp rest
      else some false

/-- The inner loop of `check_for_http_redirector` (oa/plugins/uri_eval.py 39-47): `redir` is `HTTP_REDIR.match`, the two
groups.  The fuel is the number of rounds allowed; `none` inside means an exception, `none` outside that the fuel did not
suffice. -/
def redirects (U : UrlLib) (redir : Str → Option (Str × Str)) : Nat → Str → Option (Option Bool)
  | 0, _ => none
  | n + 1, uri =>
    match redir uri with
    | none => some (some false)
    | some (source, dest) =>
      match U.parse source, U.parse dest with
      | some (_, h1), some (_, h2) => if h1 = h2 then redirects U redir n dest else some (some true)
      | _, _ => some none

/-- `check_for_http_redirector` (oa/plugins/uri_eval.py 33-48); an exception is `False`. -/
def redirector (U : UrlLib) (redir : Str → Option (Str × Str)) (uris : List Str) : Bool :=
  (firstTrue (fun u => ((redirects U redir (u.length + 1) u).getD none)) uris).getD false

end Verif.Links
