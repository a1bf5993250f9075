import Verif.Model.SenderAuth
import Verif.Model.Wlbl

/-!
# Whitelists, signing practices and named domains: `oa/plugins/dkim.py` 99-260

What the plugin finds out about the signature is in `Verif.Model.SenderAuth`.  Addresses and domains are ASCII, so that a character
is one byte.
-/

namespace Verif.Dkim
open Verif Py SenderAuth

/-- Python's `re` for expressions that are not `Plain`: `none` if the expression cannot be compiled, otherwise what `match` and
`search` answer. -/
abbrev Engine := Str → Option ((Str → Bool) × (Str → Bool))

/-- Characters with a meaning in expressions, other than `.` and `*`. -/
def special : Str := c!"\\^$+?()[]{}|"

/-- The parts of an expression made of plain characters, `.` and `.*`; `none` if there is something else in it. -/
def parts : Str → Option (List Wlbl.Tok)
  | [] => some []
  | '.' :: '*' :: cs => (parts cs).map (.star :: ·)
  | c :: cs =>
    if c = '.' then (parts cs).map (.one :: ·)
    else if c = '*' ∨ c ∈ special then none
    else (parts cs).map (.lit c :: ·)

/-- `re.match` and `re.search` with an expression (oa/plugins/dkim.py 132, 219). -/
def compile (E : Engine) (expr : Str) : Option ((Str → Bool) × (Str → Bool)) :=
  match parts expr with
  | some ts => some (Wlbl.pm ts, Wlbl.search ts)
  | none => E expr

/-- `.replace(b'*', b'.*')` (oa/plugins/dkim.py 108, 110). -/
def starred (s : Str) : Str := s.flatMap (fun c => if c = '*' then c!".*" else [c])

/-- An option of type `list` after some lines with it: every line replaces the value (oa/conf.py 139-141). -/
def listOption (lines : List Str) : List Str :=
  match lines.getLast? with
  | none => []
  | some v => splitChar ',' v

/-- An option of type `append_split` after some lines with it (oa/conf.py 149-157). -/
def appendSplitOption (lines : List Str) : List Str := lines.flatMap splitWs

/-- The lines with the options of the plugin (oa/plugins/dkim.py 41-48). -/
structure Conf where
  whitelist : List Str
  defWhitelist : List Str
  unwhitelist : List Str
  adspOverride : List Str

/-- One round of `parse_input` (oa/plugins/dkim.py 99-111): `none` is the `IndexError` for an entry without a word. -/
def parseOne (removed : List Str) (d : Dict Str Str) (entry : Str) : Option (Dict Str Str) :=
  match splitNone 1 entry with
  | [] => none
  | addr :: rest =>
    if removed.contains addr then some d
    else match rest with
      | [] => some (Dict.set d (starred addr) [])
      | doms :: _ => some ((splitWs doms).foldl (fun d dom => Dict.set d (starred addr) dom) d)

/-- `parse_input` (oa/plugins/dkim.py 99-111). -/
def parseInput (removed entries : List Str) : Option (Dict Str Str) := entries.foldlM (parseOne removed) []

/-- The inner loop of `_check_dkim_whitelist` (oa/plugins/dkim.py 218-223): `none` is an expression that cannot be compiled. -/
def entriesLoop (E : Engine) (domains : List Str) (author : Str) : Dict Str Str → Option Bool
  | [] => some false
  | (key, value) :: rest =>
    match compile E key with
    | none => none
    | some r =>
      if r.1 author then
        if value = [] then some true
        else if domains.contains value then some true
        else entriesLoop E domains author rest
      else entriesLoop E domains author rest

/-- The loops of `_check_dkim_whitelist` (oa/plugins/dkim.py 217-224). -/
def authorsLoop (E : Engine) (domains : List Str) (d : Dict Str Str) : List Str → Option Bool
  | [] => some false
  | author :: rest =>
    match entriesLoop E domains author d with
    | none => none
    | some true => some true
    | some false => authorsLoop E domains d rest

/-- The check that comes first in each rule (oa/plugins/dkim.py 117-118, 152-153, 212-213): false if it ends with an
exception. -/
def ensure (m : DkimMsg) (s : DkimSt) : Bool × DkimSt :=
  if s.checked then (true, s) else checkSignature m s

/-- `_check_dkim_whitelist` (oa/plugins/dkim.py 211-224) for the entries of a list; an exception makes the rule false
(oa/rules/eval_.py 70-77). -/
def whitelistRule (E : Engine) (removed entries : List Str) (m : DkimMsg) (s : DkimSt) : Bool × DkimSt :=
  match ensure m s with
  | (false, s) => (false, s)
  | (true, s) =>
    if !s.valid then (false, s)
    else match parseInput removed entries with
      | none => (false, s)
      | some d => ((authorsLoop E s.domains d s.addrs).getD false, s)

/-- `check_for_dkim_whitelist_from` (oa/plugins/dkim.py 199-203). -/
def userWhitelist (E : Engine) (c : Conf) : DkimMsg → DkimSt → Bool × DkimSt :=
  whitelistRule E (listOption c.unwhitelist) (listOption c.whitelist)

/-- `check_for_def_dkim_whitelist_from` (oa/plugins/dkim.py 205-209). -/
def defWhitelist (E : Engine) (c : Conf) : DkimMsg → DkimSt → Bool × DkimSt :=
  whitelistRule E (listOption c.unwhitelist) (appendSplitOption c.defWhitelist)

/-! ### Signing practices -/

/-- `adsp_options` (oa/plugins/dkim.py 50-58). -/
def practice : Str → Option Str
  | ['A'] => some c!"all"
  | ['D'] => some c!"discardable"
  | ['N'] => some c!"nxdomain"
  | ['1'] => some c!"custom_low"
  | ['2'] => some c!"custom_med"
  | ['3'] => some c!"custom_high"
  | ['U'] => some c!"unknown"
  | _ => none

/-- How a loop of `check_dkim_adsp` ends. -/
inductive Adsp where
  /-- `return True` -/
  | hit
  /-- `return False` -/
  | stop
  /-- all rounds done -/
  | done
  /-- an exception -/
  | error
deriving DecidableEq

/-- The inner loop of `check_dkim_adsp` (oa/plugins/dkim.py 131-136). -/
def overrideLoop (E : Engine) (char author : Str) : Dict Str Str → Adsp
  | [] => .done
  | (key, value) :: rest =>
    match compile E key with
    | none => .error
    | some r =>
      if r.2 author ∧ value ≠ [] then
        match practice char with
        | none => .stop
        | some p => if p = lower value then .hit else overrideLoop E char author rest
      else overrideLoop E char author rest

/-- The loop of `check_dkim_adsp` over the author domains (oa/plugins/dkim.py 124-140).  Looking a domain up in the dictionary puts
it there, with an empty value. -/
def adspLoop (E : Engine) (char only : Str) : Dict Str Str → List Str → Adsp
  | _, [] => .done
  | d, author :: rest =>
    if only ≠ [] ∧ only ≠ author then adspLoop E char only d rest
    else
      let value := (Dict.get? d author).getD []
      let d := if Dict.has d author then d else Dict.set d author []
      if value = [] ∧ char = c!"D" then .hit
      else if char = c!"*" then .hit
      else match overrideLoop E char author d with
        | .done => adspLoop E char only d rest
        | r => r

/-- The state with `match_adsp` (oa/plugins/dkim.py 30). -/
structure AdspSt where
  dkim : DkimSt
  matched : Bool
deriving DecidableEq

/-- `check_dkim_adsp` (oa/plugins/dkim.py 113-147). -/
def adspRule (E : Engine) (c : Conf) (char only : Str) (m : DkimMsg) (s : AdspSt) : Bool × AdspSt :=
  match ensure m s.dkim with
  | (false, k) => (false, { s with dkim := k })
  | (true, k) =>
    let s := { s with dkim := k }
    if k.valid then (false, s)
    else if (listOption c.adspOverride).length > 3 then (false, s)
    else match parseInput (listOption c.unwhitelist) (listOption c.adspOverride) with
      | none => (false, s)
      | some d =>
        match adspLoop E char only d k.domains with
        | .hit => (true, { s with matched := true })
        | .stop => (false, s)
        | .error => (false, s)
        | .done => (!s.matched && char == c!"U", s)

/-! ### Named domains -/

/-- The last two elements. -/
def lastTwo (l : List Str) : List Str := l.drop (l.length - 2)

/-- The end of `_check_dkim_signed_by` (oa/plugins/dkim.py 253-260).  The last comparison is of a text with bytes, hence false. -/
def accepts (dom signer : Str) : Bool :=
  let labels := splitChar '.' dom
  if labels.length > 1 then
    let domain := join c!"." (lastTwo labels)
    domain == signer || hasSub domain signer
  else false

/-- `_check_dkim_signed_by` (oa/plugins/dkim.py 234-260): `none` is an exception of the parser of the library. -/
def signedBy (mustBeValid mustBeAuthor : Bool) (m : DkimMsg) (s : DkimSt) (dom : Str) : Option Bool × DkimSt :=
  match m.parsed with
  | none => (none, s)
  | some d =>
    if mustBeValid ∧ dom ≠ [] ∧ !s.isValid then (some false, s)
    else match d with
      | none => (some false, s)
      | some d =>
        let s := if mustBeAuthor ∧ s.domains.isEmpty then getAuthors m s else s
        if mustBeAuthor ∧ !s.domains.contains d then (some false, s)
        else (some (accepts dom d), s)

/-- The loop over the arguments (oa/plugins/dkim.py 158-162, 173-177, 188-192). -/
def argsLoop (mustBeValid mustBeAuthor : Bool) (m : DkimMsg) : DkimSt → List Str → Bool × DkimSt
  | s, [] => (false, s)
  | s, a :: rest =>
    match signedBy mustBeValid mustBeAuthor m s a with
    | (none, s) => (false, s)
    | (some true, s) => (true, s)
    | (some false, s) => argsLoop mustBeValid mustBeAuthor m s rest

/-- The rules that take domains. -/
inductive Named where
  | signed
  | valid
  | authorSig
deriving DecidableEq

/-- `check_dkim_signed`, `check_dkim_valid`, `check_dkim_valid_author_sig` (oa/plugins/dkim.py 149-192). -/
def namedRule (r : Named) (args : List Str) (m : DkimMsg) (s : DkimSt) : Bool × DkimSt :=
  match ensure m s with
  | (false, s) => (false, s)
  | (true, s) =>
    let answer := match r with
      | .signed => s.signed
      | .valid => s.valid
      | .authorSig => s.authorSig
    if !answer then (false, s)
    else if args.isEmpty then (true, s)
    else argsLoop (r != .signed) (r == .authorSig) m s args

end Verif.Dkim
