import Verif.Model.Report
import Verif.Model.Utf8

/-!
# The spamd protocol: `oa/protocol/*.py` and `RequestHandler` in `oa/server.py`
-/

namespace Verif.Protocol
open Verif Py Utf8 Report

/-- The exceptions the protocol code distinguishes. -/
inductive Exn where
  /-- `oa.errors.InvalidOption` -/
  | invalidOption (msg : Str)
  | keyError
  /-- anything else: it ends the connection -/
  | other
deriving DecidableEq

/-! ### Reading from the connection -/

/-- `self.rfile`: the bytes the client will still send, then it closes.  `gives` bounds how many
bytes each `read` hands over, as the transport likes, but never less than one unless the connection
is closed; when the list is used up, reads get what they ask for. -/
structure Conn where
  data : Bytes
  gives : List Nat
deriving DecidableEq

/-- `self.rfile.read(n)`. -/
def Conn.read (n : Nat) (c : Conn) : Bytes × Conn :=
  let k := match c.gives with
    | [] => n
    | g :: _ => min n (max 1 g)
  (c.data.take k, ⟨c.data.drop k, c.gives.tail⟩)

/-- A line with its line feed (if the data does not end first) and what follows it. -/
def cutLine : Bytes → Bytes × Bytes
  | [] => ([], [])
  | b :: bs => if b = 10 then ([b], bs) else ((b :: (cutLine bs).1), (cutLine bs).2)

/-- `self.rfile.readline()`. -/
def Conn.readline (c : Conn) : Bytes × Conn := ((cutLine c.data).1, ⟨(cutLine c.data).2, c.gives⟩)

/-- `"header not in 'Name: value' format"` (oa/protocol/base.py 42). -/
def badHeader : Str := c!"header not in 'Name: value' format"

/-- `"Content-Length contains non-numeric bytes"` (oa/protocol/base.py 58). -/
def badLength : Str := c!"Content-Length contains non-numeric bytes"

/-- The loop of `get_options` (oa/protocol/base.py 32-46).  The first argument bounds the number of
lines. -/
def optionLoop : Nat → Dict Str Str → Conn → Except Exn (Dict Str Str) × Conn
  | 0, _, c => (.error .other, c)
  | k + 1, d, c =>
    let r := c.readline
    match decode r.1 with
    | none => (.error .other, r.2)
    | some s =>
      let line := strip s
      if line = [] then (.ok d, r.2)
      else match split1 c!":" line with
        | none => (.error (.invalidOption badHeader), r.2)
        | some (name, value) => optionLoop k (Dict.set d (lower name) (strip value)) r.2

/-- `get_options` (oa/protocol/base.py 32-46).  Every line but an empty one takes at least one byte,
so the bound is never reached. -/
def getOptions (c : Conn) : Except Exn (Dict Str Str) × Conn := optionLoop (c.data.length + 1) [] c

/-- `chunk_size` (oa/protocol/base.py 17). -/
def chunkSize : Nat := 8192

/-- The loop of `get_message` (oa/protocol/base.py 65-72); `left` is `content_length`, and the first
argument bounds the number of reads. -/
def messageLoop : Nat → Option Nat → Str → Conn → Except Exn Str × Conn
  | 0, _, _, c => (.error .other, c)
  | k + 1, left, acc, c =>
    if left = some 0 then (.ok acc, c)
    else
      let r := c.read (min (left.getD chunkSize) chunkSize)
      if r.1 = [] then (.ok acc, r.2)
      else match decode r.1 with
        | none => (.error .other, r.2)
        | some s => messageLoop k (left.map (· - r.1.length)) (acc ++ s) r.2

/-- `get_message` (oa/protocol/base.py 48-75).  Every read but the last takes at least one byte, so
the bound is never reached.  `zlib.decompress` is given text, which it refuses. -/
def getMessage (options : Dict Str Str) (c : Conn) : Except Exn Str × Conn :=
  let go (left : Option Nat) : Except Exn Str × Conn :=
    match messageLoop (c.data.length + 1) left [] c with
    | (.error e, c) => (.error e, c)
    | (.ok m, c) => if Dict.get? options c!"compress" = some c!"zlib" then (.error .other, c) else (.ok m, c)
  match Dict.get? options c!"content-length" with
  | none => go none
  | some t => match int? t with
    | none => (.error (.invalidOption badLength), c)
    | some n => if n < 0 then (.error (.invalidOption badLength), c) else go (some n.toNat)

/-! ### The commands -/

/-- The commands (oa/server.py 21-31). -/
inductive Cmd where
  | tell | ping | skip | check | symbols | report | reportIfSpam | process | headers
deriving DecidableEq

/-- `COMMANDS` (oa/server.py 21-31). -/
def commands : Dict Str Cmd :=
  [(c!"TELL", .tell), (c!"PING", .ping), (c!"SKIP", .skip), (c!"CHECK", .check), (c!"SYMBOLS", .symbols),
   (c!"REPORT", .report), (c!"REPORT_IFSPAM", .reportIfSpam), (c!"PROCESS", .process), (c!"HEADERS", .headers)]

/-- `has_options` of the command classes; `has_message` has the same value for all of them. -/
def Cmd.hasOptions : Cmd → Bool
  | .ping | .skip => false
  | _ => true

/-- `ok_code` of the command classes. -/
def Cmd.okCode : Cmd → Str
  | .ping => c!"PONG"
  | _ => c!"EX_OK"

/-- A call of `hook_report` or `hook_revoke`. -/
structure Action where
  revoke : Bool
  spam : Bool
  isLocal : Bool
  isRemote : Bool
deriving DecidableEq

/-- What the commands take from the ruleset they use and from Python's number formats. -/
structure Engine (S X : Type) where
  conf : RConf S
  mods : Mods
  /-- `msg.score < conf["required_score"]` -/
  lt : S → S → Bool
  /-- `"%.1f"` -/
  fmt1 : S → Str
  /-- `"%s"` -/
  shw : S → Str
  /-- `ruleset.match`; a hook may raise -/
  matchMsg : MsgSt S X → Except Exn (MsgSt S X)
  /-- the tag values of `_interpolate` (`none`: `KeyError`) -/
  build : MsgSt S X → Option (Dict Str Str)
  /-- `get_matched_report` (`none`: `KeyError`) -/
  matchedReport : MsgSt S X → Option Str
  /-- `hook_report` and `hook_revoke`: the exception that leaves it, if any -/
  hook : Action → Option Exn

/-- A parsed message, as far as the commands use it: its state, the headers of the original and of
the wrapping message, and the text of a message with given headers, `as_string` (for the wrapping
message, with the given report). -/
structure Mail (S X : Type) where
  st : MsgSt S X
  orig : Hdrs
  bounce : Hdrs
  render : Hdrs → Str
  renderBounce : Str → Hdrs → Str

variable {S X : Type} [PyNum S]

/-- `text % data` once the data is there. -/
def texted (e : Engine S X) (s : MsgSt S X) (text : Str) : Except Exn Str :=
  match e.build s with
  | none => .error .keyError
  | some d => match fmt d text with
    | none => .error .other
    | some t => .ok t

/-- `get_report` and `get_unsafe_report` (oa/rules/ruleset.py 130-144) for a template. -/
def reportText (e : Engine S X) (s : MsgSt S X) (template : Str) : Except Exn Str :=
  if template = [] then .ok c!"\n(no report template found)\n"
  else (texted e s template).map (· ++ c!"\n")

/-- Adding the headers of `_adjust_headers`, with the exception raised. -/
def adjustE (e : Engine S X) (s : MsgSt S X) : List Mod → Hdrs → Except Exn Hdrs
  | [], h => .ok h
  | m :: ms, h =>
    if m.remove then adjustE e s ms (h.filter (fun p => lower p.1 ≠ lower m.name))
    else match texted e s m.value with
      | .ok v => adjustE e s ms (h ++ [(m.name, v)])
      | .error x => .error x

/-- `get_adjusted_message` (oa/rules/ruleset.py 172-189).  `header_only` keeps the text before the
first empty line. -/
def adjustedMessage (e : Engine S X) (m : Mail S X) (s : MsgSt S X) (headerOnly : Bool) : Except Exn Str :=
  let spam := isSpam e.conf s
  let plain := !spam || headerOnly || e.conf.reportSafe = 0
  let wrapped : Except Exn Str :=
    if plain then .ok []
    else match reportText e s e.conf.report, reportText e s e.conf.unsafeReport with
      | .ok a, .ok b => .ok (a ++ b)
      | .error x, _ => .error x
      | _, .error x => .error x
  match wrapped with
  | .error x => .error x
  | .ok report =>
    let h := if plain then m.orig else m.bounce
    let h : Except Exn Hdrs :=
      if e.conf.reportSafe = 0 then
        match e.matchedReport s with
        | none => .error .keyError
        | some r => .ok (h ++ [(c!"X-Spam-Report", r)])
      else .ok h
    match h with
    | .error x => .error x
    | .ok h => match adjustE e s e.mods.all h with
      | .error x => .error x
      | .ok h => match adjustE e s (if spam then e.mods.spam else e.mods.ham) h with
        | .error x => .error x
        | .ok h =>
          let text := if plain then m.render h else m.renderBounce report h
          if headerOnly then
            match split1 c!"\n\n" text with
            | some (a, _) => .ok (a ++ c!"\n\n")
            | none => .ok (text ++ c!"\n\n")
          else .ok text

/-- `extra_details` of the checking commands (oa/protocol/check.py 26-74, oa/protocol/process.py 16-30). -/
def extraDetails (e : Engine S X) (m : Mail S X) (s : MsgSt S X) : Cmd → Except Exn Str
  | .symbols => .ok (symbolsBody s)
  | .report => reportText e s e.conf.report
  | .reportIfSpam => if e.lt s.score e.conf.required then .ok [] else reportText e s e.conf.report
  | .process => adjustedMessage e m s false
  | .headers => adjustedMessage e m s true
  | _ => .ok []

/-- What handling a request did: the texts written, the reports and revocations made, and the
exception that ended it. -/
structure Done where
  written : List Str
  actions : List Action
  exn : Option Exn
deriving DecidableEq

/-- A number in decimal. -/
def dec (n : Nat) : Str := Nat.toDigits 10 n

/-- The first line of the answer (oa/protocol/check.py 16-21). -/
def verdictLine (e : Engine S X) (s : MsgSt S X) : Str :=
  c!"Spam: " ++ (if isSpam e.conf s then c!"True" else c!"False") ++ c!" ; " ++ e.fmt1 s.score ++
    c!" / " ++ e.shw e.conf.required ++ c!"\r\n"

/-- `CheckCommand.handle` (oa/protocol/check.py 14-24). -/
def checkHandle (e : Engine S X) (m : Mail S X) (cmd : Cmd) : Done :=
  match e.matchMsg m.st with
  | .error x => ⟨[], [], some x⟩
  | .ok s => match extraDetails e m s cmd with
    | .error x => ⟨[verdictLine e s], [], some x⟩
    | .ok result =>
      ⟨[verdictLine e s, c!"Content-length: " ++ dec result.length ++ c!"\r\n\r\n", result], [], none⟩

/-- One half of `TellCommand.handle`: the action asked for by the option `key`. -/
def tellHalf (e : Engine S X) (options : Dict Str Str) (key did : Str) (revoke spam : Bool) (d : Done) : Done :=
  match d.exn, Dict.get? options key with
  | none, some v =>
    let targets := splitChar ',' v
    let a : Action := ⟨revoke, spam, decide (c!"local" ∈ targets), decide (c!"remote" ∈ targets)⟩
    match e.hook a with
    | some x => ⟨[], d.actions ++ [a], some x⟩
    | none => ⟨d.written ++ [did ++ c!": " ++ v ++ c!"\r\n"], d.actions ++ [a], none⟩
  | _, _ => d

/-- `TellCommand.handle` (oa/protocol/tell.py 15-31).  The answers are given after both actions. -/
def tellHandle (e : Engine S X) (options : Dict Str Str) : Done :=
  let spam := decide (lower ((Dict.get? options c!"message-class").getD c!"spam") = c!"spam")
  tellHalf e options c!"remove" c!"DidRemove" true spam
    (tellHalf e options c!"set" c!"DidSet" false spam ⟨[], [], none⟩)

/-- `handle` of each command; `mail` is `None` for commands without message.  `PingCommand.handle`
(oa/protocol/noop.py 12-13) answers nothing more. -/
def handle (e : Engine S X) (options : Dict Str Str) (mail : Option (Mail S X)) (cmd : Cmd) : Done :=
  match cmd, mail with
  | .ping, _ => ⟨[], [], none⟩
  | .skip, _ => ⟨[], [], none⟩
  | .tell, _ => tellHandle e options
  | cmd, some m => checkHandle e m cmd
  | _, none => ⟨[], [], some .other⟩

/-! ### A request -/

/-- What a request takes from the server. -/
structure Host (S X : Type) where
  version : Str
  /-- `get_user_ruleset` for the user named by the request.  Simplification: the call for no user that comes first
  (oa/protocol/base.py 27) returns the ruleset of the server, and its result is not used. -/
  ruleset : Option Str → Except Exn (Engine S X)
  /-- `oa.message.Message(ctxt, text)` -/
  parse : Str → Except Exn (Mail S X)

/-- `"SPAMD/%s 0 %s\r\n"` (oa/protocol/base.py 95). -/
def okLine (version code : Str) : Str := c!"SPAMD/" ++ version ++ c!" 0 " ++ code ++ c!"\r\n"

/-- The error line (oa/protocol/base.py 90-91 and oa/server.py 47-48), without the parentheses of
the former. -/
def errLine (version what : Str) : Str := c!"SPAMD/" ++ version ++ c!" 76 Bad header line: " ++ what ++ c!"\r\n"

/-- The `try` block of `get_and_handle` (oa/protocol/base.py 81-88). -/
def prepare (h : Host S X) (cmd : Cmd) (c : Conn) :
    Except Exn (Engine S X × Dict Str Str × Option (Mail S X)) × Conn :=
  let o : Except Exn (Dict Str Str) × Conn := if cmd.hasOptions then getOptions c else (.ok [], c)
  match o with
  | (.error x, c) => (.error x, c)
  | (.ok options, c) =>
    match h.ruleset (Dict.get? options c!"user") with
    | .error x => (.error x, c)
    | .ok e =>
      if cmd.hasOptions then
        match getMessage options c with
        | (.error x, c) => (.error x, c)
        | (.ok text, c) => match h.parse text with
          | .error x => (.error x, c)
          | .ok m => (.ok (e, options, some m), c)
      else (.ok (e, options, none), c)

/-- `get_and_handle` (oa/protocol/base.py 77-99), which `SkipCommand` overrides
(oa/protocol/noop.py 22-23). -/
def getAndHandle (h : Host S X) (cmd : Cmd) (c : Conn) : Done × Conn :=
  if cmd = .skip then (⟨[], [], none⟩, c)
  else match prepare h cmd c with
    | (.error (.invalidOption m), c) => (⟨[errLine h.version (c!"(" ++ m ++ c!")")], [], none⟩, c)
    | (.error x, c) => (⟨[], [], some x⟩, c)
    | (.ok (e, options, mail), c) =>
      let d := handle e options mail cmd
      (⟨okLine h.version cmd.okCode :: d.written, d.actions, d.exn⟩, c)

/-- `RequestHandler.handle` (oa/server.py 37-49).  The `except KeyError` covers the whole command. -/
def serve (h : Host S X) (c : Conn) : Done × Conn :=
  let r := c.readline
  match decode r.1 with
  | none => (⟨[], [], some .other⟩, r.2)
  | some s =>
    let line := strip s
    match splitWs line with
    | [command, _] =>
      match Dict.get? commands (upper command) with
      | none => (⟨[errLine h.version line], [], none⟩, r.2)
      | some cmd =>
        match getAndHandle h cmd r.2 with
        | (⟨w, a, some .keyError⟩, c) => (⟨w ++ [errLine h.version line], a, none⟩, c)
        | res => res
    | _ => (⟨[], [], some .other⟩, r.2)

/-- The bytes on the wire. -/
def Done.bytes (d : Done) : Bytes := d.written.flatMap encode

end Verif.Protocol
