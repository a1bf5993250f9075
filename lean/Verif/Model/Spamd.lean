import Verif.Model.Protocol
import Verif.Model.Content
import Verif.Model.Scan

/-!
# The server as a whole: from rule files and the bytes of a request to the bytes of the answer

The models of the protocol (`Model/Protocol.lean`), of the content of a message (`Model/Content.lean`), of its headers
(`Model/Headers.lean`) and of loading and checking rules (`Model/Scan.lean`) put together, as `Server` and `BaseCommand` do
(oa/server.py 37-49, 89-109, oa/protocol/base.py 20-30, 77-99, oa/protocol/check.py 14-24, oa/message.py 134-170, 429-490).

Simplifications: the hooks of plugins do nothing, and all users share the rules of the site.
-/

namespace Verif.Spamd
open Verif Py Scan Protocol

/-- Everything outside of the modelled code.  `C` is the type of the global context and `β` of undecoded payloads. -/
structure Site (S R V C β : Type) where
  env : ScanEnv S R V C
  lib : Content.Lib β
  /-- `email.message_from_string`: the headers, and the parts of `walk()` -/
  split : Str → List (Str × Str) × List (Content.Part β)
  /-- the headers that parsing reads after `Subject`: `Received` and those of `_parse_sender` (oa/message.py 327-358, 474) -/
  reads : List (Str × Str) → List Str
  /-- the exception that leaves the parsing of the relays or of the sender, if any (oa/message.py 474-490) -/
  relays : List (Str × Str) → Option Exn
  version : Str
  /-- everything about the ruleset but its rules: options and reports -/
  base : C → Engine S Seen
  /-- what the commands that rewrite a message take from it -/
  outer : Str → MsgSt S Seen → Mail S Seen

variable {S R V C β : Type} [PyNum S]

/-- `oa.message.Message(ctxt, text)` (oa/message.py 134-170, 429-490).  `_decode_header` is the same function for the body
and for the rules. -/
def newMessage (sv : Site S R V C β) (text : Str) : Except Exn (Mail S Seen) :=
  let raw := Mail.translateLineBreaks text
  let (hs, parts) := sv.split raw
  let subjects := (hs.filter (fun p => lower p.1 == c!"subject")).map Prod.snd
  match Content.parseContent { sv.lib with decodeHeader := sv.env.mail.decode } subjects parts with
  | .error _ => .error .other
  | .ok v =>
    match sv.relays hs with
    | some x => .error x
    | none =>
      let mail := (c!"Subject" :: sv.reads hs).foldl (fun m n => (Mail.getDecoded sv.env.mail n m).2)
        (Mail.Msg.ofHeaders hs v.mimeHeaders)
      let st : MsgSt S Seen := ⟨0, [], [], ⟨v.text, v.rawText, raw, v.uris, mail⟩⟩
      .ok { sv.outer raw st with st := st }

/-- The ruleset of the site: `ruleset.match` is `match` of the rules loaded (oa/rules/ruleset.py 341-366). -/
def engine (sv : Site S R V C β) (l : Loaded S R V C) : Engine S Seen :=
  { sv.base l.ctx with
    matchMsg := fun s => .ok (runRules (l.checked.map (fun p => (p.1, toRule sv.env l.ctx l.rules p.2))) s) }

/-- The server once the rules are loaded (oa/server.py 89-109, oa/protocol/base.py 25-30). -/
def host (sv : Site S R V C β) (l : Loaded S R V C) : Host S Seen where
  version := sv.version
  ruleset := fun _ => .ok (engine sv l)
  parse := newMessage sv

/-- Starting the server with these files and answering one request; `none` is an exception while loading. -/
def answer (sv : Site S R V C β) (c0 : C) (files : List Str) (c : Conn) : Option (Done × Conn) :=
  (load sv.env c0 files).map (fun l => serve (host sv l) c)

end Verif.Spamd
