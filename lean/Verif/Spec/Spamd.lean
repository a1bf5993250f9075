import Verif.Model.Spamd
import Verif.Spec.Scan
import Verif.Spec.Content
import Verif.Spec.Protocol

/-!
# What a client sends and what it is told
-/

namespace Verif.Spec
open Verif Py Utf8 Content

/-- A request to check the message `sent`: the request line, the options with the length of the message, a blank line, and
the bytes of the message. -/
structure Request where
  line : Str
  options : List OptLine
  blank : Str
  sent : Str

/-- The bytes of the request; a client may send more. -/
def Request.bytes (q : Request) (more : Bytes) : Bytes :=
  wire q.line ++ (q.options.flatMap (fun o => wire o.text) ++ (wire q.blank ++ (encode q.sent ++ more)))

/-- The request asks for `command` and is well formed: the message is ASCII and not compressed, and its length is the one
announced. -/
structure Request.Asks (q : Request) (command : Str) : Prop where
  line : ∃ word proto, RequestLine q.line word proto ∧ upper word = command
  options : ∀ o ∈ q.options, o.Ok
  blank : BlankLine q.blank
  length : ∃ t, lastGiven q.options c!"content-length" = some t ∧ int? t = some (q.sent.length : Int)
  plain : lastGiven q.options c!"compress" ≠ some c!"zlib"
  ascii : ∀ c ∈ q.sent, c.toNat < 128

/-- The links in these texts: all are links, and every link is there that stands by itself: after white space, a quote, an
angle bracket or nothing, and up to where it can no longer go on. -/
def Links (texts : List Str) (uris : List Str) : Prop :=
  (∀ u ∈ uris, IsLink u ∧ ∃ s ∈ texts, u <:+: s) ∧
    ∀ s ∈ texts, ∀ pre l post, s = pre ++ l ++ post → IsLink l → (pre = [] ∨ ∃ a c, pre = a ++ [c] ∧ EndsLink c) →
      (post = [] ∨ ∃ c b, post = c :: b ∧ ¬ LinkChar c) → l ∈ uris

/-- What the rules see of the text sent: with Unix line breaks, it has these headers and parts; its text is that of the
subjects and of the parts. -/
structure ReadAs {β : Type} (lib : Lib β) (split : Str → List (Str × Str) × List (Part β)) (sent : Str) (m : Facts) : Prop where
  raw : ∃ ls rest, Unambiguous ls rest ∧ sent = renderLines ls rest ∧
    m.raw = renderLines (ls.map (fun p => (p.1, Eol.lf))) rest
  headers : m.headers = (split m.raw).1
  readable : ∀ p ∈ (split m.raw).2, Readable lib p
  text : m.text = join c!" " ((rawValues m.headers c!"Subject").map m.dec ++ (split m.raw).2.filterMap (shown lib))
  rawText : m.rawText = join c!"\n" ((split m.raw).2.filterMap (partText lib))
  partHeaders : m.partHeaders = (split m.raw).2.flatMap (·.headers)

/-- The verdict line: whether the score reaches the one required, and both. -/
def verdictText (spam : Bool) (score required : Str) : Str :=
  c!"Spam: " ++ (if spam then c!"True" else c!"False") ++ c!" ; " ++ score ++ c!" / " ++ required ++ c!"\r\n"

end Verif.Spec
