import Verif.Model.Links

/-!
# Specification of links
-/

namespace Verif.Links
open Verif Py

/-- The HTML of a message has a link to `u` in a tag `t`. -/
def Mentions (events : List Event) (u t : Str) : Prop :=
  (t = c!"a" ∨ t = c!"link") ∧
    ∃ attrs prop, .start t attrs ∈ events ∧ (prop = c!"href" ∨ prop = c!"src") ∧ (prop, some u) ∈ attrs

/-- What is known of the address `u` with type `t`. -/
def entry (ls : LinkDict) (u t : Str) : Option Link := (Dict.get? ls u).bind fun types => Dict.get? types t

/-- The details of a link are those of its address. -/
def Describes (U : UrlLib) (u : Str) (l : Link) : Prop :=
  l.raw = u ∧ U.parse u = some (l.scheme, l.domain) ∧ l.cleaned = U.unquote u

/-- Pieces of simple HTML: a link with its texts, text outside of links, the start of another element. -/
inductive Item where
  | anchor (u : Str) (texts : List Str)
  | text (d : Str)
  | elem (tag : Str)

/-- The events of a piece. -/
def Item.events : Item → List Event
  | .anchor u texts => .start c!"a" [(c!"href", some u)] :: texts.map .data ++ [.stop c!"a"]
  | .text d => [.data d]
  | .elem tag => [.start tag []]

/-- The texts of the links to `u`. -/
def Item.textsOf (u : Str) : Item → List Str
  | .anchor v texts => if v = u then texts else []
  | _ => []

/-- An address leads to another by a chain of redirections within one host. -/
inductive Chain (U : UrlLib) (redir : Str → Option (Str × Str)) : Str → Str → Prop where
  | here (u : Str) : Chain U redir u u
  | step (u src dest v : Str) : redir u = some (src, dest) →
      (U.parse src).map Prod.snd = (U.parse dest).map Prod.snd → Chain U redir dest v → Chain U redir u v

/-- A key of a link and its value. -/
def Field (l : Link) (key v : Str) : Prop :=
  (key = c!"raw" ∧ v = l.raw) ∨ (key = c!"scheme" ∧ v = l.scheme) ∨ (key = c!"cleaned" ∧ v = l.cleaned) ∨
  (key = c!"domain" ∧ v = l.domain)

/-- A check as it is written in a configuration: a key, an operator, an expression and its flags. -/
structure Written where
  key : Str
  op : Str
  body : Str
  flags : Str

/-- Its text. -/
def Written.text (w : Written) : Str := w.key ++ c!" " ++ w.op ++ c!" /" ++ w.body ++ c!"/" ++ w.flags

/-- It is well-formed. -/
structure Written.Ok (w : Written) : Prop where
  key : w.key ≠ [] ∧ ∀ c ∈ w.key, MetaExpr.isWord c = true
  op : w.op = c!"=~" ∨ w.op = c!"!~"
  body : '/' ∉ w.body ∧ '\n' ∉ w.body
  flags : ∀ c ∈ w.flags, MetaExpr.isWord c = true

/-- The text of a link shows a secure address whose host is not a number. -/
def Shows (U : UrlLib) (isIp : Str → Bool) (l : Link) : Prop :=
  ∃ ts, l.text = some ts ∧ ∃ t ∈ ts, ∃ w ∈ splitWs t, c!"https://" <+: w ∧
    ∃ scheme host, U.parse w = some (scheme, host) ∧ isIp host = false

end Verif.Links
