import Verif.Model.Relays

/-!
# Specification vocabulary for networks, relays and the envelope sender
-/

namespace Verif.Spec
open Verif Py Net Relay

variable {A N : Type}

/-- All entries are valid networks. -/
def ValidNets (l : List (Entry N)) : Prop := ∀ e ∈ l, e.1 ≠ none

/-- `e` is the first entry of `l` whose network contains `q`. -/
def FirstEntry (L : NetLib A N) (q : A) (l : List (Entry N)) (n : N) (accepted : Bool) : Prop :=
  ∃ before after, l = before ++ (some n, accepted) :: after ∧ L.mem n q = true ∧
    ∀ e ∈ before, ∀ n', e.1 = some n' → L.mem n' q = false

/-- No entry of `l` contains `q`. -/
def NoEntry (L : NetLib A N) (q : A) (l : List (Entry N)) : Prop :=
  ∀ e ∈ l, ∀ n, e.1 = some n → L.mem n q = false

/-- The lists after a history of configuration operations. -/
def configure (L : NetLib A N) (ops : List NetOp) : Nets N := ops.foldl (step L) (Nets.init L)

/-- The entry an operation adds, if its text can be read. -/
def entryOf (L : NetLib A N) (text : Str) : List (Entry N) :=
  match L.extract text with
  | none => []
  | some (excluded, n) => [(n, !excluded)]

/-- The entries of the internal networks of a history, in order. -/
def internalEntries (L : NetLib A N) (ops : List NetOp) : List (Entry N) :=
  ops.flatMap (fun op => match op with | .internal t => entryOf L t | _ => [])

/-- The entries of the trusted and internal networks of a history, in order. -/
def trustedEntries (L : NetLib A N) (ops : List NetOp) : List (Entry N) :=
  ops.flatMap (fun op => match op with | .internal t => entryOf L t | .trusted t => entryOf L t | .msa _ => [])

/-- The entries of the MSA networks of a history, in order. -/
def msaEntries (L : NetLib A N) (ops : List NetOp) : List (Entry N) :=
  ops.flatMap (fun op => match op with | .msa t => entryOf L t | _ => [])

def isTrustedOp : NetOp → Bool
  | .trusted _ => true
  | _ => false

def isMsaOp : NetOp → Bool
  | .msa _ => true
  | _ => false

/-- The operation can be read. -/
def Readable (L : NetLib A N) (op : NetOp) : Prop :=
  match op with
  | .trusted t => (L.extract t).isSome = true
  | .internal t => (L.extract t).isSome = true
  | .msa t => (L.extract t).isSome = true

/-- The relays that have an address. -/
def located (rs : List (Relay A)) : List (Relay A) := rs.filter (fun r => r.ip.isSome)

/-- The relay's address is in the list. -/
def inList (L : NetLib A N) (l : List (Entry N)) (r : Relay A) : Bool :=
  match r.ip with
  | none => false
  | some ip => contains L ip l = some true

/-- The relay's address is private. -/
def onPrivate (isPrivate : A → Bool) (r : Relay A) : Bool :=
  match r.ip with
  | none => false
  | some ip => isPrivate ip

/-- The longest beginning of `rs` whose relays satisfy `p`; all of `rs` if an MSA is among them. -/
def upTo (p msa : Relay A → Bool) (rs : List (Relay A)) : List (Relay A) :=
  if (rs.takeWhile p).any msa then rs else rs.takeWhile p

/-- The field `msa` of the relays: set for the first MSA relay, if all relays up to it satisfy
`p`, and for no other. -/
def msaField (p msa : Relay A → Bool) : List (Relay A) → List Bool
  | [] => []
  | r :: rs =>
    if p r && msa r then true :: rs.map (fun _ => false)
    else if p r then false :: msaField p msa rs
    else false :: rs.map (fun _ => false)

/-- The first non-empty text of a list, without surrounding white space. -/
def firstSender (l : List Str) : Option Str := (l.find? (fun s => s ≠ [])).map strip

end Verif.Spec
