import Verif.Model.Py

/-!
# Network lists: `oa/networks.py`

`ipaddress` is a parameter: `A` are addresses, `N` networks.
-/

namespace Verif.Net
open Verif Py

/-- What the code uses of `_NETWORK_RE` and `ipaddress`. -/
structure NetLib (A N : Type) where
  /-- `query in network` -/
  mem : N → A → Bool
  /-- `ipaddress.ip_network(str("127.0.0.0/8"))` -/
  loop4 : N
  /-- `ipaddress.ip_network(str("::1"))` -/
  loop6 : N
  /-- `_extract_network` (oa/networks.py 86-93): `none` if the expression does not match
  (`AttributeError`), otherwise whether the entry is excluded and the network, `none` if it is
  invalid. -/
  extract : Str → Option (Bool × Option N)

/-- An entry of `_networks`: an invalid network is stored as `None`. -/
abbrev Entry (N : Type) := Option N × Bool

/-- `NetworkListBase.__contains__` (oa/networks.py 52-56); `none` is the `TypeError` of
`query in None`. -/
def contains {A N : Type} (L : NetLib A N) (q : A) : List (Entry N) → Option Bool
  | [] => some false
  | (none, _) :: _ => none
  | (some n, accepted) :: rest => if L.mem n q then some accepted else contains L q rest

/-- `_always_accepted` (oa/networks.py 60-63). -/
def alwaysAccepted {A N : Type} (L : NetLib A N) : List (Entry N) := [(some L.loop4, true), (some L.loop6, true)]

/-- The three lists of `NetworkList` (oa/networks.py 74-77).  They are class attributes: one such
state is shared by all contexts of the process. -/
structure Nets (N : Type) where
  internal : List (Entry N)
  internalConf : Bool
  trusted : List (Entry N)
  trustedConf : Bool
  msa : List (Entry N)
deriving DecidableEq

/-- The lists when the module is loaded (oa/networks.py 41-43, 74-77). -/
def Nets.init {A N : Type} (L : NetLib A N) : Nets N :=
  { internal := alwaysAccepted L, internalConf := false, trusted := alwaysAccepted L, trustedConf := false, msa := [] }

/-- The lists a new context sees: `NetworkList.__init__` (oa/networks.py 79-80), called by
`GlobalContext.__init__` (oa/context.py 150), does not create lists, it reads the class attributes
as earlier contexts left them. -/
def newContext {N : Type} (shared : Nets N) : Nets N := shared

/-- `configured` (oa/networks.py 82-84). -/
def Nets.configured {N : Type} (s : Nets N) : Bool := s.internalConf || s.trustedConf

/-- `add_trusted_network` (oa/networks.py 95-100). -/
def addTrusted {A N : Type} (L : NetLib A N) (text : Str) (s : Nets N) : Option (Nets N) :=
  match L.extract text with
  | none => none
  | some (excluded, n) =>
    let s1 := { s with trustedConf := true, trusted := s.trusted ++ [(n, !excluded)] }
    some (if !s.internalConf then { s1 with internal := s1.internal ++ [(n, !excluded)] } else s1)

/-- `add_internal_network` (oa/networks.py 102-108).  A list object is always true, so the first
internal network clears the list. -/
def addInternal {A N : Type} (L : NetLib A N) (text : Str) (s : Nets N) : Option (Nets N) :=
  match L.extract text with
  | none => none
  | some (excluded, n) =>
    let base := if !s.internalConf then alwaysAccepted L else s.internal
    some { s with internalConf := true, trusted := s.trusted ++ [(n, !excluded)],
                  internal := base ++ [(n, !excluded)] }

/-- `add_msa_network` (oa/networks.py 110-113). -/
def addMsa {A N : Type} (L : NetLib A N) (text : Str) (s : Nets N) : Option (Nets N) :=
  match L.extract text with
  | none => none
  | some (excluded, n) => some { s with internalConf := true, msa := s.msa ++ [(n, !excluded)] }

/-- One configuration operation. -/
inductive NetOp where
  | trusted (text : Str)
  | internal (text : Str)
  | msa (text : Str)
deriving DecidableEq

/-- An operation that raises leaves the lists as they are. -/
def step {A N : Type} (L : NetLib A N) (s : Nets N) (op : NetOp) : Nets N :=
  match op with
  | .trusted t => (addTrusted L t s).getD s
  | .internal t => (addInternal L t s).getD s
  | .msa t => (addMsa L t s).getD s

/-- `_format_network_str(network, mask)` (oa/networks.py 22-35); `mask = []` is no mask.
`toString n` of a number is written with `digits`. -/
def formatNetwork (digits : Nat → Str) (network mask : Str) : Str :=
  let length := (splitChar '.' network).length
  let network :=
    if !endsWith c!"." network && (length = 3 || length = 7) && !hasSub c!"/" network then network ++ c!"."
    else network
  let dots := network.count '.'
  let padding := if endsWith c!"." network then join c!"." (List.replicate (4 - dots) c!"0") else []
  let mask := if endsWith c!"." network && mask = [] then digits (dots * 8) else mask
  if mask ≠ [] then network ++ padding ++ c!"/" ++ mask else network ++ padding

end Verif.Net
