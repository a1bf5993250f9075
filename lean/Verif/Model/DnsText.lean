import Verif.Model.Dns
import Verif.Model.NetText

/-!
# How nameservers are written: `DSN_SERVER_RE` of `oa/context.py`
-/

namespace Verif.Dns
open Verif Py Re Net

/-- What follows the address in `DSN_SERVER_RE` (oa/context.py 39-43). -/
def serverTail : Re := seqs [opt (lit c!"]"), opt (.seq (lit c!":") (.group 2 (plus digit))), .eol]

/-- `DSN_SERVER_RE` (oa/context.py 35-44).  Simplification: with `re.M`, `$` also matches before a line break in
the middle; the values of options contain none. -/
def serverRe : Re := seqs [.bol, opt (lit c!"["), .group 1 (.alt (plus v4Char) (plus v6Char)), serverTail]

/-- `DSN_SERVER_RE.match(dns_server).groups()` (oa/context.py 305): the address and the port; `none` if the
expression does not match. -/
def readServer (text : Str) : Option (Str × Option Str) :=
  (matchRe serverRe text).map (fun t => ((t.get 1).getD [], t.get 2))

/-- A `DNSInterface`: the attributes that decide about queries, and the resolver. -/
structure Interface where
  iface : Iface
  resolver : Resolver

/-- `__getstate__` (oa/dns_interface.py 51-54): the resolver is left out. -/
def Interface.save (d : Interface) : Iface := d.iface

/-- `__setstate__` (oa/dns_interface.py 56-58): with a resolver as the library makes it. -/
def Interface.restore (fresh : Resolver) (d : Iface) : Interface := ⟨d, fresh⟩

end Verif.Dns
