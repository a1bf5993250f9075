import Verif.Model.Py

/-!
# The daemon script: `scripts/oad.py`, and `oa/config.py` 34-94

Not modelled: `argparse` itself, `spoon.daemon` and `spoon.server`, which are not in the repository.
-/

namespace Verif.Daemon
open Verif Py

/-! ### Default paths -/

/-- `CONFIG_PATHS` (oa/config.py 13-19). -/
def configPaths : List Str :=
  [c!"/var/lib/spamassassin/3.004001", c!"/usr/local/share/spamassassin", c!"/usr/local/share/spamassassin", c!"/usr/local/share/spamassassin",
   c!"/usr/share/spamassassin"]

/-- `SITE_RULES_PATHS` (oa/config.py 21-30). -/
def sitePaths : List Str :=
  [c!"/etc/mail/spamassassin", c!"/usr/local/etc/mail/spamassassin", c!"/usr/local/etc/spamassassin", c!"/usr/local/etc/spamassassin",
   c!"/usr/pkg/etc/spamassassin", c!"/usr/etc/spamassassin", c!"/etc/mail/spamassassin", c!"/etc/spamassassin"]

/-- `get_default_configs` (oa/config.py 74-94): default and required. -/
def defaults (exist : Str → Bool) (site : Bool) : Option Str × Bool :=
  match (if site then sitePaths else configPaths).filter exist with
  | p :: _ => (some p, false)
  | [] => (none, true)

/-- An option that was given or not; `none`: `argparse` ends with a usage message because it is required. -/
def option (given : Option Str) (d : Option Str × Bool) : Option (Option Str) :=
  match given with
  | some p => some (some p)
  | none => if d.2 then none else some d.1

/-! ### Logging -/

/-- The levels of Python's `logging`. -/
inductive Level where
  | debug | info | warn | error | critical
deriving DecidableEq, Repr

def Level.num : Level → Nat
  | .debug => 10
  | .info => 20
  | .warn => 30
  | .error => 40
  | .critical => 50

/-- Where messages go. -/
inductive Sink where
  | terminal
  | file (path : Str)
deriving DecidableEq, Repr

structure Logger where
  level : Level
  handlers : List (Level × Sink)

/-- `setup_logging` (oa/config.py 34-71) as the scripts call it: without Sentry and with the default levels. -/
def setupLogging (debug : Bool) (path : Option Str) : Logger :=
  let streamLevel := if debug then Level.debug else .critical
  let fileLevel := if debug then Level.debug else .info
  ⟨fileLevel, (streamLevel, .terminal) :: match path with
    | some p => if p = [] then [] else [(fileLevel, .file p)]
    | none => []⟩

/-- Where a message of a level is written: the logger drops messages below its level, and so does each handler. -/
def Logger.written (l : Logger) (x : Level) : List Sink :=
  if x.num < l.level.num then [] else (l.handlers.filter fun h => decide (h.1.num ≤ x.num)).map Prod.snd

/-- The level of messages about wrong rules: `err` (oa/context.py 154-167). -/
def errLevel (paranoid ignoreUnknown : Bool) : Level :=
  if paranoid then .error else if !ignoreUnknown then .warn else .debug

/-! ### The script -/

inductive Action where
  | reload | stop
deriving DecidableEq, Repr

/-- What `main` parses (scripts/oad.py 45-92); the paths as given. -/
structure Args where
  action : Option Action := none
  debug : Bool := false
  paranoid : Bool := false
  showUnknown : Bool := false
  allowTell : Bool := false
  daemonize : Bool := false
  prefork : Option Nat := none
  listen : Str := c!"0.0.0.0"
  port : Nat := 783
  config : Option Str := none
  site : Option Str := none
  pidfile : Str := c!"/var/run/oad.pid"
  logFile : Str := c!"/var/log/oad.log"
  eager : Bool := false

/-- What is started. -/
structure Serving where
  listen : Str
  port : Nat
  site : Option Str
  config : Option Str
  paranoid : Bool
  ignoreUnknown : Bool
  prefork : Option Nat
deriving DecidableEq, Repr

inductive Effect where
  | lazy (b : Bool)
  | signal (a : Action) (pidfile : Str)
  | serve (s : Serving)
deriving DecidableEq, Repr

/-- How a run ends. -/
inductive End where
  | usage
  | normal
  | raised
deriving DecidableEq, Repr

/-- The world: which paths exist, whether the server can be set up (its port may be in use), and whether it ends with an exception. -/
structure World where
  pid : Nat
  exist : Str → Bool
  bindable : Serving → Bool
  fails : Serving → Bool

/-- The files with process numbers. -/
abbrev Pids := Dict Str Nat

/-- `run_daemon` (scripts/oad.py 19-41).  `spoon.daemon.detach(pidfile=…)` is taken to write the number of the process to the file. -/
def runDaemon (w : World) (a : Args) (site config : Option Str) (pids : Pids) : Pids × List Effect × End :=
  let pids := if a.daemonize then Dict.set pids a.pidfile w.pid else pids
  let s : Serving := ⟨a.listen, a.port, site, config, a.paranoid, !a.showUnknown, a.prefork⟩
  if w.bindable s then (Dict.del pids a.pidfile, [.serve s], if w.fails s then .raised else .normal)
  else (pids, [], .raised)

/-- `main` (scripts/oad.py 44-99). -/
def main (w : World) (a : Args) (pids : Pids) : Pids × List Effect × End :=
  match option a.config (defaults w.exist false), option a.site (defaults w.exist true) with
  | some config, some site =>
    let lazy := Effect.lazy (!a.eager)
    match a.action with
    | some x => (pids, [lazy, .signal x a.pidfile], .normal)
    | none =>
      let r := runDaemon w a site config pids
      (r.1, lazy :: r.2.1, r.2.2)
  | _, _ => (pids, [], .usage)

end Verif.Daemon
