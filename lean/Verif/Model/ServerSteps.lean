import Verif.Model.Server

/-!
# Reloads at any moment

The server reloads when it receives a signal (docs/daemon.rst 32-40), and Python runs the handler between any two steps of what the
process is doing: a request or another reload.  Simplification: parsing a file is one step.
-/

namespace Verif.Server
open Verif Py

variable {Rs Res Files Pref G : Type}

/-- What happens between two steps: a signal makes the server reload, or files are changed. -/
inductive Event (Files Pref : Type) where
  | reload
  | editSite (f : Files)
  | editPrefs (user : Str) (p : Option Pref)

def Event.op : Event Files Pref → Op Files Pref
  | .reload => .reload
  | .editSite f => .editSite f
  | .editPrefs u p => .editPrefs u p

/-- The state after some events. -/
def disturb (w : World Rs Res Files Pref G) (es : List (Event Files Pref)) (s : St Rs Res Files Pref G) : St Rs Res Files Pref G :=
  es.foldl (fun s e => (step w s e.op).2) s

/-- The events between the steps of `get_user_ruleset`. -/
structure Between (Files Pref : Type) where
  /-- between `allow_user_rules` (oa/server.py 92) and looking for the user (93), or taking the site's ruleset (113) -/
  allowed : List (Event Files Pref) := []
  /-- between finding the user (93) and taking the ruleset (94) -/
  found : List (Event Files Pref) := []
  /-- between not finding the user (93) and looking for the preferences (97) -/
  notFound : List (Event Files Pref) := []
  /-- between not finding preferences (97) and taking the site's ruleset (99) -/
  noPrefs : List (Event Files Pref) := []
  /-- between finding preferences (97) and copying the results (106) -/
  prefs : List (Event Files Pref) := []
  /-- between copying the results (106) and parsing the preferences (107-108) -/
  copied : List (Event Files Pref) := []
  /-- between parsing the preferences (107-108) and keeping the ruleset (111) -/
  parsed : List (Event Files Pref) := []

/-- `get_user_ruleset` (oa/server.py 83-113) with what happens in between; `none`: an exception leaves it. -/
def userRulesetWith (w : World Rs Res Files Pref G) (b : Between Files Pref) (user : Option Str) (s : St Rs Res Files Pref G) :
    Option Rs × St Rs Res Files Pref G :=
  match user with
  | none => (some s.site, s)
  | some u =>
    if w.allowed s.site then
      let s := disturb w b.allowed s
      if Dict.has s.cache u then
        let s := disturb w b.found s
        (Dict.get? s.cache u, s)
      else
        let s := disturb w b.notFound s
        match s.prefs u with
        | none =>
          let s := disturb w b.noPrefs s
          (some s.site, s)
        | some _ =>
          let s := disturb w b.prefs s
          let results := s.results
          let s := disturb w b.copied s
          match s.prefs u with
          | none => (none, s)
          | some p =>
            let r := w.compileUser s.g results u p
            let s := disturb w b.parsed { s with g := r.2, reads := s.reads ++ [u] }
            match r.1 with
            | some rs => (some rs, { s with cache := Dict.set s.cache u rs })
            | none => (none, s)
    else
      let s := disturb w b.allowed s
      (some s.site, s)

/-- `load_config` (oa/server.py 71-81) with what happens after emptying the cache (73), after parsing (74-77) and after keeping the
ruleset (78). -/
def loadConfigWith (w : World Rs Res Files Pref G) (cleared parsed kept : List (Event Files Pref)) (s : St Rs Res Files Pref G) :
    St Rs Res Files Pref G :=
  let s := disturb w cleared { s with cache := [] }
  match w.compileSite s.g s.files with
  | (some (rs, res), g) =>
    let s := disturb w parsed { s with g := g }
    let s := disturb w kept { s with site := rs }
    { s with results := res }
  | (none, g) => { s with g := g }

end Verif.Server
