import Verif.Model.Client

/-!
# When a router is ready (server/router.py:166-176, 260-298; protocol.py:150-178, 205-214)

Each redirect has a Deferred that its client fires, and `Router.ready` waits for them one after the other. Of Twisted's
`Deferred` the following is used: `addCallback` runs the callback at once if the Deferred has fired and is not waiting;
a callback that returns a Deferred makes it wait until that one has fired; `callback` on a Deferred that has fired raises
`AlreadyCalledError`. `reactor.resolve` of an IP address returns a Deferred that has fired; of a name, one that fires at
most once.
-/

namespace Txstatsd

/-- A redirect, as far as its Deferred `d` is concerned (router.py:266-267, 287-289). -/
structure RedirectWait where
  tcp : Bool
  /-- Somebody will still call the callback: the name is being resolved, or `factory.callback` is set. -/
  armed : Bool := true
  /-- `callLater(0, callback)` is pending (router.py:104-106). -/
  scheduled : Bool := false
  /-- `d.called`. -/
  fired : Bool := false
  deriving DecidableEq, Repr

/-- `Router.ready` with the redirects it waits for (server/router.py:173, 266-267, 287-288). -/
structure RouterReady where
  redirects : List RedirectWait := []
  /-- The Deferred that `ready` waits for. -/
  waiting : Option Nat := none
  /-- The callbacks of `ready` not yet run: each returns the Deferred of a redirect. -/
  callbacks : List Nat := []
  /-- How often `AlreadyCalledError` was raised. -/
  alreadyCalled : Nat := 0
  deriving DecidableEq, Repr

namespace RouterReady

/-- Has the Deferred of redirect `i` fired? (server/router.py:266-270, 287-289). -/
def hasFired (r : RouterReady) (i : Nat) : Bool := (r.redirects[i]?.map (·.fired)).getD false

/-- Running the callbacks of `ready` until one returns a Deferred that has not fired (server/router.py:267, 288). -/
def advance (fired : Nat → Bool) : List Nat → Option Nat × List Nat
  | [] => (none, [])
  | i :: rest => if fired i then advance fired rest else (some i, rest)

/-- `ready` goes on, if it does not wait (server/router.py:267, 288). -/
def settle (r : RouterReady) : RouterReady :=
  match r.waiting with
  | some _ => r
  | none => { r with waiting := (advance r.hasFired r.callbacks).1, callbacks := (advance r.hasFired r.callbacks).2 }

/-- `d.callback(None)` of redirect `i` (router.py:270, 289). -/
def fire (r : RouterReady) (i : Nat) : RouterReady :=
  if r.hasFired i then { r with alreadyCalled := r.alreadyCalled + 1 }
  else
    let r := { r with redirects := r.redirects.modify i fun d => { d with fired := true } }
    settle (if r.waiting = some i then { r with waiting := none } else r)

/-- A new redirect: its Deferred and the callback of `ready` (router.py:266-267, 287-288). -/
def add (r : RouterReady) (d : RedirectWait) : RouterReady :=
  settle { r with redirects := r.redirects ++ [d], callbacks := r.callbacks ++ [r.redirects.length] }

/-- What happens (server/router.py:261-292; protocol.py:168-177; server/router.py:101-108). -/
inductive Ev
  /-- `build_target_redirect_udp`; is the host an IP address? (router.py:261-273) -/
  | udp (isIp : Bool)
  /-- `build_target_redirect_tcp` (router.py:282-292). -/
  | tcp
  /-- The name of redirect `i` is resolved (protocol.py:173-175). -/
  | resolved (i : Nat)
  /-- The TCP redirect `i` is connected (router.py:101-108). -/
  | connected (i : Nat)
  /-- The reactor runs the callback scheduled by redirect `i`. -/
  | turn (i : Nat)
  deriving DecidableEq, Repr

/-- One event. Those that cannot happen change nothing
(server/router.py:261-292; protocol.py:168-177; server/router.py:101-108). -/
def step (r : RouterReady) : Ev → RouterReady
  -- an IP address is resolved by `__init__` (protocol.py:145-146) and again by `create` (protocol.py:173-175)
  | .udp true => ((r.add { tcp := false, armed := false }).fire r.redirects.length).fire r.redirects.length
  | .udp false => r.add { tcp := false }
  | .tcp => r.add { tcp := true }
  | .resolved i =>
    match r.redirects[i]? with
    | some d =>
      if d.tcp = false ∧ d.armed = true then
        { r with redirects := r.redirects.modify i fun d => { d with armed := false } }.fire i
      else r
    | none => r
  | .connected i =>
    match r.redirects[i]? with
    | some d =>
      if d.tcp = true ∧ d.armed = true then
        { r with redirects := r.redirects.modify i fun d => { d with armed := false, scheduled := true } }
      else r
    | none => r
  | .turn i =>
    match r.redirects[i]? with
    | some d =>
      if d.scheduled = true then
        { r with redirects := r.redirects.modify i fun d => { d with scheduled := false } }.fire i
      else r
    | none => r

/-- A history (server/router.py:165-175, 261-292). -/
def run (es : List Ev) : RouterReady := es.foldl step {}

/-- `ready` has a result and no callback left: a callback added now would run at once (server/router.py:173, 267, 288). -/
def done (r : RouterReady) : Bool := r.waiting.isNone && r.callbacks.isEmpty

end RouterReady

/-! ## The client of a UDP redirect -/

/-- `host_resolved` when the connect callback raises: `_flush_items` is not reached (protocol.py:205-214). -/
def TwistedClient.hostResolvedRaising (c : TwistedClient) (ip : Str) : TwistedClient :=
  { c with host := ip, gateway := some c.gateways.length, gateways := c.gateways ++ [({ transport := c.transport, host := ip } : Gateway)] }

/-- `TwistedStatsDClient.create` (protocol.py:150-178) up to the answer of the resolver: an IP address is resolved by the
constructor and again by `reactor.resolve`. `raises` says that the connect callback raises when it is called a second
time, as that of a redirect does (router.py:269-270). -/
def TwistedClient.create (host : Str) (isIp raises : Bool) (onConnect onDisconnect : List Msg) : TwistedClient :=
  let c := TwistedClient.init host isIp onConnect onDisconnect
  if isIp then (if raises then c.hostResolvedRaising host else c.hostResolved host) else c

end Txstatsd
