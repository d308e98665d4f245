import Verif.Model.Base

/-!
# The UDP clients (protocol.py, client.py)

Transports and callbacks are opaque identifiers; what a transport or a callback does when called is an input.
-/

namespace Txstatsd

/-- A datagram with its completion callback (an identifier), as passed to `write` (protocol.py:65, 195-205). -/
structure Msg where
  data : Str
  callback : Option Nat
  deriving DecidableEq, Repr

/-! ## `DataQueue` (protocol.py:50-71) -/

/-- `DataQueue` (protocol.py:54-56). -/
structure DataQueue where
  limit : Nat
  queue : List Msg
  deriving DecidableEq, Repr

namespace DataQueue

/-- `__init__` (protocol.py:54-56). -/
def init (limit : Nat := 1000) : DataQueue := { limit := limit, queue := [] }

/-- `write` (protocol.py:58-65). -/
def write (q : DataQueue) (m : Msg) : DataQueue :=
  if q.queue.length < q.limit then { q with queue := q.queue ++ [m] } else q

/-- `flush` (protocol.py:67-71): the items, and the emptied queue. -/
def flush (q : DataQueue) : List Msg × DataQueue := (q.queue, { q with queue := [] })

end DataQueue

/-! ## `TransportGateway` (protocol.py:74-111) -/

/-- The errors caught by `_write` (protocol.py:109); `socket.gaierror` is a `socket.error`. -/
def caughtByWrite (e : PyErr) : Bool := e == .overflowError || e == .typeError || e == .socketError

/-- `_write` (protocol.py:96-111) once the transport has returned or raised: the arguments with which the callback is called, in
order, and the error that escapes. `cb r` is the error raised by the callback when called with `r`, if any. -/
def gatewayWrite (result : Except PyErr Nat) (cb : Option (Option Nat → Option PyErr)) : List (Option Nat) × Option PyErr :=
  match result with
  | .ok n =>
    match cb with
    | none => ([], none)
    | some f =>
      match f (some n) with
      | none => ([some n], none)
      | some e => if caughtByWrite e then ([some n, none], f none) else ([some n], some e)
  | .error e =>
    if caughtByWrite e then
      match cb with
      | none => ([], none)
      | some f => ([none], f none)
    else ([], some e)

/-- `TransportGateway` (protocol.py:77-85); transports are numbered. -/
structure Gateway where
  transport : Option Nat
  host : Str
  deriving DecidableEq, Repr

/-! ## `TwistedStatsDClient` (protocol.py:114-223) -/

/-- A datagram handed to a transport, and the outcome (protocol.py:106-111). -/
structure Sent where
  transport : Nat
  host : Str
  msg : Msg
  result : Except PyErr Nat
  deriving DecidableEq

/-- The client, the reactor's queue of `callFromThread` calls, and what has happened so far. Gateways are mutable objects
shared by the client and the scheduled calls: they live in `gateways`, and `gateway` and the scheduled calls are indices
(protocol.py:132-141, 95). -/
structure TwistedClient where
  host : Str
  queue : DataQueue
  transport : Option Nat
  gateway : Option Nat
  gateways : List Gateway
  /-- what `connect_callback` and `disconnect_callback` write to the client when called -/
  onConnect : List Msg
  onDisconnect : List Msg
  /-- scheduled `_write` calls, oldest first: the gateway and the message -/
  reactor : List (Nat × Msg)
  /-- datagrams handed to a transport, oldest first -/
  sent : List Sent
  /-- calls of completion callbacks, oldest first -/
  calls : List (Nat × Option Nat)
  /-- exceptions that escaped into the reactor -/
  escaped : List PyErr

namespace TwistedClient

/-- `write` (protocol.py:193-203); through the gateway it becomes `reactor.callFromThread(self._write, …)` (protocol.py:87-94). -/
def write (c : TwistedClient) (m : Msg) : TwistedClient :=
  match c.gateway, c.transport with
  | some g, some _ => { c with reactor := c.reactor ++ [(g, m)] }
  | _, _ => { c with queue := c.queue.write m }

/-- Several writes in a row (protocol.py:195-205, as in protocol.py:218-223). -/
def writeAll (c : TwistedClient) (ms : List Msg) : TwistedClient := ms.foldl write c

/-- `_flush_items` (protocol.py:216-221). -/
def flushItems (c : TwistedClient) : TwistedClient :=
  let (items, q) := c.queue.flush
  writeAll { c with queue := q } items

/-- `connect(transport)` (protocol.py:179-185). -/
def connect (c : TwistedClient) (transport : Option Nat) : TwistedClient :=
  let c := match transport with
    | none => c
    | some t =>
      let c := { c with transport := some t }
      match c.gateway with
      | none => c
      | some g => { c with gateways := c.gateways.modify g fun gw => { gw with transport := some t } }
  flushItems c

/-- `disconnect` (protocol.py:187-191). -/
def disconnect (c : TwistedClient) : TwistedClient :=
  let c := c.writeAll c.onDisconnect
  { c with transport := none }

/-- `host_resolved(ip)` (protocol.py:205-214). -/
def hostResolved (c : TwistedClient) (ip : Str) : TwistedClient :=
  let c := { c with host := ip, gateway := some c.gateways.length, gateways := c.gateways ++ [({ transport := c.transport, host := ip } : Gateway)] }
  let c := c.writeAll c.onConnect
  flushItems c

/-- `__init__` (protocol.py:117-148); `isIp` is `abstract.isIPAddress(host)`. -/
def init (host : Str) (isIp : Bool) (onConnect onDisconnect : List Msg) : TwistedClient :=
  let c : TwistedClient :=
    { host := host, queue := DataQueue.init, transport := none, gateway := none, gateways := [], onConnect := onConnect,
      onDisconnect := onDisconnect, reactor := [], sent := [], calls := [], escaped := [] }
  if isIp then c.hostResolved host else c

/-- The reactor runs the oldest scheduled call, `_write` (protocol.py:96-111). `result` is what the transport returns or raises;
`behave` says which callbacks raise on which argument. A gateway without transport raises `AttributeError`. -/
def turn (behave : Nat → Option Nat → Option PyErr) (c : TwistedClient) (result : Except PyErr Nat) : TwistedClient :=
  match c.reactor with
  | [] => c
  | (g, m) :: rest =>
    let c := { c with reactor := rest }
    match c.gateways[g]? with
    | none => { c with escaped := c.escaped ++ [.attributeError] }
    | some gw =>
      match gw.transport with
      | none => { c with escaped := c.escaped ++ [.attributeError] }
      | some t =>
        let (args, err) := gatewayWrite result (m.callback.map behave)
        { c with
          sent := c.sent ++ [⟨t, gw.host, m, result⟩]
          calls := c.calls ++ (match m.callback with | none => [] | some k => args.map fun a => (k, a))
          escaped := c.escaped ++ err.toList }

end TwistedClient

/-! ## `UdpStatsDClient` (client.py:45-90) -/

/-- `UdpStatsDClient`: the address (`none` when host or port is `None`), whether there is a socket, and the `sendto` calls made
(client.py:47-67). -/
structure UdpClient where
  address : Option (Str × Nat)
  socket : Bool
  sendtos : List (Str × Str × Nat)
  deriving DecidableEq, Repr

namespace UdpClient

/-- `__init__` (client.py:47-67). `resolve` is the outcome of `getaddrinfo(...)[0][4]`; its failures become `ValueError`. Simplification:
`getaddrinfo` raises no other error than the four that are caught. -/
def init (host : Option Str) (port : Option Nat) (resolve : Option (Str × Nat)) : Except PyErr UdpClient :=
  match host, port with
  | some _, some _ =>
    match resolve with
    | some a => .ok { address := some a, socket := false, sendtos := [] }
    | none => .error .valueError
  | _, _ => .ok { address := none, socket := false, sendtos := [] }

/-- `connect` (client.py:72-75). -/
def connect (c : UdpClient) : UdpClient := { c with socket := true }

/-- `disconnect` (client.py:77-81). -/
def disconnect (c : UdpClient) : UdpClient := { c with socket := false }

/-- `write` (client.py:83-90); `outcome` is what `sendto` returns or raises. The result is the value returned (`none` for `None`) or
the error raised. -/
def write (c : UdpClient) (data : Str) (outcome : Except PyErr Nat) : UdpClient × Except PyErr (Option Nat) :=
  match c.address, c.socket with
  | some (h, p), true =>
    let c := { c with sendtos := c.sendtos ++ [(data, h, p)] }
    match outcome with
    | .ok n => (c, .ok (some n))
    | .error e => if e = .socketError then (c, .ok none) else (c, .error e)
  | _, _ => (c, .ok none)

end UdpClient
end Txstatsd
