import Verif.Model.Client

/-!
# Histories of the clients
-/

namespace Txstatsd

/-- What happens to a `DataQueue`. -/
inductive QueueOp
  | write (m : Msg)
  | flush
  deriving DecidableEq, Repr

/-- The queue after some operations. -/
def DataQueue.runOps (q : DataQueue) (ops : List QueueOp) : DataQueue :=
  ops.foldl (fun q o => match o with | .write m => q.write m | .flush => q.flush.2) q

/-- The messages written since the last flush. -/
def writtenSince (ops : List QueueOp) : List Msg :=
  ops.foldl (fun acc o => match o with | .write m => acc ++ [m] | .flush => []) []

/-- What happens to a Twisted client: calls by the application and by Twisted, and turns of the reactor. -/
inductive ClientOp
  | write (m : Msg)
  | connect (transport : Option Nat)
  | disconnect
  | resolved (ip : Str)
  | turn (result : Except PyErr Nat)

/-- The client after some operations. -/
def TwistedClient.runOps (behave : Nat → Option Nat → Option PyErr) (c : TwistedClient) (ops : List ClientOp) : TwistedClient :=
  ops.foldl (fun c o => match o with
    | .write m => c.write m
    | .connect t => c.connect t
    | .disconnect => c.disconnect
    | .resolved ip => c.hostResolved ip
    | .turn r => c.turn behave r) c

/-- The link as seen from outside: is there a transport, is the host resolved, how many accepted messages are waiting for the link,
and all accepted messages. -/
structure Link where
  connected : Bool
  resolved : Bool
  waiting : Nat
  accepted : List Msg

/-- A message is accepted when the link is up, or when fewer than 1000 messages are waiting for it. -/
def Link.offer (l : Link) (m : Msg) : Link :=
  if l.connected && l.resolved then { l with accepted := l.accepted ++ [m] }
  else if l.waiting < 1000 then { l with waiting := l.waiting + 1, accepted := l.accepted ++ [m] }
  else l

/-- Nothing waits once the link is up. -/
def Link.settle (l : Link) : Link := if l.connected && l.resolved then { l with waiting := 0 } else l

/-- The link after one operation; `hello` and `bye` are what the connect and disconnect callbacks write. -/
def Link.step (hello bye : List Msg) (l : Link) : ClientOp → Link
  | .write m => l.offer m
  | .connect none => l.settle
  | .connect (some _) => { l with connected := true }.settle
  | .disconnect => { bye.foldl Link.offer l with connected := false }
  | .resolved _ => (hello.foldl Link.offer { l with resolved := true }).settle
  | .turn _ => l

/-- The link after a history; a client created with an IP address resolves it at once. -/
def linkAfter (isIp : Bool) (hello bye : List Msg) (ops : List ClientOp) : Link :=
  let l : Link := { connected := false, resolved := false, waiting := 0, accepted := [] }
  ops.foldl (Link.step hello bye) (if isIp then l.step hello bye (.resolved []) else l)

/-- Everything the application and the two callbacks wrote, in order. -/
def offered (isIp : Bool) (hello bye : List Msg) (ops : List ClientOp) : List Msg :=
  (if isIp then hello else []) ++
    ops.flatMap fun o => match o with | .write m => [m] | .disconnect => bye | .resolved _ => hello | _ => []

/-- The messages of a client: handed to a transport, scheduled on the reactor, waiting in the queue. -/
def TwistedClient.contents (c : TwistedClient) : List Msg := c.sent.map (·.msg) ++ c.reactor.map (·.2) ++ c.queue.queue

/-- The calls a completion callback should get for one datagram: the byte count, or `None` for a handled failure of the transport; and
`None` once more when the callback itself raised a handled error on the byte count. -/
def expectedCalls (behave : Nat → Option Nat → Option PyErr) (s : Sent) : List (Nat × Option Nat) :=
  match s.msg.callback, s.result with
  | none, _ => []
  | some k, .error e => if e = .overflowError ∨ e = .typeError ∨ e = .socketError then [(k, none)] else []
  | some k, .ok n =>
    match behave k (some n) with
    | some e => if e = .overflowError ∨ e = .typeError ∨ e = .socketError then [(k, some n), (k, none)] else [(k, some n)]
    | none => [(k, some n)]

/-- What happens to a plain UDP client. -/
inductive UdpOp
  | connect
  | disconnect
  | write (data : Str) (outcome : Except PyErr Nat)

/-- The plain client after some operations. -/
def UdpClient.runOps (c : UdpClient) (ops : List UdpOp) : UdpClient :=
  ops.foldl (fun c o => match o with | .connect => c.connect | .disconnect => c.disconnect | .write d r => (c.write d r).1) c

/-- The data written while connected. -/
def writtenOnline (ops : List UdpOp) : Bool × List Str :=
  ops.foldl (fun st o => match o with
    | .connect => (true, st.2)
    | .disconnect => (false, st.2)
    | .write d _ => if st.1 then (st.1, st.2 ++ [d]) else st) (false, [])

end Txstatsd
