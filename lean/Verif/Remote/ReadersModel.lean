import Verif.Remote.AuthModel
import Verif.Remote.RpcModel

/-!
# The tasks that read a connection

At each end of a connection a task of its own reads the frames (`receive_loop`). When it ends in good order it tells the
actor the connection belongs to: the client is sent `Disconnected`, the session is stopped. Here it is followed what becomes
of that actor, and of whoever waits for replies, when the task ends by a panic.

What is simplified: a frame is read and handled at one moment; what the effects of a session's events lead to is elsewhere
(`HandlerModel`, `LocateModel`, `DeployModel`, …).
-/

namespace Verif.Remote.Readers
open Verif.Proto Verif.Proto.Network Verif.Remote

/-- How a reading task is doing: it reads; it has left its loop and `on_close` has returned; it has panicked; it waits for a
client that waits for it. What `tokio::spawn` starts can panic without anything else being affected, and nobody looks at its
handle
(`/repo/coerce/src/remote/net/server/session/mod.rs` 121-130, `/repo/coerce/src/remote/net/client/connect.rs` 85-89 and
`/repo/coerce/src/remote/net/client/mod.rs` 231); a client that connects waits for its identity and handles nothing meanwhile
(`/repo/coerce/src/remote/net/client/connect.rs` 97-106). -/
inductive Task where
  | reading | closed | dead | hung
deriving DecidableEq, Repr

/-- What the socket yields: a frame, or an error or its end, either of which ends the loop
(`/repo/coerce/src/remote/net/mod.rs` 90-111). -/
inductive Arrival where
  | frame (bs : Bytes)
  | lost
deriving DecidableEq, Repr

/-! ### The end that was connected to -/

/-- A session: its reading task, whether the actor runs and the system has been terminated, what its events have led
to, and how often `on_close` has asked it to stop. (`/repo/coerce/src/remote/net/server/session/mod.rs` 41-48, 223-253.) -/
structure SessionEnd where
  task : Task := .reading
  up : Bool := true
  down : Bool := false
  effects : List Effect := []
  stops : Nat := 0
deriving DecidableEq, Repr

/-- What happens to it: something arrives; the session actor ends, having been asked to or not; the system is shut down.
(`/repo/coerce/src/remote/net/mod.rs` 82-112, `/repo/coerce/src/remote/net/server/session/mod.rs` 133-144.) -/
inductive SessionOp where
  | arrive (a : Arrival)
  | stopped
  | terminate
deriving DecidableEq, Repr

/-- `on_receive` waits for the session to write a pong, and panics if there is no session any more.
(`/repo/coerce/src/remote/net/server/session/mod.rs` 325-355, `expect` at 353.) -/
def pongFails (σ : SessionEnd) : SessionEvent → Bool
  | .ping p => !σ.down && !p.systemTerminated && !σ.up
  | _ => false

/-- `on_receive` of one event, `/repo/coerce/src/remote/net/server/session/mod.rs` 260-408, and then `on_close` if it was
to be closed, 410-412. -/
def SessionEnd.handle (uuid : String → Bool) (σ : SessionEnd) (e : SessionEvent) : SessionEnd :=
  if pongFails σ e then { σ with task := .dead }
  else match sessionOnReceive uuid σ.down σ.effects e with
    | none => { σ with task := .dead }
    | some (l, true) => { σ with effects := l, task := .closed, stops := σ.stops + 1 }
    | some (l, false) => { σ with effects := l }

/-- the loop, `/repo/coerce/src/remote/net/mod.rs` 82-112, and `on_close`,
`/repo/coerce/src/remote/net/server/session/mod.rs` 410-412. -/
def SessionEnd.arrive (uuid : String → Bool) (σ : SessionEnd) : Arrival → SessionEnd
  | .lost => { σ with task := .closed, stops := σ.stops + 1 }
  | .frame bs => match SessionEvent.read bs with
    | .rejected => σ
    | .panic => { σ with task := .dead }
    | .ok e => σ.handle uuid e

/-- one step. A task that has ended reads nothing. (`/repo/coerce/src/remote/net/mod.rs` 82-112.) -/
def SessionEnd.step (uuid : String → Bool) (σ : SessionEnd) : SessionOp → SessionEnd
  | .arrive a => if σ.task = .reading then σ.arrive uuid a else σ
  | .stopped => { σ with up := false }
  | .terminate => { σ with down := true }

/-- any sequence of steps, `/repo/coerce/src/remote/net/mod.rs` 82-112. -/
def SessionEnd.run (uuid : String → Bool) (σ : SessionEnd) (ops : List SessionOp) : SessionEnd :=
  ops.foldl (SessionEnd.step uuid) σ

/-! ### The end that has connected -/

/-- What a client is given by its reading task: the identity of the other node with the nodes it knows and what it can do,
through a channel of its own; a handshake, with the time only if there was one (else it is the time of reading).
(`/repo/coerce/src/remote/net/client/receive.rs` 44-49, 61-108.) -/
inductive Given where
  | identity (node : Node) (peers : List Node) (capabilities : Option SystemCapabilities)
  | handshake (node : UInt64) (tag : String) (startedAt : Option Time) (known : List Node)
deriving DecidableEq, Repr

/-- The channel for the identity, which the client waits on before it is connected: not yet used, used, or dropped.
(`/repo/coerce/src/remote/net/client/receive.rs` 22-27, `/repo/coerce/src/remote/net/client/connect.rs` 55, 97-106.) -/
inductive Introduction where
  | awaited | made | dropped
deriving DecidableEq, Repr

/-- A client's end: its reading task, the introduction, the requests of this node that wait for replies (`RpcModel`), what
the client was given, and how often it has handled `Disconnected`.
(`/repo/coerce/src/remote/net/client/receive.rs` 22-27.) -/
structure ClientEnd (U W : Type) where
  task : Task := .reading
  intro : Introduction := .awaited
  rpc : Rpc U W := Rpc.init
  given : List Given := []
  told : Nat := 0

/-- What happens to it: something arrives, or something else is done to the table of requests: a request is made, or
answered by way of another connection. (`/repo/coerce/src/remote/net/mod.rs` 82-112,
`/repo/coerce/src/remote/system/rpc.rs` 193-201.) -/
inductive ClientOp (U W : Type) where
  | arrive (a : Arrival)
  | other (o : RpcOp U W)

section
variable {U W : Type} [DecidableEq U]

/-- the time in a handshake: none is no error, one that is none panics.
(`/repo/coerce/src/remote/net/client/receive.rs` 84-87.) -/
def shakenAt : Option Timestamp → Option (Option Time)
  | none => some none
  | some t => (Time.ofTimestamp t).map some

/-- the task panics; if the introduction was not made its channel is dropped with the receiver
(`/repo/coerce/src/remote/net/client/receive.rs` 22-27). -/
def ClientEnd.die (σ : ClientEnd U W) : ClientEnd U W :=
  { σ with task := .dead, intro := if σ.intro = .awaited then .dropped else σ.intro }

/-- `on_receive` of an identity, `/repo/coerce/src/remote/net/client/receive.rs` 61-77. -/
def ClientEnd.onIdentity (σ : ClientEnd U W) (e : NodeIdentity) : ClientEnd U W :=
  if σ.intro = .awaited then
    match Node.fromIdentity e, e.peers.mapM Node.fromProto with
    | some n, some ps => { σ with intro := .made, given := σ.given ++ [.identity n ps e.capabilities] }
    | _, _ => σ.die
  else σ

/-- the task sends something to the client and waits until the client has handled it, which makes of the whole what `τ`
is; a client that waits for its introduction never will. (`/repo/coerce/src/remote/net/client/receive.rs` 95-104, 158-161;
`/repo/coerce/src/remote/net/client/connect.rs` 97-106.) -/
def ClientEnd.tell (σ τ : ClientEnd U W) : ClientEnd U W :=
  if σ.intro = .awaited then { σ with task := .hung } else τ

/-- `on_receive` of a handshake, `/repo/coerce/src/remote/net/client/receive.rs` 78-108. -/
def ClientEnd.onHandshake (σ : ClientEnd U W) (e : ClientHandshake) : ClientEnd U W :=
  match shakenAt e.nodeStartedAt, (e.nodes.filter fun n => n.nodeId ≠ e.nodeId).mapM Node.fromProto with
  | some t, some ns => σ.tell { σ with given := σ.given ++ [.handshake e.nodeId e.nodeTag t ns] }
  | _, _ => σ.die

/-- an event that answers a request: the table is as `Rpc.onClientEvent` leaves it, and the task is dead if the id is not
one, or if an error that was waited for is none. (`/repo/coerce/src/remote/net/client/receive.rs` 109-156.) -/
def ClientEnd.onReply (parse : String → Option U) (σ : ClientEnd U W) (id : String) (good : Bool) (e : ClientEvent) :
    ClientEnd U W :=
  let σ' := { σ with rpc := σ.rpc.onClientEvent parse e }
  match parse id with
  | none => σ'.die
  | some u => if good || !(σ.rpc.pending.any fun p => p.1 = u) then σ' else σ'.die

/-- `ClientMessageReceiver::on_receive`, `/repo/coerce/src/remote/net/client/receive.rs` 59-157. -/
def ClientEnd.handle (parse : String → Option U) (σ : ClientEnd U W) : ClientEvent → ClientEnd U W
  | .identity e => σ.onIdentity e
  | .handshake e => σ.onHandshake e
  | .result e => σ.onReply parse e.messageId true (.result e)
  | .err e => σ.onReply parse e.messageId (e.error.bind ActorRefErr.fromProto).isSome (.err e)
  | .ping _ => σ
  | .pong e => σ.onReply parse e.messageId true (.pong e)

/-- the loop, `/repo/coerce/src/remote/net/mod.rs` 82-112, and `on_close`,
`/repo/coerce/src/remote/net/client/receive.rs` 158-161; `should_close` (178) is never set. -/
def ClientEnd.arrive (parse : String → Option U) (σ : ClientEnd U W) : Arrival → ClientEnd U W
  | .lost => σ.tell { σ with task := .closed, told := σ.told + 1 }
  | .frame bs => match ClientEvent.read bs with
    | .rejected => σ
    | .panic => σ.die
    | .ok e => σ.handle parse e

/-- one step. (`/repo/coerce/src/remote/net/mod.rs` 82-112.) -/
def ClientEnd.step (parse : String → Option U) (σ : ClientEnd U W) : ClientOp U W → ClientEnd U W
  | .arrive a => if σ.task = .reading then σ.arrive parse a else σ
  | .other o => { σ with rpc := σ.rpc.step parse o }

/-- any sequence of steps, `/repo/coerce/src/remote/net/mod.rs` 82-112. -/
def ClientEnd.run (parse : String → Option U) (σ : ClientEnd U W) (ops : List (ClientOp U W)) : ClientEnd U W :=
  ops.foldl (ClientEnd.step parse) σ

end

end Verif.Remote.Readers
