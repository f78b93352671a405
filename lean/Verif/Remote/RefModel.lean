import Verif.Remote.HandlerModel
import Verif.Remote.ConfigModel
import Verif.Remote.RpcModel

/-!
# Sending through an `ActorRef`

`ActorRef::send` and `notify` do the same thing for a local and for a remote actor, seen from the caller. Here the
two ways are written out: the local one into the mailbox, the remote one through the request table, the frame, the
handler registry of the other node, the actor's mailbox there, the reply frame and back.
-/

namespace Verif.Remote
open Verif.Proto Verif.Proto.Network

/-- The trait `Message` for one message type with result type `R`, `/repo/coerce/src/actor/message/mod.rs` 61-104:
`as_bytes`, `from_bytes`, `write_remote_result`, `read_remote_result`. -/
structure MsgType (M R : Type) where
  asBytes : M → Except WrapErr Bytes
  fromBytes : Bytes → Except UnwrapErr M
  writeResult : R → Except WrapErr Bytes
  readResult : Bytes → Except UnwrapErr R

/-- A running actor as its senders see it: whether its mailbox accepts messages, and what comes back for a message
accepted (`none`: the result channel is dropped, because the actor stops or its handler panics).
(`/repo/coerce/src/actor/refs/mod.rs` 382-416 and 461-475.) -/
structure Target (M R : Type) where
  isOpen : Bool
  handle : M → Option R

section
variable {M R U W : Type} [DecidableEq U]

/-- `LocalActorRef::send`, `/repo/coerce/src/actor/refs/mod.rs` 382-416: what is put into the mailbox and what the
caller gets. -/
def localSend (t : Target M R) (m : M) : List M × Except ActorRefErr R :=
  if t.isOpen then
    match t.handle m with
    | some r => ([m], .ok r)
    | none => ([m], .error .resultChannelClosed)
  else ([], .error .invalidRef)

/-- `LocalActorRef::notify`, `/repo/coerce/src/actor/refs/mod.rs` 461-475. -/
def localNotify (t : Target M R) (m : M) : List M × Except ActorRefErr Unit :=
  if t.isOpen then ([m], .ok ()) else ([], .error .invalidRef)

/-- The node a caller runs on. `print`, `parse`: `Uuid::to_string` and `Uuid::from_str`; `actorName`, `messageName`:
`type_name` of the types, for error texts. (`/repo/coerce/src/remote/actor_ref.rs` 101-131;
`/repo/coerce/src/remote/system/actor.rs` 243-276.) -/
structure NodeEnv (U : Type) where
  self : UInt64
  cfg : Config
  print : U → String
  parse : String → Option U
  actorName : Nat → String
  messageName : Nat → String

/-- `create_header`, `/repo/coerce/src/remote/system/actor.rs` 247-276: the handler name. -/
def createHeader (n : NodeEnv U) (a m : Nat) (id : String) : Except ActorRefErr String :=
  match n.cfg.handlerName a m with
  | some h => .ok h
  | none => .error (.notSupported id (n.messageName m) (n.actorName a))

/-- `create_request`, `/repo/coerce/src/remote/actor_ref.rs` 101-131; the envelope is always `Envelope::Remote` here. -/
def createRequest (n : NodeEnv U) (a m : Nat) (id : String) (bs : Bytes) (u : U) (wants : Bool) :
    Except ActorRefErr SessionEvent :=
  match createHeader n a m id with
  | .error e => .error e
  | .ok h => .ok (.notifyActor { messageId := n.print u, handlerType := h, actorId := id, message := bs,
                                 requiresResponse := wants, originNodeId := n.self })

/-- `ActorRef::send` to a remote actor up to the point where it waits, `/repo/coerce/src/actor/refs/mod.rs` 135-138 and
`/repo/coerce/src/remote/actor_ref.rs` 70-84: the request table afterwards and the event for the other node, or the
error returned at once. `u` is the new id, `w` the caller. -/
def remoteSend (n : NodeEnv U) (mt : MsgType M R) (a m : Nat) (id : String) (msg : M) (u : U) (w : W)
    (σ : Rpc U W) : Rpc U W × Except ActorRefErr SessionEvent :=
  match mt.asBytes msg with
  | .error e => (σ, .error (.serialisation e))
  | .ok bs => (σ.push u w, createRequest n a m id bs u true)

/-- `ActorRef::notify` to a remote actor, `/repo/coerce/src/actor/refs/mod.rs` 150-153 and
`/repo/coerce/src/remote/actor_ref.rs` 52-68. -/
def remoteNotify (n : NodeEnv U) (mt : MsgType M R) (a m : Nat) (id : String) (msg : M) (u : U) :
    Except ActorRefErr SessionEvent :=
  match mt.asBytes msg with
  | .error e => .error (.serialisation e)
  | .ok bs => createRequest n a m id bs u false

/-- what the caller of `send` returns once the answer is there, `/repo/coerce/src/remote/actor_ref.rs` 85-98. -/
def readAnswer (mt : MsgType M R) : Answer → Except ActorRefErr R
  | .ok bs => match mt.readResult bs with
    | .ok r => .ok r
    | .error e => .error (.deserialisation e)
  | .closed => .error .resultChannelClosed
  | .err e => .error e

/-- The behaviour behind a registered handler: decode with the message type, send to the local actor, encode the
result (`/repo/coerce/src/remote/handler.rs` 247-306). -/
def behavOf (mt : MsgType M R) : Behav (Target M R) M R where
  decode := mt.fromBytes
  send t m := (localSend t m).2
  encode := mt.writeResult

/-- The node with the actor: its registry, the message types of its handlers and what its nine lookups give.
(`/repo/coerce/src/remote/handler.rs` 220-240 and 308-371.) -/
structure Host (M R : Type) where
  self : UInt64
  cfg : Config
  types : Nat × Nat → MsgType M R
  find : String → Nat → Option (Target M R)

/-- `Uuid` parsing followed by printing. (`/repo/coerce/src/remote/net/server/session/mod.rs` 527-564.) -/
def NodeEnv.norm (n : NodeEnv U) (s : String) : Option String := (n.parse s).map n.print

/-- `message_handler`, `/repo/coerce/src/remote/config/mod.rs` 40-93: the handler for a name. -/
def Host.handlers (h : Host M R) (name : String) : Option (Behav (Target M R) M R) :=
  (h.cfg.messageHandler name).map fun am => behavOf (h.types am)

/-- A frame arrives at a session of the other node: `SessionEvent::NotifyActor`,
`/repo/coerce/src/remote/net/server/session/mod.rs` 316-323, 527-564. What is put into which actor's mailbox, and the
replies. -/
def Host.receive (n : NodeEnv U) (h : Host M R) (frame : Bytes) : List M × List Reply :=
  match SessionEvent.read frame with
  | .ok (.notifyActor r) =>
    ((match h.handlers r.handlerType with
      | some b => (handleAttempt b (h.find r.actorId) r.actorId r.message 1).delivered.flatMap
          fun p => (localSend p.1 p.2).1
      | none => []),
     sessionHandleMessage n.norm h.self h.handlers (h.find r.actorId) r)
  | _ => ([], [])

/-- A reply travels back and is handled by the caller's node: on the client's connection
(`/repo/coerce/src/remote/net/client/receive.rs` 109-154) or on a connection of the other node
(`/repo/coerce/src/remote/net/server/session/mod.rs` 376-406). -/
def NodeEnv.reply (n : NodeEnv U) (σ : Rpc U W) : Reply → Rpc U W
  | .onSession e => match e.write.map ClientEvent.read with
    | some (.ok e') => σ.onClientEvent n.parse e'
    | _ => σ
  | .toNode node e => if node = n.self then
      match e.write.map SessionEvent.read with
      | some (.ok e') => σ.onSessionEvent n.parse e'
      | _ => σ
    else σ
  | _ => σ

/-- The whole exchange for one `send`, with no other traffic in between: the mailbox contents added, the request table
afterwards, and the error if `send` returned at once. (`/repo/coerce/src/remote/actor_ref.rs` 70-99,
`/repo/coerce/src/remote/net/server/session/mod.rs` 527-564.) -/
def exchange (n : NodeEnv U) (h : Host M R) (mt : MsgType M R) (a m : Nat) (id : String) (msg : M) (u : U) (w : W)
    (σ : Rpc U W) : List M × Rpc U W × Option ActorRefErr :=
  match remoteSend n mt a m id msg u w σ with
  | (σ', .error e) => ([], σ', some e)
  | (σ', .ok ev) => match ev.write with
    | none => ([], σ', none)
    | some frame =>
      let r := h.receive n frame
      (r.1, r.2.foldl n.reply σ', none)

/-- The same for a `notify`: mailbox contents added, result of the call. (`/repo/coerce/src/remote/actor_ref.rs`
52-68, `/repo/coerce/src/remote/net/server/session/mod.rs` 527-564.) -/
def exchangeNotify (n : NodeEnv U) (h : Host M R) (mt : MsgType M R) (a m : Nat) (id : String) (msg : M) (u : U) :
    List M × Except ActorRefErr Unit :=
  match remoteNotify n mt a m id msg u with
  | .error e => ([], .error e)
  | .ok ev => match ev.write with
    | none => ([], .ok ())
    | some frame => ((h.receive n frame).1, .ok ())

end

end Verif.Remote
