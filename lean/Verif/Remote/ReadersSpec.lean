import Verif.Remote.ReadersModel
import Verif.Remote.CodecProps

/-!
# What ends a reading task, field by field

Written from the messages of `network.proto` alone.
-/

namespace Verif.Remote.Readers
open Verif.Proto Verif.Proto.Network Verif.Remote

/-- a time that is none: its nanoseconds are negative or two seconds and more. -/
def NoTime (t : Timestamp) : Prop := t.nanos.toInt < 0 ∨ 2000000000 ≤ t.nanos.toInt

/-- a node that was started at a time that is none. -/
def NoNode (n : RemoteNode) : Prop := ∃ t, n.nodeStartedAt = some t ∧ NoTime t

/-- an error of a kind this version does not know: a kind beyond the twelve, or a failed conversion of a kind beyond
the three. -/
def NoError (x : Network.ActorRefErr) : Prop :=
  ¬ (0 ≤ x.errType.toInt ∧ x.errType.toInt ≤ 11) ∨
  (x.errType = 3 ∧ ¬ (0 ≤ x.serializationError.toInt ∧ x.serializationError.toInt ≤ 2)) ∨
  (x.errType = 4 ∧ ¬ (0 ≤ x.deserializationError.toInt ∧ x.deserializationError.toInt ≤ 2))

/-- the bytes after the first are not the message the first announces to a session. -/
inductive SessionGarbled : Bytes → Prop
  | identify (b) : IdentifyEvent.read b = none → SessionGarbled (0 :: b)
  | handshake (b) : SessionHandshake.read b = none → SessionGarbled (1 :: b)
  | result (b) : ClientResult.read b = none → SessionGarbled (2 :: b)
  | err (b) : ClientErr.read b = none → SessionGarbled (3 :: b)
  | ping (b) : PingEvent.read b = none → SessionGarbled (4 :: b)
  | pong (b) : PongEvent.read b = none → SessionGarbled (5 :: b)
  | create (b) : CreateActorEvent.read b = none → SessionGarbled (6 :: b)
  | find (b) : FindActorEvent.read b = none → SessionGarbled (7 :: b)
  | register (b) : ActorAddress.read b = none → SessionGarbled (8 :: b)
  | notify (b) : MessageRequest.read b = none → SessionGarbled (9 :: b)
  | publish (b) : StreamPublishEvent.read b = none → SessionGarbled (10 :: b)

/-- the bytes after the first are not the message the first announces to a client. -/
inductive ClientGarbled : Bytes → Prop
  | handshake (b) : ClientHandshake.read b = none → ClientGarbled (1 :: b)
  | result (b) : ClientResult.read b = none → ClientGarbled (2 :: b)
  | err (b) : ClientErr.read b = none → ClientGarbled (3 :: b)
  | ping (b) : PingEvent.read b = none → ClientGarbled (4 :: b)
  | pong (b) : PongEvent.read b = none → ClientGarbled (5 :: b)
  | identity (b) : NodeIdentity.read b = none → ClientGarbled (12 :: b)

/-- frames that end the reading task of a session. `ids` are the ids of requests. -/
inductive SessionFatal (ids : String → Prop) : Bytes → Prop
  | garbled (f) : SessionGarbled f → SessionFatal ids f
  | result (b e) : ClientResult.read b = some e → ¬ ids e.messageId → SessionFatal ids (2 :: b)
  | err (b e) : ClientErr.read b = some e → ¬ ids e.messageId → SessionFatal ids (3 :: b)
  | find (b e) : FindActorEvent.read b = some e → ¬ ids e.messageId → SessionFatal ids (7 :: b)
  | noError (b e) : ClientErr.read b = some e → (∀ x, e.error = some x → NoError x) → SessionFatal ids (3 :: b)

/-- frames that end the reading task of a client. `waiting` are the ids of requests made and not yet answered; `first` says
that the client has not been told who it is connected to. -/
inductive ClientFatal (ids waiting : String → Prop) (first : Prop) : Bytes → Prop
  | garbled (f) : ClientGarbled f → ClientFatal ids waiting first f
  | result (b e) : ClientResult.read b = some e → ¬ ids e.messageId → ClientFatal ids waiting first (2 :: b)
  | err (b e) : ClientErr.read b = some e → ¬ ids e.messageId → ClientFatal ids waiting first (3 :: b)
  | pong (b e) : PongEvent.read b = some e → ¬ ids e.messageId → ClientFatal ids waiting first (5 :: b)
  | noError (b e) : ClientErr.read b = some e → waiting e.messageId → (∀ x, e.error = some x → NoError x) →
      ClientFatal ids waiting first (3 :: b)
  | shakenTime (b e t) : ClientHandshake.read b = some e → e.nodeStartedAt = some t → NoTime t →
      ClientFatal ids waiting first (1 :: b)
  | shakenNode (b e n) : ClientHandshake.read b = some e → n ∈ e.nodes → n.nodeId ≠ e.nodeId → NoNode n →
      ClientFatal ids waiting first (1 :: b)
  | identityTime (b e t) : NodeIdentity.read b = some e → first → e.nodeStartedAt = some t → NoTime t →
      ClientFatal ids waiting first (12 :: b)
  | identityPeer (b e n) : NodeIdentity.read b = some e → first → n ∈ e.peers → NoNode n →
      ClientFatal ids waiting first (12 :: b)

/-- what the client of a node of this version writes to a session: ids of requests where an id belongs, and errors this
version knows. -/
def OwnSession (ids : String → Prop) : SessionEvent → Prop
  | .findActor e => ids e.messageId
  | .result e => ids e.messageId
  | .err e => ids e.messageId ∧ ∃ x : ActorRefErr, e.error = some x.toProto
  | _ => True

/-- a time as it comes from a clock. -/
def OwnTime (t : Option Timestamp) : Prop := ∀ x, t = some x → ∃ y : Time, y.Valid ∧ x = y.toTimestamp

/-- what a session of a node of this version writes to a client: ids of requests, errors it knows, times from clocks. -/
def OwnClient (ids : String → Prop) : ClientEvent → Prop
  | .result e => ids e.messageId
  | .err e => ids e.messageId ∧ ∃ x : ActorRefErr, e.error = some x.toProto
  | .pong e => ids e.messageId
  | .handshake e => OwnTime e.nodeStartedAt ∧ ∀ n ∈ e.nodes, OwnTime n.nodeStartedAt
  | .identity e => OwnTime e.nodeStartedAt ∧ ∀ n ∈ e.peers, OwnTime n.nodeStartedAt
  | .ping _ => True

/-- what else is done to the table of requests. -/
def others {U W : Type} (ops : List (ClientOp U W)) : List (RpcOp U W) :=
  ops.filterMap fun | .other o => some o | .arrive _ => none

/-- The property in full, for sessions: a task that no longer reads has asked its session to stop, or there is no session. -/
def Known (σ : SessionEnd) : Prop := σ.task = .reading ∨ σ.stops = 1 ∨ σ.up = false

end Verif.Remote.Readers
