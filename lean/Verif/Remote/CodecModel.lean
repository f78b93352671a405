import Verif.Proto.Network

/-!
# Remote codec model

Frames exchanged between nodes: the event tags, the event payloads, the error conversion, the cluster
events, the length-delimited framing and the receive loop.
-/

namespace Verif.Remote
open Verif.Proto
open Verif.Proto.Network hiding ActorRefErr
open Verif.Proto.Network (NodeIdentity ClientHandshake ClientResult ClientErr PingEvent PongEvent
  IdentifyEvent SessionHandshake MessageRequest CreateActorEvent ActorAddress FindActorEvent
  StreamPublishEvent RaftRequest)

/-- result of `read_from_bytes`: an event, `None`, or a panic (`parse_from_bytes(..).unwrap()`).
(`/repo/coerce/src/remote/net/message.rs` 82-93 and 159-167.) -/
inductive ReadRes (α : Type) where
  | ok (a : α)
  | rejected
  | panic
deriving DecidableEq, Repr

/-- `parse_from_bytes(message).unwrap()` wrapped in the constructor of the event.
(`/repo/coerce/src/remote/net/message.rs` 97-137.) -/
def parseInto {α β : Type} (mk : α → β) : Option α → ReadRes β
  | some a => .ok (mk a)
  | none => .panic

/-- `ClientEvent` (what a session writes to a client),
`/repo/coerce/src/remote/net/message.rs` 15-22. -/
inductive ClientEvent where
  | identity (e : NodeIdentity)
  | handshake (e : ClientHandshake)
  | result (e : ClientResult)
  | err (e : ClientErr)
  | ping (e : PingEvent)
  | pong (e : PongEvent)
deriving DecidableEq, Repr

/-- `SessionEvent` (what a client writes to a session),
`/repo/coerce/src/remote/net/message.rs` 24-38. -/
inductive SessionEvent where
  | identify (e : IdentifyEvent)
  | ping (e : PingEvent)
  | pong (e : PongEvent)
  | handshake (e : SessionHandshake)
  | notifyActor (e : MessageRequest)
  | createActor (e : CreateActorEvent)
  | registerActor (e : ActorAddress)
  | findActor (e : FindActorEvent)
  | streamPublish (e : StreamPublishEvent)
  | result (e : ClientResult)
  | err (e : ClientErr)
  | raft (e : RaftRequest)
deriving DecidableEq, Repr

/-- `ClientEvent::read_from_bytes`, `/repo/coerce/src/remote/net/message.rs` 55-80. The numbers are
those of `enum Event`, `/repo/coerce/src/protocol/network.proto` 20-34. -/
def ClientEvent.read : Bytes → ReadRes ClientEvent
  | [] => .rejected
  | tag :: message =>
    match tag.toNat with
    | 12 => parseInto .identity (NodeIdentity.read message)
    | 1 => parseInto .handshake (ClientHandshake.read message)
    | 2 => parseInto .result (ClientResult.read message)
    | 3 => parseInto .err (ClientErr.read message)
    | 4 => parseInto .ping (PingEvent.read message)
    | 5 => parseInto .pong (PongEvent.read message)
    | _ => .rejected

/-- `ClientEvent::write_to_bytes` and `write_event`,
`/repo/coerce/src/remote/net/message.rs` 82-93, 159-167 (serialisation itself does not fail). -/
def ClientEvent.write : ClientEvent → Option Bytes
  | .identity e => some (12 :: e.write)
  | .handshake e => some (1 :: e.write)
  | .result e => some (2 :: e.write)
  | .err e => some (3 :: e.write)
  | .ping e => some (4 :: e.write)
  | .pong e => some (5 :: e.write)

/-- `SessionEvent::read_from_bytes`, `/repo/coerce/src/remote/net/message.rs` 97-137. -/
def SessionEvent.read : Bytes → ReadRes SessionEvent
  | [] => .rejected
  | tag :: message =>
    match tag.toNat with
    | 0 => parseInto .identify (IdentifyEvent.read message)
    | 1 => parseInto .handshake (SessionHandshake.read message)
    | 4 => parseInto .ping (PingEvent.read message)
    | 5 => parseInto .pong (PongEvent.read message)
    | 6 => parseInto .createActor (CreateActorEvent.read message)
    | 7 => parseInto .findActor (FindActorEvent.read message)
    | 9 => parseInto .notifyActor (MessageRequest.read message)
    | 8 => parseInto .registerActor (ActorAddress.read message)
    | 10 => parseInto .streamPublish (StreamPublishEvent.read message)
    | 2 => parseInto .result (ClientResult.read message)
    | 3 => parseInto .err (ClientErr.read message)
    | _ => .rejected

/-- `SessionEvent::write_to_bytes`, `/repo/coerce/src/remote/net/message.rs` 139-156. -/
def SessionEvent.write : SessionEvent → Option Bytes
  | .handshake e => some (1 :: e.write)
  | .ping e => some (4 :: e.write)
  | .pong e => some (5 :: e.write)
  | .registerActor e => some (8 :: e.write)
  | .notifyActor e => some (9 :: e.write)
  | .findActor e => some (7 :: e.write)
  | .createActor e => some (6 :: e.write)
  | .streamPublish e => some (10 :: e.write)
  | .result e => some (2 :: e.write)
  | .identify e => some (0 :: e.write)
  | .err e => some (3 :: e.write)
  | .raft _ => none

/-! ### Errors -/

/-- `MessageWrapErr`, `MessageUnwrapErr`, `/repo/coerce/src/actor/message/mod.rs` 205-209, 251-255. -/
inductive WrapErr where
  | notTransmittable | serializationErr | unknown
deriving DecidableEq, Repr

/-- `MessageUnwrapErr`, `/repo/coerce/src/actor/message/mod.rs` 251-255. -/
inductive UnwrapErr where
  | notTransmittable | deserializationErr | unknown
deriving DecidableEq, Repr

/-- `ActorRefErr`, `/repo/coerce/src/actor/refs/mod.rs` 284-303. -/
inductive ActorRefErr where
  | actorUnavailable
  | notFound (actorId : String)
  | alreadyExists (actorId : String)
  | serialisation (e : WrapErr)
  | deserialisation (e : UnwrapErr)
  | timeout (timeTakenMillis : UInt64)
  | actorStartFailed
  | invalidRef
  | resultChannelClosed
  | resultSendFailed
  | notSupported (actorId messageType actorType : String)
  | notImplemented
deriving DecidableEq, Repr

/-- `ProtoWrapErr`, `ProtoUnwrapErr` numbers, `/repo/coerce/src/protocol/network.proto` 228-238. -/
def WrapErr.code : WrapErr → Int32
  | .unknown => 0 | .notTransmittable => 1 | .serializationErr => 2

/-- `ProtoUnwrapErr` numbers, `/repo/coerce/src/protocol/network.proto` 228-232. -/
def UnwrapErr.code : UnwrapErr → Int32
  | .unknown => 0 | .notTransmittable => 1 | .deserializationErr => 2

/-- `From<ActorRefErr> for proto::network::ActorRefErr`,
`/repo/coerce/src/remote/net/message.rs` 188-249. -/
def ActorRefErr.toProto : ActorRefErr → Network.ActorRefErr
  | .actorUnavailable => { errType := 0 }
  | .notFound id => { errType := 1, actorId := id }
  | .alreadyExists id => { errType := 2, actorId := id }
  | .serialisation e => { errType := 3, serializationError := e.code }
  | .deserialisation e => { errType := 4, deserializationError := e.code }
  | .timeout t => { errType := 5, timeTakenMillis := t }
  | .actorStartFailed => { errType := 6 }
  | .invalidRef => { errType := 7 }
  | .resultChannelClosed => { errType := 8 }
  | .resultSendFailed => { errType := 9 }
  | .notSupported id mt aty => { errType := 10, actorId := id, messageType := mt, actorType := aty }
  | .notImplemented => { errType := 11 }

/-- `From<proto::network::ActorRefErr> for ActorRefErr`,
`/repo/coerce/src/remote/net/message.rs` 251-290; `none` = panic in `EnumOrUnknown::unwrap`. -/
def ActorRefErr.fromProto (p : Network.ActorRefErr) : Option ActorRefErr :=
  match p.errType.toInt with
  | 0 => some .actorUnavailable
  | 1 => some (.notFound p.actorId)
  | 2 => some (.alreadyExists p.actorId)
  | 3 => match p.serializationError.toInt with
    | 1 => some (.serialisation .notTransmittable)
    | 2 => some (.serialisation .serializationErr)
    | 0 => some (.serialisation .unknown)
    | _ => none
  | 4 => match p.deserializationError.toInt with
    | 1 => some (.deserialisation .notTransmittable)
    | 2 => some (.deserialisation .deserializationErr)
    | 0 => some (.deserialisation .unknown)
    | _ => none
  | 5 => some (.timeout p.timeTakenMillis)
  | 6 => some .actorStartFailed
  | 7 => some .invalidRef
  | 8 => some .resultChannelClosed
  | 9 => some .resultSendFailed
  | 10 => some (.notSupported p.actorId p.messageType p.actorType)
  | 11 => some .notImplemented
  | _ => none

/-- the event that carries an error to another node: `notify_rpc_err`,
`/repo/coerce/src/remote/system/rpc.rs` 150-158. -/
def errEvent (messageId : String) (e : ActorRefErr) : SessionEvent :=
  .err { messageId := messageId, error := some e.toProto }

/-- what the receiving node hands to the waiting request: `SessionEvent::Err` in
`/repo/coerce/src/remote/net/server/session/mod.rs` 391-398 (`none` = panic). -/
def receivedErr : SessionEvent → Option (String × ActorRefErr)
  | .err e => (e.error.bind ActorRefErr.fromProto).map fun x => (e.messageId, x)
  | _ => none

/-! ### Nodes and cluster events -/

/-- a point in time: seconds since the epoch and nanoseconds within the second (`chrono::DateTime<Utc>`). chrono's own
limits on the year are not modelled. (Converted in `/repo/coerce/src/remote/net/message.rs` 55-80.) -/
structure Time where
  secs : Int64
  nanos : Nat
deriving DecidableEq, Repr

/-- `timestamp_subsec_nanos` is below two seconds (leap seconds included). (chrono's own bound; used in
`/repo/coerce/src/remote/net/message.rs` 55-80.) -/
def Time.Valid (t : Time) : Prop := t.nanos < 2000000000

/-- `datetime_to_timestamp`, `/repo/coerce/src/remote/net/message.rs` 169-177. -/
def Time.toTimestamp (t : Time) : Timestamp := { seconds := t.secs, nanos := Int32.ofInt t.nanos }

/-- `timestamp_to_datetime`, `/repo/coerce/src/remote/net/message.rs` 179-186: `nanos as u32`, `none` =
panic in `from_timestamp_opt(..).unwrap()` (nanoseconds of two seconds or more). -/
def Time.ofTimestamp (t : Timestamp) : Option Time :=
  let n := (t.nanos.toInt % 2 ^ 32).toNat
  if n < 2000000000 then some ⟨t.seconds, n⟩ else none

/-- `RemoteNode`, `/repo/coerce/src/remote/cluster/node.rs` 53-60. -/
structure Node where
  id : UInt64
  addr : String
  tag : String
  startedAt : Option Time
  attributes : List (String × String)
deriving DecidableEq, Repr

/-- what the types guarantee: a valid clock reading and a map with distinct keys.
(`/repo/coerce/src/remote/cluster/node.rs` 53-60.) -/
def Node.Valid (n : Node) : Prop :=
  (∀ t, n.startedAt = some t → t.Valid) ∧ MapOk n.attributes

/-- `From<&RemoteNode> for network::RemoteNode`, `/repo/coerce/src/remote/cluster/node.rs` 236-251
(219-234 is the same by value). -/
def Node.toProto (n : Node) : RemoteNode :=
  { nodeId := n.id, addr := n.addr, tag := n.tag, nodeStartedAt := n.startedAt.map Time.toTimestamp,
    attributes := n.attributes }

/-- collecting pairs into a `HashMap` (later keys win). (`/repo/coerce/src/remote/cluster/node.rs` 202-217.) -/
def collectMap (l : List (String × String)) : List (String × String) := l.foldl mapInsert []

/-- `From<network::RemoteNode> for RemoteNode`, `/repo/coerce/src/remote/cluster/node.rs` 202-217;
`none` = panic. -/
def Node.fromProto (p : RemoteNode) : Option Node :=
  match p.nodeStartedAt with
  | none => some ⟨p.nodeId, p.addr, p.tag, none, collectMap p.attributes⟩
  | some ts => (Time.ofTimestamp ts).map fun t =>
      ⟨p.nodeId, p.addr, p.tag, some t, collectMap p.attributes⟩

/-- `From<&network::NodeIdentity> for RemoteNode`, `/repo/coerce/src/remote/cluster/node.rs` 270-289. -/
def Node.fromIdentity (p : NodeIdentity) : Option Node :=
  match p.nodeStartedAt with
  | none => some ⟨p.nodeId, p.addr, p.nodeTag, none, collectMap p.attributes⟩
  | some ts => (Time.ofTimestamp ts).map fun t =>
      ⟨p.nodeId, p.addr, p.nodeTag, some t, collectMap p.attributes⟩

/-- `ClusterEvent`/`SystemEvent`, `/repo/coerce/src/remote/stream/system.rs` 16-32. -/
inductive ClusterEvent where
  | memberUp (leaderId : UInt64) (nodes : List Node)
  | nodeAdded (n : Node)
  | nodeRemoved (n : Node)
  | leaderChanged (id : UInt64)
deriving DecidableEq, Repr

/-- `SystemEvent::write_to_bytes`, `write_event`,
`/repo/coerce/src/remote/stream/system.rs` 96-155. -/
def ClusterEvent.write : ClusterEvent → Option Bytes
  | .nodeAdded n => some (0 :: (NewNodeEvent.write { node := some n.toProto }))
  | .nodeRemoved n => some (1 :: (NodeRemovedEvent.write { node := some n.toProto }))
  | .leaderChanged id => some (2 :: (LeaderChangedEvent.write { nodeId := id }))
  | .memberUp l ns => some (3 :: (MemberUpEvent.write { leaderId := l, nodes := ns.map Node.toProto }))

/-- a message that must carry a node, converted (`message.node.unwrap()` panics without one),
`/repo/coerce/src/remote/stream/system.rs` 43-57. -/
def nodeEvent (mk : Node → ClusterEvent) (n : Option RemoteNode) : ReadRes ClusterEvent :=
  parseInto mk (n.bind Node.fromProto)

/-- `SystemEvent::read_from_bytes` with the `From` conversions,
`/repo/coerce/src/remote/stream/system.rs` 43-94. -/
def ClusterEvent.read : Bytes → ReadRes ClusterEvent
  | [] => .rejected
  | tag :: message =>
    match tag.toNat with
    | 1 => match NodeRemovedEvent.read message with
      | some e => nodeEvent .nodeRemoved e.node
      | none => .panic
    | 0 => match NewNodeEvent.read message with
      | some e => nodeEvent .nodeAdded e.node
      | none => .panic
    | 2 => parseInto (fun e : LeaderChangedEvent => .leaderChanged e.nodeId)
        (LeaderChangedEvent.read message)
    | 3 => match MemberUpEvent.read message with
      | some e => parseInto (.memberUp e.leaderId) (e.nodes.mapM Node.fromProto)
      | none => .panic
    | _ => .rejected

/-! ### Framing: `tokio_util::codec::LengthDelimitedCodec` with its defaults
(`/repo/coerce/src/remote/net/server/session/mod.rs` 58-59,
`/repo/coerce/src/remote/net/client/connect.rs` 34-114): four byte big-endian length, at most 8 MiB. -/

/-- the codec's default limit, 8 MiB (`/repo/coerce/src/remote/net/server/session/mod.rs` 58-59 sets no other). -/
def maxFrame : Nat := 8 * 1024 * 1024

/-- a length as four bytes, the codec's default (`/repo/coerce/src/remote/net/server/session/mod.rs` 58-59). -/
def be32 (n : Nat) : Bytes :=
  [UInt8.ofNat (n / 2 ^ 24), UInt8.ofNat (n / 2 ^ 16), UInt8.ofNat (n / 2 ^ 8), UInt8.ofNat n]

/-- `Encoder::encode`: too large a frame is an error. (`tokio_util`, as used in
`/repo/coerce/src/remote/net/client/connect.rs` 34-114.) -/
def encodeFrame (f : Bytes) : Option Bytes :=
  if f.length ≤ maxFrame then some (be32 f.length ++ f) else none

/-- state of the decoder: unconsumed bytes, or failed. (`tokio_util`, as used in
`/repo/coerce/src/remote/net/server/session/mod.rs` 58-59.) -/
inductive Dec where
  | buf (bs : Bytes)
  | failed
deriving DecidableEq, Repr

/-- what the front of the buffer holds: nothing complete yet, a frame and the rest, or an oversized length.
(`tokio_util`, as used in `/repo/coerce/src/remote/net/server/session/mod.rs` 58-59.) -/
inductive Front where
  | more
  | frame (f rest : Bytes)
  | tooLarge
deriving DecidableEq, Repr

/-- one `Decoder::decode` call. (`tokio_util`, as used in `/repo/coerce/src/remote/net/mod.rs` 89-90.) -/
def front : Bytes → Front
  | a :: b :: c :: d :: rest =>
    let n := a.toNat * 2 ^ 24 + b.toNat * 2 ^ 16 + c.toNat * 2 ^ 8 + d.toNat
    if n > maxFrame then .tooLarge
    else if rest.length < n then .more
    else .frame (rest.take n) (rest.drop n)
  | _ => .more

theorem front_frame_length {bs f rest : Bytes} (h : front bs = .frame f rest) :
    rest.length < bs.length := by
  unfold front at h
  split at h
  · simp only [] at h
    split at h
    · cases h
    · split at h
      · cases h
      · injection h with h1 h2
        subst h2
        simp [List.length_drop]; omega
  · cases h

/-- `FramedRead::poll_next` repeated until the buffer holds no complete frame. (As used in
`/repo/coerce/src/remote/net/mod.rs` 89-90.) -/
def drain (bs : Bytes) : List Bytes × Dec :=
  match h : front bs with
  | .more => ([], .buf bs)
  | .tooLarge => ([], .failed)
  | .frame f rest =>
    have := front_frame_length h
    (f :: (drain rest).1, (drain rest).2)
termination_by bs.length

/-- bytes arriving from the socket: the frames they complete and the new decoder state. (As used in
`/repo/coerce/src/remote/net/mod.rs` 89-90.) -/
def Dec.feed : Dec → Bytes → List Bytes × Dec
  | .failed, _ => ([], .failed)
  | .buf b, chunk => drain (b ++ chunk)

/-- all frames decoded from a sequence of chunks. (As used in `/repo/coerce/src/remote/net/mod.rs` 89-90.) -/
def decodeChunks : Dec → List Bytes → List Bytes × Dec
  | d, [] => ([], d)
  | d, c :: cs =>
    let r := d.feed c
    let r' := decodeChunks r.2 cs
    (r.1 ++ r'.1, r'.2)

/-! ### The receive loop -/

/-- why the loop is not running any more. (`/repo/coerce/src/remote/net/mod.rs` 90-111.) -/
inductive LoopEnd where
  | running
  | closed
  | panicked
deriving DecidableEq, Repr

/-- `receive_loop`, `/repo/coerce/src/remote/net/mod.rs` 82-112, over the frames of a connection: decode
one frame, hand the event to the receiver, stop when the receiver asks to close; a rejected frame is
only logged; a panic ends the task. `onReceive` returns the receiver's new state and `should_close`;
receivers themselves may panic (`none`). -/
def receiveLoop {σ E : Type} (read : Bytes → ReadRes E) (onReceive : σ → E → Option (σ × Bool)) :
    σ → List Bytes → σ × LoopEnd
  | s, [] => (s, .running)
  | s, f :: fs =>
    match read f with
    | .rejected => receiveLoop read onReceive s fs
    | .panic => (s, .panicked)
    | .ok e =>
      match onReceive s e with
      | none => (s, .panicked)
      | some (s', true) => (s', .closed)
      | some (s', false) => receiveLoop read onReceive s' fs

end Verif.Remote
