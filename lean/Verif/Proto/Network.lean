import Verif.Proto.Msg

/-!
# Generated messages of `/repo/coerce/src/protocol/network.proto`

One structure per message with `fields` (what the generated `write_to_with_cached_sizes` emits),
`write`, `merge` (one round of the generated `merge_from` loop) and `read` (`parse_from_bytes`, `none`
= error). Enum fields are the raw `i32` (`EnumOrUnknown`). Unknown fields are skipped; the generated
code keeps them in `special_fields`, which nothing in the repository reads. A sub-message that occurs
twice replaces the first one.
-/

namespace Verif.Proto.Network
open Verif.Proto

/-- `google.protobuf.Timestamp` (rust-protobuf well known type; `int64 seconds = 1; int32 nanos = 2`). (Used in
`/repo/coerce/src/protocol/network.proto` 13-84.) -/
structure Timestamp where
  seconds : Int64 := 0
  nanos : Int32 := 0
deriving DecidableEq, Repr, Inhabited

/-- fields in the order of their numbers. (Used in `/repo/coerce/src/protocol/network.proto` 13-84.) -/
def Timestamp.fields (m : Timestamp) : List Field :=
  fInt64 1 m.seconds.toInt ++
  fEnum 2 m.nanos

/-- all of them, one after the other (used in `/repo/coerce/src/protocol/network.proto` 13-84). -/
def Timestamp.write (m : Timestamp) : Bytes := encodeFields m.fields

/-- one field of the `merge_from` loop. (Used in `/repo/coerce/src/protocol/network.proto` 13-84.) -/
def Timestamp.merge (m : Timestamp) : Field → Option Timestamp
  | (1, .varint n) => some { m with seconds := Int64.ofInt (toInt64 n) }
  | (2, .varint n) => some { m with nanos := readEnum n }
  | _ => some m

/-- `parse_from_bytes`. (Used in `/repo/coerce/src/protocol/network.proto` 13-84.) -/
def Timestamp.read (bs : Bytes) : Option Timestamp :=
  (parseFields bs).bind fun fs => fs.foldlM Timestamp.merge {}

/-- `google.protobuf.UInt64Value` (rust-protobuf well known type; `uint64 value = 1`). (Used in
`/repo/coerce/src/protocol/network.proto` 142.) -/
structure UInt64Value where
  value : UInt64 := 0
deriving DecidableEq, Repr, Inhabited

/-- fields in the order of their numbers. (Used in `/repo/coerce/src/protocol/network.proto` 142.) -/
def UInt64Value.fields (m : UInt64Value) : List Field :=
  fVarint 1 m.value.toNat

/-- all of them, one after the other (used in `/repo/coerce/src/protocol/network.proto` 142). -/
def UInt64Value.write (m : UInt64Value) : Bytes := encodeFields m.fields

/-- one field of the `merge_from` loop. (Used in `/repo/coerce/src/protocol/network.proto` 142.) -/
def UInt64Value.merge (m : UInt64Value) : Field → Option UInt64Value
  | (1, .varint n) => some { m with value := UInt64.ofNat n }
  | _ => some m

/-- `parse_from_bytes`. (Used in `/repo/coerce/src/protocol/network.proto` 142.) -/
def UInt64Value.read (bs : Bytes) : Option UInt64Value :=
  (parseFields bs).bind fun fs => fs.foldlM UInt64Value.merge {}

/-- `/repo/coerce/src/protocol/network.proto` 8-18. -/
structure RemoteNode where
  nodeId : UInt64 := 0
  addr : String := ""
  nodeStartedAt : Option Timestamp := none
  tag : String := ""
  attributes : List (String × String) := []
deriving DecidableEq, Repr, Inhabited

/-- generated `write_to_with_cached_sizes`, `/repo/coerce/src/remote/net/proto/network.rs` 167-191. -/
def RemoteNode.fields (m : RemoteNode) : List Field :=
  fVarint 1 m.nodeId.toNat ++
  fString 2 m.addr ++
  fMsg 3 (m.nodeStartedAt.map Timestamp.write) ++
  fString 4 m.tag ++
  fRepeated 5 (m.attributes.map mapEntry)

/-- all of them, one after the other, `/repo/coerce/src/remote/net/proto/network.rs` 167-191. -/
def RemoteNode.write (m : RemoteNode) : Bytes := encodeFields m.fields

/-- generated `merge_from`, one field, `/repo/coerce/src/remote/net/proto/network.rs` 101-137. -/
def RemoteNode.merge (m : RemoteNode) : Field → Option RemoteNode
  | (1, .varint n) => some { m with nodeId := UInt64.ofNat n }
  | (2, .len b) => (bytesStr b).map fun x => { m with addr := x }
  | (3, .len b) => (Timestamp.read b).map fun x => { m with nodeStartedAt := some x }
  | (4, .len b) => (bytesStr b).map fun x => { m with tag := x }
  | (5, .len b) => (readMapEntry b).map fun kv => { m with attributes := mapInsert m.attributes kv }
  | _ => some m

/-- `parse_from_bytes`. (The loop: `/repo/coerce/src/remote/net/proto/network.rs` 101-137.) -/
def RemoteNode.read (bs : Bytes) : Option RemoteNode :=
  (parseFields bs).bind fun fs => fs.foldlM RemoteNode.merge {}

/-- keys of the map fields are distinct, as in any `HashMap`. (`/repo/coerce/src/protocol/network.proto` 8-18.) -/
def RemoteNode.Ok (m : RemoteNode) : Prop := MapOk m.attributes

/-- `/repo/coerce/src/protocol/network.proto` 41-47. -/
structure IdentifyEvent where
  sourceNodeId : UInt64 := 0
  sourceNodeTag : String := ""
  token : String := ""
deriving DecidableEq, Repr, Inhabited

/-- generated `write_to_with_cached_sizes`, `/repo/coerce/src/remote/net/proto/network.rs` 334-346. -/
def IdentifyEvent.fields (m : IdentifyEvent) : List Field :=
  fVarint 1 m.sourceNodeId.toNat ++
  fString 2 m.sourceNodeTag ++
  fString 3 m.token

/-- all of them, one after the other, `/repo/coerce/src/remote/net/proto/network.rs` 334-346. -/
def IdentifyEvent.write (m : IdentifyEvent) : Bytes := encodeFields m.fields

/-- generated `merge_from`, one field, `/repo/coerce/src/remote/net/proto/network.rs` 296-314. -/
def IdentifyEvent.merge (m : IdentifyEvent) : Field → Option IdentifyEvent
  | (1, .varint n) => some { m with sourceNodeId := UInt64.ofNat n }
  | (2, .len b) => (bytesStr b).map fun x => { m with sourceNodeTag := x }
  | (3, .len b) => (bytesStr b).map fun x => { m with token := x }
  | _ => some m

/-- `parse_from_bytes`. (The loop: `/repo/coerce/src/remote/net/proto/network.rs` 296-314.) -/
def IdentifyEvent.read (bs : Bytes) : Option IdentifyEvent :=
  (parseFields bs).bind fun fs => fs.foldlM IdentifyEvent.merge {}

/-- `/repo/coerce/src/protocol/network.proto` 69-73. -/
structure SystemCapabilities where
  actors : List String := []
  messages : List String := []
deriving DecidableEq, Repr, Inhabited

/-- generated `write_to_with_cached_sizes`, `/repo/coerce/src/remote/net/proto/network.rs` 758-767. -/
def SystemCapabilities.fields (m : SystemCapabilities) : List Field :=
  fRepeated 1 (m.actors.map strBytes) ++
  fRepeated 2 (m.messages.map strBytes)

/-- all of them, one after the other, `/repo/coerce/src/remote/net/proto/network.rs` 758-767. -/
def SystemCapabilities.write (m : SystemCapabilities) : Bytes := encodeFields m.fields

/-- generated `merge_from`, one field, `/repo/coerce/src/remote/net/proto/network.rs` 726-741. -/
def SystemCapabilities.merge (m : SystemCapabilities) : Field → Option SystemCapabilities
  | (1, .len b) => (bytesStr b).map fun x => { m with actors := m.actors ++ [x] }
  | (2, .len b) => (bytesStr b).map fun x => { m with messages := m.messages ++ [x] }
  | _ => some m

/-- `parse_from_bytes`. (The loop: `/repo/coerce/src/remote/net/proto/network.rs` 726-741.) -/
def SystemCapabilities.read (bs : Bytes) : Option SystemCapabilities :=
  (parseFields bs).bind fun fs => fs.foldlM SystemCapabilities.merge {}

/-- `/repo/coerce/src/protocol/network.proto` 49-67. -/
structure NodeIdentity where
  nodeId : UInt64 := 0
  nodeTag : String := ""
  addr : String := ""
  applicationVersion : String := ""
  protocolVersion : String := ""
  nodeStartedAt : Option Timestamp := none
  peers : List RemoteNode := []
  capabilities : Option SystemCapabilities := none
  attributes : List (String × String) := []
deriving DecidableEq, Repr, Inhabited

/-- generated `write_to_with_cached_sizes`, `/repo/coerce/src/remote/net/proto/network.rs` 588-624. -/
def NodeIdentity.fields (m : NodeIdentity) : List Field :=
  fVarint 1 m.nodeId.toNat ++
  fString 2 m.nodeTag ++
  fString 3 m.addr ++
  fString 4 m.applicationVersion ++
  fString 5 m.protocolVersion ++
  fMsg 6 (m.nodeStartedAt.map Timestamp.write) ++
  fRepeated 7 (m.peers.map RemoteNode.write) ++
  fMsg 8 (m.capabilities.map SystemCapabilities.write) ++
  fRepeated 9 (m.attributes.map mapEntry)

/-- all of them, one after the other, `/repo/coerce/src/remote/net/proto/network.rs` 588-624. -/
def NodeIdentity.write (m : NodeIdentity) : Bytes := encodeFields m.fields

/-- generated `merge_from`, one field, `/repo/coerce/src/remote/net/proto/network.rs` 496-544. -/
def NodeIdentity.merge (m : NodeIdentity) : Field → Option NodeIdentity
  | (1, .varint n) => some { m with nodeId := UInt64.ofNat n }
  | (2, .len b) => (bytesStr b).map fun x => { m with nodeTag := x }
  | (3, .len b) => (bytesStr b).map fun x => { m with addr := x }
  | (4, .len b) => (bytesStr b).map fun x => { m with applicationVersion := x }
  | (5, .len b) => (bytesStr b).map fun x => { m with protocolVersion := x }
  | (6, .len b) => (Timestamp.read b).map fun x => { m with nodeStartedAt := some x }
  | (7, .len b) => (RemoteNode.read b).map fun x => { m with peers := m.peers ++ [x] }
  | (8, .len b) => (SystemCapabilities.read b).map fun x => { m with capabilities := some x }
  | (9, .len b) => (readMapEntry b).map fun kv => { m with attributes := mapInsert m.attributes kv }
  | _ => some m

/-- `parse_from_bytes`. (The loop: `/repo/coerce/src/remote/net/proto/network.rs` 496-544.) -/
def NodeIdentity.read (bs : Bytes) : Option NodeIdentity :=
  (parseFields bs).bind fun fs => fs.foldlM NodeIdentity.merge {}

/-- keys of the map fields are distinct, as in any `HashMap`. (`/repo/coerce/src/protocol/network.proto` 49-67.) -/
def NodeIdentity.Ok (m : NodeIdentity) : Prop := (∀ x ∈ m.peers, x.Ok) ∧ MapOk m.attributes

/-- `/repo/coerce/src/protocol/network.proto` 75-85. -/
structure ClientHandshake where
  nodeId : UInt64 := 0
  nodes : List RemoteNode := []
  nodeTag : String := ""
  traceId : String := ""
  nodeStartedAt : Option Timestamp := none
deriving DecidableEq, Repr, Inhabited

/-- generated `write_to_with_cached_sizes`, `/repo/coerce/src/remote/net/proto/network.rs` 939-957. -/
def ClientHandshake.fields (m : ClientHandshake) : List Field :=
  fVarint 1 m.nodeId.toNat ++
  fRepeated 2 (m.nodes.map RemoteNode.write) ++
  fString 3 m.nodeTag ++
  fString 4 m.traceId ++
  fMsg 5 (m.nodeStartedAt.map Timestamp.write)

/-- all of them, one after the other, `/repo/coerce/src/remote/net/proto/network.rs` 939-957. -/
def ClientHandshake.write (m : ClientHandshake) : Bytes := encodeFields m.fields

/-- generated `merge_from`, one field, `/repo/coerce/src/remote/net/proto/network.rs` 887-911. -/
def ClientHandshake.merge (m : ClientHandshake) : Field → Option ClientHandshake
  | (1, .varint n) => some { m with nodeId := UInt64.ofNat n }
  | (2, .len b) => (RemoteNode.read b).map fun x => { m with nodes := m.nodes ++ [x] }
  | (3, .len b) => (bytesStr b).map fun x => { m with nodeTag := x }
  | (4, .len b) => (bytesStr b).map fun x => { m with traceId := x }
  | (5, .len b) => (Timestamp.read b).map fun x => { m with nodeStartedAt := some x }
  | _ => some m

/-- `parse_from_bytes`. (The loop: `/repo/coerce/src/remote/net/proto/network.rs` 887-911.) -/
def ClientHandshake.read (bs : Bytes) : Option ClientHandshake :=
  (parseFields bs).bind fun fs => fs.foldlM ClientHandshake.merge {}

/-- keys of the map fields are distinct, as in any `HashMap`. (`/repo/coerce/src/protocol/network.proto` 75-85.) -/
def ClientHandshake.Ok (m : ClientHandshake) : Prop := (∀ x ∈ m.nodes, x.Ok)

/-- `/repo/coerce/src/protocol/network.proto` 87-93. -/
structure ClientResult where
  messageId : String := ""
  result : Bytes := []
  traceId : String := ""
deriving DecidableEq, Repr, Inhabited

/-- generated `write_to_with_cached_sizes`, `/repo/coerce/src/remote/net/proto/network.rs` 1107-1119. -/
def ClientResult.fields (m : ClientResult) : List Field :=
  fString 1 m.messageId ++
  fBytes 2 m.result ++
  fString 3 m.traceId

/-- all of them, one after the other, `/repo/coerce/src/remote/net/proto/network.rs` 1107-1119. -/
def ClientResult.write (m : ClientResult) : Bytes := encodeFields m.fields

/-- generated `merge_from`, one field, `/repo/coerce/src/remote/net/proto/network.rs` 1069-1087. -/
def ClientResult.merge (m : ClientResult) : Field → Option ClientResult
  | (1, .len b) => (bytesStr b).map fun x => { m with messageId := x }
  | (2, .len b) => some { m with result := b }
  | (3, .len b) => (bytesStr b).map fun x => { m with traceId := x }
  | _ => some m

/-- `parse_from_bytes`. (The loop: `/repo/coerce/src/remote/net/proto/network.rs` 1069-1087.) -/
def ClientResult.read (bs : Bytes) : Option ClientResult :=
  (parseFields bs).bind fun fs => fs.foldlM ClientResult.merge {}

/-- `/repo/coerce/src/protocol/network.proto` 103-111. -/
structure PingEvent where
  messageId : String := ""
  traceId : String := ""
  nodeId : UInt64 := 0
  systemTerminated : Bool := false
deriving DecidableEq, Repr, Inhabited

/-- generated `write_to_with_cached_sizes`, `/repo/coerce/src/remote/net/proto/network.rs` 1437-1452. -/
def PingEvent.fields (m : PingEvent) : List Field :=
  fString 1 m.messageId ++
  fString 2 m.traceId ++
  fVarint 3 m.nodeId.toNat ++
  fBool 4 m.systemTerminated

/-- all of them, one after the other, `/repo/coerce/src/remote/net/proto/network.rs` 1437-1452. -/
def PingEvent.write (m : PingEvent) : Bytes := encodeFields m.fields

/-- generated `merge_from`, one field, `/repo/coerce/src/remote/net/proto/network.rs` 1393-1414. -/
def PingEvent.merge (m : PingEvent) : Field → Option PingEvent
  | (1, .len b) => (bytesStr b).map fun x => { m with messageId := x }
  | (2, .len b) => (bytesStr b).map fun x => { m with traceId := x }
  | (3, .varint n) => some { m with nodeId := UInt64.ofNat n }
  | (4, .varint n) => some { m with systemTerminated := n ≠ 0 }
  | _ => some m

/-- `parse_from_bytes`. (The loop: `/repo/coerce/src/remote/net/proto/network.rs` 1393-1414.) -/
def PingEvent.read (bs : Bytes) : Option PingEvent :=
  (parseFields bs).bind fun fs => fs.foldlM PingEvent.merge {}

/-- `/repo/coerce/src/protocol/network.proto` 113-117. -/
structure PongEvent where
  messageId : String := ""
  traceId : String := ""
deriving DecidableEq, Repr, Inhabited

/-- generated `write_to_with_cached_sizes`, `/repo/coerce/src/remote/net/proto/network.rs` 1587-1596. -/
def PongEvent.fields (m : PongEvent) : List Field :=
  fString 1 m.messageId ++
  fString 2 m.traceId

/-- all of them, one after the other, `/repo/coerce/src/remote/net/proto/network.rs` 1587-1596. -/
def PongEvent.write (m : PongEvent) : Bytes := encodeFields m.fields

/-- generated `merge_from`, one field, `/repo/coerce/src/remote/net/proto/network.rs` 1555-1570. -/
def PongEvent.merge (m : PongEvent) : Field → Option PongEvent
  | (1, .len b) => (bytesStr b).map fun x => { m with messageId := x }
  | (2, .len b) => (bytesStr b).map fun x => { m with traceId := x }
  | _ => some m

/-- `parse_from_bytes`. (The loop: `/repo/coerce/src/remote/net/proto/network.rs` 1555-1570.) -/
def PongEvent.read (bs : Bytes) : Option PongEvent :=
  (parseFields bs).bind fun fs => fs.foldlM PongEvent.merge {}

/-- `/repo/coerce/src/protocol/network.proto` 119-129. -/
structure CreateActorEvent where
  messageId : String := ""
  actorId : String := ""
  actorType : String := ""
  recipe : Bytes := []
  traceId : String := ""
deriving DecidableEq, Repr, Inhabited

/-- generated `write_to_with_cached_sizes`, `/repo/coerce/src/remote/net/proto/network.rs` 1766-1784. -/
def CreateActorEvent.fields (m : CreateActorEvent) : List Field :=
  fString 1 m.messageId ++
  fString 2 m.actorId ++
  fString 3 m.actorType ++
  fBytes 4 m.recipe ++
  fString 5 m.traceId

/-- all of them, one after the other, `/repo/coerce/src/remote/net/proto/network.rs` 1766-1784. -/
def CreateActorEvent.write (m : CreateActorEvent) : Bytes := encodeFields m.fields

/-- generated `merge_from`, one field, `/repo/coerce/src/remote/net/proto/network.rs` 1716-1740. -/
def CreateActorEvent.merge (m : CreateActorEvent) : Field → Option CreateActorEvent
  | (1, .len b) => (bytesStr b).map fun x => { m with messageId := x }
  | (2, .len b) => (bytesStr b).map fun x => { m with actorId := x }
  | (3, .len b) => (bytesStr b).map fun x => { m with actorType := x }
  | (4, .len b) => some { m with recipe := b }
  | (5, .len b) => (bytesStr b).map fun x => { m with traceId := x }
  | _ => some m

/-- `parse_from_bytes`. (The loop: `/repo/coerce/src/remote/net/proto/network.rs` 1716-1740.) -/
def CreateActorEvent.read (bs : Bytes) : Option CreateActorEvent :=
  (parseFields bs).bind fun fs => fs.foldlM CreateActorEvent.merge {}

/-- `/repo/coerce/src/protocol/network.proto` 131-137. -/
structure FindActorEvent where
  messageId : String := ""
  actorId : String := ""
  traceId : String := ""
deriving DecidableEq, Repr, Inhabited

/-- generated `write_to_with_cached_sizes`, `/repo/coerce/src/remote/net/proto/network.rs` 1934-1946. -/
def FindActorEvent.fields (m : FindActorEvent) : List Field :=
  fString 1 m.messageId ++
  fString 2 m.actorId ++
  fString 3 m.traceId

/-- all of them, one after the other, `/repo/coerce/src/remote/net/proto/network.rs` 1934-1946. -/
def FindActorEvent.write (m : FindActorEvent) : Bytes := encodeFields m.fields

/-- generated `merge_from`, one field, `/repo/coerce/src/remote/net/proto/network.rs` 1896-1914. -/
def FindActorEvent.merge (m : FindActorEvent) : Field → Option FindActorEvent
  | (1, .len b) => (bytesStr b).map fun x => { m with messageId := x }
  | (2, .len b) => (bytesStr b).map fun x => { m with actorId := x }
  | (3, .len b) => (bytesStr b).map fun x => { m with traceId := x }
  | _ => some m

/-- `parse_from_bytes`. (The loop: `/repo/coerce/src/remote/net/proto/network.rs` 1896-1914.) -/
def FindActorEvent.read (bs : Bytes) : Option FindActorEvent :=
  (parseFields bs).bind fun fs => fs.foldlM FindActorEvent.merge {}

/-- `/repo/coerce/src/protocol/network.proto` 139-145. -/
structure ActorAddress where
  actorId : String := ""
  nodeId : Option UInt64Value := none
  traceId : String := ""
deriving DecidableEq, Repr, Inhabited

/-- generated `write_to_with_cached_sizes`, `/repo/coerce/src/remote/net/proto/network.rs` 2093-2105. -/
def ActorAddress.fields (m : ActorAddress) : List Field :=
  fString 1 m.actorId ++
  fMsg 2 (m.nodeId.map UInt64Value.write) ++
  fString 3 m.traceId

/-- all of them, one after the other, `/repo/coerce/src/remote/net/proto/network.rs` 2093-2105. -/
def ActorAddress.write (m : ActorAddress) : Bytes := encodeFields m.fields

/-- generated `merge_from`, one field, `/repo/coerce/src/remote/net/proto/network.rs` 2054-2072. -/
def ActorAddress.merge (m : ActorAddress) : Field → Option ActorAddress
  | (1, .len b) => (bytesStr b).map fun x => { m with actorId := x }
  | (2, .len b) => (UInt64Value.read b).map fun x => { m with nodeId := some x }
  | (3, .len b) => (bytesStr b).map fun x => { m with traceId := x }
  | _ => some m

/-- `parse_from_bytes`. (The loop: `/repo/coerce/src/remote/net/proto/network.rs` 2054-2072.) -/
def ActorAddress.read (bs : Bytes) : Option ActorAddress :=
  (parseFields bs).bind fun fs => fs.foldlM ActorAddress.merge {}

/-- `/repo/coerce/src/protocol/network.proto` 147-161. -/
structure MessageRequest where
  messageId : String := ""
  handlerType : String := ""
  actorId : String := ""
  message : Bytes := []
  traceId : String := ""
  requiresResponse : Bool := false
  originNodeId : UInt64 := 0
deriving DecidableEq, Repr, Inhabited

/-- generated `write_to_with_cached_sizes`, `/repo/coerce/src/remote/net/proto/network.rs` 2303-2327. -/
def MessageRequest.fields (m : MessageRequest) : List Field :=
  fString 1 m.messageId ++
  fString 2 m.handlerType ++
  fString 3 m.actorId ++
  fBytes 4 m.message ++
  fString 5 m.traceId ++
  fBool 6 m.requiresResponse ++
  fVarint 7 m.originNodeId.toNat

/-- all of them, one after the other, `/repo/coerce/src/remote/net/proto/network.rs` 2303-2327. -/
def MessageRequest.write (m : MessageRequest) : Bytes := encodeFields m.fields

/-- generated `merge_from`, one field, `/repo/coerce/src/remote/net/proto/network.rs` 2241-2271. -/
def MessageRequest.merge (m : MessageRequest) : Field → Option MessageRequest
  | (1, .len b) => (bytesStr b).map fun x => { m with messageId := x }
  | (2, .len b) => (bytesStr b).map fun x => { m with handlerType := x }
  | (3, .len b) => (bytesStr b).map fun x => { m with actorId := x }
  | (4, .len b) => some { m with message := b }
  | (5, .len b) => (bytesStr b).map fun x => { m with traceId := x }
  | (6, .varint n) => some { m with requiresResponse := n ≠ 0 }
  | (7, .varint n) => some { m with originNodeId := UInt64.ofNat n }
  | _ => some m

/-- `parse_from_bytes`. (The loop: `/repo/coerce/src/remote/net/proto/network.rs` 2241-2271.) -/
def MessageRequest.read (bs : Bytes) : Option MessageRequest :=
  (parseFields bs).bind fun fs => fs.foldlM MessageRequest.merge {}

/-- `/repo/coerce/src/protocol/network.proto` 163-175. -/
structure SessionHandshake where
  nodeId : UInt64 := 0
  nodes : List RemoteNode := []
  token : Bytes := []
  nodeTag : String := ""
  clientType : Int32 := 0
  traceId : String := ""
deriving DecidableEq, Repr, Inhabited

/-- generated `write_to_with_cached_sizes`, `/repo/coerce/src/remote/net/proto/network.rs` 2521-2542. -/
def SessionHandshake.fields (m : SessionHandshake) : List Field :=
  fVarint 1 m.nodeId.toNat ++
  fRepeated 2 (m.nodes.map RemoteNode.write) ++
  fBytes 3 m.token ++
  fString 4 m.nodeTag ++
  fEnum 5 m.clientType ++
  fString 6 m.traceId

/-- all of them, one after the other, `/repo/coerce/src/remote/net/proto/network.rs` 2521-2542. -/
def SessionHandshake.write (m : SessionHandshake) : Bytes := encodeFields m.fields

/-- generated `merge_from`, one field, `/repo/coerce/src/remote/net/proto/network.rs` 2464-2491. -/
def SessionHandshake.merge (m : SessionHandshake) : Field → Option SessionHandshake
  | (1, .varint n) => some { m with nodeId := UInt64.ofNat n }
  | (2, .len b) => (RemoteNode.read b).map fun x => { m with nodes := m.nodes ++ [x] }
  | (3, .len b) => some { m with token := b }
  | (4, .len b) => (bytesStr b).map fun x => { m with nodeTag := x }
  | (5, .varint n) => some { m with clientType := readEnum n }
  | (6, .len b) => (bytesStr b).map fun x => { m with traceId := x }
  | _ => some m

/-- `parse_from_bytes`. (The loop: `/repo/coerce/src/remote/net/proto/network.rs` 2464-2491.) -/
def SessionHandshake.read (bs : Bytes) : Option SessionHandshake :=
  (parseFields bs).bind fun fs => fs.foldlM SessionHandshake.merge {}

/-- keys of the map fields are distinct, as in any `HashMap`. (`/repo/coerce/src/protocol/network.proto` 163-175.) -/
def SessionHandshake.Ok (m : SessionHandshake) : Prop := (∀ x ∈ m.nodes, x.Ok)

/-- `/repo/coerce/src/protocol/network.proto` 177-185. -/
structure StreamPublishEvent where
  topic : String := ""
  key : String := ""
  message : Bytes := []
  traceId : String := ""
deriving DecidableEq, Repr, Inhabited

/-- generated `write_to_with_cached_sizes`, `/repo/coerce/src/remote/net/proto/network.rs` 2707-2722. -/
def StreamPublishEvent.fields (m : StreamPublishEvent) : List Field :=
  fString 1 m.topic ++
  fString 2 m.key ++
  fBytes 3 m.message ++
  fString 4 m.traceId

/-- all of them, one after the other, `/repo/coerce/src/remote/net/proto/network.rs` 2707-2722. -/
def StreamPublishEvent.write (m : StreamPublishEvent) : Bytes := encodeFields m.fields

/-- generated `merge_from`, one field, `/repo/coerce/src/remote/net/proto/network.rs` 2663-2684. -/
def StreamPublishEvent.merge (m : StreamPublishEvent) : Field → Option StreamPublishEvent
  | (1, .len b) => (bytesStr b).map fun x => { m with topic := x }
  | (2, .len b) => (bytesStr b).map fun x => { m with key := x }
  | (3, .len b) => some { m with message := b }
  | (4, .len b) => (bytesStr b).map fun x => { m with traceId := x }
  | _ => some m

/-- `parse_from_bytes`. (The loop: `/repo/coerce/src/remote/net/proto/network.rs` 2663-2684.) -/
def StreamPublishEvent.read (bs : Bytes) : Option StreamPublishEvent :=
  (parseFields bs).bind fun fs => fs.foldlM StreamPublishEvent.merge {}

/-- `/repo/coerce/src/protocol/network.proto` 194-198. -/
structure NewNodeEvent where
  node : Option RemoteNode := none
  traceId : String := ""
deriving DecidableEq, Repr, Inhabited

/-- generated `write_to_with_cached_sizes`, `/repo/coerce/src/remote/net/proto/network.rs` 2858-2867. -/
def NewNodeEvent.fields (m : NewNodeEvent) : List Field :=
  fMsg 1 (m.node.map RemoteNode.write) ++
  fString 2 m.traceId

/-- all of them, one after the other, `/repo/coerce/src/remote/net/proto/network.rs` 2858-2867. -/
def NewNodeEvent.write (m : NewNodeEvent) : Bytes := encodeFields m.fields

/-- generated `merge_from`, one field, `/repo/coerce/src/remote/net/proto/network.rs` 2825-2840. -/
def NewNodeEvent.merge (m : NewNodeEvent) : Field → Option NewNodeEvent
  | (1, .len b) => (RemoteNode.read b).map fun x => { m with node := some x }
  | (2, .len b) => (bytesStr b).map fun x => { m with traceId := x }
  | _ => some m

/-- `parse_from_bytes`. (The loop: `/repo/coerce/src/remote/net/proto/network.rs` 2825-2840.) -/
def NewNodeEvent.read (bs : Bytes) : Option NewNodeEvent :=
  (parseFields bs).bind fun fs => fs.foldlM NewNodeEvent.merge {}

/-- keys of the map fields are distinct, as in any `HashMap`. (`/repo/coerce/src/protocol/network.proto` 194-198.) -/
def NewNodeEvent.Ok (m : NewNodeEvent) : Prop := (∀ x, m.node = some x → x.Ok)

/-- `/repo/coerce/src/protocol/network.proto` 200-204. -/
structure NodeRemovedEvent where
  node : Option RemoteNode := none
  traceId : String := ""
deriving DecidableEq, Repr, Inhabited

/-- generated `write_to_with_cached_sizes`, `/repo/coerce/src/remote/net/proto/network.rs` 2999-3008. -/
def NodeRemovedEvent.fields (m : NodeRemovedEvent) : List Field :=
  fMsg 1 (m.node.map RemoteNode.write) ++
  fString 2 m.traceId

/-- all of them, one after the other, `/repo/coerce/src/remote/net/proto/network.rs` 2999-3008. -/
def NodeRemovedEvent.write (m : NodeRemovedEvent) : Bytes := encodeFields m.fields

/-- generated `merge_from`, one field, `/repo/coerce/src/remote/net/proto/network.rs` 2966-2981. -/
def NodeRemovedEvent.merge (m : NodeRemovedEvent) : Field → Option NodeRemovedEvent
  | (1, .len b) => (RemoteNode.read b).map fun x => { m with node := some x }
  | (2, .len b) => (bytesStr b).map fun x => { m with traceId := x }
  | _ => some m

/-- `parse_from_bytes`. (The loop: `/repo/coerce/src/remote/net/proto/network.rs` 2966-2981.) -/
def NodeRemovedEvent.read (bs : Bytes) : Option NodeRemovedEvent :=
  (parseFields bs).bind fun fs => fs.foldlM NodeRemovedEvent.merge {}

/-- keys of the map fields are distinct, as in any `HashMap`. (`/repo/coerce/src/protocol/network.proto` 200-204.) -/
def NodeRemovedEvent.Ok (m : NodeRemovedEvent) : Prop := (∀ x, m.node = some x → x.Ok)

/-- `/repo/coerce/src/protocol/network.proto` 206-210. -/
structure LeaderChangedEvent where
  nodeId : UInt64 := 0
  traceId : String := ""
deriving DecidableEq, Repr, Inhabited

/-- generated `write_to_with_cached_sizes`, `/repo/coerce/src/remote/net/proto/network.rs` 3139-3148. -/
def LeaderChangedEvent.fields (m : LeaderChangedEvent) : List Field :=
  fVarint 1 m.nodeId.toNat ++
  fString 2 m.traceId

/-- all of them, one after the other, `/repo/coerce/src/remote/net/proto/network.rs` 3139-3148. -/
def LeaderChangedEvent.write (m : LeaderChangedEvent) : Bytes := encodeFields m.fields

/-- generated `merge_from`, one field, `/repo/coerce/src/remote/net/proto/network.rs` 3107-3122. -/
def LeaderChangedEvent.merge (m : LeaderChangedEvent) : Field → Option LeaderChangedEvent
  | (1, .varint n) => some { m with nodeId := UInt64.ofNat n }
  | (2, .len b) => (bytesStr b).map fun x => { m with traceId := x }
  | _ => some m

/-- `parse_from_bytes`. (The loop: `/repo/coerce/src/remote/net/proto/network.rs` 3107-3122.) -/
def LeaderChangedEvent.read (bs : Bytes) : Option LeaderChangedEvent :=
  (parseFields bs).bind fun fs => fs.foldlM LeaderChangedEvent.merge {}

/-- `/repo/coerce/src/protocol/network.proto` 212-218. -/
structure MemberUpEvent where
  leaderId : UInt64 := 0
  nodes : List RemoteNode := []
  traceId : String := ""
deriving DecidableEq, Repr, Inhabited

/-- generated `write_to_with_cached_sizes`, `/repo/coerce/src/remote/net/proto/network.rs` 3293-3305. -/
def MemberUpEvent.fields (m : MemberUpEvent) : List Field :=
  fVarint 1 m.leaderId.toNat ++
  fRepeated 2 (m.nodes.map RemoteNode.write) ++
  fString 3 m.traceId

/-- all of them, one after the other, `/repo/coerce/src/remote/net/proto/network.rs` 3293-3305. -/
def MemberUpEvent.write (m : MemberUpEvent) : Bytes := encodeFields m.fields

/-- generated `merge_from`, one field, `/repo/coerce/src/remote/net/proto/network.rs` 3254-3272. -/
def MemberUpEvent.merge (m : MemberUpEvent) : Field → Option MemberUpEvent
  | (1, .varint n) => some { m with leaderId := UInt64.ofNat n }
  | (2, .len b) => (RemoteNode.read b).map fun x => { m with nodes := m.nodes ++ [x] }
  | (3, .len b) => (bytesStr b).map fun x => { m with traceId := x }
  | _ => some m

/-- `parse_from_bytes`. (The loop: `/repo/coerce/src/remote/net/proto/network.rs` 3254-3272.) -/
def MemberUpEvent.read (bs : Bytes) : Option MemberUpEvent :=
  (parseFields bs).bind fun fs => fs.foldlM MemberUpEvent.merge {}

/-- keys of the map fields are distinct, as in any `HashMap`. (`/repo/coerce/src/protocol/network.proto` 212-218.) -/
def MemberUpEvent.Ok (m : MemberUpEvent) : Prop := (∀ x ∈ m.nodes, x.Ok)

/-- `/repo/coerce/src/protocol/network.proto` 220-226. -/
structure RaftRequest where
  messageId : String := ""
  requestType : UInt32 := 0
  payload : Bytes := []
deriving DecidableEq, Repr, Inhabited

/-- generated `write_to_with_cached_sizes`, `/repo/coerce/src/remote/net/proto/network.rs` 3451-3463. -/
def RaftRequest.fields (m : RaftRequest) : List Field :=
  fString 1 m.messageId ++
  fVarint 2 m.requestType.toNat ++
  fBytes 3 m.payload

/-- all of them, one after the other, `/repo/coerce/src/remote/net/proto/network.rs` 3451-3463. -/
def RaftRequest.write (m : RaftRequest) : Bytes := encodeFields m.fields

/-- generated `merge_from`, one field, `/repo/coerce/src/remote/net/proto/network.rs` 3413-3431. -/
def RaftRequest.merge (m : RaftRequest) : Field → Option RaftRequest
  | (1, .len b) => (bytesStr b).map fun x => { m with messageId := x }
  | (2, .varint n) => some { m with requestType := UInt32.ofNat n }
  | (3, .len b) => some { m with payload := b }
  | _ => some m

/-- `parse_from_bytes`. (The loop: `/repo/coerce/src/remote/net/proto/network.rs` 3413-3431.) -/
def RaftRequest.read (bs : Bytes) : Option RaftRequest :=
  (parseFields bs).bind fun fs => fs.foldlM RaftRequest.merge {}

/-- `/repo/coerce/src/protocol/network.proto` 240-269. -/
structure ActorRefErr where
  errType : Int32 := 0
  actorId : String := ""
  messageType : String := ""
  actorType : String := ""
  timeTakenMillis : UInt64 := 0
  serializationError : Int32 := 0
  deserializationError : Int32 := 0
deriving DecidableEq, Repr, Inhabited

/-- generated `write_to_with_cached_sizes`, `/repo/coerce/src/remote/net/proto/network.rs` 3661-3685. -/
def ActorRefErr.fields (m : ActorRefErr) : List Field :=
  fEnum 1 m.errType ++
  fString 2 m.actorId ++
  fString 3 m.messageType ++
  fString 4 m.actorType ++
  fVarint 5 m.timeTakenMillis.toNat ++
  fEnum 6 m.serializationError ++
  fEnum 7 m.deserializationError

/-- all of them, one after the other, `/repo/coerce/src/remote/net/proto/network.rs` 3661-3685. -/
def ActorRefErr.write (m : ActorRefErr) : Bytes := encodeFields m.fields

/-- generated `merge_from`, one field, `/repo/coerce/src/remote/net/proto/network.rs` 3599-3629. -/
def ActorRefErr.merge (m : ActorRefErr) : Field → Option ActorRefErr
  | (1, .varint n) => some { m with errType := readEnum n }
  | (2, .len b) => (bytesStr b).map fun x => { m with actorId := x }
  | (3, .len b) => (bytesStr b).map fun x => { m with messageType := x }
  | (4, .len b) => (bytesStr b).map fun x => { m with actorType := x }
  | (5, .varint n) => some { m with timeTakenMillis := UInt64.ofNat n }
  | (6, .varint n) => some { m with serializationError := readEnum n }
  | (7, .varint n) => some { m with deserializationError := readEnum n }
  | _ => some m

/-- `parse_from_bytes`. (The loop: `/repo/coerce/src/remote/net/proto/network.rs` 3599-3629.) -/
def ActorRefErr.read (bs : Bytes) : Option ActorRefErr :=
  (parseFields bs).bind fun fs => fs.foldlM ActorRefErr.merge {}

/-- `/repo/coerce/src/protocol/network.proto` 95-101. -/
structure ClientErr where
  messageId : String := ""
  error : Option ActorRefErr := none
  traceId : String := ""
deriving DecidableEq, Repr, Inhabited

/-- generated `write_to_with_cached_sizes`, `/repo/coerce/src/remote/net/proto/network.rs` 1266-1278. -/
def ClientErr.fields (m : ClientErr) : List Field :=
  fString 1 m.messageId ++
  fMsg 2 (m.error.map ActorRefErr.write) ++
  fString 3 m.traceId

/-- all of them, one after the other, `/repo/coerce/src/remote/net/proto/network.rs` 1266-1278. -/
def ClientErr.write (m : ClientErr) : Bytes := encodeFields m.fields

/-- generated `merge_from`, one field, `/repo/coerce/src/remote/net/proto/network.rs` 1227-1245. -/
def ClientErr.merge (m : ClientErr) : Field → Option ClientErr
  | (1, .len b) => (bytesStr b).map fun x => { m with messageId := x }
  | (2, .len b) => (ActorRefErr.read b).map fun x => { m with error := some x }
  | (3, .len b) => (bytesStr b).map fun x => { m with traceId := x }
  | _ => some m

/-- `parse_from_bytes`. (The loop: `/repo/coerce/src/remote/net/proto/network.rs` 1227-1245.) -/
def ClientErr.read (bs : Bytes) : Option ClientErr :=
  (parseFields bs).bind fun fs => fs.foldlM ClientErr.merge {}

end Verif.Proto.Network
