import Verif.Proto.Sharding
import Verif.Remote.CodecModel

/-!
# Sharding messages as bytes

The `as_bytes`, `from_bytes`, `write_remote_result` and `read_remote_result` of every sharding message
that is sent to another node or written to the journal. The generated protobuf code is
`Verif.Proto.Sharding`. Decoding ends in a message, in `DeserializationErr` (`.rejected`) or in a panic
of the decoding task (`.panic`), the latter from the `unwrap` calls in the hand-written code.
Actor ids are strings (`ActorId = Arc<str>`, `into_actor_id` and `to_string` copy the text).
-/

namespace Verif.Sharding.Wire
open Verif.Proto
open Verif.Remote (ReadRes)

/-- `map_err(|_| DeserializationErr)` followed by code that cannot fail.
(`/repo/coerce/src/sharding/coordinator/allocation.rs` 228-238, `/repo/coerce/src/sharding/shard/message.rs` 44-51.)
-/
def mapOk {α β : Type} (f : α → β) : Option α → ReadRes β
  | some a => .ok (f a)
  | none => .rejected

/-- `map_err(|_| DeserializationErr)` followed by code that may panic (`none`).
(`/repo/coerce/src/sharding/coordinator/stats.rs` 69-96.) -/
def mapUnwrap {α β : Type} (f : α → Option β) : Option α → ReadRes β
  | some a => match f a with
    | some b => .ok b
    | none => .panic
  | none => .rejected

/-- the text form of `Uuid` (external crate): `to_string` and `parse_str`, which reads back what `to_string` writes.
The law is an assumption about the `uuid` crate. (Used in `/repo/coerce/src/sharding/host/request.rs` 202-242.) -/
structure UuidText (U : Type) where
  text : U → String
  parse : String → Option U
  parse_text : ∀ u, parse (text u) = some u

/-- `AllocateShard`, `/repo/coerce/src/sharding/coordinator/allocation.rs` 17-20. -/
structure AllocateShard where
  shardId : UInt32
  rebalancing : Bool
deriving DecidableEq, Repr

/-- `as_bytes`, `/repo/coerce/src/sharding/coordinator/allocation.rs` 218-226. -/
def AllocateShard.write (m : AllocateShard) : Bytes :=
  Sharding.AllocateShard.write { shardId := m.shardId, rebalancing := m.rebalancing }

/-- `from_bytes`, `/repo/coerce/src/sharding/coordinator/allocation.rs` 228-238. -/
def AllocateShard.read (b : Bytes) : ReadRes AllocateShard :=
  mapOk (fun r => ⟨r.shardId, r.rebalancing⟩) (Sharding.AllocateShard.read b)

/-- `AllocateShardErr`, `/repo/coerce/src/sharding/coordinator/allocation.rs` 22-26. -/
inductive AllocateShardErr where
  | unknown
  | persistence
deriving DecidableEq, Repr

/-- `AllocateShardResult`, `/repo/coerce/src/sharding/coordinator/allocation.rs` 28-34. -/
inductive AllocateShardResult where
  | allocated (s : UInt32) (n : UInt64)
  | alreadyAllocated (s : UInt32) (n : UInt64)
  | notAllocated
  | err (e : AllocateShardErr)
deriving DecidableEq, Repr

/-- the arms of `write_remote_result`, `/repo/coerce/src/sharding/coordinator/allocation.rs` 271-303;
enum numbers from `/repo/coerce/src/protocol/sharding.proto` 42-52. -/
def AllocateShardResult.toProto : AllocateShardResult → Sharding.AllocateShardResult
  | .allocated s n => { resultType := 0, allocation := some { shardId := s, nodeId := n } }
  | .alreadyAllocated s n => { resultType := 1, allocation := some { shardId := s, nodeId := n } }
  | .notAllocated => { resultType := 2 }
  | .err .persistence => { resultType := 3, err := 1 }
  | .err .unknown => { resultType := 3, err := 0 }

/-- `write_remote_result`, `/repo/coerce/src/sharding/coordinator/allocation.rs` 270-310. -/
def AllocateShardResult.write (m : AllocateShardResult) : Bytes := m.toProto.write

/-- the error arm of `read_remote_result`, `/repo/coerce/src/sharding/coordinator/allocation.rs` 253-262. -/
def AllocateShardErr.ofNum : Int → Option AllocateShardErr
  | 1 => some .persistence
  | 0 => some .unknown
  | _ => none

/-- the arms of `read_remote_result`, `/repo/coerce/src/sharding/coordinator/allocation.rs` 243-263:
unknown enum numbers and a missing allocation are `unwrap` panics. -/
def AllocateShardResult.ofProto (r : Sharding.AllocateShardResult) : Option AllocateShardResult :=
  match r.resultType.toInt with
  | 0 => r.allocation.map fun a => .allocated a.shardId a.nodeId
  | 1 => r.allocation.map fun a => .alreadyAllocated a.shardId a.nodeId
  | 2 => some .notAllocated
  | 3 => (AllocateShardErr.ofNum r.err.toInt).map .err
  | _ => none

/-- `read_remote_result`, `/repo/coerce/src/sharding/coordinator/allocation.rs` 240-268. -/
def AllocateShardResult.read (b : Bytes) : ReadRes AllocateShardResult :=
  mapUnwrap AllocateShardResult.ofProto (Sharding.AllocateShardResult.read b)

/-- `ShardAllocated(ShardId, NodeId)`, `/repo/coerce/src/sharding/host/mod.rs`. -/
structure ShardAllocated where
  shardId : UInt32
  nodeId : UInt64
deriving DecidableEq, Repr

/-- `as_bytes`, `/repo/coerce/src/sharding/host/mod.rs` 381-393. -/
def ShardAllocated.write (m : ShardAllocated) : Bytes :=
  Sharding.ShardAllocated.write { shard := some { shardId := m.shardId, nodeId := m.nodeId } }

/-- `from_bytes`, `/repo/coerce/src/sharding/host/mod.rs` 395-402: a missing shard is an `unwrap` panic. -/
def ShardAllocated.read (b : Bytes) : ReadRes ShardAllocated :=
  mapUnwrap (fun r => r.shard.map fun s => ⟨s.shardId, s.nodeId⟩) (Sharding.ShardAllocated.read b)

/-- `ShardReallocating(ShardId)`, `/repo/coerce/src/sharding/host/mod.rs`. -/
structure ShardReallocating where
  shardId : UInt32
deriving DecidableEq, Repr

/-- `as_bytes`, `/repo/coerce/src/sharding/host/mod.rs` 416-423. -/
def ShardReallocating.write (m : ShardReallocating) : Bytes :=
  Sharding.ShardReallocating.write { shardId := m.shardId }

/-- `from_bytes`, `/repo/coerce/src/sharding/host/mod.rs` 425-429: parses a `proto::StopShard`. -/
def ShardReallocating.read (b : Bytes) : ReadRes ShardReallocating :=
  mapOk (fun r => ⟨r.shardId⟩) (Sharding.StopShard.read b)

/-- `StopShard`, `/repo/coerce/src/sharding/host/mod.rs`. -/
structure StopShard (U : Type) where
  shardId : UInt32
  requestId : U
  originNodeId : UInt64
deriving DecidableEq, Repr

/-- `as_bytes`, `/repo/coerce/src/sharding/host/mod.rs` 443-452. -/
def StopShard.write {U : Type} (T : UuidText U) (m : StopShard U) : Bytes :=
  Sharding.StopShard.write
    { shardId := m.shardId, originNodeId := m.originNodeId, requestId := T.text m.requestId }

/-- `from_bytes`, `/repo/coerce/src/sharding/host/mod.rs` 454-462: a text that is no UUID is an
`unwrap` panic. -/
def StopShard.read {U : Type} (T : UuidText U) (b : Bytes) : ReadRes (StopShard U) :=
  mapUnwrap (fun r => (T.parse r.requestId).map fun u => ⟨r.shardId, u, r.originNodeId⟩)
    (Sharding.StopShard.read b)

/-- `ShardStopped`, `/repo/coerce/src/sharding/host/mod.rs`. -/
structure ShardStopped where
  shardId : UInt32
  stoppedSuccessfully : Bool
deriving DecidableEq, Repr

/-- `as_bytes`, `/repo/coerce/src/sharding/host/mod.rs` 476-484. -/
def ShardStopped.write (m : ShardStopped) : Bytes :=
  Sharding.ShardStopped.write { shardId := m.shardId, isSuccessful := m.stoppedSuccessfully }

/-- `from_bytes`, `/repo/coerce/src/sharding/host/mod.rs` 486-493. -/
def ShardStopped.read (b : Bytes) : ReadRes ShardStopped :=
  mapOk (fun r => ⟨r.shardId, r.isSuccessful⟩) (Sharding.ShardStopped.read b)

/-- `RemoteEntityRequest`, `/repo/coerce/src/sharding/host/request.rs` 26-33. -/
structure RemoteEntityRequest (U : Type) where
  requestId : U
  actorId : String
  messageType : String
  message : Bytes
  recipe : Option Bytes
  originNode : UInt64
deriving DecidableEq, Repr

/-- `as_bytes`, `/repo/coerce/src/sharding/host/request.rs` 202-223. -/
def RemoteEntityRequest.write {U : Type} (T : UuidText U) (m : RemoteEntityRequest U) : Bytes :=
  Sharding.RemoteEntityRequest.write
    { requestId := T.text m.requestId, actorId := m.actorId, messageType := m.messageType,
      message := m.message, recipe := m.recipe.map fun r => { recipe := r }, originNode := m.originNode }

/-- `from_bytes`, `/repo/coerce/src/sharding/host/request.rs` 225-242: a text that is no UUID is an
`unwrap` panic. -/
def RemoteEntityRequest.read {U : Type} (T : UuidText U) (b : Bytes) : ReadRes (RemoteEntityRequest U) :=
  mapUnwrap (fun r => (T.parse r.requestId).map fun u =>
      ⟨u, r.actorId, r.messageType, r.message, r.recipe.map (·.recipe), r.originNode⟩)
    (Sharding.RemoteEntityRequest.read b)

/-- `StartEntity`, `/repo/coerce/src/sharding/shard/message.rs` 8-11. -/
structure StartEntity where
  actorId : String
  recipe : Bytes
deriving DecidableEq, Repr

/-- `as_bytes`, `/repo/coerce/src/sharding/shard/message.rs` 34-42. -/
def StartEntity.write (m : StartEntity) : Bytes :=
  Sharding.StartEntity.write { actorId := m.actorId, recipe := m.recipe }

/-- `from_bytes`, `/repo/coerce/src/sharding/shard/message.rs` 44-51. -/
def StartEntity.read (b : Bytes) : ReadRes StartEntity :=
  mapOk (fun r => ⟨r.actorId, r.recipe⟩) (Sharding.StartEntity.read b)

/-- `RemoveEntity`, `/repo/coerce/src/sharding/shard/message.rs` 13-15. -/
structure RemoveEntity where
  actorId : String
deriving DecidableEq, Repr

/-- `as_bytes`, `/repo/coerce/src/sharding/shard/message.rs` 65-72. -/
def RemoveEntity.write (m : RemoveEntity) : Bytes :=
  Sharding.RemoveEntity.write { actorId := m.actorId }

/-- `from_bytes`, `/repo/coerce/src/sharding/shard/message.rs` 74-80. -/
def RemoveEntity.read (b : Bytes) : ReadRes RemoveEntity :=
  mapOk (fun r => ⟨r.actorId⟩) (Sharding.RemoveEntity.read b)

/-- `PassivateEntity`, `/repo/coerce/src/sharding/shard/message.rs` 17-19. -/
structure PassivateEntity where
  actorId : String
deriving DecidableEq, Repr

/-- `as_bytes`, `/repo/coerce/src/sharding/shard/message.rs` 94-101. -/
def PassivateEntity.write (m : PassivateEntity) : Bytes :=
  Sharding.PassivateEntity.write { actorId := m.actorId }

/-- `from_bytes`, `/repo/coerce/src/sharding/shard/message.rs` 103-109. -/
def PassivateEntity.read (b : Bytes) : ReadRes PassivateEntity :=
  mapOk (fun r => ⟨r.actorId⟩) (Sharding.PassivateEntity.read b)

/-- the state of an entity as far as a snapshot is concerned (`EntityState`,
`/repo/coerce/src/sharding/shard/mod.rs`; the references and buffers are left out). -/
inductive SnapState where
  | idle
  | starting
  | active
  | passivated
deriving DecidableEq, Repr

/-- an entity of a snapshot, without `last_request`, which is not written (it is read as the time of reading).
(`Entity`, `/repo/coerce/src/sharding/shard/mod.rs` 134-139; written `/repo/coerce/src/sharding/shard/recovery.rs`
98-125.) -/
structure SnapEntity where
  actorId : String
  recipe : Bytes
  state : SnapState
deriving DecidableEq, Repr

/-- `ShardStateSnapshot`, `/repo/coerce/src/sharding/shard/recovery.rs`. -/
structure ShardStateSnapshot where
  shardId : UInt32
  nodeId : UInt64
  entities : List SnapEntity
deriving DecidableEq, Repr

/-- the state written, `/repo/coerce/src/sharding/shard/recovery.rs` 108-114; enum numbers from
`/repo/coerce/src/protocol/sharding.proto` 79-83. -/
def SnapState.num : SnapState → Int32
  | .active => 0
  | .idle => 0
  | .starting => 0
  | .passivated => 2

/-- the state read, `/repo/coerce/src/sharding/shard/recovery.rs` 141-146; an unknown number is an
`unwrap` panic. -/
def SnapState.ofNum : Int → Option SnapState
  | 0 => some .idle
  | 1 => some .idle
  | 2 => some .passivated
  | _ => none

/-- one entity of the list written by `into_remote_envelope`, `/repo/coerce/src/sharding/shard/recovery.rs` 98-125. -/
def SnapEntity.toProto (e : SnapEntity) : Sharding.ShardStateSnapshotEntity :=
  { actorId := e.actorId, recipe := e.recipe, state := e.state.num }

/-- one entity, `/repo/coerce/src/sharding/shard/recovery.rs` 138-148. -/
def SnapEntity.ofProto (e : Sharding.ShardStateSnapshotEntity) : Option SnapEntity :=
  (SnapState.ofNum e.state.toInt).map fun st => ⟨e.actorId, e.recipe, st⟩

/-- `into_remote_envelope`, `/repo/coerce/src/sharding/shard/recovery.rs` 98-125. -/
def ShardStateSnapshot.write (m : ShardStateSnapshot) : Bytes :=
  Sharding.ShardStateSnapshot.write
    { shardId := m.shardId, nodeId := m.nodeId, entities := m.entities.map SnapEntity.toProto }

/-- `from_remote_envelope`, `/repo/coerce/src/sharding/shard/recovery.rs` 127-154. -/
def ShardStateSnapshot.read (b : Bytes) : ReadRes ShardStateSnapshot :=
  mapUnwrap (fun r => (r.entities.mapM SnapEntity.ofProto).map fun es => ⟨r.shardId, r.nodeId, es⟩)
    (Sharding.ShardStateSnapshot.read b)

/-- `ShardHostStatus`, `/repo/coerce/src/sharding/coordinator/mod.rs`. -/
inductive HostStatus where
  | unknown
  | starting
  | ready
  | unavailable
deriving DecidableEq, Repr

/-- `Into<proto::ShardHostStatus>`, `/repo/coerce/src/sharding/coordinator/stats.rs` 128-137; numbers
from `/repo/coerce/src/protocol/sharding.proto` 115-120. -/
def HostStatus.num : HostStatus → Int32
  | .unknown => 0
  | .starting => 1
  | .ready => 2
  | .unavailable => 3

/-- `From<proto::ShardHostStatus>`, `/repo/coerce/src/sharding/coordinator/stats.rs` 139-148; an unknown
number is an `unwrap` panic (line 91). -/
def HostStatus.ofNum : Int → Option HostStatus
  | 0 => some .unknown
  | 1 => some .starting
  | 2 => some .ready
  | 3 => some .unavailable
  | _ => none

/-- `NodeStats`, `/repo/coerce/src/sharding/coordinator/stats.rs` 11-15. -/
structure NodeStats where
  nodeId : UInt64
  shardCount : UInt64
  status : HostStatus
deriving DecidableEq, Repr

/-- `ShardingStats`, `/repo/coerce/src/sharding/coordinator/stats.rs` 17-22 (a `RemoteShard` is a pair). -/
structure ShardingStats where
  entityType : String
  totalShards : UInt64
  shards : List (UInt32 × UInt64)
  nodes : List NodeStats
deriving DecidableEq, Repr

/-- one node of the list written by `write_remote_result`, `/repo/coerce/src/sharding/coordinator/stats.rs` 98-125. -/
def NodeStats.toProto (n : NodeStats) : Sharding.NodeStats :=
  { nodeId := n.nodeId, shardCount := n.shardCount, status := n.status.num }

/-- one node of the list read by `read_remote_result`, `/repo/coerce/src/sharding/coordinator/stats.rs` 69-96. -/
def NodeStats.ofProto (n : Sharding.NodeStats) : Option NodeStats :=
  (HostStatus.ofNum n.status.toInt).map fun st => ⟨n.nodeId, n.shardCount, st⟩

/-- one shard of the list written by `write_remote_result`, `/repo/coerce/src/sharding/coordinator/stats.rs` 98-125.
-/
def shardToProto (p : UInt32 × UInt64) : Sharding.RemoteShard := { shardId := p.1, nodeId := p.2 }

/-- `write_remote_result`, `/repo/coerce/src/sharding/coordinator/stats.rs` 98-125. -/
def ShardingStats.write (m : ShardingStats) : Bytes :=
  Sharding.ShardingStats.write
    { entityType := m.entityType, totalShards := m.totalShards, shards := m.shards.map shardToProto,
      nodes := m.nodes.map NodeStats.toProto }

/-- `read_remote_result`, `/repo/coerce/src/sharding/coordinator/stats.rs` 69-96. -/
def ShardingStats.read (b : Bytes) : ReadRes ShardingStats :=
  mapUnwrap (fun r => (r.nodes.mapM NodeStats.ofProto).map fun ns =>
      ⟨r.entityType, r.totalShards, r.shards.map fun s => (s.shardId, s.nodeId), ns⟩)
    (Sharding.ShardingStats.read b)

/-- `ShardStats`, `/repo/coerce/src/sharding/shard/stats.rs` 16-20; the `HashSet` of entities is the
list in some iteration order. -/
structure ShardStats where
  shardId : UInt32
  nodeId : UInt64
  entities : List String
deriving DecidableEq, Repr

/-- `write_remote_result`, `/repo/coerce/src/sharding/shard/stats.rs` 63-71. -/
def ShardStats.write (m : ShardStats) : Bytes :=
  Sharding.ShardStats.write { shardId := m.shardId, nodeId := m.nodeId, entities := m.entities }

/-- `read_remote_result`, `/repo/coerce/src/sharding/shard/stats.rs` 50-61. -/
def ShardStats.read (b : Bytes) : ReadRes ShardStats :=
  mapOk (fun r => ⟨r.shardId, r.nodeId, r.entities⟩) (Sharding.ShardStats.read b)

end Verif.Sharding.Wire
