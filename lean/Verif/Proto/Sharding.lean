import Verif.Proto.Msg

/-!
# Generated messages of `/repo/coerce/src/protocol/sharding.proto`

One structure per message with `fields` (what the generated `write_to_with_cached_sizes` emits),
`write`, `merge` (one round of the generated `merge_from` loop) and `read` (`parse_from_bytes`, `none`
= error). Enum fields are the raw `i32` (`EnumOrUnknown`). Unknown fields are skipped; the generated
code keeps them in `special_fields`, which nothing in the repository reads. A sub-message that occurs
twice replaces the first one.
-/

namespace Verif.Proto.Sharding
open Verif.Proto

/-- `/repo/coerce/src/protocol/sharding.proto` 5-9. -/
structure AllocateShard where
  shardId : UInt32 := 0
  rebalancing : Bool := false
deriving DecidableEq, Repr, Inhabited

/-- generated `write_to_with_cached_sizes`, `/repo/coerce/src/sharding/proto/sharding.rs` 112-121. -/
def AllocateShard.fields (m : AllocateShard) : List Field :=
  fVarint 1 m.shardId.toNat ++
  fBool 2 m.rebalancing

/-- all of them, one after the other, `/repo/coerce/src/sharding/proto/sharding.rs` 112-121. -/
def AllocateShard.write (m : AllocateShard) : Bytes := encodeFields m.fields

/-- generated `merge_from`, one field, `/repo/coerce/src/sharding/proto/sharding.rs` 80-95. -/
def AllocateShard.merge (m : AllocateShard) : Field → Option AllocateShard
  | (1, .varint n) => some { m with shardId := UInt32.ofNat n }
  | (2, .varint n) => some { m with rebalancing := n ≠ 0 }
  | _ => some m

/-- `parse_from_bytes`. (The loop: `/repo/coerce/src/sharding/proto/sharding.rs` 80-95.) -/
def AllocateShard.read (bs : Bytes) : Option AllocateShard :=
  (parseFields bs).bind fun fs => fs.foldlM AllocateShard.merge {}

/-- `/repo/coerce/src/protocol/sharding.proto` 11-15. -/
structure RemoteShard where
  shardId : UInt32 := 0
  nodeId : UInt64 := 0
deriving DecidableEq, Repr, Inhabited

/-- generated `write_to_with_cached_sizes`, `/repo/coerce/src/sharding/proto/sharding.rs` 252-261. -/
def RemoteShard.fields (m : RemoteShard) : List Field :=
  fVarint 1 m.shardId.toNat ++
  fVarint 2 m.nodeId.toNat

/-- all of them, one after the other, `/repo/coerce/src/sharding/proto/sharding.rs` 252-261. -/
def RemoteShard.write (m : RemoteShard) : Bytes := encodeFields m.fields

/-- generated `merge_from`, one field, `/repo/coerce/src/sharding/proto/sharding.rs` 220-235. -/
def RemoteShard.merge (m : RemoteShard) : Field → Option RemoteShard
  | (1, .varint n) => some { m with shardId := UInt32.ofNat n }
  | (2, .varint n) => some { m with nodeId := UInt64.ofNat n }
  | _ => some m

/-- `parse_from_bytes`. (The loop: `/repo/coerce/src/sharding/proto/sharding.rs` 220-235.) -/
def RemoteShard.read (bs : Bytes) : Option RemoteShard :=
  (parseFields bs).bind fun fs => fs.foldlM RemoteShard.merge {}

/-- `/repo/coerce/src/protocol/sharding.proto` 17-19. -/
structure ShardAllocated where
  shard : Option RemoteShard := none
deriving DecidableEq, Repr, Inhabited

/-- generated `write_to_with_cached_sizes`, `/repo/coerce/src/sharding/proto/sharding.rs` 380-386. -/
def ShardAllocated.fields (m : ShardAllocated) : List Field :=
  fMsg 1 (m.shard.map RemoteShard.write)

/-- all of them, one after the other, `/repo/coerce/src/sharding/proto/sharding.rs` 380-386. -/
def ShardAllocated.write (m : ShardAllocated) : Bytes := encodeFields m.fields

/-- generated `merge_from`, one field, `/repo/coerce/src/sharding/proto/sharding.rs` 353-365. -/
def ShardAllocated.merge (m : ShardAllocated) : Field → Option ShardAllocated
  | (1, .len b) => (RemoteShard.read b).map fun x => { m with shard := some x }
  | _ => some m

/-- `parse_from_bytes`. (The loop: `/repo/coerce/src/sharding/proto/sharding.rs` 353-365.) -/
def ShardAllocated.read (bs : Bytes) : Option ShardAllocated :=
  (parseFields bs).bind fun fs => fs.foldlM ShardAllocated.merge {}

/-- `/repo/coerce/src/protocol/sharding.proto` 21-23. -/
structure ShardReallocating where
  shardId : UInt32 := 0
deriving DecidableEq, Repr, Inhabited

/-- generated `write_to_with_cached_sizes`, `/repo/coerce/src/sharding/proto/sharding.rs` 502-508. -/
def ShardReallocating.fields (m : ShardReallocating) : List Field :=
  fVarint 1 m.shardId.toNat

/-- all of them, one after the other, `/repo/coerce/src/sharding/proto/sharding.rs` 502-508. -/
def ShardReallocating.write (m : ShardReallocating) : Bytes := encodeFields m.fields

/-- generated `merge_from`, one field, `/repo/coerce/src/sharding/proto/sharding.rs` 476-488. -/
def ShardReallocating.merge (m : ShardReallocating) : Field → Option ShardReallocating
  | (1, .varint n) => some { m with shardId := UInt32.ofNat n }
  | _ => some m

/-- `parse_from_bytes`. (The loop: `/repo/coerce/src/sharding/proto/sharding.rs` 476-488.) -/
def ShardReallocating.read (bs : Bytes) : Option ShardReallocating :=
  (parseFields bs).bind fun fs => fs.foldlM ShardReallocating.merge {}

/-- `/repo/coerce/src/protocol/sharding.proto` 25-31. -/
structure StopShard where
  shardId : UInt32 := 0
  originNodeId : UInt64 := 0
  requestId : String := ""
deriving DecidableEq, Repr, Inhabited

/-- generated `write_to_with_cached_sizes`, `/repo/coerce/src/sharding/proto/sharding.rs` 650-662. -/
def StopShard.fields (m : StopShard) : List Field :=
  fVarint 1 m.shardId.toNat ++
  fVarint 2 m.originNodeId.toNat ++
  fString 3 m.requestId

/-- all of them, one after the other, `/repo/coerce/src/sharding/proto/sharding.rs` 650-662. -/
def StopShard.write (m : StopShard) : Bytes := encodeFields m.fields

/-- generated `merge_from`, one field, `/repo/coerce/src/sharding/proto/sharding.rs` 612-630. -/
def StopShard.merge (m : StopShard) : Field → Option StopShard
  | (1, .varint n) => some { m with shardId := UInt32.ofNat n }
  | (2, .varint n) => some { m with originNodeId := UInt64.ofNat n }
  | (3, .len b) => (bytesStr b).map fun x => { m with requestId := x }
  | _ => some m

/-- `parse_from_bytes`. (The loop: `/repo/coerce/src/sharding/proto/sharding.rs` 612-630.) -/
def StopShard.read (bs : Bytes) : Option StopShard :=
  (parseFields bs).bind fun fs => fs.foldlM StopShard.merge {}

/-- `/repo/coerce/src/protocol/sharding.proto` 33-39. -/
structure ShardStopped where
  shardId : UInt32 := 0
  originNodeId : UInt64 := 0
  isSuccessful : Bool := false
deriving DecidableEq, Repr, Inhabited

/-- generated `write_to_with_cached_sizes`, `/repo/coerce/src/sharding/proto/sharding.rs` 808-820. -/
def ShardStopped.fields (m : ShardStopped) : List Field :=
  fVarint 1 m.shardId.toNat ++
  fVarint 2 m.originNodeId.toNat ++
  fBool 3 m.isSuccessful

/-- all of them, one after the other, `/repo/coerce/src/sharding/proto/sharding.rs` 808-820. -/
def ShardStopped.write (m : ShardStopped) : Bytes := encodeFields m.fields

/-- generated `merge_from`, one field, `/repo/coerce/src/sharding/proto/sharding.rs` 770-788. -/
def ShardStopped.merge (m : ShardStopped) : Field → Option ShardStopped
  | (1, .varint n) => some { m with shardId := UInt32.ofNat n }
  | (2, .varint n) => some { m with originNodeId := UInt64.ofNat n }
  | (3, .varint n) => some { m with isSuccessful := n ≠ 0 }
  | _ => some m

/-- `parse_from_bytes`. (The loop: `/repo/coerce/src/sharding/proto/sharding.rs` 770-788.) -/
def ShardStopped.read (bs : Bytes) : Option ShardStopped :=
  (parseFields bs).bind fun fs => fs.foldlM ShardStopped.merge {}

/-- `/repo/coerce/src/protocol/sharding.proto` 41-59. -/
structure AllocateShardResult where
  resultType : Int32 := 0
  allocation : Option RemoteShard := none
  err : Int32 := 0
deriving DecidableEq, Repr, Inhabited

/-- generated `write_to_with_cached_sizes`, `/repo/coerce/src/sharding/proto/sharding.rs` 967-979. -/
def AllocateShardResult.fields (m : AllocateShardResult) : List Field :=
  fEnum 1 m.resultType ++
  fMsg 2 (m.allocation.map RemoteShard.write) ++
  fEnum 3 m.err

/-- all of them, one after the other, `/repo/coerce/src/sharding/proto/sharding.rs` 967-979. -/
def AllocateShardResult.write (m : AllocateShardResult) : Bytes := encodeFields m.fields

/-- generated `merge_from`, one field, `/repo/coerce/src/sharding/proto/sharding.rs` 928-946. -/
def AllocateShardResult.merge (m : AllocateShardResult) : Field → Option AllocateShardResult
  | (1, .varint n) => some { m with resultType := readEnum n }
  | (2, .len b) => (RemoteShard.read b).map fun x => { m with allocation := some x }
  | (3, .varint n) => some { m with err := readEnum n }
  | _ => some m

/-- `parse_from_bytes`. (The loop: `/repo/coerce/src/sharding/proto/sharding.rs` 928-946.) -/
def AllocateShardResult.read (bs : Bytes) : Option AllocateShardResult :=
  (parseFields bs).bind fun fs => fs.foldlM AllocateShardResult.merge {}

/-- `/repo/coerce/src/protocol/sharding.proto` 62-64. -/
structure RemoteEntityRequestRecipe where
  recipe : Bytes := []
deriving DecidableEq, Repr, Inhabited

/-- generated `write_to_with_cached_sizes`, `/repo/coerce/src/sharding/proto/sharding.rs` 1433-1439. -/
def RemoteEntityRequestRecipe.fields (m : RemoteEntityRequestRecipe) : List Field :=
  fBytes 1 m.recipe

/-- all of them, one after the other, `/repo/coerce/src/sharding/proto/sharding.rs` 1433-1439. -/
def RemoteEntityRequestRecipe.write (m : RemoteEntityRequestRecipe) : Bytes := encodeFields m.fields

/-- generated `merge_from`, one field, `/repo/coerce/src/sharding/proto/sharding.rs` 1407-1419. -/
def RemoteEntityRequestRecipe.merge (m : RemoteEntityRequestRecipe) : Field → Option RemoteEntityRequestRecipe
  | (1, .len b) => some { m with recipe := b }
  | _ => some m

/-- `parse_from_bytes`. (The loop: `/repo/coerce/src/sharding/proto/sharding.rs` 1407-1419.) -/
def RemoteEntityRequestRecipe.read (bs : Bytes) : Option RemoteEntityRequestRecipe :=
  (parseFields bs).bind fun fs => fs.foldlM RemoteEntityRequestRecipe.merge {}

/-- `/repo/coerce/src/protocol/sharding.proto` 61-77. -/
structure RemoteEntityRequest where
  requestId : String := ""
  actorId : String := ""
  messageType : String := ""
  message : Bytes := []
  recipe : Option RemoteEntityRequestRecipe := none
  originNode : UInt64 := 0
deriving DecidableEq, Repr, Inhabited

/-- generated `write_to_with_cached_sizes`, `/repo/coerce/src/sharding/proto/sharding.rs` 1284-1305. -/
def RemoteEntityRequest.fields (m : RemoteEntityRequest) : List Field :=
  fString 1 m.requestId ++
  fString 2 m.actorId ++
  fString 3 m.messageType ++
  fBytes 4 m.message ++
  fMsg 5 (m.recipe.map RemoteEntityRequestRecipe.write) ++
  fVarint 6 m.originNode.toNat

/-- all of them, one after the other, `/repo/coerce/src/sharding/proto/sharding.rs` 1284-1305. -/
def RemoteEntityRequest.write (m : RemoteEntityRequest) : Bytes := encodeFields m.fields

/-- generated `merge_from`, one field, `/repo/coerce/src/sharding/proto/sharding.rs` 1227-1254. -/
def RemoteEntityRequest.merge (m : RemoteEntityRequest) : Field → Option RemoteEntityRequest
  | (1, .len b) => (bytesStr b).map fun x => { m with requestId := x }
  | (2, .len b) => (bytesStr b).map fun x => { m with actorId := x }
  | (3, .len b) => (bytesStr b).map fun x => { m with messageType := x }
  | (4, .len b) => some { m with message := b }
  | (5, .len b) => (RemoteEntityRequestRecipe.read b).map fun x => { m with recipe := some x }
  | (6, .varint n) => some { m with originNode := UInt64.ofNat n }
  | _ => some m

/-- `parse_from_bytes`. (The loop: `/repo/coerce/src/sharding/proto/sharding.rs` 1227-1254.) -/
def RemoteEntityRequest.read (bs : Bytes) : Option RemoteEntityRequest :=
  (parseFields bs).bind fun fs => fs.foldlM RemoteEntityRequest.merge {}

/-- `/repo/coerce/src/protocol/sharding.proto` 85-89. -/
structure StartEntity where
  actorId : String := ""
  recipe : Bytes := []
deriving DecidableEq, Repr, Inhabited

/-- generated `write_to_with_cached_sizes`, `/repo/coerce/src/sharding/proto/sharding.rs` 1569-1578. -/
def StartEntity.fields (m : StartEntity) : List Field :=
  fString 1 m.actorId ++
  fBytes 2 m.recipe

/-- all of them, one after the other, `/repo/coerce/src/sharding/proto/sharding.rs` 1569-1578. -/
def StartEntity.write (m : StartEntity) : Bytes := encodeFields m.fields

/-- generated `merge_from`, one field, `/repo/coerce/src/sharding/proto/sharding.rs` 1537-1552. -/
def StartEntity.merge (m : StartEntity) : Field → Option StartEntity
  | (1, .len b) => (bytesStr b).map fun x => { m with actorId := x }
  | (2, .len b) => some { m with recipe := b }
  | _ => some m

/-- `parse_from_bytes`. (The loop: `/repo/coerce/src/sharding/proto/sharding.rs` 1537-1552.) -/
def StartEntity.read (bs : Bytes) : Option StartEntity :=
  (parseFields bs).bind fun fs => fs.foldlM StartEntity.merge {}

/-- `/repo/coerce/src/protocol/sharding.proto` 91-93. -/
structure PassivateEntity where
  actorId : String := ""
deriving DecidableEq, Repr, Inhabited

/-- generated `write_to_with_cached_sizes`, `/repo/coerce/src/sharding/proto/sharding.rs` 1696-1702. -/
def PassivateEntity.fields (m : PassivateEntity) : List Field :=
  fString 1 m.actorId

/-- all of them, one after the other, `/repo/coerce/src/sharding/proto/sharding.rs` 1696-1702. -/
def PassivateEntity.write (m : PassivateEntity) : Bytes := encodeFields m.fields

/-- generated `merge_from`, one field, `/repo/coerce/src/sharding/proto/sharding.rs` 1670-1682. -/
def PassivateEntity.merge (m : PassivateEntity) : Field → Option PassivateEntity
  | (1, .len b) => (bytesStr b).map fun x => { m with actorId := x }
  | _ => some m

/-- `parse_from_bytes`. (The loop: `/repo/coerce/src/sharding/proto/sharding.rs` 1670-1682.) -/
def PassivateEntity.read (bs : Bytes) : Option PassivateEntity :=
  (parseFields bs).bind fun fs => fs.foldlM PassivateEntity.merge {}

/-- `/repo/coerce/src/protocol/sharding.proto` 95-97. -/
structure RemoveEntity where
  actorId : String := ""
deriving DecidableEq, Repr, Inhabited

/-- generated `write_to_with_cached_sizes`, `/repo/coerce/src/sharding/proto/sharding.rs` 1818-1824. -/
def RemoveEntity.fields (m : RemoveEntity) : List Field :=
  fString 1 m.actorId

/-- all of them, one after the other, `/repo/coerce/src/sharding/proto/sharding.rs` 1818-1824. -/
def RemoveEntity.write (m : RemoveEntity) : Bytes := encodeFields m.fields

/-- generated `merge_from`, one field, `/repo/coerce/src/sharding/proto/sharding.rs` 1792-1804. -/
def RemoveEntity.merge (m : RemoveEntity) : Field → Option RemoveEntity
  | (1, .len b) => (bytesStr b).map fun x => { m with actorId := x }
  | _ => some m

/-- `parse_from_bytes`. (The loop: `/repo/coerce/src/sharding/proto/sharding.rs` 1792-1804.) -/
def RemoveEntity.read (bs : Bytes) : Option RemoveEntity :=
  (parseFields bs).bind fun fs => fs.foldlM RemoveEntity.merge {}

/-- `/repo/coerce/src/protocol/sharding.proto` 100-106. -/
structure ShardStateSnapshotEntity where
  actorId : String := ""
  recipe : Bytes := []
  state : Int32 := 0
deriving DecidableEq, Repr, Inhabited

/-- generated `write_to_with_cached_sizes`, `/repo/coerce/src/sharding/proto/sharding.rs` 2127-2139. -/
def ShardStateSnapshotEntity.fields (m : ShardStateSnapshotEntity) : List Field :=
  fString 1 m.actorId ++
  fBytes 2 m.recipe ++
  fEnum 3 m.state

/-- all of them, one after the other, `/repo/coerce/src/sharding/proto/sharding.rs` 2127-2139. -/
def ShardStateSnapshotEntity.write (m : ShardStateSnapshotEntity) : Bytes := encodeFields m.fields

/-- generated `merge_from`, one field, `/repo/coerce/src/sharding/proto/sharding.rs` 2089-2107. -/
def ShardStateSnapshotEntity.merge (m : ShardStateSnapshotEntity) : Field → Option ShardStateSnapshotEntity
  | (1, .len b) => (bytesStr b).map fun x => { m with actorId := x }
  | (2, .len b) => some { m with recipe := b }
  | (3, .varint n) => some { m with state := readEnum n }
  | _ => some m

/-- `parse_from_bytes`. (The loop: `/repo/coerce/src/sharding/proto/sharding.rs` 2089-2107.) -/
def ShardStateSnapshotEntity.read (bs : Bytes) : Option ShardStateSnapshotEntity :=
  (parseFields bs).bind fun fs => fs.foldlM ShardStateSnapshotEntity.merge {}

/-- `/repo/coerce/src/protocol/sharding.proto` 99-113. -/
structure ShardStateSnapshot where
  shardId : UInt32 := 0
  nodeId : UInt64 := 0
  entities : List ShardStateSnapshotEntity := []
deriving DecidableEq, Repr, Inhabited

/-- generated `write_to_with_cached_sizes`, `/repo/coerce/src/sharding/proto/sharding.rs` 1967-1979. -/
def ShardStateSnapshot.fields (m : ShardStateSnapshot) : List Field :=
  fVarint 1 m.shardId.toNat ++
  fVarint 2 m.nodeId.toNat ++
  fRepeated 3 (m.entities.map ShardStateSnapshotEntity.write)

/-- all of them, one after the other, `/repo/coerce/src/sharding/proto/sharding.rs` 1967-1979. -/
def ShardStateSnapshot.write (m : ShardStateSnapshot) : Bytes := encodeFields m.fields

/-- generated `merge_from`, one field, `/repo/coerce/src/sharding/proto/sharding.rs` 1928-1946. -/
def ShardStateSnapshot.merge (m : ShardStateSnapshot) : Field → Option ShardStateSnapshot
  | (1, .varint n) => some { m with shardId := UInt32.ofNat n }
  | (2, .varint n) => some { m with nodeId := UInt64.ofNat n }
  | (3, .len b) => (ShardStateSnapshotEntity.read b).map fun x => { m with entities := m.entities ++ [x] }
  | _ => some m

/-- `parse_from_bytes`. (The loop: `/repo/coerce/src/sharding/proto/sharding.rs` 1928-1946.) -/
def ShardStateSnapshot.read (bs : Bytes) : Option ShardStateSnapshot :=
  (parseFields bs).bind fun fs => fs.foldlM ShardStateSnapshot.merge {}

/-- `/repo/coerce/src/protocol/sharding.proto` 122-124. -/
structure GetShardingStats where
deriving DecidableEq, Repr, Inhabited

/-- generated `write_to_with_cached_sizes`, `/repo/coerce/src/sharding/proto/sharding.rs` 2246-2249. -/
def GetShardingStats.fields (_ : GetShardingStats) : List Field :=
  []

/-- all of them, one after the other, `/repo/coerce/src/sharding/proto/sharding.rs` 2246-2249. -/
def GetShardingStats.write (m : GetShardingStats) : Bytes := encodeFields m.fields

/-- generated `merge_from`, one field, `/repo/coerce/src/sharding/proto/sharding.rs` 2226-2235. -/
def GetShardingStats.merge (m : GetShardingStats) : Field → Option GetShardingStats
  | _ => some m

/-- `parse_from_bytes`. (The loop: `/repo/coerce/src/sharding/proto/sharding.rs` 2226-2235.) -/
def GetShardingStats.read (bs : Bytes) : Option GetShardingStats :=
  (parseFields bs).bind fun fs => fs.foldlM GetShardingStats.merge {}

/-- `/repo/coerce/src/protocol/sharding.proto` 126-132. -/
structure NodeStats where
  nodeId : UInt64 := 0
  shardCount : UInt64 := 0
  status : Int32 := 0
deriving DecidableEq, Repr, Inhabited

/-- generated `write_to_with_cached_sizes`, `/repo/coerce/src/sharding/proto/sharding.rs` 2389-2401. -/
def NodeStats.fields (m : NodeStats) : List Field :=
  fVarint 1 m.nodeId.toNat ++
  fVarint 2 m.shardCount.toNat ++
  fEnum 3 m.status

/-- all of them, one after the other, `/repo/coerce/src/sharding/proto/sharding.rs` 2389-2401. -/
def NodeStats.write (m : NodeStats) : Bytes := encodeFields m.fields

/-- generated `merge_from`, one field, `/repo/coerce/src/sharding/proto/sharding.rs` 2351-2369. -/
def NodeStats.merge (m : NodeStats) : Field → Option NodeStats
  | (1, .varint n) => some { m with nodeId := UInt64.ofNat n }
  | (2, .varint n) => some { m with shardCount := UInt64.ofNat n }
  | (3, .varint n) => some { m with status := readEnum n }
  | _ => some m

/-- `parse_from_bytes`. (The loop: `/repo/coerce/src/sharding/proto/sharding.rs` 2351-2369.) -/
def NodeStats.read (bs : Bytes) : Option NodeStats :=
  (parseFields bs).bind fun fs => fs.foldlM NodeStats.merge {}

/-- `/repo/coerce/src/protocol/sharding.proto` 134-142. -/
structure ShardingStats where
  entityType : String := ""
  totalShards : UInt64 := 0
  shards : List RemoteShard := []
  nodes : List NodeStats := []
deriving DecidableEq, Repr, Inhabited

/-- generated `write_to_with_cached_sizes`, `/repo/coerce/src/sharding/proto/sharding.rs` 2562-2577. -/
def ShardingStats.fields (m : ShardingStats) : List Field :=
  fString 1 m.entityType ++
  fVarint 2 m.totalShards.toNat ++
  fRepeated 3 (m.shards.map RemoteShard.write) ++
  fRepeated 4 (m.nodes.map NodeStats.write)

/-- all of them, one after the other, `/repo/coerce/src/sharding/proto/sharding.rs` 2562-2577. -/
def ShardingStats.write (m : ShardingStats) : Bytes := encodeFields m.fields

/-- generated `merge_from`, one field, `/repo/coerce/src/sharding/proto/sharding.rs` 2516-2537. -/
def ShardingStats.merge (m : ShardingStats) : Field → Option ShardingStats
  | (1, .len b) => (bytesStr b).map fun x => { m with entityType := x }
  | (2, .varint n) => some { m with totalShards := UInt64.ofNat n }
  | (3, .len b) => (RemoteShard.read b).map fun x => { m with shards := m.shards ++ [x] }
  | (4, .len b) => (NodeStats.read b).map fun x => { m with nodes := m.nodes ++ [x] }
  | _ => some m

/-- `parse_from_bytes`. (The loop: `/repo/coerce/src/sharding/proto/sharding.rs` 2516-2537.) -/
def ShardingStats.read (bs : Bytes) : Option ShardingStats :=
  (parseFields bs).bind fun fs => fs.foldlM ShardingStats.merge {}

/-- `/repo/coerce/src/protocol/sharding.proto` 144-146. -/
structure GetShardStats where
deriving DecidableEq, Repr, Inhabited

/-- generated `write_to_with_cached_sizes`, `/repo/coerce/src/sharding/proto/sharding.rs` 2685-2688. -/
def GetShardStats.fields (_ : GetShardStats) : List Field :=
  []

/-- all of them, one after the other, `/repo/coerce/src/sharding/proto/sharding.rs` 2685-2688. -/
def GetShardStats.write (m : GetShardStats) : Bytes := encodeFields m.fields

/-- generated `merge_from`, one field, `/repo/coerce/src/sharding/proto/sharding.rs` 2665-2674. -/
def GetShardStats.merge (m : GetShardStats) : Field → Option GetShardStats
  | _ => some m

/-- `parse_from_bytes`. (The loop: `/repo/coerce/src/sharding/proto/sharding.rs` 2665-2674.) -/
def GetShardStats.read (bs : Bytes) : Option GetShardStats :=
  (parseFields bs).bind fun fs => fs.foldlM GetShardStats.merge {}

/-- `/repo/coerce/src/protocol/sharding.proto` 148-154. -/
structure ShardStats where
  shardId : UInt32 := 0
  nodeId : UInt64 := 0
  entities : List String := []
deriving DecidableEq, Repr, Inhabited

/-- generated `write_to_with_cached_sizes`, `/repo/coerce/src/sharding/proto/sharding.rs` 2828-2840. -/
def ShardStats.fields (m : ShardStats) : List Field :=
  fVarint 1 m.shardId.toNat ++
  fVarint 2 m.nodeId.toNat ++
  fRepeated 3 (m.entities.map strBytes)

/-- all of them, one after the other, `/repo/coerce/src/sharding/proto/sharding.rs` 2828-2840. -/
def ShardStats.write (m : ShardStats) : Bytes := encodeFields m.fields

/-- generated `merge_from`, one field, `/repo/coerce/src/sharding/proto/sharding.rs` 2790-2808. -/
def ShardStats.merge (m : ShardStats) : Field → Option ShardStats
  | (1, .varint n) => some { m with shardId := UInt32.ofNat n }
  | (2, .varint n) => some { m with nodeId := UInt64.ofNat n }
  | (3, .len b) => (bytesStr b).map fun x => { m with entities := m.entities ++ [x] }
  | _ => some m

/-- `parse_from_bytes`. (The loop: `/repo/coerce/src/sharding/proto/sharding.rs` 2790-2808.) -/
def ShardStats.read (bs : Bytes) : Option ShardStats :=
  (parseFields bs).bind fun fs => fs.foldlM ShardStats.merge {}

end Verif.Proto.Sharding
