import Verif.Proto.Lemmas
import Verif.Proto.Network
import Verif.Proto.Sharding
import Verif.Proto.Singleton
import Verif.Proto.Chat
import Verif.Persist.Model

/-!
# What the `.proto` files say

For every message: its field numbers with the schemas of its sub-messages, and its fields as the `.proto` file lists them,
with the rules of proto3: a field with its default value is left out, repeated fields and entries of maps are written one
by one, enums and signed numbers as 64 bit two's complement. Written from the `.proto` files, not from the generated code.
The encoding of a single field is that of `Verif.Proto.Wire`.
-/

namespace Verif.Proto

/-- the fields of a message, by number, with the schema of a sub-message. -/
inductive Schema where
  | mk (fields : List (Nat × Option Schema))

def Schema.fields : Schema → List (Nat × Option Schema)
  | ⟨fs⟩ => fs

def Schema.numbers (s : Schema) : List Nat := s.fields.map (·.1)

/-- an entry of a map: key and value. -/
def entrySchema : Schema := ⟨[(1, none), (2, none)]⟩

/-- the types of fields that occur. -/
inductive FVal where
  | u64 (n : UInt64)
  | u32 (n : UInt32)
  | i64 (n : Int64)
  | i32 (n : Int32)
  | bool (b : Bool)
  | str (s : String)
  | bytes (b : Bytes)
  | enum (n : Int32)
  | msg (b : Option Bytes)
  | strs (l : List String)
  | msgs (l : List Bytes)
  | map (l : List (String × String))

/-- what is written for a field. -/
def FVal.emit (no : Nat) : FVal → List Field
  | .u64 n => if n = 0 then [] else [(no, .varint n.toNat)]
  | .u32 n => if n = 0 then [] else [(no, .varint n.toNat)]
  | .i64 n => if n = 0 then [] else [(no, .varint n.toUInt64.toNat)]
  | .i32 n => if n = 0 then [] else [(no, .varint n.toInt64.toUInt64.toNat)]
  | .enum n => if n = 0 then [] else [(no, .varint n.toInt64.toUInt64.toNat)]
  | .bool b => if b = true then [(no, .varint 1)] else []
  | .str s => if s.isEmpty then [] else [(no, .len (strBytes s))]
  | .bytes b => if b.isEmpty then [] else [(no, .len b)]
  | .msg b => b.toList.map fun x => (no, .len x)
  | .strs l => l.map fun s => (no, .len (strBytes s))
  | .msgs l => l.map fun x => (no, .len x)
  | .map l => l.map fun p => (no, .len (encodeFields [(1, .len (strBytes p.1)), (2, .len (strBytes p.2))]))

def wire (vs : List (Nat × FVal)) : Bytes := encodeFields (vs.flatMap fun p => p.2.emit p.1)

/-- `fs'` is `fs` as a newer version might write it: with further fields of numbers that are not in the schema, anywhere,
and with fields of different numbers in another order, both also in sub-messages. -/
inductive NewerF : Schema → List Field → List Field → Prop where
  | nil {S : Schema} : NewerF S [] []
  | unknown {S : Schema} {no : Nat} {v : WireVal} {fs fs' : List Field} :
      no ∉ S.numbers → NewerF S fs fs' → NewerF S fs ((no, v) :: fs')
  | same {S : Schema} {f : Field} {fs fs' : List Field} : NewerF S fs fs' → NewerF S (f :: fs) (f :: fs')
  | sub {S T : Schema} {no : Nat} {gs gs' fs fs' : List Field} : (no, some T) ∈ S.fields → NewerF T gs gs' →
      (∀ f ∈ gs, FieldOk f) → (∀ f ∈ gs', FieldOk f) → NewerF S fs fs' →
      NewerF S ((no, .len (encodeFields gs)) :: fs) ((no, .len (encodeFields gs')) :: fs')
  | swap {S : Schema} {f g : Field} {fs fs' gs : List Field} : f.1 ≠ g.1 → NewerF S fs (gs ++ f :: g :: fs') →
      NewerF S fs (gs ++ g :: f :: fs')

/-- a message type of the code next to what its `.proto` file says. -/
structure Codec (α : Type) where
  schema : Schema
  values : α → List (Nat × FVal)
  Ok : α → Prop
  write : α → Bytes
  read : Bytes → Option α

structure Codec.Faithful {α : Type} (c : Codec α) : Prop where
  /-- the two readings of the `.proto` file agree, and no number is used twice. -/
  numbers : ∀ m, (c.values m).map (·.1) = c.schema.numbers
  distinct : c.schema.numbers.Nodup
  /-- the message is written as the `.proto` file says. -/
  follows : ∀ m, c.Ok m → c.write m = wire (c.values m)
  /-- it is read, whatever fields a newer version has added, and in whatever order it writes them. -/
  robust : ∀ m fs', c.Ok m → (c.write m).length < 2 ^ 32 →
    NewerF c.schema ((c.values m).flatMap fun p => p.2.emit p.1) fs' → (∀ f ∈ fs', FieldOk f) →
    c.read (encodeFields fs') = some m

/-- a number in base 128, the lowest group first, the top bit set on all bytes but the last, and no needless last byte. -/
def IsVarint : Nat → Bytes → Prop
  | _, [] => False
  | n, [b] => b.toNat < 128 ∧ n = b.toNat
  | n, b :: c :: bs => 128 ≤ b.toNat ∧ n % 128 = b.toNat - 128 ∧ 128 ≤ n ∧ IsVarint (n / 128) (c :: bs)

namespace Network

/-- the well known type `Timestamp` of protobuf. -/
def Timestamp.schema : Schema := ⟨[(1, none), (2, none)]⟩

def Timestamp.values (m : Timestamp) : List (Nat × FVal) :=
  [(1, .i64 m.seconds), (2, .i32 m.nanos)]

def Timestamp.spec (m : Timestamp) : Bytes := wire m.values

/-- the well known type `UInt64Value` of protobuf. -/
def UInt64Value.schema : Schema := ⟨[(1, none)]⟩

def UInt64Value.values (m : UInt64Value) : List (Nat × FVal) :=
  [(1, .u64 m.value)]

def UInt64Value.spec (m : UInt64Value) : Bytes := wire m.values

/-- `/repo/coerce/src/protocol/network.proto` 8-18. -/
def RemoteNode.schema : Schema := ⟨[(1, none), (2, none), (3, some Timestamp.schema), (4, none), (5, some entrySchema)]⟩

def RemoteNode.values (m : RemoteNode) : List (Nat × FVal) :=
  [(1, .u64 m.nodeId),
   (2, .str m.addr),
   (3, .msg (m.nodeStartedAt.map Timestamp.spec)),
   (4, .str m.tag),
   (5, .map m.attributes)]

def RemoteNode.spec (m : RemoteNode) : Bytes := wire m.values

/-- `/repo/coerce/src/protocol/network.proto` 41-47. -/
def IdentifyEvent.schema : Schema := ⟨[(1, none), (2, none), (3, none)]⟩

def IdentifyEvent.values (m : IdentifyEvent) : List (Nat × FVal) :=
  [(1, .u64 m.sourceNodeId), (2, .str m.sourceNodeTag), (3, .str m.token)]

def IdentifyEvent.spec (m : IdentifyEvent) : Bytes := wire m.values

/-- `/repo/coerce/src/protocol/network.proto` 69-73. -/
def SystemCapabilities.schema : Schema := ⟨[(1, none), (2, none)]⟩

def SystemCapabilities.values (m : SystemCapabilities) : List (Nat × FVal) :=
  [(1, .strs m.actors), (2, .strs m.messages)]

def SystemCapabilities.spec (m : SystemCapabilities) : Bytes := wire m.values

/-- `/repo/coerce/src/protocol/network.proto` 49-67. -/
def NodeIdentity.schema : Schema := ⟨[(1, none), (2, none), (3, none), (4, none), (5, none), (6, some Timestamp.schema), (7, some RemoteNode.schema), (8, some SystemCapabilities.schema), (9, some entrySchema)]⟩

def NodeIdentity.values (m : NodeIdentity) : List (Nat × FVal) :=
  [(1, .u64 m.nodeId),
   (2, .str m.nodeTag),
   (3, .str m.addr),
   (4, .str m.applicationVersion),
   (5, .str m.protocolVersion),
   (6, .msg (m.nodeStartedAt.map Timestamp.spec)),
   (7, .msgs (m.peers.map RemoteNode.spec)),
   (8, .msg (m.capabilities.map SystemCapabilities.spec)),
   (9, .map m.attributes)]

def NodeIdentity.spec (m : NodeIdentity) : Bytes := wire m.values

/-- `/repo/coerce/src/protocol/network.proto` 75-85. -/
def ClientHandshake.schema : Schema := ⟨[(1, none), (2, some RemoteNode.schema), (3, none), (4, none), (5, some Timestamp.schema)]⟩

def ClientHandshake.values (m : ClientHandshake) : List (Nat × FVal) :=
  [(1, .u64 m.nodeId),
   (2, .msgs (m.nodes.map RemoteNode.spec)),
   (3, .str m.nodeTag),
   (4, .str m.traceId),
   (5, .msg (m.nodeStartedAt.map Timestamp.spec))]

def ClientHandshake.spec (m : ClientHandshake) : Bytes := wire m.values

/-- `/repo/coerce/src/protocol/network.proto` 87-93. -/
def ClientResult.schema : Schema := ⟨[(1, none), (2, none), (3, none)]⟩

def ClientResult.values (m : ClientResult) : List (Nat × FVal) :=
  [(1, .str m.messageId), (2, .bytes m.result), (3, .str m.traceId)]

def ClientResult.spec (m : ClientResult) : Bytes := wire m.values

/-- `/repo/coerce/src/protocol/network.proto` 240-269. -/
def ActorRefErr.schema : Schema := ⟨[(1, none), (2, none), (3, none), (4, none), (5, none), (6, none), (7, none)]⟩

def ActorRefErr.values (m : ActorRefErr) : List (Nat × FVal) :=
  [(1, .enum m.errType),
   (2, .str m.actorId),
   (3, .str m.messageType),
   (4, .str m.actorType),
   (5, .u64 m.timeTakenMillis),
   (6, .enum m.serializationError),
   (7, .enum m.deserializationError)]

def ActorRefErr.spec (m : ActorRefErr) : Bytes := wire m.values

/-- `/repo/coerce/src/protocol/network.proto` 95-101. -/
def ClientErr.schema : Schema := ⟨[(1, none), (2, some ActorRefErr.schema), (3, none)]⟩

def ClientErr.values (m : ClientErr) : List (Nat × FVal) :=
  [(1, .str m.messageId), (2, .msg (m.error.map ActorRefErr.spec)), (3, .str m.traceId)]

def ClientErr.spec (m : ClientErr) : Bytes := wire m.values

/-- `/repo/coerce/src/protocol/network.proto` 103-111. -/
def PingEvent.schema : Schema := ⟨[(1, none), (2, none), (3, none), (4, none)]⟩

def PingEvent.values (m : PingEvent) : List (Nat × FVal) :=
  [(1, .str m.messageId),
   (2, .str m.traceId),
   (3, .u64 m.nodeId),
   (4, .bool m.systemTerminated)]

def PingEvent.spec (m : PingEvent) : Bytes := wire m.values

/-- `/repo/coerce/src/protocol/network.proto` 113-117. -/
def PongEvent.schema : Schema := ⟨[(1, none), (2, none)]⟩

def PongEvent.values (m : PongEvent) : List (Nat × FVal) :=
  [(1, .str m.messageId), (2, .str m.traceId)]

def PongEvent.spec (m : PongEvent) : Bytes := wire m.values

/-- `/repo/coerce/src/protocol/network.proto` 119-129. -/
def CreateActorEvent.schema : Schema := ⟨[(1, none), (2, none), (3, none), (4, none), (5, none)]⟩

def CreateActorEvent.values (m : CreateActorEvent) : List (Nat × FVal) :=
  [(1, .str m.messageId),
   (2, .str m.actorId),
   (3, .str m.actorType),
   (4, .bytes m.recipe),
   (5, .str m.traceId)]

def CreateActorEvent.spec (m : CreateActorEvent) : Bytes := wire m.values

/-- `/repo/coerce/src/protocol/network.proto` 131-137. -/
def FindActorEvent.schema : Schema := ⟨[(1, none), (2, none), (3, none)]⟩

def FindActorEvent.values (m : FindActorEvent) : List (Nat × FVal) :=
  [(1, .str m.messageId), (2, .str m.actorId), (3, .str m.traceId)]

def FindActorEvent.spec (m : FindActorEvent) : Bytes := wire m.values

/-- `/repo/coerce/src/protocol/network.proto` 139-145. -/
def ActorAddress.schema : Schema := ⟨[(1, none), (2, some UInt64Value.schema), (3, none)]⟩

def ActorAddress.values (m : ActorAddress) : List (Nat × FVal) :=
  [(1, .str m.actorId), (2, .msg (m.nodeId.map UInt64Value.spec)), (3, .str m.traceId)]

def ActorAddress.spec (m : ActorAddress) : Bytes := wire m.values

/-- `/repo/coerce/src/protocol/network.proto` 147-161. -/
def MessageRequest.schema : Schema := ⟨[(1, none), (2, none), (3, none), (4, none), (5, none), (6, none), (7, none)]⟩

def MessageRequest.values (m : MessageRequest) : List (Nat × FVal) :=
  [(1, .str m.messageId),
   (2, .str m.handlerType),
   (3, .str m.actorId),
   (4, .bytes m.message),
   (5, .str m.traceId),
   (6, .bool m.requiresResponse),
   (7, .u64 m.originNodeId)]

def MessageRequest.spec (m : MessageRequest) : Bytes := wire m.values

/-- `/repo/coerce/src/protocol/network.proto` 163-175. -/
def SessionHandshake.schema : Schema := ⟨[(1, none), (2, some RemoteNode.schema), (3, none), (4, none), (5, none), (6, none)]⟩

def SessionHandshake.values (m : SessionHandshake) : List (Nat × FVal) :=
  [(1, .u64 m.nodeId),
   (2, .msgs (m.nodes.map RemoteNode.spec)),
   (3, .bytes m.token),
   (4, .str m.nodeTag),
   (5, .enum m.clientType),
   (6, .str m.traceId)]

def SessionHandshake.spec (m : SessionHandshake) : Bytes := wire m.values

/-- `/repo/coerce/src/protocol/network.proto` 177-185. -/
def StreamPublishEvent.schema : Schema := ⟨[(1, none), (2, none), (3, none), (4, none)]⟩

def StreamPublishEvent.values (m : StreamPublishEvent) : List (Nat × FVal) :=
  [(1, .str m.topic), (2, .str m.key), (3, .bytes m.message), (4, .str m.traceId)]

def StreamPublishEvent.spec (m : StreamPublishEvent) : Bytes := wire m.values

/-- `/repo/coerce/src/protocol/network.proto` 194-198. -/
def NewNodeEvent.schema : Schema := ⟨[(1, some RemoteNode.schema), (2, none)]⟩

def NewNodeEvent.values (m : NewNodeEvent) : List (Nat × FVal) :=
  [(1, .msg (m.node.map RemoteNode.spec)), (2, .str m.traceId)]

def NewNodeEvent.spec (m : NewNodeEvent) : Bytes := wire m.values

/-- `/repo/coerce/src/protocol/network.proto` 200-204. -/
def NodeRemovedEvent.schema : Schema := ⟨[(1, some RemoteNode.schema), (2, none)]⟩

def NodeRemovedEvent.values (m : NodeRemovedEvent) : List (Nat × FVal) :=
  [(1, .msg (m.node.map RemoteNode.spec)), (2, .str m.traceId)]

def NodeRemovedEvent.spec (m : NodeRemovedEvent) : Bytes := wire m.values

/-- `/repo/coerce/src/protocol/network.proto` 206-210. -/
def LeaderChangedEvent.schema : Schema := ⟨[(1, none), (2, none)]⟩

def LeaderChangedEvent.values (m : LeaderChangedEvent) : List (Nat × FVal) :=
  [(1, .u64 m.nodeId), (2, .str m.traceId)]

def LeaderChangedEvent.spec (m : LeaderChangedEvent) : Bytes := wire m.values

/-- `/repo/coerce/src/protocol/network.proto` 212-218. -/
def MemberUpEvent.schema : Schema := ⟨[(1, none), (2, some RemoteNode.schema), (3, none)]⟩

def MemberUpEvent.values (m : MemberUpEvent) : List (Nat × FVal) :=
  [(1, .u64 m.leaderId), (2, .msgs (m.nodes.map RemoteNode.spec)), (3, .str m.traceId)]

def MemberUpEvent.spec (m : MemberUpEvent) : Bytes := wire m.values

/-- `/repo/coerce/src/protocol/network.proto` 220-226. -/
def RaftRequest.schema : Schema := ⟨[(1, none), (2, none), (3, none)]⟩

def RaftRequest.values (m : RaftRequest) : List (Nat × FVal) :=
  [(1, .str m.messageId), (2, .u32 m.requestType), (3, .bytes m.payload)]

def RaftRequest.spec (m : RaftRequest) : Bytes := wire m.values

end Network


namespace Sharding

/-- `/repo/coerce/src/protocol/sharding.proto` 5-9. -/
def AllocateShard.schema : Schema := ⟨[(1, none), (2, none)]⟩

def AllocateShard.values (m : AllocateShard) : List (Nat × FVal) :=
  [(1, .u32 m.shardId), (2, .bool m.rebalancing)]

def AllocateShard.spec (m : AllocateShard) : Bytes := wire m.values

/-- `/repo/coerce/src/protocol/sharding.proto` 11-15. -/
def RemoteShard.schema : Schema := ⟨[(1, none), (2, none)]⟩

def RemoteShard.values (m : RemoteShard) : List (Nat × FVal) :=
  [(1, .u32 m.shardId), (2, .u64 m.nodeId)]

def RemoteShard.spec (m : RemoteShard) : Bytes := wire m.values

/-- `/repo/coerce/src/protocol/sharding.proto` 17-19. -/
def ShardAllocated.schema : Schema := ⟨[(1, some RemoteShard.schema)]⟩

def ShardAllocated.values (m : ShardAllocated) : List (Nat × FVal) :=
  [(1, .msg (m.shard.map RemoteShard.spec))]

def ShardAllocated.spec (m : ShardAllocated) : Bytes := wire m.values

/-- `/repo/coerce/src/protocol/sharding.proto` 21-23. -/
def ShardReallocating.schema : Schema := ⟨[(1, none)]⟩

def ShardReallocating.values (m : ShardReallocating) : List (Nat × FVal) :=
  [(1, .u32 m.shardId)]

def ShardReallocating.spec (m : ShardReallocating) : Bytes := wire m.values

/-- `/repo/coerce/src/protocol/sharding.proto` 25-31. -/
def StopShard.schema : Schema := ⟨[(1, none), (2, none), (3, none)]⟩

def StopShard.values (m : StopShard) : List (Nat × FVal) :=
  [(1, .u32 m.shardId), (2, .u64 m.originNodeId), (3, .str m.requestId)]

def StopShard.spec (m : StopShard) : Bytes := wire m.values

/-- `/repo/coerce/src/protocol/sharding.proto` 33-39. -/
def ShardStopped.schema : Schema := ⟨[(1, none), (2, none), (3, none)]⟩

def ShardStopped.values (m : ShardStopped) : List (Nat × FVal) :=
  [(1, .u32 m.shardId), (2, .u64 m.originNodeId), (3, .bool m.isSuccessful)]

def ShardStopped.spec (m : ShardStopped) : Bytes := wire m.values

/-- `/repo/coerce/src/protocol/sharding.proto` 41-59. -/
def AllocateShardResult.schema : Schema := ⟨[(1, none), (2, some RemoteShard.schema), (3, none)]⟩

def AllocateShardResult.values (m : AllocateShardResult) : List (Nat × FVal) :=
  [(1, .enum m.resultType), (2, .msg (m.allocation.map RemoteShard.spec)), (3, .enum m.err)]

def AllocateShardResult.spec (m : AllocateShardResult) : Bytes := wire m.values

/-- `/repo/coerce/src/protocol/sharding.proto` 62-64. -/
def RemoteEntityRequestRecipe.schema : Schema := ⟨[(1, none)]⟩

def RemoteEntityRequestRecipe.values (m : RemoteEntityRequestRecipe) : List (Nat × FVal) :=
  [(1, .bytes m.recipe)]

def RemoteEntityRequestRecipe.spec (m : RemoteEntityRequestRecipe) : Bytes := wire m.values

/-- `/repo/coerce/src/protocol/sharding.proto` 61-77. -/
def RemoteEntityRequest.schema : Schema := ⟨[(1, none), (2, none), (3, none), (4, none), (5, some RemoteEntityRequestRecipe.schema), (6, none)]⟩

def RemoteEntityRequest.values (m : RemoteEntityRequest) : List (Nat × FVal) :=
  [(1, .str m.requestId),
   (2, .str m.actorId),
   (3, .str m.messageType),
   (4, .bytes m.message),
   (5, .msg (m.recipe.map RemoteEntityRequestRecipe.spec)),
   (6, .u64 m.originNode)]

def RemoteEntityRequest.spec (m : RemoteEntityRequest) : Bytes := wire m.values

/-- `/repo/coerce/src/protocol/sharding.proto` 85-89. -/
def StartEntity.schema : Schema := ⟨[(1, none), (2, none)]⟩

def StartEntity.values (m : StartEntity) : List (Nat × FVal) :=
  [(1, .str m.actorId), (2, .bytes m.recipe)]

def StartEntity.spec (m : StartEntity) : Bytes := wire m.values

/-- `/repo/coerce/src/protocol/sharding.proto` 91-93. -/
def PassivateEntity.schema : Schema := ⟨[(1, none)]⟩

def PassivateEntity.values (m : PassivateEntity) : List (Nat × FVal) :=
  [(1, .str m.actorId)]

def PassivateEntity.spec (m : PassivateEntity) : Bytes := wire m.values

/-- `/repo/coerce/src/protocol/sharding.proto` 95-97. -/
def RemoveEntity.schema : Schema := ⟨[(1, none)]⟩

def RemoveEntity.values (m : RemoveEntity) : List (Nat × FVal) :=
  [(1, .str m.actorId)]

def RemoveEntity.spec (m : RemoveEntity) : Bytes := wire m.values

/-- `/repo/coerce/src/protocol/sharding.proto` 100-106. -/
def ShardStateSnapshotEntity.schema : Schema := ⟨[(1, none), (2, none), (3, none)]⟩

def ShardStateSnapshotEntity.values (m : ShardStateSnapshotEntity) : List (Nat × FVal) :=
  [(1, .str m.actorId), (2, .bytes m.recipe), (3, .enum m.state)]

def ShardStateSnapshotEntity.spec (m : ShardStateSnapshotEntity) : Bytes := wire m.values

/-- `/repo/coerce/src/protocol/sharding.proto` 99-113. -/
def ShardStateSnapshot.schema : Schema := ⟨[(1, none), (2, none), (3, some ShardStateSnapshotEntity.schema)]⟩

def ShardStateSnapshot.values (m : ShardStateSnapshot) : List (Nat × FVal) :=
  [(1, .u32 m.shardId),
   (2, .u64 m.nodeId),
   (3, .msgs (m.entities.map ShardStateSnapshotEntity.spec))]

def ShardStateSnapshot.spec (m : ShardStateSnapshot) : Bytes := wire m.values

/-- `/repo/coerce/src/protocol/sharding.proto` 122-124. -/
def GetShardingStats.schema : Schema := ⟨[]⟩

def GetShardingStats.values (_ : GetShardingStats) : List (Nat × FVal) :=
  []

def GetShardingStats.spec (m : GetShardingStats) : Bytes := wire m.values

/-- `/repo/coerce/src/protocol/sharding.proto` 126-132. -/
def NodeStats.schema : Schema := ⟨[(1, none), (2, none), (3, none)]⟩

def NodeStats.values (m : NodeStats) : List (Nat × FVal) :=
  [(1, .u64 m.nodeId), (2, .u64 m.shardCount), (3, .enum m.status)]

def NodeStats.spec (m : NodeStats) : Bytes := wire m.values

/-- `/repo/coerce/src/protocol/sharding.proto` 134-142. -/
def ShardingStats.schema : Schema := ⟨[(1, none), (2, none), (3, some RemoteShard.schema), (4, some NodeStats.schema)]⟩

def ShardingStats.values (m : ShardingStats) : List (Nat × FVal) :=
  [(1, .str m.entityType),
   (2, .u64 m.totalShards),
   (3, .msgs (m.shards.map RemoteShard.spec)),
   (4, .msgs (m.nodes.map NodeStats.spec))]

def ShardingStats.spec (m : ShardingStats) : Bytes := wire m.values

/-- `/repo/coerce/src/protocol/sharding.proto` 144-146. -/
def GetShardStats.schema : Schema := ⟨[]⟩

def GetShardStats.values (_ : GetShardStats) : List (Nat × FVal) :=
  []

def GetShardStats.spec (m : GetShardStats) : Bytes := wire m.values

/-- `/repo/coerce/src/protocol/sharding.proto` 148-154. -/
def ShardStats.schema : Schema := ⟨[(1, none), (2, none), (3, none)]⟩

def ShardStats.values (m : ShardStats) : List (Nat × FVal) :=
  [(1, .u32 m.shardId), (2, .u64 m.nodeId), (3, .strs m.entities)]

def ShardStats.spec (m : ShardStats) : Bytes := wire m.values

end Sharding


namespace Singleton

/-- `/repo/coerce/src/protocol/singleton.proto` 5-7. -/
def GetStatus.schema : Schema := ⟨[(1, none)]⟩

def GetStatus.values (m : GetStatus) : List (Nat × FVal) :=
  [(1, .u64 m.sourceNodeId)]

def GetStatus.spec (m : GetStatus) : Bytes := wire m.values

/-- `/repo/coerce/src/protocol/singleton.proto` 9-11. -/
def ManagerStatus.schema : Schema := ⟨[(1, none)]⟩

def ManagerStatus.values (m : ManagerStatus) : List (Nat × FVal) :=
  [(1, .enum m.singletonState)]

def ManagerStatus.spec (m : ManagerStatus) : Bytes := wire m.values

/-- `/repo/coerce/src/protocol/singleton.proto` 21-23. -/
def RequestLease.schema : Schema := ⟨[(1, none)]⟩

def RequestLease.values (m : RequestLease) : List (Nat × FVal) :=
  [(1, .u64 m.sourceNodeId)]

def RequestLease.spec (m : RequestLease) : Bytes := wire m.values

/-- `/repo/coerce/src/protocol/singleton.proto` 25-27. -/
def LeaseAck.schema : Schema := ⟨[(1, none)]⟩

def LeaseAck.values (m : LeaseAck) : List (Nat × FVal) :=
  [(1, .u64 m.sourceNodeId)]

def LeaseAck.spec (m : LeaseAck) : Bytes := wire m.values

/-- `/repo/coerce/src/protocol/singleton.proto` 29-31. -/
def LeaseNack.schema : Schema := ⟨[(1, none)]⟩

def LeaseNack.values (m : LeaseNack) : List (Nat × FVal) :=
  [(1, .u64 m.sourceNodeId)]

def LeaseNack.spec (m : LeaseNack) : Bytes := wire m.values

/-- `/repo/coerce/src/protocol/singleton.proto` 33-35. -/
def SingletonStarted.schema : Schema := ⟨[(1, none)]⟩

def SingletonStarted.values (m : SingletonStarted) : List (Nat × FVal) :=
  [(1, .u64 m.sourceNodeId)]

def SingletonStarted.spec (m : SingletonStarted) : Bytes := wire m.values

/-- `/repo/coerce/src/protocol/singleton.proto` 37-39. -/
def SingletonStopping.schema : Schema := ⟨[(1, none)]⟩

def SingletonStopping.values (m : SingletonStopping) : List (Nat × FVal) :=
  [(1, .u64 m.sourceNodeId)]

def SingletonStopping.spec (m : SingletonStopping) : Bytes := wire m.values

/-- `/repo/coerce/src/protocol/singleton.proto` 41-43. -/
def SingletonStopped.schema : Schema := ⟨[(1, none)]⟩

def SingletonStopped.values (m : SingletonStopped) : List (Nat × FVal) :=
  [(1, .u64 m.sourceNodeId)]

def SingletonStopped.spec (m : SingletonStopped) : Bytes := wire m.values

end Singleton


namespace Chat

/-- the well known type `StringValue` of protobuf. -/
def StringValue.schema : Schema := ⟨[(1, none)]⟩

def StringValue.values (m : StringValue) : List (Nat × FVal) :=
  [(1, .str m.value)]

def StringValue.spec (m : StringValue) : Bytes := wire m.values

/-- the well known type `UInt64Value` of protobuf. -/
def UInt64Value.schema : Schema := ⟨[(1, none)]⟩

def UInt64Value.values (m : UInt64Value) : List (Nat × FVal) :=
  [(1, .u64 m.value)]

def UInt64Value.spec (m : UInt64Value) : Bytes := wire m.values

/-- `/repo/examples/coerce-sharded-chat-example/src/protocol/chat.proto` 7-9. -/
def Handshake.schema : Schema := ⟨[(1, none)]⟩

def Handshake.values (m : Handshake) : List (Nat × FVal) :=
  [(1, .str m.name)]

def Handshake.spec (m : Handshake) : Bytes := wire m.values

/-- `/repo/examples/coerce-sharded-chat-example/src/protocol/chat.proto` 11-15. -/
def JoinChat.schema : Schema := ⟨[(1, none), (2, some StringValue.schema)]⟩

def JoinChat.values (m : JoinChat) : List (Nat × FVal) :=
  [(1, .str m.chatStreamId), (2, .msg (m.joinToken.map StringValue.spec))]

def JoinChat.spec (m : JoinChat) : Bytes := wire m.values

/-- `/repo/examples/coerce-sharded-chat-example/src/protocol/chat.proto` 17-19. -/
def LeaveChat.schema : Schema := ⟨[(1, none)]⟩

def LeaveChat.values (m : LeaveChat) : List (Nat × FVal) :=
  [(1, .str m.chatStreamId)]

def LeaveChat.spec (m : LeaveChat) : Bytes := wire m.values

/-- `/repo/examples/coerce-sharded-chat-example/src/protocol/chat.proto` 25-33. -/
def ChatMessage.schema : Schema := ⟨[(1, none), (2, some UInt64Value.schema), (3, some StringValue.schema), (4, none)]⟩

def ChatMessage.values (m : ChatMessage) : List (Nat × FVal) :=
  [(1, .str m.chatStreamId),
   (2, .msg (m.messageId.map UInt64Value.spec)),
   (3, .msg (m.sender.map StringValue.spec)),
   (4, .str m.message)]

def ChatMessage.spec (m : ChatMessage) : Bytes := wire m.values

/-- `/repo/examples/coerce-sharded-chat-example/src/protocol/chat.proto` 21-23. -/
def SendChatMessage.schema : Schema := ⟨[(1, some ChatMessage.schema)]⟩

def SendChatMessage.values (m : SendChatMessage) : List (Nat × FVal) :=
  [(1, .msg (m.message.map ChatMessage.spec))]

def SendChatMessage.spec (m : SendChatMessage) : Bytes := wire m.values

end Chat

namespace Journal
open Verif.Persist

/-- `/repo/coerce/src/protocol/persistent/journal.proto` 5-11. -/
def entryFields : Schema := ⟨[(1, none), (2, none), (3, none)]⟩

def entryValues (e : Entry) : List (Nat × FVal) := [(1, .i64 (Int64.ofInt e.seq)), (2, .str e.ptype), (3, .bytes e.bytes)]

end Journal

end Verif.Proto
