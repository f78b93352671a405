import Verif.Sharding.CodecModel
import Verif.Proto.ShardingLemmas

/-!
# Properties of the sharding messages as bytes (C50, C61)

The encodings are smaller than 4 GiB, the limit of a protobuf message.
-/

namespace Verif.Sharding
open Verif.Proto Verif.Sharding.Wire
open Verif.Remote (ReadRes)

/-- **C50.** An allocation request arrives as the same request. -/
theorem C50_allocate (m : AllocateShard) (hs : m.write.length < 2 ^ 32) :
    AllocateShard.read m.write = .ok m := by
  unfold AllocateShard.read AllocateShard.write
  rw [Sharding.AllocateShard.read_write _ hs]; rfl

/-- **C50.** Every answer to an allocation request arrives as the same answer. -/
theorem C50_allocate_result (m : AllocateShardResult) (hs : m.write.length < 2 ^ 32) :
    AllocateShardResult.read m.write = .ok m := by
  unfold AllocateShardResult.read AllocateShardResult.write
  rw [Sharding.AllocateShardResult.read_write _ hs]
  rcases m with _ | _ | _ | (_ | _) <;> rfl

/-- **C50.** The announcement of a placement arrives as the same announcement. -/
theorem C50_allocated (m : ShardAllocated) (hs : m.write.length < 2 ^ 32) :
    ShardAllocated.read m.write = .ok m := by
  unfold ShardAllocated.read ShardAllocated.write
  rw [Sharding.ShardAllocated.read_write _ hs]; rfl

theorem reallocating_as_stop (s : UInt32) :
    Sharding.ShardReallocating.write { shardId := s } =
      Sharding.StopShard.write { shardId := s, originNodeId := 0, requestId := "" } := by
  simp [Sharding.ShardReallocating.write, Sharding.StopShard.write, Sharding.ShardReallocating.fields,
    Sharding.StopShard.fields, fVarint, fString]

/-- **C50.** The announcement that a shard is being moved arrives as the same announcement (although
it is read as another protobuf message than it is written). -/
theorem C50_reallocating (m : ShardReallocating) (hs : m.write.length < 2 ^ 32) :
    ShardReallocating.read m.write = .ok m := by
  unfold ShardReallocating.write at hs
  unfold ShardReallocating.read ShardReallocating.write
  rw [reallocating_as_stop] at hs ⊢
  rw [Sharding.StopShard.read_write _ hs]; rfl

/-- **C50.** A request to stop a shard arrives as the same request. -/
theorem C50_stop {U : Type} (T : UuidText U) (m : StopShard U) (hs : (m.write T).length < 2 ^ 32) :
    StopShard.read T (m.write T) = .ok m := by
  unfold StopShard.read StopShard.write
  rw [Sharding.StopShard.read_write _ hs]
  simp [mapUnwrap, T.parse_text]

/-- **C50.** The report that a shard has stopped arrives as the same report. -/
theorem C50_stopped (m : ShardStopped) (hs : m.write.length < 2 ^ 32) :
    ShardStopped.read m.write = .ok m := by
  unfold ShardStopped.read ShardStopped.write
  rw [Sharding.ShardStopped.read_write _ hs]; rfl

/-- **C50.** An entity request arrives as the same request, with or without a recipe (an empty recipe
is told apart from none). -/
theorem C50_entity_request {U : Type} (T : UuidText U) (m : RemoteEntityRequest U)
    (hs : (m.write T).length < 2 ^ 32) : RemoteEntityRequest.read T (m.write T) = .ok m := by
  unfold RemoteEntityRequest.read RemoteEntityRequest.write
  rw [Sharding.RemoteEntityRequest.read_write _ hs]
  rcases m with ⟨u, a, t, b, r, o⟩
  cases r <;> simp [mapUnwrap, T.parse_text]

/-- **C50.** The journal entries of a shard are read back as written. -/
theorem C50_start_entity (m : StartEntity) (hs : m.write.length < 2 ^ 32) :
    StartEntity.read m.write = .ok m := by
  unfold StartEntity.read StartEntity.write
  rw [Sharding.StartEntity.read_write _ hs]; rfl

theorem C50_remove_entity (m : RemoveEntity) (hs : m.write.length < 2 ^ 32) :
    RemoveEntity.read m.write = .ok m := by
  unfold RemoveEntity.read RemoveEntity.write
  rw [Sharding.RemoveEntity.read_write _ hs]; rfl

theorem C50_passivate_entity (m : PassivateEntity) (hs : m.write.length < 2 ^ 32) :
    PassivateEntity.read m.write = .ok m := by
  unfold PassivateEntity.read PassivateEntity.write
  rw [Sharding.PassivateEntity.read_write _ hs]; rfl

/-- what a snapshot keeps of the state of an entity: only whether it was passivated. -/
def SnapState.kept : SnapState → SnapState
  | .passivated => .passivated
  | _ => .idle

def SnapEntity.kept (e : SnapEntity) : SnapEntity := { e with state := SnapState.kept e.state }

theorem snapEntities (l : List SnapEntity) :
    (l.map Wire.SnapEntity.toProto).mapM Wire.SnapEntity.ofProto = some (l.map SnapEntity.kept) := by
  induction l with
  | nil => rfl
  | cons e l ih =>
    have he : Wire.SnapEntity.ofProto e.toProto = some (SnapEntity.kept e) := by
      rcases e with ⟨a, r, st⟩
      cases st <;> rfl
    simp [List.mapM_cons, he, ih]

/-- **C50.** A snapshot of a shard is read back with the same entities, recipes and order; of the state
of an entity it keeps whether it was passivated. -/
theorem C50_snapshot (m : ShardStateSnapshot) (hs : m.write.length < 2 ^ 32) :
    ShardStateSnapshot.read m.write = .ok { m with entities := m.entities.map SnapEntity.kept } := by
  unfold ShardStateSnapshot.read ShardStateSnapshot.write
  rw [Sharding.ShardStateSnapshot.read_write _ hs]
  simp only [mapUnwrap, snapEntities, Option.map_some]

theorem nodeStats (l : List NodeStats) :
    (l.map NodeStats.toProto).mapM NodeStats.ofProto = some l := by
  induction l with
  | nil => rfl
  | cons e l ih =>
    have he : NodeStats.ofProto e.toProto = some e := by
      rcases e with ⟨a, r, st⟩
      cases st <;> rfl
    simp [List.mapM_cons, he, ih]

/-- **C50.** The statistics of the coordinator arrive as the same statistics. -/
theorem C50_sharding_stats (m : ShardingStats) (hs : m.write.length < 2 ^ 32) :
    ShardingStats.read m.write = .ok m := by
  unfold ShardingStats.read ShardingStats.write
  rw [Sharding.ShardingStats.read_write _ hs]
  have : (fun s : Sharding.RemoteShard => (s.shardId, s.nodeId)) ∘ shardToProto = id := rfl
  simp only [mapUnwrap, nodeStats, Option.map_some, List.map_map, this, List.map_id]

/-- **C50.** The statistics of a shard arrive as the same statistics. -/
theorem C50_shard_stats (m : ShardStats) (hs : m.write.length < 2 ^ 32) :
    ShardStats.read m.write = .ok m := by
  unfold ShardStats.read ShardStats.write
  rw [Sharding.ShardStats.read_write _ hs]; rfl

/-! ### Concrete cases -/

/-- a text form for natural numbers, to show that `UuidText` can be met. -/
def unaryText : UuidText Nat where
  text n := String.ofList (List.replicate (n + 1) 'x')
  parse s := match s.toList.length with
    | 0 => none
    | n + 1 => some n
  parse_text := by simp

example : AllocateShardResult.read (AllocateShardResult.write (.alreadyAllocated 7 300)) =
    .ok (.alreadyAllocated 7 300) := C50_allocate_result _ (by decide +kernel)

example : (AllocateShardResult.write (.alreadyAllocated 7 300)) = [8, 1, 18, 5, 8, 7, 16, 172, 2] := by
  decide +kernel

example : ShardReallocating.read (ShardReallocating.write ⟨5⟩) = .ok ⟨5⟩ := C50_reallocating _ (by decide +kernel)

example : RemoteEntityRequest.read unaryText (RemoteEntityRequest.write unaryText
    ⟨3, "a", "b", [1, 2], some [], 9⟩) = .ok ⟨3, "a", "b", [1, 2], some [], 9⟩ :=
  C50_entity_request _ _ (by decide +kernel)

example : ShardStateSnapshot.read (ShardStateSnapshot.write
    ⟨1, 2, [⟨"a", [1], .active⟩, ⟨"b", [2], .passivated⟩]⟩) =
    .ok ⟨1, 2, [⟨"a", [1], .idle⟩, ⟨"b", [2], .passivated⟩]⟩ := C50_snapshot _ (by decide +kernel)

/-! ### C61: bytes that are not a message -/

/-- **C61 (partial).** These messages are refused with an error when the bytes are not a message of that
kind; reading them never panics. -/
theorem C61_refused_partial (b : Bytes) :
    AllocateShard.read b ≠ .panic ∧ ShardReallocating.read b ≠ .panic ∧ ShardStopped.read b ≠ .panic ∧
      StartEntity.read b ≠ .panic ∧ RemoveEntity.read b ≠ .panic ∧ PassivateEntity.read b ≠ .panic ∧
      ShardStats.read b ≠ .panic := by
  have h : ∀ {α β : Type} (f : α → β) (o : Option α), mapOk f o ≠ .panic := by
    intro α β f o; cases o <;> simp [mapOk]
  exact ⟨h _ _, h _ _, h _ _, h _ _, h _ _, h _ _, h _ _⟩

/-- **C61.** Bytes that are not even a protobuf message are always refused, whatever message was
expected. -/
theorem C61_not_protobuf {U : Type} (T : UuidText U) (b : Bytes) (h : parseFields b = none) :
    AllocateShard.read b = .rejected ∧ AllocateShardResult.read b = .rejected ∧
      ShardAllocated.read b = .rejected ∧ ShardReallocating.read b = .rejected ∧
      StopShard.read T b = .rejected ∧ ShardStopped.read b = .rejected ∧
      RemoteEntityRequest.read T b = .rejected ∧ StartEntity.read b = .rejected ∧
      RemoveEntity.read b = .rejected ∧ PassivateEntity.read b = .rejected ∧
      ShardStateSnapshot.read b = .rejected ∧ ShardingStats.read b = .rejected ∧
      ShardStats.read b = .rejected := by
  refine ⟨?_, ?_, ?_, ?_, ?_, ?_, ?_, ?_, ?_, ?_, ?_, ?_, ?_⟩ <;>
    simp [AllocateShard.read, AllocateShardResult.read, ShardAllocated.read, ShardReallocating.read,
      StopShard.read, ShardStopped.read, RemoteEntityRequest.read, StartEntity.read, RemoveEntity.read,
      PassivateEntity.read, ShardStateSnapshot.read, ShardingStats.read, ShardStats.read,
      Sharding.AllocateShard.read, Sharding.AllocateShardResult.read, Sharding.ShardAllocated.read,
      Sharding.StopShard.read, Sharding.ShardStopped.read, Sharding.RemoteEntityRequest.read,
      Sharding.StartEntity.read, Sharding.RemoveEntity.read, Sharding.PassivateEntity.read,
      Sharding.ShardStateSnapshot.read, Sharding.ShardingStats.read, Sharding.ShardStats.read, h,
      mapOk, mapUnwrap]

/-- **C61 (refuted).** The empty payload makes the node that reads it as an announcement panic; so it
does for a stop request or an entity request, the empty text being no UUID. -/
theorem C61_panics_refuted {U : Type} (T : UuidText U) (h : T.parse "" = none) :
    ShardAllocated.read [] = .panic ∧ StopShard.read T [] = .panic ∧
      RemoteEntityRequest.read T [] = .panic := by
  have hp : parseFields [] = some [] := by decide +kernel
  simp [ShardAllocated.read, StopShard.read, RemoteEntityRequest.read, Sharding.ShardAllocated.read,
    Sharding.StopShard.read, Sharding.RemoteEntityRequest.read, hp, mapUnwrap, h]

/-- **C61 (refuted).** An answer with a result type this version does not know panics the reader. -/
theorem C61_unknown_type_refuted : AllocateShardResult.read [8, 4] = .panic := by decide +kernel

example : parseFields [8] = none := by decide +kernel

example : unaryText.parse "" = none := by decide +kernel

end Verif.Sharding
