import Verif.Persist.FlockModel
import Verif.Sharding.StoredModel

/-!
# Several coordinators, or copies of a shard, on one Redis

What the coordinator and the shard keep in their journals, as persistent actors of `Verif.Persist.FlockModel`. The state is
the list of what was recovered and persisted since; what the actor makes of it when it starts is `Coord.start` and
`Shard.boot`.
-/

namespace Verif.Sharding

/-- the coordinator as a persistent actor: it persists the shards it allocates and recovers them.
(`/repo/coerce/src/sharding/coordinator/mod.rs` 60-77, `/repo/coerce/src/sharding/coordinator/allocation.rs` 64-90; it saves
no snapshots.) -/
def coordApp : Persist.App UInt32 (List UInt32) where
  init := []
  app := fun l s => l ++ [s]
  enc := allocPayload
  dec := fun p => (decodeAlloc p).map UInt32.ofNat
  encS := fun _ => ⟨"", []⟩
  decS := fun _ => none
  known := coordKnown

/-- a shard as a persistent actor: it persists the starts of entities and recovers them.
(`/repo/coerce/src/sharding/shard/mod.rs` 142-158, 281-300; it saves no snapshots.) -/
def shardApp (N : Naming) : Persist.App (Nat × Nat) (List (Nat × Nat)) where
  init := []
  app := fun l p => l ++ [p]
  enc := fun p => startPayload N p.1 p.2
  dec := fun p => match decodeStart N p with
    | some (.start e c) => some (e, c)
    | _ => none
  encS := fun _ => ⟨"", []⟩
  decS := fun _ => none
  known := shardKnown

end Verif.Sharding
