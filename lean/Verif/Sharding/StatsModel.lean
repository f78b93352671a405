import Verif.Sharding.CoordinatorModel
import Verif.Sharding.HostModel
import Verif.Sharding.ShardModel

/-!
# Statistics of sharded entities

What coordinator, shards and shard hosts say of themselves, and how the HTTP interface puts it together. Numbers are
natural numbers: the casts to `u32` and `u64` are taken not to overflow. How the statistics are encoded is C50.
-/

namespace Verif.Sharding

/-- `ShardingStats`, `/repo/coerce/src/sharding/coordinator/stats.rs` 17-22, without the name of the entity type:
`(shard, node)` and `(node, shards, status)`. -/
structure CoordStats where
  total : Nat
  shards : List (Nat × Nat)
  nodes : List (Nat × Nat × HostStatus)
deriving DecidableEq, Repr

/-- `Handler<GetShardingStats>`, `/repo/coerce/src/sharding/coordinator/stats.rs` 25-49. -/
def Coord.stats (σ : Coord) : CoordStats :=
  { total := σ.shards.length
    shards := σ.shards
    nodes := σ.hosts.map fun p => (p.1, p.2.shards.length, p.2.status) }

/-- `ShardStats`, `/repo/coerce/src/sharding/shard/stats.rs` 16-20; also `ShardStats` of
`/repo/coerce/src/remote/api/sharding/cluster.rs` 66-71, whose `entity_count` is the number of entities. -/
structure ShardInfo where
  shard : Nat
  node : Nat
  entities : List Nat
deriving DecidableEq, Repr

/-- `Handler<GetShardStats>`, `/repo/coerce/src/sharding/shard/stats.rs` 23-34, of shard `s` on node `n`. -/
def Shard.stats (s n : Nat) (σ : Shard) : ShardInfo := ⟨s, n, σ.entities.map (·.1)⟩

/-- what is found on the nodes: `(run n s)` is the actor of shard `s` registered on node `n`, if there is one.
(`/repo/coerce/src/remote/api/sharding/cluster.rs` 117-229; `shard_actor_id`, `/repo/coerce/src/sharding/host/mod.rs`
374-376.) -/
abbrev Running := Nat → Nat → Option Shard

/-- `get_shards` followed by `send(GetShardStats)`, `/repo/coerce/src/remote/api/sharding/cluster.rs` 174-204 and
140-145, for one shard: `none` if it is left out, `some none` if the answer is an error. On the own node a shard that
is not found is left out; on another node the request is answered with an error. The nodes are reachable. -/
def askShard (self : Nat) (run : Running) (p : Nat × Nat) : Option (Option ShardInfo) :=
  if p.2 = self then (run self p.1).map fun x => some (x.stats p.1 self)
  else some ((run p.2 p.1).map fun x => x.stats p.1 p.2)

/-- `ShardingClusterStats`, `/repo/coerce/src/remote/api/sharding/cluster.rs` 74-82. -/
structure ClusterStats where
  total : Nat
  totalNodes : Nat
  availableNodes : Nat
  totalEntities : Nat
  nodes : List (Nat × Nat × HostStatus)
  shards : List ShardInfo
deriving DecidableEq, Repr

/-- the record built at `/repo/coerce/src/remote/api/sharding/cluster.rs` 155-164; `is_available`, 47-51. -/
def clusterStats (c : CoordStats) (shards : List ShardInfo) : ClusterStats :=
  { total := c.total
    totalNodes := c.nodes.length
    availableNodes := (c.nodes.filter fun n => n.2.2 = .ready).length
    totalEntities := (shards.map fun s => s.entities.length).sum
    nodes := c.nodes
    shards := shards }

/-- the collected answers, `/repo/coerce/src/remote/api/sharding/cluster.rs` 144-153: `none` if `unwrap` panics. -/
def collect {α : Type} : List (Option α) → Option (List α)
  | [] => some []
  | none :: _ => none
  | some a :: l => (collect l).map (a :: ·)

/-- The answer to a request for `/sharding/stats/cluster/{entity}`. (`/repo/coerce/src/remote/api/sharding/cluster.rs`
86-114.) -/
inductive StatsReply where
  /-- `Json(None)`. -/
  | null
  /-- the task has panicked and dropped its sender, and `cluster_stats_receiver.await.unwrap()` (225) panics. -/
  | panicked
  | stats (c : ClusterStats)
deriving DecidableEq, Repr

/-- `get_sharding_stats` and `Handler<GetClusterStats>`, `/repo/coerce/src/remote/api/sharding/cluster.rs` 118-172,
216-229, on node `self`. `host`: the entity type is sharded
here and its host answers; `coord`: what the coordinator answers, if it does (139). -/
def getClusterStats (self : Nat) (host : Bool) (coord : Option CoordStats) (run : Running) : StatsReply :=
  if host then
    match coord with
    | none => .panicked
    | some c =>
      match collect (c.shards.filterMap (askShard self run)) with
      | none => .panicked
      | some l => .stats (clusterStats c l)
  else .null

/-- `HostStats`, `/repo/coerce/src/sharding/host/stats.rs` 22-28. -/
structure HostStats where
  pending : Nat
  hostedCount : Nat
  remoteCount : Nat
  hosted : List ShardInfo
  remote : List (Nat × Nat)
deriving DecidableEq, Repr

/-- `ShardState::actor_ref`, `/repo/coerce/src/sharding/host/mod.rs` 157-163. -/
def HShard.actorRef {R : Type} : HShard R → Option Nat
  | .starting a _ _ => some a
  | .ready a => some a
  | .stopping => none

/-- `Handler<GetStats>`, `/repo/coerce/src/sharding/host/stats.rs` 34-82. `ask s a`: what instance `a` of shard `s`
answers, `none` if it is gone. -/
def Host.stats {R : Type} (σ : Host R) (ask : Nat → Nat → Option ShardInfo) : HostStats :=
  { pending := σ.pending.length
    hostedCount := σ.hosted.length
    remoteCount := σ.remote.length
    hosted := σ.hosted.filterMap fun p => p.2.actorRef.bind (ask p.1)
    remote := σ.remote }

/-- `Stats`, `/repo/coerce/src/remote/api/sharding/node.rs` 22-27. -/
structure NodeView where
  total : Nat
  hosted : List ShardInfo
  remote : List (Nat × Nat)
deriving DecidableEq, Repr

/-- `Handler<GetStats>`, `/repo/coerce/src/remote/api/sharding/node.rs` 44-73. -/
def HostStats.view (h : HostStats) : NodeView := ⟨h.hostedCount + h.remoteCount, [], []⟩

end Verif.Sharding
