import Verif.Assoc

/-!
# The names sharding uses

The actor ids and journal keys made from an entity type's name, and the registrations of several sharded entity types
with the scheduler of one node.
-/

namespace Verif.Sharding.Ids

/-- `ShardHost::actor_id`, `/repo/coerce/src/sharding/host/mod.rs` 53-55. -/
def hostId (entity : String) (node : Nat) : String := "shard-host-" ++ entity ++ "-" ++ toString node

/-- `shard_actor_id`, `/repo/coerce/src/sharding/host/mod.rs` 374-376. -/
def shardId (entity : String) (shard : Nat) : String := entity ++ "-Shard-" ++ toString shard

/-- `persistence_key` of a shard: its actor id, `/repo/coerce/src/sharding/shard/mod.rs` 145-147. -/
def shardKey (entity : String) (shard : Nat) : String := shardId entity shard

/-- `persistence_key` of a coordinator, `/repo/coerce/src/sharding/coordinator/mod.rs` 67-69. -/
def coordKey (entity : String) : String := entity ++ "-ShardCoordinator"

/-- `ShardCoordinator::type_name()`: the full path of the type, `/repo/coerce/src/actor/mod.rs` 243-248. -/
def coordType : String := "coerce::sharding::coordinator::ShardCoordinator"

/-- `singleton_id` of the builder for the coordinators, `/repo/coerce/src/singleton/mod.rs` 39: the type name of the
actor. The entity type has no part in it. -/
def coordId (_entity : String) : String := coordType

/-- the manager's actor id, `/repo/coerce/src/singleton/mod.rs` 40-42 and 60. -/
def managerId (_entity : String) (node : Nat) : String := "singleton-manager<" ++ coordType ++ ">-" ++ toString node

/-- the proxy's actor id, `/repo/coerce/src/singleton/mod.rs` 43 and 61. -/
def proxyId (_entity : String) (node : Nat) : String := "singleton-proxy<" ++ coordType ++ ">-" ++ toString node

/-- who an actor reference belongs to. (`/repo/coerce/src/actor/scheduler/mod.rs` 23-29.) -/
inductive Owner where
  | host (e : String)
  | proxy (e : String)
  | manager (e : String)
  | coordinator (e : String)
  | shard (e : String) (s : Nat)
deriving DecidableEq, Repr

/-- What happens on a node: sharding is started for an entity type (`Sharding::try_start`,
`/repo/coerce/src/sharding/mod.rs` 70-107), its coordinator is started here (`/repo/coerce/src/singleton/manager/start.rs`
18-31), a shard is started here (`/repo/coerce/src/sharding/host/mod.rs` 200-205). -/
inductive Op where
  | start (e : String)
  | coordinator (e : String)
  | shard (e : String) (s : Nat)
deriving DecidableEq, Repr

/-- the registrations made, in order; `RegisterActor` puts a new reference in the place of an old one with the same
id, `/repo/coerce/src/actor/scheduler/mod.rs` 192-204. Only actors that are running are considered: nothing is
deregistered. -/
def step (node : Nat) (reg : Assoc String Owner) : Op → Assoc String Owner
  | .start e => ((reg.insert (hostId e node) (.host e)).insert (proxyId e node) (.proxy e)).insert
      (managerId e node) (.manager e)
  | .coordinator e => reg.insert (coordId e) (.coordinator e)
  | .shard e s => reg.insert (shardId e s) (.shard e s)

/-- the registrations after any number of operations (`/repo/coerce/src/actor/scheduler/mod.rs` 188-219). -/
def run (node : Nat) (ops : List Op) : Assoc String Owner := ops.foldl (step node) []

/-! What other nodes reach here: a message is for an actor id, which is looked up when it arrives. -/

/-- a host of another node asks for a shard: the proxy sends to the singleton's id on the leader,
`/repo/coerce/src/singleton/manager/mod.rs` 409-414. -/
def reachedByAllocate (node : Nat) (ops : List Op) (e : String) : Option Owner := (run node ops).get (coordId e)

/-- a manager of another node asks for the lease, `/repo/coerce/src/singleton/manager/mod.rs` 338-344. -/
def reachedByLease (node : Nat) (ops : List Op) (e : String) : Option Owner := (run node ops).get (managerId e node)

/-- a coordinator of another node tells the host about a shard, `/repo/coerce/src/sharding/host/mod.rs` 57-68. -/
def reachedByHostMessage (node : Nat) (ops : List Op) (e : String) : Option Owner := (run node ops).get (hostId e node)

/-- a host of another node forwards a request to a shard, `/repo/coerce/src/sharding/host/mod.rs` 230-231. -/
def reachedByEntityRequest (node : Nat) (ops : List Op) (e : String) (s : Nat) : Option Owner :=
  (run node ops).get (shardId e s)

end Verif.Sharding.Ids
