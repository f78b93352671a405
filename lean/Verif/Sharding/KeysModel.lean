import Verif.Persist.CopiesModel
import Verif.Sharding.IdsModel

/-!
# Which journal belongs to whom

Persistent actors of all kinds keep their journals in one storage, each under its persistence key: coordinators, shards,
the entities in them, and actors started directly. An entity is started by its shard with the entity's id as the id of
the actor (`/repo/coerce/src/sharding/shard/mod.rs` 283-319, `/repo/coerce/src/remote/handler.rs` 134-168), and the key is
by default the id of the actor (`/repo/coerce/src/persistent/actor.rs` 19-21).

Modelled: the keys, and any number of running actors over one storage, each with its own journal object, state and event
types. Not modelled: actors that override `persistence_key`; they are as an `actor` of that id.
-/

namespace Verif.Sharding.Keys

open Verif.Persist

/-- a persistent actor. (`persistence_key`: `/repo/coerce/src/persistent/actor.rs` 19-21,
`/repo/coerce/src/sharding/coordinator/mod.rs` 67-69, `/repo/coerce/src/sharding/shard/mod.rs` 145-147.) -/
inductive Who where
  | coordinator (type : String)
  | shard (type : String) (shard : Nat)
  | entity (type : String) (id : String)
  | actor (id : String)
deriving DecidableEq, Repr

/-- the key of its journal: `/repo/coerce/src/sharding/coordinator/mod.rs` 67-69,
`/repo/coerce/src/sharding/shard/mod.rs` 145-147, `/repo/coerce/src/persistent/actor.rs` 19-21. -/
def Who.key : Who → String
  | .coordinator t => Ids.coordKey t
  | .shard t s => Ids.shardKey t s
  | .entity _ i => i
  | .actor i => i

/-- who an actor is and what it is programmed to do. (`/repo/coerce/src/persistent/actor.rs` 18-29.) -/
structure Role (ε σ : Type) where
  who : Who
  app : App ε σ

/-- the actor that does something. (`/repo/coerce/src/persistent/actor.rs` 31-112 and 217-296.) -/
def actorOf {ε : Type} : Copies.Op ε → Nat
  | .act c _ => c
  | .ends c => c

section
variable {τ ε σ : Type} (S : Storage τ) (cast : Nat → Role ε σ)

/-- one actor is started, uses its journal or ends (`Copies.World.step`), under its own key and with its own types.
(`/repo/coerce/src/persistent/actor.rs` 31-112 and 217-296.) -/
def step (w : Copies.World τ σ) (op : Copies.Op ε) : Copies.World τ σ :=
  w.step S (cast (actorOf op)).app (cast (actorOf op)).who.key op

/-- any number of them (`/repo/coerce/src/persistent/actor.rs` 31-112 and 217-296). -/
def run (w : Copies.World τ σ) (ops : List (Copies.Op ε)) : Copies.World τ σ := ops.foldl (step S cast) w

end

/-- over an in-memory storage with nothing in it (`/repo/coerce/src/persistent/journal/provider.rs` 48-51). -/
def mem {ε σ : Type} (cast : Nat → Role ε σ) (ops : List (Copies.Op ε)) : Copies.World MemStore σ :=
  run memStorage cast ⟨fun _ => none, []⟩ ops

/-- over Redis with nothing in it. (`/repo/providers/persistence/coerce-redis/src/journal/mod.rs` 128-269.) -/
def redis {ε σ : Type} (hashtags : Bool) (pre : String) (cast : Nat → Role ε σ) (ops : List (Copies.Op ε)) :
    Copies.World RedisStore σ :=
  run (redisStorage (redisKey hashtags pre)) cast ⟨fun _ => [], []⟩ ops

end Verif.Sharding.Keys
