import Verif.Assoc
import Verif.Sort

/-!
# The registry of actor and message types of a node

`/repo/coerce/src/remote/system/builder.rs` 253-334 and `/repo/coerce/src/remote/config/mod.rs`. An actor
type `A`, a message type `M` and a factory type `F` are numbers. A handler object is the pair of types it
was made for.
-/

namespace Verif.Remote

/-- `TypeId` of the types whose ids are taken: `RemoteActorMessageMarker<A, M>`
(`/repo/coerce/src/remote/handler.rs` 78-94), `RemoteActorMarker<A>` (57-76) and
`RemoteActorHandler<A, F>` (108-126). -/
inductive TyId where
  | messageMarker (a m : Nat)
  | actorMarker (a : Nat)
  | actorHandler (a f : Nat)
deriving DecidableEq, Repr

/-- `ActorMessageHandler::id` of a handler for `A` and `M`: the id of its marker,
`/repo/coerce/src/remote/handler.rs` 380-382. -/
def messageHandlerId (h : Nat × Nat) : TyId := .messageMarker h.1 h.2

/-- `ActorHandler::id` of a handler for `A` and `F`: the id of the handler type itself, not of its marker,
`/repo/coerce/src/remote/handler.rs` 177-179. -/
def actorHandlerId (h : Nat × Nat) : TyId := .actorHandler h.1 h.2

/-- `RemoteSystemConfigBuilder`, `/repo/coerce/src/remote/system/builder.rs` 253-258. -/
structure CfgBuilder where
  actors : Assoc String (Nat × Nat) := []
  handlers : Assoc String (Nat × Nat) := []
deriving DecidableEq, Repr

/-- the calls made on the builder: `with_handler::<A, M>(name)` and `with_actor::<F>(factory)` with `F::Actor = A`.
(`/repo/coerce/src/remote/system/builder.rs` 270-289.) -/
inductive CfgOp where
  | handler (a m : Nat) (name : String)
  | actor (a f : Nat)
deriving DecidableEq, Repr

/-- `with_handler`, `/repo/coerce/src/remote/system/builder.rs` 270-278, and `with_actor`, 280-289.
`typeName`: `Actor::type_name`. -/
def CfgBuilder.add (typeName : Nat → String) (b : CfgBuilder) : CfgOp → CfgBuilder
  | .handler a m name => { b with handlers := b.handlers.insert name (a, m) }
  | .actor a f => { b with actors := b.actors.insert (typeName a) (a, f) }

/-- the configuration functions in the order they were given, `/repo/coerce/src/remote/system/builder.rs` 140-142. -/
def CfgBuilder.addAll (typeName : Nat → String) (ops : List CfgOp) : CfgBuilder :=
  ops.foldl (CfgBuilder.add typeName) {}

/-- `RemoteSystemConfig`, `/repo/coerce/src/remote/config/mod.rs` 17-27; tag, version, heartbeat, attributes and
security are left out. -/
structure Config where
  actorTypes : Assoc TyId String
  handlerTypes : Assoc TyId String
  messageHandlers : Assoc String (Nat × Nat)
  actorHandlers : Assoc String (Nat × Nat)
deriving DecidableEq, Repr

/-- the loops of `build`, `/repo/coerce/src/remote/system/builder.rs` 306-312: the ids of the entries, in the order
the map is iterated; a later entry replaces an earlier one with the same id. -/
def typeTable (id : Nat × Nat → TyId) (entries : List (String × (Nat × Nat))) : Assoc TyId String :=
  entries.foldl (fun t e => t.insert (id e.2) e.1) []

/-- `RemoteSystemConfigBuilder::build`, `/repo/coerce/src/remote/system/builder.rs` 296-333. `hs`, `as`: the entries of
the two maps in the order they are iterated. -/
def CfgBuilder.build (b : CfgBuilder) (hs as : List (String × (Nat × Nat))) : Config where
  actorTypes := typeTable actorHandlerId as
  handlerTypes := typeTable messageHandlerId hs
  messageHandlers := b.handlers
  actorHandlers := b.actors

/-- `handler_name`, `/repo/coerce/src/remote/config/mod.rs` 67-70. -/
def Config.handlerName (c : Config) (a m : Nat) : Option String := c.handlerTypes.get (.messageMarker a m)

/-- `actor_name`, `/repo/coerce/src/remote/config/mod.rs` 72-77. -/
def Config.actorName (c : Config) (a : Nat) : Option String := c.actorTypes.get (.actorMarker a)

/-- `message_handler`, `/repo/coerce/src/remote/config/mod.rs` 79-83. -/
def Config.messageHandler (c : Config) (key : String) : Option (Nat × Nat) := c.messageHandlers.get key

/-- `actor_handler`, `/repo/coerce/src/remote/config/mod.rs` 85-89. -/
def Config.actorHandler (c : Config) (key : String) : Option (Nat × Nat) := c.actorHandlers.get key

/-- the order of the capability lists, `/repo/coerce/src/remote/config/mod.rs` 97, 100. `lower`: `str::to_lowercase`. -/
def lowerLe (lower : String → String) (x y : String) : Bool := decide (lower x ≤ lower y)

/-- `get_capabilities`, `/repo/coerce/src/remote/config/mod.rs` 95-103: actors and messages. -/
def Config.capabilities (lower : String → String) (c : Config) : List String × List String :=
  (isort (lowerLe lower) c.actorTypes.vals, isort (lowerLe lower) c.handlerTypes.vals)

/-- What `singleton::<F>` registers, `/repo/coerce/src/singleton/mod.rs` 108-126, with the type names as numbers:
`mgr` is `Manager<F>`, the four messages are 0 to 3. -/
def singletonOps (actorType : String) (mgr : Nat) : List CfgOp :=
  [.handler mgr 0 ("SingletonManager<" ++ actorType ++ ">.RequestLease"),
   .handler mgr 1 ("SingletonManager<" ++ actorType ++ ">.LeaseAck"),
   .handler mgr 2 ("SingletonManager<" ++ actorType ++ ">.SingletonStarted"),
   .handler mgr 3 ("SingletonManager<" ++ actorType ++ ">.SingletonStopped")]

/-- What every system has registered first, `sharding`, `/repo/coerce/src/sharding/mod.rs` 205-214 and
`/repo/coerce/src/remote/system/builder.rs` 51-54. Actor types: 0 the manager of the coordinator, 1 the coordinator,
2 the host, 3 the shard. -/
def shardingOps : List CfgOp :=
  singletonOps "coerce::sharding::coordinator::ShardCoordinator" 0 ++
  [.handler 1 4 "ShardCoordinator.AllocateShard",
   .handler 1 5 "ShardCoordinator.GetShardingStats",
   .handler 2 6 "ShardHost.ShardAllocated",
   .handler 2 7 "ShardHost.ShardReallocating",
   .handler 2 8 "ShardHost.StopShard",
   .handler 3 9 "Shard.RemoteEntityRequest",
   .handler 3 10 "Shard.GetShardStats"]

end Verif.Remote
