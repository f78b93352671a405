import Verif.Actor.WaitsModel

/-!
# The waits of the framework's own actors

Every place in `/repo/coerce/src` where a handler or a hook of an actor of the framework waits, without a timeout, for
another actor: found by reading every `.await` that is not inside `tokio::spawn`. What is awaited with a timeout
(`identify`, `handshake`, `locate_actor_node`) is not in the table; neither are waits for the network or for a
database. Spawned tasks may wait for anything; only two of them are themselves awaited by an actor and so are in the
table: the task reading a client's connection and the task collecting the statistics of a shard host.
-/

namespace Verif.Actor.Waits

/-- the actors of the framework, and those of the application. (The kinds are the actors whose handlers are cited at
`waits`; the two tasks are `/repo/coerce/src/remote/system/builder.rs` and the start of sharding there.) -/
inductive Kind where
  /-- `ActorScheduler` -/
  | scheduler
  /-- `RemoteRegistry` -/
  | registry
  /-- `StreamMediator` -/
  | mediator
  /-- `RemoteClientRegistry` -/
  | clients
  /-- `RemoteClient` -/
  | client
  /-- the task reading the connection of a client -/
  | reader
  /-- `NodeDiscovery` -/
  | discovery
  /-- `Heartbeat` -/
  | heartbeat
  /-- `RemoteSessionStore` -/
  | store
  /-- `RemoteSession` -/
  | session
  /-- `ShardHost` -/
  | host
  /-- `Shard` -/
  | shard
  /-- `ShardCoordinator` -/
  | coordinator
  /-- `Manager` of a singleton -/
  | manager
  /-- `Proxy` of a singleton -/
  | proxy
  /-- `ShardingApi` -/
  | api
  /-- the task collecting the statistics of a shard host -/
  | stats
  /-- the journal of a storage provider -/
  | storage
  /-- the actors of the application; the number is the level the application gives them. -/
  | user (level : Nat)
  deriving DecidableEq, Repr

/-- what runs: hooks, messages, and the stages of the two tasks. (Cited one by one at `waits`; the first and last of
every actor: `/repo/coerce/src/actor/lifecycle.rs` 66 and 145.) -/
inductive Hook where
  /-- `started` -/
  | start
  /-- a `started` that stops the actor, followed by `stopped` -/
  | refused
  /-- the `Stop` message, followed by `stopped` -/
  | stop
  | register | deregister
  | setRemote | nodes | subscribe
  | newClient | clientConnected | removeClient | clientWrite
  | connect | disconnected
  /-- the task: the `Identity` is the first thing that arrives -/
  | identity
  /-- the task: something else arrives before, or the connection ends -/
  | early
  /-- the task: what arrives afterwards -/
  | event
  | discover | tick
  | newSession | sessionClosed
  | shardAllocated | hostStats | apiStats
  | allocate | entity | lease | journal
  /-- messages whose handlers wait for nobody -/
  | other
  deriving DecidableEq, Repr

/-- the hooks that come first and last: `/repo/coerce/src/actor/lifecycle.rs` 66-71 and 125-134. -/
def hooks : Hooks Hook where
  first
    | .start | .refused | .identity | .early => true
    | _ => false
  last
    | .stop | .refused => true
    | _ => false

/-- the actors registered with the scheduler: they tell it when they end
(`/repo/coerce/src/actor/lifecycle.rs` 149-161). The sessions are children of the session store
(`/repo/coerce/src/remote/net/server/session/store.rs` 51-57), hence anonymous
(`/repo/coerce/src/actor/supervised.rs` 75); the scheduler itself is not registered. -/
def tracked : Kind → Bool
  | .scheduler | .session | .reader | .stats | .storage => false
  | _ => true

/-- what handlers and hooks wait for. (The lines of `/repo/coerce/src` are given at the cases.) -/
def waits : Kind → Hook → List (Kind × Hook)
  -- `SetRemote` subscribes to the system topic: `/repo/coerce/src/remote/actor/registry.rs` 52-56
  | .registry, .setRemote => [(.mediator, .subscribe)]
  -- `NewClient` starts a client: `/repo/coerce/src/remote/actor/clients.rs` 63-64,
  -- `/repo/coerce/src/remote/net/client/mod.rs` 60-86, `/repo/coerce/src/actor/system/mod.rs` 158-168
  | .clients, .newClient => [(.scheduler, .register), (.client, .start)]
  -- `stopped` stops the clients: `/repo/coerce/src/remote/actor/clients.rs` 20-24
  | .clients, .stop => [(.client, .stop), (.scheduler, .deregister)]
  -- `Connect` waits for the identity of the peer, which the reading task hands over, and tells the registry:
  -- `/repo/coerce/src/remote/net/client/connect.rs` 97 and 134-146; without success it goes on as `Disconnected`: 167
  | .client, .connect =>
    [(.reader, .identity), (.reader, .early), (.clients, .clientConnected), (.clients, .removeClient)]
  -- `Disconnected` for the last time: `/repo/coerce/src/remote/net/client/connect.rs` 330-340
  | .client, .disconnected => [(.clients, .removeClient)]
  -- the reading task hands messages and the end of the connection to the client and waits until they are handled:
  -- `/repo/coerce/src/remote/net/client/receive.rs` 95-104 and 158-161
  | .reader, .early => [(.client, .disconnected), (.client, .other)]
  | .reader, .event => [(.client, .disconnected), (.client, .other)]
  -- `Discover`: `/repo/coerce/src/remote/cluster/discovery/mod.rs` 72-84, 115, 131-136, 280 and 299
  | .discovery, .discover => [(.clients, .newClient), (.registry, .nodes)]
  -- `HeartbeatTick` and `NodeTerminated`: `/repo/coerce/src/remote/heartbeat/mod.rs` 188-192, 212 and 284
  | .heartbeat, .tick => [(.registry, .nodes)]
  -- `NewSession` starts a session: `/repo/coerce/src/remote/net/server/session/store.rs` 51-57
  | .store, .newSession => [(.session, .start), (.session, .refused)]
  -- `started`: `/repo/coerce/src/remote/net/server/session/mod.rs` 82-92
  | .session, .start => [(.registry, .nodes)]
  -- `started` refuses the peer (82-86), then `stopped` (134-144) of the same file; `ActorLoop::run` answers the
  -- start by dropping its channel at the end: `/repo/coerce/src/actor/lifecycle.rs` 54 and 69-71
  | .session, .refused => [(.store, .sessionClosed)]
  | .session, .stop => [(.store, .sessionClosed)]
  -- `ShardAllocated` starts a shard without waiting for its `started`: `/repo/coerce/src/sharding/host/mod.rs` 203-205,
  -- `/repo/coerce/src/actor/system/mod.rs` 104-135
  | .host, .shardAllocated => [(.scheduler, .register)]
  -- `pre_recovery` and the recovery: `/repo/coerce/src/sharding/coordinator/mod.rs` 100-105,
  -- `/repo/coerce/src/persistent/actor.rs` 233-295
  | .coordinator, .start => [(.mediator, .subscribe), (.registry, .nodes), (.storage, .journal)]
  -- the allocation is persisted: `/repo/coerce/src/sharding/coordinator/allocation.rs` 76-80
  | .coordinator, .allocate => [(.storage, .journal)]
  -- recovery and persisted entities: `/repo/coerce/src/sharding/shard/mod.rs` 167, 213, 296
  | .shard, .start => [(.storage, .journal)]
  | .shard, .entity => [(.storage, .journal)]
  -- `started` subscribes: `/repo/coerce/src/singleton/manager/mod.rs` 234-237
  | .manager, .start => [(.mediator, .subscribe)]
  -- a notification for another manager is handed to the client registry: `/repo/coerce/src/singleton/manager/mod.rs` 183,
  -- `/repo/coerce/src/remote/actor_ref.rs` 65, `/repo/coerce/src/remote/system/cluster.rs` 33-38
  | .manager, .lease => [(.clients, .clientWrite)]
  -- `GetStats`: `/repo/coerce/src/remote/api/sharding/node.rs` 47-49 and 84-86
  | .api, .apiStats => [(.host, .hostStats), (.stats, .start)]
  -- the task asks the shards: `/repo/coerce/src/sharding/host/stats.rs` 63-66
  | .stats, .start => [(.shard, .other)]
  -- `stopped` stops all registered actors: `/repo/coerce/src/actor/scheduler/mod.rs` 58-69
  | .scheduler, .stop =>
    [(.registry, .stop), (.mediator, .stop), (.clients, .stop), (.client, .stop), (.discovery, .stop),
     (.heartbeat, .stop), (.store, .stop), (.host, .stop), (.shard, .stop), (.coordinator, .stop),
     (.manager, .stop), (.proxy, .stop), (.api, .stop)]
  | k, .stop => if tracked k then [(.scheduler, .deregister)] else []
  | _, _ => []

/-- may `h` at actor `a` wait for `g` at actor `b`? An actor of the application may wait for any actor of the
framework and for actors of the application of a lower level; the scheduler waits for all of them to stop. An actor is
a kind and a number. (The scheduler: `/repo/coerce/src/actor/scheduler/mod.rs` 57-86.) -/
def mayWait (a : Kind × Nat) (h : Hook) (b : Kind × Nat) (g : Hook) : Bool :=
  match a.1, b.1 with
  | .user n, .user m => decide (m < n)
  | .user _, _ => true
  | .scheduler, .user _ => h == .stop && g == .stop
  | k, l => (waits k h).contains (l, g)

/-- the four hooks that close a circle of waits. (The lines of `/repo/coerce/src` are those given at `waits`.) -/
def circular : Kind → Hook → Bool
  | .scheduler, .stop => true
  | .clients, .stop => true
  | .session, .refused => true
  | .reader, .early => true
  | _, _ => false

/-- the waits of histories without those four. (The lines of `/repo/coerce/src` are those given at `waits`.) -/
def mayWaitCalm (a : Kind × Nat) (h : Hook) (b : Kind × Nat) (g : Hook) : Bool :=
  mayWait a h b g && !circular a.1 h && !circular b.1 g

/-- the order of the waits without those four. (No code in `/repo`: the order in which the waits of `waits` can only
go.) -/
def rank : Kind → Hook → Nat
  | .scheduler, _ => 0
  | .storage, _ => 0
  | .mediator, _ => 1
  | .host, _ => 1
  | .shard, _ => 1
  | .proxy, _ => 1
  | .client, .start => 0
  | .clients, _ => 1
  | .client, _ => 2
  | .registry, _ => 2
  | .manager, _ => 2
  | .stats, _ => 2
  | .reader, .identity => 0
  | .reader, _ => 3
  | .discovery, _ => 3
  | .heartbeat, _ => 3
  | .coordinator, _ => 3
  | .api, _ => 3
  | .session, .start => 3
  | .store, _ => 4
  | .session, _ => 5
  | .user n, _ => 10 + n

end Verif.Actor.Waits
