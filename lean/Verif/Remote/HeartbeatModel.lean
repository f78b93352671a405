import Verif.Assoc
import Verif.Util
import Verif.Sort

/-!
# Heartbeats: node health, leader election, cluster-up

Times are nanoseconds (`Int` for instants, `Nat` for durations).
-/

namespace Verif.Remote

/-- `NodeStatus`, `/repo/coerce/src/remote/cluster/node.rs` 21-27. -/
inductive NodeStatus where
  | joining
  | healthy
  | unhealthy
  | terminated
deriving DecidableEq, Repr

/-- `RemoteNodeState`, `/repo/coerce/src/remote/cluster/node.rs` 41-51, without `addr`, `tag` and
`attributes`, which the heartbeat only copies. -/
structure HbNode where
  id : Nat
  startedAt : Option Int
  status : NodeStatus := .joining
  lastHeartbeat : Option Int := none
  latency : Option Nat := none
deriving DecidableEq, Repr

/-- `PingResult`, `/repo/coerce/src/remote/heartbeat/mod.rs` 144-150, without the `PongEvent`. -/
inductive Ping where
  | ok (latency : Nat) (receivedAt : Int)
  | timeout
  | disconnected
  | err
deriving DecidableEq, Repr

/-- `HeartbeatConfig`, `/repo/coerce/src/remote/heartbeat/mod.rs` 43-49, the fields used here. -/
structure HbConfig where
  /-- `unhealthy_node_heartbeat_timeout`. -/
  unhealthy : Nat
  /-- `terminated_node_heartbeat_timeout`. -/
  terminated : Nat
  /-- `minimum_cluster_size`. -/
  minSize : Option Nat
deriving DecidableEq, Repr

/-- What the heartbeat takes from chrono: the smallest instant, and whether adding a duration to an instant stays in
range (otherwise it panics). (Used in `/repo/coerce/src/remote/heartbeat/mod.rs` 254-262 and 375-479.) -/
structure Chrono where
  minUtc : Int
  addOk : Int → Nat → Bool

/-- `node_status`, `/repo/coerce/src/remote/heartbeat/mod.rs` 375-479; `none` is a panic:
`(Utc::now() - pong_received_at).to_std().unwrap()` if the clock has gone back, or an addition out of
range. -/
def nodeStatus (env : Chrono) (cfg : HbConfig) (now : Int) (previous : NodeStatus)
    (lastHeartbeat : Option Int) : Option Ping → Option NodeStatus
  | some (.ok latency receivedAt) =>
    if now < receivedAt then none
    else if (cfg.terminated : Int) ≤ now - receivedAt then some .terminated
    else if (cfg.unhealthy : Int) ≤ now - receivedAt then some .unhealthy
    else if cfg.unhealthy < latency then some .unhealthy
    else some .healthy
  | none => if previous = .terminated then some .terminated else some .joining
  | some .timeout =>
    match lastHeartbeat with
    | none => some .terminated
    | some h =>
      if env.addOk h cfg.terminated then
        if now ≤ h + cfg.terminated then some .terminated else some .unhealthy
      else none
  | some .disconnected => some .terminated
  | some .err => if previous = .unhealthy then some .terminated else some .unhealthy

/-- the first half of `update_node`, `/repo/coerce/src/remote/heartbeat/mod.rs` 350-361. -/
def notePing (n : HbNode) : Option Ping → HbNode
  | none => n
  | some (.ok latency receivedAt) => { n with lastHeartbeat := some receivedAt, latency := some latency }
  | some _ => { n with latency := none }

/-- `update_node`, `/repo/coerce/src/remote/heartbeat/mod.rs` 344-373. -/
def updateNode (env : Chrono) (cfg : HbConfig) (now : Int) (n : HbNode) (p : Option Ping) :
    Option HbNode :=
  let n := notePing n p
  (nodeStatus env cfg now n.status n.lastHeartbeat p).map fun s => { n with status := s }

/-- one round of the loop of `Handler<HeartbeatTick>`, `/repo/coerce/src/remote/heartbeat/mod.rs` 228-245. -/
def refresh (env : Chrono) (cfg : HbConfig) (self : Nat) (now : Int) (pings : Assoc Nat Ping)
    (n : HbNode) : Option HbNode :=
  if n.id = self then some { n with status := .healthy, lastHeartbeat := some now }
  else updateNode env cfg now n (pings.get n.id)

/-- the whole loop, `/repo/coerce/src/remote/heartbeat/mod.rs` 228-245. -/
def refreshAll (env : Chrono) (cfg : HbConfig) (self : Nat) (now : Nat → Int) (pings : Assoc Nat Ping) :
    List HbNode → Option (List HbNode)
  | [] => some []
  | n :: r =>
    match refresh env cfg self (now n.id) pings n, refreshAll env cfg self now pings r with
    | some a, some l => some (a :: l)
    | _, _ => none

/-- the comparison of `updates.sort_by`, `/repo/coerce/src/remote/heartbeat/mod.rs` 254-262, as "not after". -/
def hbLe (env : Chrono) (a b : HbNode) : Bool :=
  let x := a.startedAt.getD env.minUtc
  let y := b.startedAt.getD env.minUtc
  decide (x < y) || (decide (x = y) && decide (a.id ≤ b.id))

/-- the node chosen by `/repo/coerce/src/remote/heartbeat/mod.rs` 254-265: sort, filter, first. -/
def oldestHealthy (env : Chrono) (ns : List HbNode) : Option Nat :=
  (((isort (hbLe env) ns).filter fun n => n.status = .healthy).head?).map (·.id)

/-- `AtomicI64` holding a `u64` (`new_leader as i64`, and back `n as NodeId`),
`/repo/coerce/src/remote/system/cluster.rs` 41-60. -/
def asI64 (n : Nat) : Int := if n < 2 ^ 63 then n else (n : Int) - 2 ^ 64
/-- `current_leader`, `/repo/coerce/src/remote/system/cluster.rs` 41-48. -/
def leaderOf (cell : Int) : Option Nat := if 0 ≤ cell then some cell.toNat else none

/-- what is published on the system topic, `/repo/coerce/src/remote/heartbeat/mod.rs` 309-341. -/
inductive HbEvent where
  /-- `MemberUp`, with the leader and the members told. -/
  | memberUp (leader : Nat) (members : List Nat)
  /-- `LeaderChanged`. -/
  | leaderChanged (leader : Nat)
deriving DecidableEq, Repr

/-- `Heartbeat`, `/repo/coerce/src/remote/heartbeat/mod.rs` 31-40, with the nodes of the registry
(`/repo/coerce/src/remote/cluster/node.rs` 16-19) and the leader (`/repo/coerce/src/remote/system/cluster.rs` 41-60).
-/
structure Hb where
  /-- the nodes of the registry. -/
  nodes : Assoc Nat HbNode := []
  /-- `node_pings`. -/
  pings : Assoc Nat Ping := []
  /-- `current_leader`. -/
  cell : Int := -1
  /-- `cluster_member_up`. -/
  up : Bool := false
  /-- `last_heartbeat.is_some()`. -/
  ticked : Bool := false
  /-- `on_next_leader_changed`: the ones waiting. -/
  waiting : List Nat := []
  /-- the heartbeat actor has panicked. -/
  crashed : Bool := false
  /-- ghost: events published, in order. -/
  events : List HbEvent := []
  /-- ghost: callbacks answered. -/
  answered : List (Nat × Nat) := []
deriving DecidableEq, Repr

/-- `update_nodes`, `/repo/coerce/src/remote/cluster/node.rs` 113-117. -/
def storeAll (m : Assoc Nat HbNode) (ns : List HbNode) : Assoc Nat HbNode :=
  ns.foldl (fun m n => m.insert n.id n) m

/-- `min_cluster_size_reached`, `/repo/coerce/src/remote/heartbeat/mod.rs` 288-291. -/
def minReached (cfg : HbConfig) (pings : Nat) : Bool :=
  match cfg.minSize with
  | none => true
  | some n => decide (n ≥ pings)

/-- `update_leader`, `/repo/coerce/src/remote/heartbeat/mod.rs` 309-326. -/
def Hb.updateLeader (σ : Hb) (l : Nat) : Hb :=
  { σ with cell := asI64 l, events := σ.events ++ [.leaderChanged l], waiting := [],
           answered := σ.answered ++ σ.waiting.map fun w => (w, l) }

/-- `on_min_cluster_size_reached`, `/repo/coerce/src/remote/heartbeat/mod.rs` 328-341. -/
def Hb.memberUp (σ : Hb) (l : Nat) (members : List Nat) : Hb :=
  { σ with up := true, events := σ.events ++ [.memberUp l members] }

/-- `new_leader_id`, `/repo/coerce/src/remote/heartbeat/mod.rs` 267-281. -/
def newLeader (chosen current : Option Nat) : Option Nat :=
  match chosen with
  | none => none
  | some l => if some l ≠ current then some l else none

/-- the leader to announce, if any, `/repo/coerce/src/remote/heartbeat/mod.rs` 264-282: none at the first tick. -/
def Hb.pickNew (env : Chrono) (σ : Hb) (updates : List HbNode) : Option Nat :=
  newLeader (if σ.ticked then oldestHealthy env updates else none) (leaderOf σ.cell)

/-- the end of `Handler<HeartbeatTick>`, `/repo/coerce/src/remote/heartbeat/mod.rs` 264-304, with the refreshed nodes.
-/
def Hb.elect (env : Chrono) (cfg : HbConfig) (σ : Hb) (updates : List HbNode) : Hb :=
  let new := σ.pickNew env updates
  let σ := { σ with nodes := storeAll σ.nodes (isort (hbLe env) updates), ticked := true }
  match new with
  | none => σ
  | some l =>
    let σ := if !σ.up && minReached cfg σ.pings.length then
        σ.memberUp l ((isort (hbLe env) updates).map (·.id)) else σ
    σ.updateLeader l

/-- `Handler<HeartbeatTick>`, `/repo/coerce/src/remote/heartbeat/mod.rs` 204-306, on node `self`. `now`
gives the time at which each node is looked at. The registry does nothing else meanwhile. -/
def Hb.tick (env : Chrono) (cfg : HbConfig) (self : Nat) (now : Nat → Int) (σ : Hb) : Hb :=
  match refreshAll env cfg self now σ.pings (σ.nodes.map (·.2)) with
  | none => { σ with crashed := true }
  | some updates => σ.elect env cfg updates

/-- what the heartbeat handles, `/repo/coerce/src/remote/heartbeat/mod.rs` 177-306, and the registration of nodes in
the registry. -/
inductive HbOp where
  /-- `NodePing`, 177-181. -/
  | ping (id : Nat) (p : Ping)
  /-- `NodeTerminated`, 184-194: the registry marks the node, the ping is dropped, then a tick. -/
  | nodeTerminated (id : Nat) (now : Nat → Int)
  /-- `OnLeaderChanged`, 197-201. -/
  | onLeader (w : Nat)
  /-- `HeartbeatTick`. -/
  | tick (now : Nat → Int)
  /-- the registry learns of a node (`RemoteNodeStore::add`; `RemoteNodeState::new`: joining, no
  heartbeat). -/
  | learn (id : Nat) (startedAt : Option Int)

/-- one message handled, `/repo/coerce/src/remote/heartbeat/mod.rs` 177-306. -/
def Hb.step (env : Chrono) (cfg : HbConfig) (self : Nat) (σ : Hb) (op : HbOp) : Hb :=
  match op with
  | .learn id s => { σ with nodes := σ.nodes.insert id { id, startedAt := s } }
  | .ping id p => if σ.crashed then σ else { σ with pings := σ.pings.insert id p }
  | .nodeTerminated id now =>
    if σ.crashed then σ else
    Hb.tick env cfg self now { σ with
      nodes := σ.nodes.update id fun n => { n with status := .terminated }
      pings := σ.pings.erase id }
  | .onLeader w => if σ.crashed then σ else { σ with waiting := σ.waiting ++ [w] }
  | .tick now => if σ.crashed then σ else σ.tick env cfg self now

/-- the start (`RemoteActorSystemBuilder::build`, `/repo/coerce/src/remote/system/builder.rs` 199-203):
no leader, or the node itself if `single_node_cluster`. -/
def Hb.init (self : Nat) (single : Bool) : Hb := { cell := if single then asI64 self else -1 }

/-- any sequence of messages, `/repo/coerce/src/remote/heartbeat/mod.rs` 177-306. -/
def Hb.run (env : Chrono) (cfg : HbConfig) (self : Nat) (single : Bool) (ops : List HbOp) : Hb :=
  ops.foldl (Hb.step env cfg self) (Hb.init self single)

end Verif.Remote
