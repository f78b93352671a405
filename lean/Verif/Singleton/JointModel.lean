import Verif.Remote.OneLeaderModel
import Verif.Singleton.ClusterModel

/-!
# Heartbeats and singleton managers together

So far the managers of a singleton were told of leaders and members by nobody in particular
(`Verif.Singleton.ClusterModel`), and the heartbeats of a cluster announced leaders to nobody in particular
(`Verif.Remote.OneLeaderModel`). Here each node has both: what the heartbeat of a node publishes is what its
manager hears. Nodes join whenever they like, and the manager of a node exists only after the application has
built it.

The singleton actor is not a child of its manager (`/repo/coerce/src/singleton/manager/start.rs` 18-31), so the
manager is not told when it ends.
-/

namespace Verif.Singleton.Joint

open Verif.Remote (Hb HbEvent)
open Verif.Remote.OneLeader (Conf Clu)

/-- `ClusterEvent`, `/repo/coerce/src/remote/stream/system.rs` 16-21. -/
inductive News where
  | memberUp (leader : Nat) (members : List Nat)
  | leaderChanged (leader : Nat)
  | added (n : Nat)
  | removed (n : Nat)
deriving DecidableEq, Repr

/-- what the manager does with it: `Handler<Receive<SystemTopic>>`,
`/repo/coerce/src/singleton/manager/mod.rs` 275-389. -/
def News.op : News → MOp
  | .memberUp l ms => .memberUp l ms
  | .leaderChanged l => .leaderChanged l
  | .added n => .nodeAdded n
  | .removed n => .nodeRemoved n

/-- what an event of a heartbeat is on the system topic, `/repo/coerce/src/remote/heartbeat/mod.rs` 309-341. -/
def News.of : HbEvent → News
  | .memberUp l ms => .memberUp l ms
  | .leaderChanged l => .leaderChanged l

/-- A cluster. `cl`: the managers, the instances they started, the messages under way between managers. `made`:
the nodes whose manager has been built. `bus`: what has been published on a node and its manager has not heard
yet; every publication is a task of its own (`tokio::spawn`,
`/repo/coerce/src/remote/heartbeat/mod.rs` 314-321, 333-340), so they may overtake each other. `proxy`: the node
the proxy of a node was last told that the singleton runs on; none while it holds messages back. `stops`: the
instances that were sent a stop signal. -/
structure Sys where
  clu : Clu
  cl : Cl := Cl.init
  made : Nat → Bool := fun _ => false
  bus : List (Nat × News) := []
  proxy : Nat → Option Nat := fun _ => none
  stops : List (Nat × Nat) := []

/-- what one output of a manager means for the proxy of its node: `Handler<SingletonStarted>` and
`Handler<SingletonStopping>`, `/repo/coerce/src/singleton/proxy/mod.rs` 62-103. -/
def toldBy (p : Option Nat) : MOut → Option Nat
  | .proxyStarted n _ => some n
  | .proxyRemote n => some n
  | .proxyStopping => none
  | _ => p

/-- the stop signals among the outputs, `/repo/coerce/src/singleton/manager/mod.rs` 209-211. -/
def stopsOf (i : Nat) : MOut → Option (Nat × Nat)
  | .stopActor a => some (i, a)
  | _ => none

/-- the manager of `i` handles something. All nodes are eligible (`NodeSelector::All`).
(`/repo/coerce/src/singleton/manager/mod.rs` 168-192.) -/
def Sys.mgrStep (w : Sys) (i : Nat) (op : MOp) : Sys :=
  let p := (w.cl.mgr i).step (fun _ => true) op
  { w with
    cl := w.cl.at i p
    proxy := fun k => if k = i then p.2.foldl toldBy (w.proxy i) else w.proxy k
    stops := w.stops ++ p.2.filterMap (stopsOf i) }

/-- what a step of the heartbeats publishes: `update_leader` and `on_min_cluster_size_reached`,
`/repo/coerce/src/remote/heartbeat/mod.rs` 309-341, with `publish_locally`,
`/repo/coerce/src/remote/stream/pubsub.rs` 76-95: on the node itself only. -/
def published (C : Conf) (c : Clu) (o : Remote.OneLeader.Op) : List (Nat × News) :=
  match o with
  | .tick i => (((c.step C o).hb i).events.drop (c.hb i).events.length).map fun e => (i, News.of e)
  | .notice i _ => (((c.step C o).hb i).events.drop (c.hb i).events.length).map fun e => (i, News.of e)
  | _ => []

/-- what can happen: in the cluster (`/repo/coerce/src/remote/heartbeat/mod.rs` 176-341), at discovery
(`/repo/coerce/src/remote/cluster/discovery/mod.rs` 172-234), and at the managers
(`/repo/coerce/src/singleton/manager/mod.rs` 232-430). -/
inductive JOp where
  /-- the heartbeats, the registries, time, and processes that end. -/
  | beat (o : Remote.OneLeader.Op)
  /-- the handshake of `i` with `j` is done: `NodeAdded`, `/repo/coerce/src/remote/cluster/discovery/mod.rs`
  212-234. -/
  | added (i j : Nat)
  /-- `i` forgets `j`: `NodeRemoved`, `/repo/coerce/src/remote/cluster/discovery/mod.rs` 172-200. -/
  | removed (i j : Nat)
  /-- the application builds the singleton on `i`: `SingletonBuilder::build`,
  `/repo/coerce/src/singleton/mod.rs` 53-84; `Manager::started` subscribes,
  `/repo/coerce/src/singleton/manager/mod.rs` 233-248. -/
  | build (i : Nat)
  /-- something published on `i` reaches those that have subscribed by then. -/
  | hear (i : Nat) (e : News)
  /-- a message of another manager reaches node `i`. -/
  | recv (i : Nat) (m : MMsg)
  | boot (i : Nat)
  | startFails (i : Nat)
  | started (i a : Nat)
  | exits (i a : Nat)

/-- the process of node `i` has not ended (what keeps a node running is outside the code;
`/repo/coerce/src/remote/heartbeat/mod.rs` 31-40 runs as long as the process does). -/
def Sys.alive (w : Sys) (i : Nat) : Bool := (w.clu.ended i).isNone

/-- One step. A node whose process has ended does nothing. What is published before the manager is built is not
heard by it, and messages to a manager that does not exist are dropped
(`/repo/coerce/src/remote/handler.rs` 282-295: the actor is not found after ten attempts within 0.1 s). -/
def Sys.step (C : Conf) (w : Sys) : JOp → Sys
  | .beat o => { w with clu := w.clu.step C o, bus := w.bus ++ published C w.clu o }
  | .added i j => if w.alive i then { w with bus := w.bus ++ [(i, .added j)] } else w
  | .removed i j => if w.alive i then { w with bus := w.bus ++ [(i, .removed j)] } else w
  | .build i => if w.alive i then { w with made := fun k => if k = i then true else w.made k } else w
  | .hear i e =>
    if w.alive i && w.bus.contains (i, e) then
      let v := { w with bus := w.bus.erase (i, e) }
      if w.made i then v.mgrStep i e.op else v
    else w
  | .recv i m =>
    if w.alive i && w.cl.net.contains (i, m) then
      let v := { w with cl := { w.cl with net := w.cl.net.erase (i, m) } }
      if w.made i then v.mgrStep i (.recv m) else v
    else w
  | .boot i => if w.alive i && w.made i then w.mgrStep i .boot else w
  | .startFails i => if w.alive i && w.made i then w.mgrStep i .startFails else w
  | .started i a => if w.alive i && w.made i then w.mgrStep i (.started a) else w
  | .exits i a => if w.alive i && w.made i then w.mgrStep i (.exits a false) else w

/-- no manager has been started (`/repo/coerce/src/singleton/manager/mod.rs` 41-63). -/
def Sys.init (C : Conf) : Sys := { clu := Clu.init C }

/-- any number of steps from a state (`/repo/coerce/src/singleton/manager/mod.rs` 232-430,
`/repo/coerce/src/remote/heartbeat/mod.rs` 176-341). -/
def Sys.runFrom (C : Conf) (w : Sys) (ops : List JOp) : Sys := ops.foldl (Sys.step C) w

/-- any number of steps from the start (`/repo/coerce/src/singleton/manager/mod.rs` 232-430,
`/repo/coerce/src/remote/heartbeat/mod.rs` 176-341). -/
def Sys.run (C : Conf) (ops : List JOp) : Sys := (Sys.init C).runFrom C ops

end Verif.Singleton.Joint
