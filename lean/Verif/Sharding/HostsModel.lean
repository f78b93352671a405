import Verif.Remote.DiscoveryModel
import Verif.Remote.HeartbeatModel
import Verif.Sharding.CoordinatorModel

/-!
# How a shard coordinator knows the nodes of its cluster

The coordinator starts on some node, subscribes to the system topic, asks the registry of its node for the nodes it
knows, and from then on goes by the events `NodeAdded` and `NodeRemoved` that the discovery of its node publishes
(`/repo/coerce/src/sharding/coordinator/mod.rs` 75-121, `/repo/coerce/src/sharding/coordinator/discovery.rs` 14-71).
Here the discovery (`Verif.Remote.DiscoveryModel`), the registry and the coordinator (`Verif.Sharding.CoordinatorModel`)
of one node are put together. What other nodes answer, when handshakes end, what the heartbeat finds and when the
singleton manager starts or stops the coordinator is arbitrary.

Simplified: the channel of the topic and the mailbox of the coordinator are one queue, which keeps the order
(`/repo/coerce/src/remote/stream/pubsub.rs` 131-156, 219-227), and a subscriber never falls 1024 events behind; `get_nodes` and
the recovery from the journal are one step, since events that come during the recovery wait in the mailbox.
-/

namespace Verif.Sharding.Hosts

open Verif.Remote (Disc DOp NodeStatus)

/-- the events of the system topic a coordinator heeds, `/repo/coerce/src/sharding/coordinator/discovery.rs` 17-30. -/
inductive Ev where
  | added (n : Nat)
  | removed (n : Nat)
deriving DecidableEq, Repr

/-- what the coordinator does with one, `/repo/coerce/src/sharding/coordinator/discovery.rs` 17-30. -/
def Ev.op : Ev → CoordOp
  | .added n => .nodeAdded n
  | .removed n => .nodeRemoved n

/-- A node. `fine`: the nodes the registry has as `Healthy` or `Joining` (the discovery's part of the model has which
are `Terminated`). `leaving`: tasks that will publish `NodeRemoved`
(`/repo/coerce/src/remote/cluster/discovery/mod.rs` 188-195). `hearing`: the coordinator has subscribed
(`/repo/coerce/src/sharding/coordinator/mod.rs` 100-104). `inbox`: events published since and not handled yet. `coord`:
the coordinator, once it has asked for the nodes. `listed` and `heard`: what it was answered and which events it has
handled since; the code keeps neither, they are for the claims. -/
structure Site where
  disc : Disc
  fine : Nat → Bool
  leaving : List Nat := []
  hearing : Bool := false
  inbox : List Ev := []
  coord : Option Coord := none
  listed : List (Nat × Bool) := []
  heard : List Ev := []

/-- a node that has started has registered itself, `/repo/coerce/src/remote/cluster/builder/worker.rs` 50-62. -/
def Site.init (self : Nat) : Site := { disc := { reg := [(self, false)] }, fine := fun k => k = self }

/-- the messages a coordinator handles besides those events: `Handler<AllocateShard>`, the timer of a full rebalance
and its tasks, `/repo/coerce/src/sharding/coordinator/allocation.rs` 65-91,
`/repo/coerce/src/sharding/coordinator/balancing.rs` 23-78, 123-137; and the order of its tables may change. -/
def own : CoordOp → Bool
  | .allocate _ _ => true
  | .rebalanceAll => true
  | .rebalanceShards _ => true
  | .stopAcked _ _ => true
  | .stopFailed _ _ => true
  | .shuffle _ => true
  | .shuffleSet _ _ => true
  | _ => false

/-- What can happen on the node.
* `disc`: its discovery handles a message or a handshake ends.
* `status`: the heartbeat, or a notice of termination, sets the status of a node in the registry
  (`/repo/coerce/src/remote/actor/registry.rs` 86-101).
* `gone`: a task of `leaving` publishes.
* `subscribe`, `list`: the coordinator starts; the registry answers with its nodes in some order.
* `hear`: it handles the next event. `work`: it handles something else.
* `finish`: it stops (`/repo/coerce/src/sharding/coordinator/mod.rs` 123-125). -/
inductive Op where
  | disc (o : DOp)
  | status (n : Nat) (s : NodeStatus)
  | gone (n : Nat)
  | subscribe
  | list (order journal : List Nat)
  | hear
  | work (o : CoordOp)
  | finish

/-- the discovery has become `d`: nodes for which handshakes were begun have been registered, with status `Joining`
(`/repo/coerce/src/remote/cluster/discovery/mod.rs` 131-148, `/repo/coerce/src/remote/cluster/node.rs` 171-187);
`NodeAdded` is published within the handler, `/repo/coerce/src/remote/cluster/discovery/mod.rs` 216-223. -/
def Site.disced (w : Site) (d : Disc) : Site :=
  { w with
    disc := d
    fine := fun k => if k ∈ (d.shakes.drop w.disc.shakes.length).map (·.id) then true else w.fine k
    leaving := w.leaving ++ d.removed.drop w.disc.removed.length
    inbox := if w.hearing then w.inbox ++ (d.added.drop w.disc.added.length).map .added else w.inbox }

/-- One step. (`/repo/coerce/src/remote/cluster/discovery/mod.rs` 55-234, `/repo/coerce/src/remote/actor/registry.rs`
64-101, `/repo/coerce/src/sharding/coordinator/mod.rs` 75-121, `/repo/coerce/src/sharding/coordinator/discovery.rs`
14-71.) -/
def Site.step (self : Nat) (w : Site) : Op → Site
  | .disc (.status _ _) => w
  | .disc o => w.disced (w.disc.step self o)
  | .status n s =>
    { w with
      disc := w.disc.step self (.status n (s = .terminated))
      fine := fun k => if k = n then s = .healthy ∨ s = .joining else w.fine k }
  | .gone n =>
    if n ∈ w.leaving then
      { w with leaving := w.leaving.erase n, inbox := if w.hearing then w.inbox ++ [.removed n] else w.inbox }
    else w
  | .subscribe => if w.hearing then w else { w with hearing := true, inbox := [] }
  | .list order journal =>
    if w.hearing ∧ w.coord = none ∧ order.isPerm w.disc.reg.keys then
      { w with
        coord := some (Coord.start self (order.map fun n => (n, w.fine n)) journal)
        listed := order.map fun n => (n, w.fine n)
        heard := [] }
    else w
  | .hear =>
    match w.coord, w.inbox with
    | some c, e :: es => { w with coord := some (c.next e.op), inbox := es, heard := w.heard ++ [e] }
    | _, _ => w
  | .work o =>
    match w.coord with
    | some c => if own o then { w with coord := some (c.next o) } else w
    | none => w
  | .finish => { w with coord := none, hearing := false, inbox := [] }

/-- any number of steps (`/repo/coerce/src/remote/cluster/discovery/mod.rs` 55-234,
`/repo/coerce/src/sharding/coordinator/mod.rs` 75-121). -/
def Site.runFrom (self : Nat) (w : Site) (ops : List Op) : Site := ops.foldl (Site.step self) w

/-- any number of steps from the start of the node (`/repo/coerce/src/remote/cluster/discovery/mod.rs` 55-234,
`/repo/coerce/src/sharding/coordinator/mod.rs` 75-121). -/
def Site.run (self : Nat) (ops : List Op) : Site := (Site.init self).runFrom self ops

end Verif.Sharding.Hosts
