import Verif.Remote.DiscoveryModel
import Verif.Remote.PubSubModel
import Verif.Sharding.HostsModel

/-!
# Publishing to the cluster

`/repo/coerce/src/remote/stream/mediator/mod.rs` 148-277: any number of nodes. The mediator of a node keeps a set of the
other nodes, which it changes at the events `NodeAdded` and `NodeRemoved` the discovery of its node publishes
(`Verif.Remote.DiscoveryModel`), and sends what is published to the cluster to the nodes of this set. What the mediators
do for their subscribers is `Med` of `Verif.Remote.PubSubModel`.

Simplified: the channel of the system topic and the mailbox of the mediator are one queue, and the mediator never falls
1024 events behind; the system topic is not one of the topics in `Med`.
-/

namespace Verif.Remote.Topics

open Verif.Sharding.Hosts (Ev)

/-- what a node knows about others. `leaving`: tasks that will publish `NodeRemoved`
(`/repo/coerce/src/remote/cluster/discovery/mod.rs` 188-195). `inbox`: events published and not handled by the mediator
yet. `nodes`: `StreamMediator::nodes` (`/repo/coerce/src/remote/stream/mediator/mod.rs` 23). `heard`: the events it has
handled; the code does not keep them, they are for the claims. -/
structure Hub where
  disc : Disc
  leaving : List Nat := []
  inbox : List Ev := []
  heard : List Ev := []
  nodes : List Nat := []

/-- a node that has started has registered itself, `/repo/coerce/src/remote/cluster/builder/worker.rs` 50-62; its mediator
has subscribed before, `/repo/coerce/src/remote/system/builder.rs` 232-238. -/
def Hub.init (self : Nat) : Hub := { disc := { reg := [(self, false)] } }

/-- the discovery has become `d`: `NodeAdded` is published within the handler
(`/repo/coerce/src/remote/cluster/discovery/mod.rs` 216-223), `NodeRemoved` by a task (188-195). -/
def Hub.disced (h : Hub) (d : Disc) : Hub :=
  { h with
    disc := d
    leaving := h.leaving ++ d.removed.drop h.disc.removed.length
    inbox := h.inbox ++ (d.added.drop h.disc.added.length).map .added }

/-- `Handler<Receive<SystemTopic>>`, `/repo/coerce/src/remote/stream/mediator/mod.rs` 149-175. -/
def learn (self : Nat) (nodes : List Nat) : Ev → List Nat
  | .added n => if n = self ∨ n ∈ nodes then nodes else n :: nodes
  | .removed n => nodes.filter (· ≠ n)

/-- What can happen there: the discovery handles a message, a handshake ends or the status of a node changes in the
registry; a task of `leaving` publishes; the mediator handles the next event.
(`/repo/coerce/src/remote/cluster/discovery/mod.rs` 55-234, `/repo/coerce/src/remote/stream/mediator/mod.rs` 149-175.) -/
inductive HubOp where
  | disc (o : DOp)
  | gone (n : Nat)
  | hear

/-- one step. (`/repo/coerce/src/remote/cluster/discovery/mod.rs` 55-234,
`/repo/coerce/src/remote/stream/mediator/mod.rs` 149-175.) -/
def Hub.step (self : Nat) (h : Hub) : HubOp → Hub
  | .disc o => h.disced (h.disc.step self o)
  | .gone n =>
    if n ∈ h.leaving then { h with leaving := h.leaving.erase n, inbox := h.inbox ++ [.removed n] } else h
  | .hear =>
    match h.inbox with
    | [] => h
    | e :: es => { h with inbox := es, heard := h.heard ++ [e], nodes := learn self h.nodes e }

/-- `StreamPublishEvent`, `/repo/coerce/src/remote/stream/mediator/mod.rs` 200-205. `no` numbers the publications; the
code has no such number. -/
structure Post (B : Type) where
  no : Nat
  topic : String
  key : String
  bytes : B
deriving DecidableEq, Repr

/-- `StreamData` of the messages: `write_to_bytes`, and `read_from_bytes` of the topic a node has under a name
(`/repo/coerce/src/remote/stream/mediator/mod.rs` 191, `/repo/coerce/src/remote/stream/pubsub.rs` 170). -/
structure Codec (M B : Type) where
  write : M → Option B
  read : Nat → String → B → Option M

/-- The cluster. `todo`: what the tasks started by publishing have still to send, and to whom; a task goes through the set
in an order nobody has promised, so the tasks may as well send in any order
(`/repo/coerce/src/remote/stream/mediator/mod.rs` 198-212). `wire`: written to a connection, and not handed to the
mediator of the other node yet; a task of its own hands over each one
(`/repo/coerce/src/remote/net/server/session/mod.rs` 369-372, 621-626), so these are in no order either. For the claims:
`handed` and `lost`, what was handed over and what never will be; `acts`, what each mediator has done. -/
structure Net (M B : Type) where
  hub : Nat → Hub := Hub.init
  med : Nat → Med M := fun _ => {}
  todo : List (Nat × Post B) := []
  wire : List (Nat × Post B) := []
  handed : List (Nat × Post B) := []
  lost : List (Nat × Post B) := []
  next : Nat := 0
  acts : Nat → List (MedOp M) := fun _ => []

variable {M B : Type}

/-- the mediator of node `i` does something, `/repo/coerce/src/remote/stream/mediator/mod.rs` 95-277. -/
def Net.act (cap : Nat) (w : Net M B) (i : Nat) (o : MedOp M) : Net M B :=
  { w with
    med := fun k => if k = i then (w.med i).step cap o else w.med k
    acts := fun k => if k = i then w.acts i ++ [o] else w.acts k }

/-- what the publisher is told: `Ok`, `SerializationErr`, or nothing because the mediator has died, which panics in the
publisher (`/repo/coerce/src/remote/stream/mediator/mod.rs` 62-64, 185-222; `/repo/coerce/src/remote/stream/pubsub.rs`
62-70, where the first two are not told apart). -/
inductive Told where
  | ok
  | unwritable
  | died
deriving DecidableEq, Repr

/-- `Handler<Publish<T>>` with `Reach::Cluster`, `/repo/coerce/src/remote/stream/mediator/mod.rs` 180-224. -/
def Net.publish (cap : Nat) (cd : Codec M B) (w : Net M B) (i : Nat) (t : TopicRef) (m : M) : Net M B × Told :=
  let w1 := { w.act cap i (.publish t m) with next := w.next + 1 }
  if (w1.med i).dead then (w1, .died)
  else if (w.hub i).nodes = [] then (w1, .ok)
  else match cd.write m with
    | none => (w1, .unwritable)
    | some b => ({ w1 with todo := w1.todo ++ (w.hub i).nodes.map (·, ⟨w.next, t.name, t.key, b⟩) }, .ok)

/-- What can happen.
* `hub`: on node `i`, around its discovery; a mediator that has died handles nothing.
* `own`: the mediator of node `i` handles a subscription or a publication with `Reach::Local`, or a subscription of its
  node goes on or ends.
* `publish`: something is published to the cluster on node `i`.
* `send k ok`: `notify_node` for the `k`-th of `todo`: there is a client for the node, or not and the event is dropped
  (`/repo/coerce/src/remote/actor/clients.rs` 99-116).
* `deliver k`, `lose k`: the `k`-th of `wire` arrives, or is lost with its connection. -/
inductive Op (M : Type) where
  | hub (i : Nat) (o : HubOp)
  | own (i : Nat) (o : MedOp M)
  | publish (i : Nat) (t : TopicRef) (m : M)
  | send (k : Nat) (ok : Bool)
  | deliver (k : Nat)
  | lose (k : Nat)

/-- the operation comes from another node, `/repo/coerce/src/remote/stream/mediator/mod.rs` 255-264. -/
def isRaw : MedOp M → Bool
  | .publishRaw _ _ _ => true
  | _ => false

/-- One step. (`/repo/coerce/src/remote/stream/mediator/mod.rs` 148-277, `/repo/coerce/src/remote/actor/clients.rs`
99-116, `/repo/coerce/src/remote/net/server/session/mod.rs` 621-626.) -/
def Net.step (cap : Nat) (cd : Codec M B) (w : Net M B) : Op M → Net M B
  | .hub i .hear =>
    if (w.med i).dead then w else { w with hub := fun k => if k = i then (w.hub i).step i .hear else w.hub k }
  | .hub i o => { w with hub := fun k => if k = i then (w.hub i).step i o else w.hub k }
  | .own i o => if isRaw o then w else w.act cap i o
  | .publish i t m => (w.publish cap cd i t m).1
  | .send k ok =>
    match w.todo[k]? with
    | none => w
    | some x =>
      if ok then { w with todo := w.todo.eraseIdx k, wire := w.wire ++ [x] }
      else { w with todo := w.todo.eraseIdx k, lost := w.lost ++ [x] }
  | .deliver k =>
    match w.wire[k]? with
    | none => w
    | some (j, p) =>
      { w.act cap j (.publishRaw p.topic p.key (cd.read j p.topic p.bytes)) with
        wire := w.wire.eraseIdx k, handed := w.handed ++ [(j, p)] }
  | .lose k =>
    match w.wire[k]? with
    | none => w
    | some x => { w with wire := w.wire.eraseIdx k, lost := w.lost ++ [x] }

/-- any number of steps (`/repo/coerce/src/remote/stream/mediator/mod.rs` 148-277). -/
def Net.runFrom (cap : Nat) (cd : Codec M B) (w : Net M B) (ops : List (Op M)) : Net M B :=
  ops.foldl (Net.step cap cd) w

/-- any number of steps from the start of all nodes (`/repo/coerce/src/remote/stream/mediator/mod.rs` 148-277). -/
def Net.run (cap : Nat) (cd : Codec M B) (ops : List (Op M)) : Net M B := ({} : Net M B).runFrom cap cd ops

end Verif.Remote.Topics
