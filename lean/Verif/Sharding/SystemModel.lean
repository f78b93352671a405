import Verif.Sharding.CoordinatorModel
import Verif.Sharding.HostModel

/-!
# The coordinator and the shard hosts together

One coordinator, one shard host per node, and what is under way between them: messages to hosts,
allocation requests and the answers to `StopShard`. Everything under way is handled in any order and at
any time; nothing is lost or repeated by the network, but it may stay under way for ever. The `StopShard`
requests carry an id by which the answer finds the waiting task; here a task is known by its shard and
node, as tasks for the same shard and node do the same. The coordinator is not restarted.
-/

namespace Verif.Sharding

/-- messages to a shard host. (`/repo/coerce/src/sharding/host/mod.rs` 129-148.) -/
inductive HMsg where
  | allocated (s n : Nat)
  | reallocating (s : Nat)
  | stop (s origin : Nat)
deriving DecidableEq, Repr

/-- The whole system. `net`: messages under way (node addressed, message). `asks`: `AllocateShard` requests under way
(asking node, shard). `acks`: answers to `StopShard` under way (shard, answering node).
(`/repo/coerce/src/sharding/host/mod.rs` 42-50, `/repo/coerce/src/sharding/coordinator/mod.rs` 52-61.) -/
structure Sys (R : Type) where
  coord : Coord
  host : Nat → Host R
  net : List (Nat × HMsg) := []
  asks : List (Nat × Nat) := []
  acks : List (Nat × Nat) := []

variable {R : Type}

/-- the messages an output of the coordinator stands for: `broadcast_allocation` and
`broadcast_reallocation`, `/repo/coerce/src/sharding/coordinator/allocation.rs` 135-200, and the
`StopShard` of `rebalance_shards`, `/repo/coerce/src/sharding/coordinator/balancing.rs` 112-113. -/
def CoordOut.msgs (self : Nat) : CoordOut → List (Nat × HMsg)
  | .shardAllocated s n to => to.map fun d => (d, .allocated s n)
  | .shardReallocating s to => to.map fun d => (d, .reallocating s)
  | .stopShard s n => [(n, .stop s self)]
  | .scheduleRebalance => []

/-- the outputs of the coordinator since it had sent `k`. (`/repo/coerce/src/sharding/coordinator/allocation.rs`
135-199.) -/
def Coord.sentSince (c : Coord) (k : Nat) : List (Nat × HMsg) := (c.out.drop k).flatMap (CoordOut.msgs c.self)

/-- the coordinator takes a step and its outputs are sent. (`/repo/coerce/src/sharding/coordinator/allocation.rs`
65-91, `/repo/coerce/src/sharding/coordinator/balancing.rs` 23-175.) -/
def Sys.coordStep (w : Sys R) (op : CoordOp) : Sys R :=
  { w with
      coord := w.coord.next op
      net := w.net ++ (w.coord.next op).sentSince w.coord.out.length }

/-- the handling of an answer to an allocation request by the asking host,
`/repo/coerce/src/sharding/host/request.rs` 101-115: it notifies itself. -/
def AllocResult.notice (m : Nat) : AllocResult → List (Nat × HMsg)
  | .allocated s n => [(m, .allocated s n)]
  | .already s n => [(m, .allocated s n)]
  | _ => []

/-- what a host on node `d` sends to the coordinator. (`/repo/coerce/src/sharding/host/request.rs` 91-119.) -/
def HostOut.ask? (d : Nat) : HostOut R → Option (Nat × Nat)
  | .ask s => some (d, s)
  | _ => none

/-- the answer of a host to `StopShard`, `/repo/coerce/src/sharding/host/mod.rs` 329-363. -/
def HostOut.ack? (d : Nat) : HostOut R → Option (Nat × Nat)
  | .reply _ s => some (s, d)
  | _ => none

/-- node `d` has host `h` (every node has its own, `/repo/coerce/src/sharding/host/mod.rs` 42-50). -/
def Sys.setHost (w : Sys R) (d : Nat) (h : Host R) : Nat → Host R := fun m => if m = d then h else w.host m

/-- the host on node `d` takes a step and its outputs are sent. (`/repo/coerce/src/sharding/host/mod.rs` 178-373.) -/
def Sys.hostStep (f : R → Nat) (w : Sys R) (d : Nat) (op : HostOp R) : Sys R :=
  { w with
      host := w.setHost d ((w.host d).next f op)
      asks := w.asks ++ ((w.host d).step f op).2.filterMap (HostOut.ask? d)
      acks := w.acks ++ ((w.host d).step f op).2.filterMap (HostOut.ack? d) }

/-- the host operation a message causes. (`/repo/coerce/src/sharding/host/mod.rs` 178-326.) -/
def HMsg.op : HMsg → HostOp R
  | .allocated s n => .shardAllocated s n
  | .reallocating s => .reallocating s
  | .stop s o => .stopShard s { origin := o, rid := 0 }

/-- what happens on a node by itself, without a message from the coordinator. (`/repo/coerce/src/sharding/host/mod.rs`
252-283 and 329-373, `/repo/coerce/src/sharding/host/request.rs` 70-121.) -/
def HostOp.isLocal : HostOp R → Bool
  | .request _ => true
  | .ready _ _ => true
  | .stopDone _ => true
  | .closed _ _ => true
  | _ => false

/-- what happens to the coordinator by itself. (`/repo/coerce/src/sharding/coordinator/balancing.rs` 23-175,
`/repo/coerce/src/sharding/coordinator/discovery.rs` 33-71.) -/
def CoordOp.isLocal : CoordOp → Bool
  | .allocate _ _ => false
  | .stopAcked _ _ => false
  | .restart _ _ => false
  | _ => true

/-- * `coord op`: something happens to the coordinator by itself (rebalances, nodes found or lost).
* `ask m s ok`: the coordinator handles a request of node `m` for shard `s`.
* `ack s n`: the answer of node `n` that `s` has stopped arrives.
* `deliver d m`: the host on node `d` handles a message.
* `host d op`: something happens on node `d` by itself. (`/repo/coerce/src/sharding/host/mod.rs` 178-373, `/repo/coerce/src/sharding/coordinator/allocation.rs` 65-91.) -/
inductive SysOp (R : Type) where
  | coord (op : CoordOp)
  | ask (m s : Nat) (ok : Bool)
  | ack (s n : Nat)
  | deliver (d : Nat) (m : HMsg)
  | host (d : Nat) (op : HostOp R)

/-- `Sys.ask`: the request leaves the list, is handled, and the answer is under way.
(`/repo/coerce/src/sharding/coordinator/allocation.rs` 65-91.) -/
def Sys.ask (w : Sys R) (m s : Nat) (ok : Bool) : Sys R :=
  { w with
      coord := w.coord.next (.allocate s ok)
      net := w.net ++ (w.coord.next (.allocate s ok)).sentSince w.coord.out.length
        ++ (w.coord.handleAllocate s false ok).2.notice m
      asks := w.asks.erase (m, s) }

/-- the answer to a `StopShard` arrives: the waiting task of `/repo/coerce/src/sharding/coordinator/balancing.rs`
81-146 goes on. -/
def Sys.ack (w : Sys R) (s n : Nat) : Sys R :=
  { w with
      coord := w.coord.next (.stopAcked s n)
      net := w.net ++ (w.coord.next (.stopAcked s n)).sentSince w.coord.out.length
      acks := w.acks.erase (s, n) }

/-- a message arrives (`/repo/coerce/src/sharding/host/mod.rs` 178-326). -/
def Sys.take (w : Sys R) (d : Nat) (m : HMsg) : Sys R := { w with net := w.net.erase (d, m) }

/-- one step (`/repo/coerce/src/sharding/host/mod.rs` 178-373, `/repo/coerce/src/sharding/coordinator/allocation.rs`
65-91). -/
def Sys.next (f : R → Nat) (w : Sys R) : SysOp R → Sys R
  | .coord op => if op.isLocal then w.coordStep op else w
  | .ask m s ok => if (m, s) ∈ w.asks then w.ask m s ok else w
  | .ack s n => if (s, n) ∈ w.acks then w.ack s n else w
  | .deliver d m => if (d, m) ∈ w.net then (w.take d m).hostStep f d m.op else w
  | .host d op => if op.isLocal then w.hostStep f d op else w

/-- any number of steps (`/repo/coerce/src/sharding/host/mod.rs` 178-373,
`/repo/coerce/src/sharding/coordinator/allocation.rs` 65-91). -/
def Sys.run (f : R → Nat) (w : Sys R) (ops : List (SysOp R)) : Sys R := ops.foldl (Sys.next f) w

/-- the system when the coordinator starts on node `self`, knowing `nodes`, with a journal; the hosts have just
started. (`/repo/coerce/src/sharding/coordinator/mod.rs` 75-121, `/repo/coerce/src/sharding/host/mod.rs` 89-106.) -/
def Sys.start (self : Nat) (nodes : List (Nat × Bool)) (journal : List Nat) : Sys R :=
  { coord := Coord.start self nodes journal
    host := Host.init
    net := (Coord.start self nodes journal).sentSince 0 }

end Verif.Sharding
