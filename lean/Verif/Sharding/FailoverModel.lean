import Verif.Sharding.SystemModel

/-!
# Coordinator and shard hosts, when coordinators end and nodes crash

The system of `SystemModel`, and in addition: the coordinator, which is a cluster singleton
(`/repo/coerce/src/sharding/coordinator/factory.rs` 20-26, `/repo/coerce/src/sharding/mod.rs` 91-94), ends and a new one
is started on some node; and a node crashes and starts again with nothing. Coordinators are numbered. The answer to a
`StopShard` goes to the task waiting for it under the id of the request, and that task asks the coordinator it belongs
to, so an answer to a request of an earlier coordinator has no effect
(`/repo/coerce/src/sharding/coordinator/balancing.rs` 106-121): requests carry the number of their coordinator as
`origin`, and only answers to requests of the present coordinator are kept. Requests for allocation find the present
coordinator, or stay under way for ever.
-/

namespace Verif.Sharding

variable {R : Type}

/-- `epoch`: the number of the present coordinator. (Every coordinator is created anew by
`/repo/coerce/src/sharding/coordinator/factory.rs` 20-26.) -/
structure FSys (R : Type) extends Sys R where
  epoch : Nat := 0

/-- `StopShard` names who asks for it, `/repo/coerce/src/sharding/coordinator/balancing.rs` 112. -/
def HMsg.stamp (e : Nat) : HMsg → HMsg
  | .stop s _ => .stop s e
  | m => m

/-- the messages with the number of the coordinator that sent them: a mark of the model
(`/repo/coerce/src/sharding/coordinator/mod.rs` 52-61; the code has none). -/
def stampAll (e : Nat) (l : List (Nat × HMsg)) : List (Nat × HMsg) := l.map fun p => (p.1, p.2.stamp e)

/-- an answer to a request of coordinator `e`, `/repo/coerce/src/sharding/host/mod.rs` 345-361. -/
def HostOut.ackTo (e d : Nat) : HostOut R → Option (Nat × Nat)
  | .reply q s => if q.origin = e then some (s, d) else none
  | _ => none

/-- the coordinator becomes `c` and sends what `c` has sent more, and `extra`.
(`/repo/coerce/src/sharding/coordinator/allocation.rs` 135-199.) -/
def FSys.tell (w : FSys R) (c : Coord) (extra : List (Nat × HMsg)) (asks acks : List (Nat × Nat)) : FSys R :=
  { w with
      coord := c
      net := w.net ++ (stampAll w.epoch (c.sentSince w.coord.out.length) ++ extra)
      asks := asks
      acks := acks }

/-- the host on node `d` takes a step and its outputs are sent. (`/repo/coerce/src/sharding/host/mod.rs` 178-373.) -/
def FSys.hostStep (f : R → Nat) (w : FSys R) (d : Nat) (op : HostOp R) : FSys R :=
  { w with
      host := w.setHost d ((w.host d).next f op)
      asks := w.asks ++ ((w.host d).step f op).2.filterMap (HostOut.ask? d)
      acks := w.acks ++ ((w.host d).step f op).2.filterMap (HostOut.ackTo w.epoch d) }

/-- a message arrives, `/repo/coerce/src/sharding/host/mod.rs` 178-373. -/
def FSys.take (w : FSys R) (d : Nat) (m : HMsg) : FSys R := { w with net := w.net.erase (d, m) }

/-- a step of the system of `SystemModel`. (`/repo/coerce/src/sharding/host/mod.rs` 178-373,
`/repo/coerce/src/sharding/coordinator/allocation.rs` 65-91.) -/
def FSys.sysStep (f : R → Nat) (w : FSys R) : SysOp R → FSys R
  | .coord op => if op.isLocal then w.tell (w.coord.next op) [] w.asks w.acks else w
  | .ask m s ok =>
    if (m, s) ∈ w.asks then
      w.tell (w.coord.next (.allocate s ok)) ((w.coord.handleAllocate s false ok).2.notice m) (w.asks.erase (m, s)) w.acks
    else w
  | .ack s n =>
    if (s, n) ∈ w.acks then w.tell (w.coord.next (.stopAcked s n)) [] w.asks (w.acks.erase (s, n)) else w
  | .deliver d m => if (d, m) ∈ w.net then (w.take d m).hostStep f d m.op else w
  | .host d op => if op.isLocal then w.hostStep f d op else w

/-- Start of a coordinator as in `Coord.start`; `order` is the order in which its table of hosts is read.
(`/repo/coerce/src/sharding/coordinator/mod.rs` 75-121.) -/
def Coord.revive (self : Nat) (nodes : List (Nat × Bool)) (order : Assoc Nat HostInfo) (journal : List Nat) : Coord :=
  journal.foldl (fun σ s => (σ.allocateShard s).1) ((Coord.fresh self nodes journal).shuffle order)

/-- The coordinator ends, wherever it is, and a new one is started on node `self`, which knows `nodes`: `pre_recovery`
and recovery from the journal, `/repo/coerce/src/sharding/coordinator/mod.rs` 75-121 and
`/repo/coerce/src/sharding/coordinator/allocation.rs` 92-99. -/
def FSys.failover (w : FSys R) (self : Nat) (nodes : List (Nat × Bool)) (order : Assoc Nat HostInfo) : FSys R :=
  { w with
      coord := Coord.revive self nodes order w.coord.journal
      net := w.net ++ stampAll (w.epoch + 1) ((Coord.revive self nodes order w.coord.journal).sentSince 0)
      acks := []
      epoch := w.epoch + 1 }

/-- Node `d` crashes and starts again: `ShardHost::new`, `/repo/coerce/src/sharding/host/mod.rs` 89-106. What is
under way to and from it is lost. -/
def FSys.crash (w : FSys R) (d : Nat) : FSys R :=
  { w with
      host := w.setHost d (Host.init d)
      net := w.net.filter fun p => p.1 ≠ d
      asks := w.asks.filter fun p => p.1 ≠ d
      acks := w.acks.filter fun p => p.2 ≠ d }

/-- a step of the system, the start of another coordinator (`/repo/coerce/src/sharding/coordinator/mod.rs` 75-121) or
the crash and restart of a node (`/repo/coerce/src/sharding/host/mod.rs` 89-106). -/
inductive FOp (R : Type) where
  | sys (op : SysOp R)
  | failover (self : Nat) (nodes : List (Nat × Bool)) (order : Assoc Nat HostInfo)
  | crash (d : Nat)

/-- one of them (`/repo/coerce/src/sharding/coordinator/mod.rs` 75-121, `/repo/coerce/src/sharding/host/mod.rs`
89-106). -/
def FSys.next (f : R → Nat) (w : FSys R) : FOp R → FSys R
  | .sys op => w.sysStep f op
  | .failover self nodes order => w.failover self nodes order
  | .crash d => w.crash d

/-- any number of them (`/repo/coerce/src/sharding/coordinator/mod.rs` 75-121, `/repo/coerce/src/sharding/host/mod.rs`
89-106). -/
def FSys.run (f : R → Nat) (w : FSys R) (ops : List (FOp R)) : FSys R := ops.foldl (FSys.next f) w

/-- the first coordinator starts on node `self`; the hosts have just started.
(`/repo/coerce/src/sharding/coordinator/mod.rs` 75-121, `/repo/coerce/src/sharding/host/mod.rs` 82-106.) -/
def FSys.start (self : Nat) (nodes : List (Nat × Bool)) (journal : List Nat) : FSys R :=
  { coord := Coord.start self nodes journal
    host := Host.init
    net := (Coord.start self nodes journal).sentSince 0 }

end Verif.Sharding
