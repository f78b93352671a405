import Verif.Assoc
import Verif.Util

/-!
# The shard host

`/repo/coerce/src/sharding/host/`. One `ShardHost` actor per node. A request is a value of any type `R`;
the shard of a request is given by a function `shardOf` (`ShardAllocator::allocate`, see C43). Running
instances of the `Shard` actor are numbered. Not modelled: requests arriving before `Init`, which make
`get_coordinator` panic, and shard actors that end by themselves, which the host does not notice.
-/

namespace Verif.Sharding

/-- `StopRequested`, `/repo/coerce/src/sharding/host/mod.rs` 37-40. -/
structure StopReq where
  origin : Nat
  rid : Nat
deriving DecidableEq, Repr

/-- `ShardState`, `/repo/coerce/src/sharding/host/mod.rs` 27-35; `a` is the instance referred to. -/
inductive HShard (R : Type) where
  | starting (a : Nat) (buf : List R) (stop : Option StopReq)
  | ready (a : Nat)
  | stopping
deriving DecidableEq, Repr

/-- the task started by `stop_shard`, `/repo/coerce/src/sharding/host/mod.rs` 329-363. -/
structure StopTask where
  s : Nat
  a : Nat
  req : Option StopReq
deriving DecidableEq, Repr

/-- `ShardHost`, `/repo/coerce/src/sharding/host/mod.rs` 42-50, and the shard actors of this node: `live`
are the instances running (shard, instance), `booting` those of them that have not yet sent `ShardReady`,
`closing` those sent a stop notification, `stops` the tasks waiting for an instance to stop. -/
structure Host (R : Type) where
  self : Nat
  hosted : Assoc Nat (HShard R) := []
  remote : Assoc Nat Nat := []
  pending : Assoc Nat (List R) := []
  fresh : Nat := 0
  live : List (Nat × Nat) := []
  booting : List (Nat × Nat) := []
  closing : List (Nat × Nat) := []
  stops : List StopTask := []
deriving DecidableEq, Repr

/-- What the host sends: a request for allocation to the coordinator, a request to an instance on this node, a request
to the shard on another node, or the answer to a `StopShard`. Each is a task of its own.
(`/repo/coerce/src/sharding/host/mod.rs` 178-364, `/repo/coerce/src/sharding/host/request.rs` 35-181.) -/
inductive HostOut (R : Type) where
  | ask (s : Nat)
  | deliver (s a : Nat) (r : R)
  | forward (n s : Nat) (r : R)
  | reply (q : StopReq) (s : Nat)
deriving DecidableEq, Repr

variable {R : Type}

/-- `handle_request`, `/repo/coerce/src/sharding/host/request.rs` 35-67, on the state of
shard `s`. -/
def HShard.request (s : Nat) (r : R) : HShard R → HShard R × List (HostOut R)
  | .starting a buf stop => (.starting a (buf ++ [r]) stop, [])
  | .ready a => (.ready a, [.deliver s a r])
  | .stopping => (.stopping, [])

/-- `Handler<EntityRequest>`, `/repo/coerce/src/sharding/host/request.rs` 69-121, for a request `r` whose
shard is `s`. -/
def Host.request (σ : Host R) (s : Nat) (r : R) : Host R × List (HostOut R) :=
  match σ.hosted.get s with
  | some h => ({ σ with hosted := σ.hosted.update s fun h => (h.request s r).1 }, (h.request s r).2)
  | none =>
    match σ.remote.get s with
    | some n => (σ, [.forward n s r])
    | none => ({ σ with pending := σ.pending.insert s ((σ.pending.get s).getD [] ++ [r]) }, [.ask s])

/-- the loop over buffered requests, `/repo/coerce/src/sharding/host/mod.rs` 245-247. -/
def Host.requests (σ : Host R) (s : Nat) : List R → Host R × List (HostOut R)
  | [] => (σ, [])
  | r :: rs =>
    ((((σ.request s r).1).requests s rs).1, (σ.request s r).2 ++ (((σ.request s r).1).requests s rs).2)

/-- `Handler<ShardAllocated>`, first part, `/repo/coerce/src/sharding/host/mod.rs` 186-234. -/
def Host.allocated (σ : Host R) (s n : Nat) : Host R :=
  if n = σ.self then
    match σ.hosted.get s with
    | some _ => { σ with remote := σ.remote.erase s }
    | none =>
      { σ with
          remote := σ.remote.erase s
          hosted := σ.hosted.insert s (.starting σ.fresh [] none)
          fresh := σ.fresh + 1
          live := σ.live ++ [(s, σ.fresh)]
          booting := σ.booting ++ [(s, σ.fresh)] }
  else
    { σ with
        hosted := σ.hosted.erase s
        closing := match σ.hosted.get s with
          | some (.starting a _ _) => σ.closing ++ [(s, a)]
          | some (.ready a) => σ.closing ++ [(s, a)]
          | _ => σ.closing
        remote := σ.remote.insert s n }

/-- `requests_pending_shard_allocation.remove`, `/repo/coerce/src/sharding/host/mod.rs` 238. -/
def Host.dropPending (σ : Host R) (s : Nat) : Host R := { σ with pending := σ.pending.erase s }

/-- `Handler<ShardAllocated>`, `/repo/coerce/src/sharding/host/mod.rs` 178-249. -/
def Host.shardAllocated (σ : Host R) (s n : Nat) : Host R × List (HostOut R) :=
  match (σ.allocated s n).pending.get s with
  | some rs => ((σ.allocated s n).dropPending s).requests s rs
  | none => (σ.allocated s n, [])

/-- `Handler<ShardReady>`, `/repo/coerce/src/sharding/host/mod.rs` 252-283, from instance `a`. -/
def Host.shardReady (σ : Host R) (s a : Nat) : Host R × List (HostOut R) :=
  match σ.hosted.get s with
  | some (.starting _ buf stop) =>
    match stop with
    | some q => ({ σ with hosted := σ.hosted.insert s (.ready a)
                          stops := σ.stops ++ [{ s := s, a := a, req := some q }] }, [])
    | none => ({ σ with hosted := σ.hosted.insert s (.ready a) }, buf.map fun r => .deliver s a r)
  | _ => ({ σ with hosted := σ.hosted.insert s (.ready a) }, [])

/-- `Handler<ShardReallocating>`, `/repo/coerce/src/sharding/host/mod.rs` 285-290. -/
def Host.reallocating (σ : Host R) (s : Nat) : Host R := { σ with remote := σ.remote.erase s }

/-- `Handler<StopShard>`, `/repo/coerce/src/sharding/host/mod.rs` 292-326. In the `Starting` case the
assignment is to a local variable, and the state has been overwritten by `Stopping`. -/
def Host.stopShard (σ : Host R) (s : Nat) (q : StopReq) : Host R :=
  match σ.hosted.get s with
  | none => σ
  | some (.ready a) => { σ with hosted := σ.hosted.insert s .stopping
                                stops := σ.stops ++ [{ s := s, a := a, req := some q }] }
  | some _ => { σ with hosted := σ.hosted.insert s .stopping }

/-- the end of a stop task, `/repo/coerce/src/sharding/host/mod.rs` 329-363, and
`Handler<ShardStopped>`, 366-372: the instance has stopped, the host is notified, the origin is answered.
The host's notification is queued before the answer is sent, so nothing caused by the answer can reach
the host first. -/
def Host.stopDone (σ : Host R) (t : StopTask) : Host R × List (HostOut R) :=
  ({ σ with
      stops := σ.stops.erase t
      live := σ.live.filter (· ≠ (t.s, t.a))
      hosted := σ.hosted.erase t.s },
   t.req.toList.map fun q => .reply q t.s)

/-- Messages and events at one host. `ready s a` and `stopDone t` and `closed s a` need an instance that has not yet
reported, a stop task, or an instance told to stop. (`/repo/coerce/src/sharding/host/mod.rs` 178-373,
`/repo/coerce/src/sharding/host/request.rs` 70-121.) -/
inductive HostOp (R : Type) where
  | request (r : R)
  | shardAllocated (s n : Nat)
  | reallocating (s : Nat)
  | stopShard (s : Nat) (q : StopReq)
  | ready (s a : Nat)
  | stopDone (t : StopTask)
  | closed (s a : Nat)
deriving DecidableEq, Repr

/-- one message or event (`/repo/coerce/src/sharding/host/mod.rs` 178-373, `/repo/coerce/src/sharding/host/request.rs`
70-121). -/
def Host.step (shardOf : R → Nat) (σ : Host R) : HostOp R → Host R × List (HostOut R)
  | .request r => σ.request (shardOf r) r
  | .shardAllocated s n => σ.shardAllocated s n
  | .reallocating s => (σ.reallocating s, [])
  | .stopShard s q => (σ.stopShard s q, [])
  | .ready s a =>
    if (s, a) ∈ σ.booting then ({ σ with booting := σ.booting.filter (· ≠ (s, a)) }).shardReady s a else (σ, [])
  | .stopDone t => if t ∈ σ.stops then σ.stopDone t else (σ, [])
  | .closed s a =>
    if (s, a) ∈ σ.closing then
      ({ σ with closing := σ.closing.filter (· ≠ (s, a)), live := σ.live.filter (· ≠ (s, a)) }, [])
    else (σ, [])

/-- the state after it (`/repo/coerce/src/sharding/host/mod.rs` 178-373, `/repo/coerce/src/sharding/host/request.rs`
70-121). -/
def Host.next (shardOf : R → Nat) (σ : Host R) (op : HostOp R) : Host R := (σ.step shardOf op).1

/-- the state after any number of them (`/repo/coerce/src/sharding/host/mod.rs` 178-373,
`/repo/coerce/src/sharding/host/request.rs` 70-121). -/
def Host.run (shardOf : R → Nat) (σ : Host R) (ops : List (HostOp R)) : Host R := ops.foldl (Host.next shardOf) σ

/-- everything sent in a run, in order. (`/repo/coerce/src/sharding/host/mod.rs` 178-373,
`/repo/coerce/src/sharding/host/request.rs` 70-121.) -/
def Host.outs (shardOf : R → Nat) (σ : Host R) : List (HostOp R) → List (HostOut R)
  | [] => []
  | op :: ops => (σ.step shardOf op).2 ++ (σ.next shardOf op).outs shardOf ops

/-- the host of node `n` when it starts. (`/repo/coerce/src/sharding/host/mod.rs` 89-106.) -/
def Host.init (n : Nat) : Host R := { self := n }

end Verif.Sharding
