import Verif.Assoc
import Verif.Sort
import Verif.Util

/-!
# The shard coordinator

`/repo/coerce/src/sharding/coordinator/`. Node ids (`u64`) and shard ids (`u32`) are natural numbers. A
`HashMap` is an association list and a `HashSet` a list without repetitions; their iteration order is
the list order, which the environment may change between any two messages (`CoordOp.shuffle`,
`CoordOp.shuffleSet`). A handler runs to its end before the next message is handled; tasks started with
`tokio::spawn` are outputs, or entries in `moving` if the coordinator hears of them again.
-/

namespace Verif.Sharding

/-- `ShardHostStatus`, `/repo/coerce/src/sharding/coordinator/mod.rs` 39-44. -/
inductive HostStatus where
  | unknown | starting | ready | unavailable
deriving DecidableEq, Repr

/-- `ShardHostState`, `/repo/coerce/src/sharding/coordinator/mod.rs` 30-36, without tag and reference;
the node id is the key under which it is stored. -/
structure HostInfo where
  shards : List Nat := []
  status : HostStatus
deriving DecidableEq, Repr

/-- `ShardHostState::is_ready`, `/repo/coerce/src/sharding/coordinator/mod.rs` 161-168. -/
def HostInfo.isReady (h : HostInfo) : Bool := h.status = .ready

/-- `AllocateShardResult`, `/repo/coerce/src/sharding/coordinator/allocation.rs` 28-34, the only error
made by the coordinator being `Persistence`. -/
inductive AllocResult where
  | allocated (s n : Nat)
  | already (s n : Nat)
  | notAllocated
  | persistErr
deriving DecidableEq, Repr

/-- what the coordinator sends to shard hosts: `ShardAllocated` and `ShardReallocating` (to several nodes),
`StopShard` (to one). (`/repo/coerce/src/sharding/coordinator/allocation.rs` 135-199;
`/repo/coerce/src/sharding/coordinator/balancing.rs` 106-121.) -/
inductive CoordOut where
  | shardAllocated (s n : Nat) (to : List Nat)
  | shardReallocating (s : Nat) (to : List Nat)
  | stopShard (s n : Nat)
  | scheduleRebalance
deriving DecidableEq, Repr

/-- `ShardCoordinator`, `/repo/coerce/src/sharding/coordinator/mod.rs` 52-61. `reallocating_shards` is
never used and left out. `journal`: the `AllocateShard` messages persisted under its key. `moving`: the
tasks of `rebalance_shards` waiting for the answer to a `StopShard` (shard, node it was sent to).
`panicked`: a handler has panicked. -/
structure Coord where
  self : Nat
  hosts : Assoc Nat HostInfo := []
  shards : Assoc Nat Nat := []
  journal : List Nat := []
  moving : List (Nat × Nat) := []
  panicked : Bool := false
  out : List CoordOut := []
deriving DecidableEq, Repr

/-- `HashSet::insert`. (As used in `/repo/coerce/src/sharding/coordinator/allocation.rs` 101-133.) -/
def setInsert (s : Nat) (l : List Nat) : List Nat := if s ∈ l then l else l ++ [s]

/-- the comparison in `allocate`, `/repo/coerce/src/sharding/coordinator/allocation.rs` 108. -/
def byLoad (a b : Nat × HostInfo) : Bool := a.2.shards.length ≤ b.2.shards.length

/-- the hosts given to `allocate`, `/repo/coerce/src/sharding/coordinator/allocation.rs` 55. -/
def Coord.readyHosts (σ : Coord) : List (Nat × HostInfo) := σ.hosts.filter fun p => p.2.isReady

/-- `allocate_shard` and `allocate`, `/repo/coerce/src/sharding/coordinator/allocation.rs` 43-61,
101-133. -/
def Coord.allocateShard (σ : Coord) (s : Nat) : Coord × AllocResult :=
  match σ.shards.get s with
  | some n => (σ, .already s n)
  | none =>
    match (isort byLoad σ.readyHosts).head? with
    | none => (σ, .notAllocated)
    | some (n, h) =>
      ({ σ with
          shards := σ.shards.insert s n
          hosts := σ.hosts.update n fun h => { h with shards := setInsert s h.shards }
          out := if s ∈ h.shards then σ.out
                 else σ.out ++ [.shardAllocated s n ((isort byLoad σ.readyHosts).map (·.1))] },
        .allocated s n)

/-- `Handler<AllocateShard>`, `/repo/coerce/src/sharding/coordinator/allocation.rs` 65-90. `ok`: whether
persisting the message succeeds. -/
def Coord.handleAllocate (σ : Coord) (s : Nat) (rebalancing ok : Bool) : Coord × AllocResult :=
  match σ.shards.get s with
  | some n => (σ, .already s n)
  | none =>
    if rebalancing then σ.allocateShard s
    else if ok then ({ σ with journal := σ.journal ++ [s] }).allocateShard s
    else (σ, .persistErr)

/-- the announcement in `rebalance_shards`, `/repo/coerce/src/sharding/coordinator/balancing.rs` 96,
which goes to every host. -/
def Coord.announce (σ : Coord) (s : Nat) : Coord :=
  { σ with out := σ.out ++ [CoordOut.shardReallocating s (σ.hosts.map (·.1))] }

/-- the rest of a turn of the loop of `rebalance_shards`,
`/repo/coerce/src/sharding/coordinator/balancing.rs` 98-137: `hosts.get_mut(..).unwrap()` may panic. -/
def Coord.detach (σ : Coord) (s : Nat) : Coord :=
  match σ.shards.get s with
  | none => σ
  | some n =>
    match σ.hosts.get n with
    | none => { σ with panicked := true }
    | some _ =>
      { σ with
          shards := σ.shards.erase s
          hosts := σ.hosts.update n fun h => { h with shards := h.shards.filter (· ≠ s) }
          moving := σ.moving ++ [(s, n)]
          out := σ.out ++ [CoordOut.stopShard s n] }

/-- one turn of the loop of `rebalance_shards`, unless an earlier one has panicked.
(`/repo/coerce/src/sharding/coordinator/balancing.rs` 81-146.) -/
def Coord.takeShard (σ : Coord) (s : Nat) : Coord :=
  if σ.panicked then σ else (σ.announce s).detach s

/-- `rebalance_shards`, `/repo/coerce/src/sharding/coordinator/balancing.rs` 81-146. -/
def Coord.rebalanceShards (σ : Coord) (l : List Nat) : Coord := l.foldl Coord.takeShard σ

/-- the number of shards each host may keep in a full rebalance,
`/repo/coerce/src/sharding/coordinator/balancing.rs` 33-34. -/
def Coord.fairCount (σ : Coord) : Nat := σ.shards.length / σ.hosts.length

/-- the shards chosen by a full rebalance, `/repo/coerce/src/sharding/coordinator/balancing.rs` 36-56:
from each host as many of the first ones as it has above `fair`. -/
def surplus (fair : Nat) (hosts : Assoc Nat HostInfo) : List Nat :=
  hosts.flatMap fun p => p.2.shards.take (p.2.shards.length - fair)

/-- `Rebalance::All`, `/repo/coerce/src/sharding/coordinator/balancing.rs` 30-60; without hosts the
division panics. -/
def Coord.rebalanceAll (σ : Coord) : Coord :=
  if σ.hosts.length = 0 then { σ with panicked := true }
  else σ.rebalanceShards (surplus σ.fairCount σ.hosts)

/-- one turn of the loop of `rebalance_unavailable_node`,
`/repo/coerce/src/sharding/coordinator/balancing.rs` 166-169. -/
def Coord.moveShard (σ : Coord) (s : Nat) : Coord :=
  (({ σ with shards := σ.shards.erase s }).allocateShard s).1

/-- `rebalance_unavailable_node`, `/repo/coerce/src/sharding/coordinator/balancing.rs` 148-174. -/
def Coord.nodeUnavailable (σ : Coord) (n : Nat) : Coord :=
  match σ.hosts.get n with
  | none => σ
  | some h =>
    h.shards.foldl Coord.moveShard
      { σ with hosts := σ.hosts.update n fun _ => { shards := [], status := .unavailable } }

/-- `on_node_discovered`, `/repo/coerce/src/sharding/coordinator/discovery.rs` 34-63. -/
def Coord.nodeAdded (σ : Coord) (n : Nat) : Coord :=
  match σ.hosts.get n with
  | some h =>
    if h.status = .ready then σ
    else { σ with hosts := σ.hosts.update n fun h => { h with status := .ready }
                  out := σ.out ++ [.scheduleRebalance] }
  | none => { σ with hosts := σ.hosts.insert n { status := .ready }
                     out := σ.out ++ [.scheduleRebalance] }

/-- `on_node_removed`, `/repo/coerce/src/sharding/coordinator/discovery.rs` 65-70. -/
def Coord.nodeRemoved (σ : Coord) (n : Nat) : Coord :=
  match σ.hosts.get n with
  | some _ => σ.nodeUnavailable n
  | none => σ

/-- one turn of the loop of `pre_recovery`, `/repo/coerce/src/sharding/coordinator/mod.rs` 106-120; the
flag says whether the node is `Healthy` or `Joining`. -/
def addNode (self : Nat) (hosts : Assoc Nat HostInfo) (p : Nat × Bool) : Assoc Nat HostInfo :=
  if p.1 = self then hosts
  else hosts.insert p.1 { status := if p.2 then .ready else .unavailable }

/-- `pre_recovery`, `/repo/coerce/src/sharding/coordinator/mod.rs` 75-121: a new coordinator on node
`self`, which knows the given nodes. -/
def Coord.fresh (self : Nat) (nodes : List (Nat × Bool)) (journal : List Nat) : Coord :=
  { self := self
    hosts := nodes.foldl (addNode self) [(self, { status := .ready })]
    journal := journal }

/-- start of a coordinator: `pre_recovery`, then every persisted message is recovered
(`Recover<AllocateShard>`, `/repo/coerce/src/sharding/coordinator/allocation.rs` 92-99) in order. -/
def Coord.start (self : Nat) (nodes : List (Nat × Bool)) (journal : List Nat) : Coord :=
  journal.foldl (fun σ s => (σ.allocateShard s).1) (Coord.fresh self nodes journal)

/-- What can happen to the coordinator.
* `allocate s ok`: a host asks for a shard (`rebalancing` is false in all such requests,
  `/repo/coerce/src/sharding/host/request.rs` 94-97).
* `rebalanceAll`: the timer of `schedule_full_rebalance` fires (at any time, which includes timers that
  are cancelled too late).
* `stopAcked s n`, `stopFailed s n`: the task waiting for node `n` to stop shard `s` is answered, and
  asks for the shard to be allocated again with `rebalancing` set; or it gives up.
* `restart self nodes`: the coordinator ends and a new one is started, on whichever node. -/
inductive CoordOp where
  | allocate (s : Nat) (ok : Bool)
  | rebalanceAll
  | rebalanceShards (l : List Nat)
  | nodeUnavailable (n : Nat)
  | nodeAdded (n : Nat)
  | nodeRemoved (n : Nat)
  | stopAcked (s n : Nat)
  | stopFailed (s n : Nat)
  | shuffle (hosts : Assoc Nat HostInfo)
  | shuffleSet (n : Nat) (l : List Nat)
  | restart (self : Nat) (nodes : List (Nat × Bool))
deriving DecidableEq, Repr

/-- another order of the table of hosts: a Rust `HashMap` promises none
(`/repo/coerce/src/sharding/coordinator/mod.rs` 52-61). -/
def Coord.shuffle (σ : Coord) (hosts : Assoc Nat HostInfo) : Coord :=
  if hosts.isPerm σ.hosts then { σ with hosts := hosts } else σ

/-- another order of the shards of a host: a Rust `HashSet` promises none
(`/repo/coerce/src/sharding/coordinator/mod.rs` 30-36). -/
def Coord.shuffleSet (σ : Coord) (n : Nat) (l : List Nat) : Coord :=
  { σ with hosts := σ.hosts.update n fun h => if l.isPerm h.shards then { h with shards := l } else h }

/-- one message handled: `/repo/coerce/src/sharding/coordinator/allocation.rs` 65-91,
`/repo/coerce/src/sharding/coordinator/balancing.rs` 23-78, `/repo/coerce/src/sharding/coordinator/discovery.rs`
14-71. -/
def Coord.step (σ : Coord) : CoordOp → Coord × Option AllocResult
  | .allocate s ok => ((σ.handleAllocate s false ok).1, some (σ.handleAllocate s false ok).2)
  | .rebalanceAll => (σ.rebalanceAll, none)
  | .rebalanceShards l => (σ.rebalanceShards l, none)
  | .nodeUnavailable n => (σ.nodeUnavailable n, none)
  | .nodeAdded n => (σ.nodeAdded n, none)
  | .nodeRemoved n => (σ.nodeRemoved n, none)
  | .stopAcked s n =>
    if (s, n) ∈ σ.moving then
      let r := ({ σ with moving := σ.moving.erase (s, n) }).handleAllocate s true true
      (r.1, some r.2)
    else (σ, none)
  | .stopFailed s n => ({ σ with moving := σ.moving.erase (s, n) }, none)
  | .shuffle hosts => (σ.shuffle hosts, none)
  | .shuffleSet n l => (σ.shuffleSet n l, none)
  | .restart self nodes => (Coord.start self nodes σ.journal, none)

/-- the state after one of them (`/repo/coerce/src/sharding/coordinator/allocation.rs` 65-91,
`/repo/coerce/src/sharding/coordinator/balancing.rs` 23-78). -/
def Coord.next (σ : Coord) (op : CoordOp) : Coord := (σ.step op).1

/-- the state after any number of them (`/repo/coerce/src/sharding/coordinator/allocation.rs` 65-91,
`/repo/coerce/src/sharding/coordinator/balancing.rs` 23-78). -/
def Coord.run (σ : Coord) (ops : List CoordOp) : Coord := ops.foldl Coord.next σ

/-- the answers to the allocation requests in a run. (`/repo/coerce/src/sharding/coordinator/allocation.rs` 65-91.) -/
def Coord.answers (σ : Coord) : List CoordOp → List AllocResult
  | [] => []
  | op :: ops => (σ.step op).2.toList ++ (σ.next op).answers ops

end Verif.Sharding
