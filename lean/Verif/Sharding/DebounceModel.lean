import Verif.Sharding.CoordinatorModel

/-!
# The full rebalance that follows the arrival of nodes

`/repo/coerce/src/sharding/coordinator/mod.rs` 145-154, `/repo/coerce/src/sharding/coordinator/discovery.rs`
34-63 and `/repo/coerce/src/actor/mod.rs` 465-512: every node that becomes available makes the coordinator
schedule a full rebalance in 500 ms, after cancelling the one scheduled before. One coordinator from its
start to its end; time is in milliseconds.
-/

namespace Verif.Sharding.Debounce

/-- the delay, `/repo/coerce/src/sharding/coordinator/mod.rs` 152. -/
def delay : Nat := 500

/-- the task of a `scheduled_notify` that has not ended, `/repo/coerce/src/actor/mod.rs` 498-508: when its
timer goes off, and whether its token has been cancelled. -/
structure Task where
  id : Nat
  due : Nat
  cancelled : Bool := false
deriving DecidableEq, Repr

/-- The coordinator with the tasks it has started. `scheduled`: the field of
`/repo/coerce/src/sharding/coordinator/mod.rs` 58, which keeps the handle also after its task has ended.
`queued`: the number of `Rebalance::All` in its mailbox (simplification: any number of other messages may
be handled before them, so their place in the mailbox is left out). `arrivals`, `sends`, `rebalances`: the
times at which a rebalance was scheduled, the message was sent by a task, and was handled.
(`/repo/coerce/src/sharding/coordinator/mod.rs` 52-61 and 145-154, `/repo/coerce/src/actor/mod.rs` 494-511.) -/
structure Sys where
  coord : Coord
  now : Nat := 0
  scheduled : Option Nat := none
  tasks : List Task := []
  next : Nat := 0
  queued : Nat := 0
  arrivals : List Nat := []
  sends : List Nat := []
  rebalances : List Nat := []
deriving DecidableEq, Repr

/-- `ScheduledNotify::cancel`, `/repo/coerce/src/actor/mod.rs` 484-486: nothing happens if the task has ended. -/
def cancel (i : Option Nat) (ts : List Task) : List Task :=
  ts.map fun t => if i = some t.id then { t with cancelled := true } else t

/-- `schedule_full_rebalance`, `/repo/coerce/src/sharding/coordinator/mod.rs` 145-154. -/
def Sys.schedule (s : Sys) : Sys :=
  { s with
      tasks := cancel s.scheduled s.tasks ++ [{ id := s.next, due := s.now + delay }]
      scheduled := some s.next
      next := s.next + 1
      arrivals := s.arrivals ++ [s.now] }

/-- the task ends, `/repo/coerce/src/actor/mod.rs` 503. -/
def Sys.drop (s : Sys) (i : Nat) : Sys := { s with tasks := s.tasks.filter fun t => t.id ≠ i }

/-- the task sends its message and ends, `/repo/coerce/src/actor/mod.rs` 504-506. -/
def Sys.send (s : Sys) (i : Nat) : Sys :=
  { s.drop i with queued := s.queued + 1, sends := s.sends ++ [s.now] }

/-- What can happen.
* `msg o`: a message other than `Rebalance::All` is handled (a `restart` or a `rebalanceAll` is none).
* `full`: a `Rebalance::All` of the mailbox is handled.
* `pass d`: time passes.
* `poll i pick`: the runtime polls task `i`; if both branches of the `select!` are ready it takes either
  (`pick`: the one of the timer).
(`/repo/coerce/src/sharding/coordinator/discovery.rs` 14-71, `/repo/coerce/src/sharding/coordinator/balancing.rs`
22-78, `/repo/coerce/src/actor/mod.rs` 502-507.) -/
inductive Op where
  | msg (o : CoordOp)
  | full
  | pass (d : Nat)
  | poll (i : Nat) (pick : Bool)
deriving DecidableEq, Repr

/-- a message is handled. Scheduling is the only output of `on_node_discovered`
(`/repo/coerce/src/sharding/coordinator/discovery.rs` 34-63). -/
def Sys.handle (s : Sys) : CoordOp → Sys
  | .restart _ _ | .rebalanceAll => s
  | .nodeAdded n =>
    let s' := { s with coord := s.coord.nodeAdded n }
    if s'.coord.out = s.coord.out then s' else s'.schedule
  | o => { s with coord := s.coord.next o }

/-- the `select!` of `/repo/coerce/src/actor/mod.rs` 502-507. -/
def Sys.poll (s : Sys) (i : Nat) (pick : Bool) : Sys :=
  match s.tasks.find? fun t => t.id = i with
  | none => s
  | some t =>
    if t.due ≤ s.now then
      if t.cancelled ∧ pick = false then s.drop i else s.send i
    else if t.cancelled then s.drop i
    else s

/-- one step: `/repo/coerce/src/sharding/coordinator/discovery.rs` 14-71,
`/repo/coerce/src/sharding/coordinator/balancing.rs` 22-78, `/repo/coerce/src/actor/mod.rs` 494-511. -/
def Sys.step (s : Sys) : Op → Sys
  | .msg o => s.handle o
  | .full =>
    if s.queued = 0 then s
    else { s with queued := s.queued - 1, coord := s.coord.rebalanceAll, rebalances := s.rebalances ++ [s.now] }
  | .pass d => { s with now := s.now + d }
  | .poll i pick => s.poll i pick

/-- any number of steps (`/repo/coerce/src/sharding/coordinator/mod.rs` 145-154, `/repo/coerce/src/actor/mod.rs`
494-511). -/
def Sys.run (s : Sys) (ops : List Op) : Sys := ops.foldl Sys.step s

end Verif.Sharding.Debounce
