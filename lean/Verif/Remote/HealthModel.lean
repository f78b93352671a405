import Verif.Util

/-!
# Health checks of the node

`/repo/coerce/src/remote/heartbeat/health.rs`.
-/

namespace Verif.Remote

/-- an actor registered for health checks: its path and id. (`health_check_actors`,
`/repo/coerce/src/remote/heartbeat/health.rs` 65-66 and 132.) -/
structure HcActor where
  path : String
  id : String
deriving DecidableEq, Repr

/-- what asking an actor for its status comes to: `ActorStatus::Started` after a time (nanoseconds),
another status or an error, or no answer at all (an actor that is stuck in a handler). There is no
timeout on this question, `/repo/coerce/src/remote/heartbeat/health.rs` 63-65. -/
inductive Probe where
  | started (took : Nat)
  | failed
  | hangs
deriving DecidableEq, Repr

/-- `HealthStatus`, `/repo/coerce/src/remote/heartbeat/health.rs` 40-44. -/
inductive Health where
  | healthy
  | degraded
  | unhealthy
deriving DecidableEq, Repr

/-- `SLOW_ACTOR_DURATION`, `/repo/coerce/src/remote/heartbeat/health.rs` 50, in nanoseconds. -/
def slowActor : Nat := 1000000000

/-- the loop over the checks, `/repo/coerce/src/remote/heartbeat/health.rs` 75-87. -/
def checkLoop : List (Option Nat) → Bool → Bool × Bool
  | [], slow => (false, slow)
  | none :: _, slow => (true, slow)
  | some d :: cs, slow => checkLoop cs (slow || decide (slowActor < d))

/-- `join_all` of the questions, `/repo/coerce/src/remote/heartbeat/health.rs` 60-73: there is a result once every actor has answered. -/
def joinAll : List Probe → Option (List (Option Nat))
  | [] => some []
  | .started d :: ps => (joinAll ps).map (some d :: ·)
  | .failed :: ps => (joinAll ps).map (none :: ·)
  | .hangs :: _ => none

/-- `Handler<GetHealth>`, `/repo/coerce/src/remote/heartbeat/health.rs` 53-108: the status reported, or no reply. -/
def getHealth (actors : List HcActor) (probe : HcActor → Probe) : Option Health :=
  (joinAll (actors.map probe)).map fun checks =>
    let (errors, slow) := checkLoop checks false
    if errors then .unhealthy else if slow then .degraded else .healthy

/-- `Handler<RegisterHealthCheck>` `/repo/coerce/src/remote/heartbeat/health.rs` 111-123 and
`Handler<RemoveHealthCheck>` 125-134. -/
inductive HcOp where
  | register (a : HcActor)
  | remove (id : String)
deriving DecidableEq, Repr

/-- one of the two handlers, `/repo/coerce/src/remote/heartbeat/health.rs` 111-134. -/
def hcStep (actors : List HcActor) : HcOp → List HcActor
  | .register a => actors ++ [a]
  | .remove id => actors.filter fun a => a.id ≠ id

/-- any sequence of registrations and removals, `/repo/coerce/src/remote/heartbeat/health.rs` 111-134. -/
def hcRun (ops : List HcOp) : List HcActor := ops.foldl hcStep []

end Verif.Remote
