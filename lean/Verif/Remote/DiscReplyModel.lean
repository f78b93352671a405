import Verif.Remote.DiscoveryModel

/-!
# Node discovery with its completion replies

`/repo/coerce/src/remote/cluster/discovery/mod.rs`: the model of `Verif.Remote.DiscoveryModel` together with the
`on_discovery_complete` senders. Senders are numbers. `identify` is assumed to return (see C73 for when it does not).
-/

namespace Verif.Remote

/-- what can be observed, in order; each handshake is labelled with the sender of the request it belongs to.
(`/repo/coerce/src/remote/cluster/discovery/mod.rs` 55-169.) -/
inductive REvent where
  | started (w : Option Nat) (node : Nat)
  | ended (w : Option Nat) (node : Nat) (ok : Bool)
  | replied (w : Nat) (found : Bool)
deriving DecidableEq, Repr

/-- `NodeDiscovery` with the senders it holds. (`/repo/coerce/src/remote/cluster/discovery/mod.rs` 19-24; a sender:
`on_discovery_complete`, 30.) -/
structure DiscW where
  base : Disc := {}
  /-- the senders in the `Discover` messages of `base.queue`, `/repo/coerce/src/remote/cluster/discovery/mod.rs` 94-99. -/
  queueW : List (Option Nat) := []
  /-- number of the next task. -/
  next : Nat := 0
  /-- for each handshake of `base.shakes`: the task that waits for it, and its sender. -/
  shakeOf : List (Nat × Option Nat) := []
  /-- the tasks spawned at 154-165 that have not finished. -/
  tasks : List (Nat × Option Nat) := []
  log : List REvent := []
deriving Repr

/-- sending through an optional sender, e.g. `/repo/coerce/src/remote/cluster/discovery/mod.rs` 65-67. -/
def reply (w : Option Nat) (b : Bool) : List REvent := (w.map fun w => REvent.replied w b).toList

/-- `Handler<Discover>` with an address, `/repo/coerce/src/remote/cluster/discovery/mod.rs` 61-110. -/
def DiscW.discoverAddr (env : DEnv) (self : Nat) (σ : DiscW) (addr : String) (w : Option Nat) : DiscW :=
  let base := σ.base.discoverAddr env self addr
  match σ.base.byAddr.get addr with
  | some _ => { σ with base, log := σ.log ++ reply w true }
  | none => match (σ.base.getIdentity env addr).2 with
    | none => { σ with base, log := σ.log ++ reply w false }
    | some _ => { σ with base, queueW := σ.queueW ++ [w] }

/-- `Handler<Discover>` with nodes, `/repo/coerce/src/remote/cluster/discovery/mod.rs` 112-166: the handshakes begun are
those added to the list; a task waits for all of them. -/
def DiscW.discoverNodes (env : DEnv) (σ : DiscW) (ns : List DNode) (w : Option Nat) : DiscW :=
  let base := σ.base.discoverNodes env ns
  let new := base.shakes.drop σ.base.shakes.length
  { σ with base
           next := σ.next + 1
           shakeOf := σ.shakeOf ++ new.map fun _ => (σ.next, w)
           tasks := σ.tasks ++ [(σ.next, w)]
           log := σ.log ++ new.map fun n => .started w n.id }

/-- `finish i`: the `i`-th task has seen all its handshakes end (`join_all`), replies and ends,
`/repo/coerce/src/remote/cluster/discovery/mod.rs` 155-164. The handling of `NodeDiscovered` is
put together with the end of the handshake, as in `Disc.step`; in the code a reply can come before it. -/
inductive RwOp where
  | discover (env : DEnv) (addr : String) (w : Option Nat)
  | next (env : DEnv)
  | nodes (env : DEnv) (ns : List DNode) (w : Option Nat)
  | shaken (i : Nat) (ok : Bool)
  | finish (i : Nat)
  | forget (addr : String)
  | status (id : Nat) (terminated : Bool)

/-- one message handled or one spawned task finished, `/repo/coerce/src/remote/cluster/discovery/mod.rs` 55-234. -/
def DiscW.step (self : Nat) (σ : DiscW) : RwOp → DiscW
  | .discover env addr w => σ.discoverAddr env self addr w
  | .next env => match σ.base.queue, σ.queueW with
    | ns :: q, w :: ws => DiscW.discoverNodes env { σ with base := { σ.base with queue := q }, queueW := ws } ns w
    | _, _ => σ
  | .nodes env ns w => σ.discoverNodes env ns w
  | .shaken i ok => match σ.base.shakes[i]?, σ.shakeOf[i]? with
    | some n, some (_, w) =>
      { σ with base := σ.base.step self (.shaken i ok), shakeOf := σ.shakeOf.eraseIdx i
               log := σ.log ++ [.ended w n.id ok] }
    | _, _ => σ
  | .finish i => match σ.tasks[i]? with
    | some (t, w) =>
      if σ.shakeOf.any (fun s => s.1 == t) then σ
      else { σ with tasks := σ.tasks.eraseIdx i, log := σ.log ++ reply w true }
    | none => σ
  | .forget addr => { σ with base := σ.base.step self (.forget addr) }
  | .status id t => { σ with base := σ.base.step self (.status id t) }

/-- any sequence of them, `/repo/coerce/src/remote/cluster/discovery/mod.rs` 55-234. -/
def DiscW.run (self : Nat) (σ : DiscW) (ops : List RwOp) : DiscW := ops.foldl (DiscW.step self) σ

end Verif.Remote
