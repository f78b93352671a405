import Verif.Singleton.ManagerModel

/-!
# The singleton managers of a cluster

One manager per node and the messages under way between them. Messages are handled in any order and at
any time; none is lost or repeated. Each node may be told of any leader at any time.

`child`: whether the singleton actor is a child of its manager, so that the manager's
`on_child_stopped` is called when it ends. In the code it is not: `start_actor`
(`/repo/coerce/src/singleton/manager/start.rs` 18-31) starts it with `into_actor`, as an actor without
parent. So the code is the case `child = false`; theorems are stated for both where they hold for both.
-/

namespace Verif.Singleton

/-- the managers of all nodes (`/repo/coerce/src/singleton/manager/mod.rs` 25-38) and the messages under way between
them. -/
structure Cl where
  mgr : Nat → Mgr
  net : List (Nat × MMsg) := []

/-- the messages sent. (`/repo/coerce/src/singleton/manager/mod.rs` 168-192.) -/
def MOut.msg? : MOut → Option (Nat × MMsg)
  | .send n m => some (n, m)
  | _ => none

/-- node `d` has manager `σ` (every node has its own, `/repo/coerce/src/singleton/manager/mod.rs` 25-38). -/
def Cl.setMgr (w : Cl) (d : Nat) (σ : Mgr) : Nat → Mgr := fun n => if n = d then σ else w.mgr n

/-- node `d` takes a step; what it sends is under way. (`/repo/coerce/src/singleton/manager/mod.rs` 168-192.) -/
def Cl.at (w : Cl) (d : Nat) (p : Mgr × List MOut) : Cl :=
  { mgr := w.setMgr d p.1, net := w.net ++ p.2.filterMap MOut.msg? }

/-- what can happen on node `d`. (`/repo/coerce/src/singleton/manager/mod.rs` 232-430,
`/repo/coerce/src/singleton/manager/lease.rs` 78-105, `/repo/coerce/src/singleton/manager/start.rs` 34-69.) -/
inductive ClOp where
  | memberUp (d leader : Nat)
  | leaderChanged (d n : Nat)
  | nodeAdded (d n : Nat)
  | recv (d : Nat) (m : MMsg)
  | boot (d : Nat)
  | startFails (d : Nat)
  | started (d a : Nat)
  | exits (d a : Nat)
  | childStopped (d a : Nat)
deriving DecidableEq, Repr

/-- the node on which it happens (`/repo/coerce/src/singleton/manager/mod.rs` 25-38). -/
def ClOp.node : ClOp → Nat
  | .memberUp d _ => d
  | .leaderChanged d _ => d
  | .nodeAdded d _ => d
  | .recv d _ => d
  | .boot d => d
  | .startFails d => d
  | .started d _ => d
  | .exits d _ => d
  | .childStopped d _ => d

/-- every node, when it is up, knows the members `nodes`. (`/repo/coerce/src/singleton/manager/mod.rs` 275-389.) -/
def ClOp.op (nodes : List Nat) (child : Bool) : ClOp → MOp
  | .memberUp _ l => .memberUp l nodes
  | .leaderChanged _ n => .leaderChanged n
  | .nodeAdded _ n => .nodeAdded n
  | .recv _ m => .recv m
  | .boot _ => .boot
  | .startFails _ => .startFails
  | .started _ a => .started a
  | .exits _ a => .exits a child
  | .childStopped _ a => .childStopped a

/-- the messages left when the operation takes its message. (`/repo/coerce/src/singleton/manager/mod.rs` 168-192.) -/
def Cl.rest (w : Cl) : ClOp → List (Nat × MMsg)
  | .recv d m => w.net.erase (d, m)
  | _ => w.net

/-- what the cluster allows: only its members do anything, a message handled is under way, and only members are
announced. (`/repo/coerce/src/singleton/manager/mod.rs` 275-389.) -/
def Cl.allows (nodes : List Nat) (w : Cl) : ClOp → Bool
  | .recv d m => nodes.contains d && w.net.contains (d, m)
  | .nodeAdded d n => nodes.contains d && nodes.contains n
  | op => nodes.contains op.node

/-- one of them (`/repo/coerce/src/singleton/manager/mod.rs` 232-430). -/
def Cl.next (nodes : List Nat) (child : Bool) (w : Cl) (op : ClOp) : Cl :=
  if w.allows nodes op then
    ({ w with net := w.rest op }).at op.node ((w.mgr op.node).step (fun _ => true) (op.op nodes child))
  else w

/-- any number of them (`/repo/coerce/src/singleton/manager/mod.rs` 232-430). -/
def Cl.run (nodes : List Nat) (child : Bool) (w : Cl) (ops : List ClOp) : Cl := ops.foldl (Cl.next nodes child) w

/-- no manager has been started (`/repo/coerce/src/singleton/manager/mod.rs` 41-63). -/
def Cl.init : Cl := { mgr := Mgr.init }

end Verif.Singleton
