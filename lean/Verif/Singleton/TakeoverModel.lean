import Verif.Singleton.ClusterModel

/-!
# Cluster singletons when nodes fail

The managers of a cluster, some of whose nodes have crashed. A crashed node does nothing more; messages to it are
never handled; messages it has sent are still under way. The others are told that it has gone: the node discovery
publishes `NodeRemoved` when it is made to forget a node, `/repo/coerce/src/remote/cluster/discovery/mod.rs`
172-200, and every manager has subscribed to that, `/repo/coerce/src/singleton/manager/mod.rs` 234-238.

Simplifications. When, and after which silence, a node is made to forget another one, and who is the leader then,
is a matter of the heartbeat (see `Verif.Remote`); here both are told at any time. A node does not come back.
-/

namespace Verif.Singleton

/-- the managers and the nodes that have crashed. (`/repo/coerce/src/singleton/manager/mod.rs` 25-38.) -/
structure Fo where
  cl : Cl := Cl.init
  down : List Nat := []

/-- what can happen: something on a node, node `d` is told that `n` has gone, node `d` crashes.
(`/repo/coerce/src/singleton/manager/mod.rs` 232-430; `NodeRemoved`,
`/repo/coerce/src/remote/cluster/discovery/mod.rs` 172-200.) -/
inductive FoOp where
  | cl (op : ClOp)
  | removed (d n : Nat)
  | crash (d : Nat)
deriving DecidableEq, Repr

/-- `NodeRemoved`: `/repo/coerce/src/singleton/manager/mod.rs` 370-383. -/
def Fo.next (nodes : List Nat) (child : Bool) (w : Fo) : FoOp → Fo
  | .cl op => if op.node ∈ w.down then w else { w with cl := w.cl.next nodes child op }
  | .removed d n =>
    if d ∈ nodes ∧ d ∉ w.down then { w with cl := w.cl.at d ((w.cl.mgr d).step (fun _ => true) (.nodeRemoved n)) } else w
  | .crash d => { w with down := d :: w.down }

/-- any number of steps (`/repo/coerce/src/singleton/manager/mod.rs` 232-430). -/
def Fo.run (nodes : List Nat) (child : Bool) (w : Fo) (ops : List FoOp) : Fo := ops.foldl (Fo.next nodes child) w

end Verif.Singleton
