import Verif.Singleton.ClusterModel
import Verif.Singleton.ProxyModel

/-!
# Sending to a cluster singleton

The managers of a cluster together with the proxy of every node. `Singleton::send`
(`/repo/coerce/src/singleton/mod.rs` 88-98) puts a `Deliver` into the mailbox of the proxy of its node, and the
manager of the node puts `SingletonStarted` and `SingletonStopping` there
(`/repo/coerce/src/singleton/manager/start.rs` 52-54, `/repo/coerce/src/singleton/manager/mod.rs` 402-430); the proxy
handles its mailbox in order. A reference to the singleton is the number of the node it names: the id of the actor
is the same on every node, and what the reference reaches is the instance that runs there when the message
arrives, if one does (the last one started; the lease, C52, is there to let only one run).

Simplification. A message to another node arrives or fails at once; the network is the subject of other
models.
-/

namespace Verif.Singleton

/-- what a manager puts into the mailbox of the proxy of its node. (`/repo/coerce/src/singleton/manager/mod.rs`
202-222 and 402-430, `/repo/coerce/src/singleton/manager/start.rs` 34-69.) -/
def MOut.told? : MOut → Option POp
  | .proxyStarted node _ => some (.started node)
  | .proxyRemote node => some (.started node)
  | .proxyStopping => some .stopping
  | _ => none

/-- `mail`: the mailbox of each proxy. `got`: the messages sent on each node that reached an instance, with the node
and the number of the instance; `failed`: those whose sender got an error. (`/repo/coerce/src/singleton/proxy/mod.rs`
9-30, `/repo/coerce/src/singleton/mod.rs` 87-106.) -/
structure Svc where
  cl : Cl := Cl.init
  proxy : Nat → Proxy := fun _ => {}
  mail : Nat → List POp := fun _ => []
  got : Nat → List (Nat × Nat × Nat) := fun _ => []
  failed : Nat → List (Nat × Nat) := fun _ => []

/-- something happens to the managers; a message is sent on node `d`; the proxy of `d` handles the first message of
its mailbox; the `i`-th waiting task of the proxy of `d` runs. (`/repo/coerce/src/singleton/mod.rs` 87-106,
`/repo/coerce/src/singleton/proxy/mod.rs` 62-103, `/repo/coerce/src/singleton/proxy/send.rs` 22-77.) -/
inductive SvcOp where
  | cl (op : ClOp)
  | send (d : Nat) (m : PMsg)
  | handle (d : Nat)
  | task (d i : Nat)
deriving DecidableEq, Repr

/-- the value at `d` is changed (every node has its own proxy, `/repo/coerce/src/singleton/mod.rs` 53-84). -/
def setAt {α : Type} (f : Nat → α) (d : Nat) (x : α) : Nat → α := fun n => if n = d then x else f n

/-- what the proxy of the node is told when `op` happens. (`/repo/coerce/src/singleton/manager/mod.rs` 202-222 and
402-430, `/repo/coerce/src/singleton/manager/start.rs` 34-69.) -/
def Cl.tells (nodes : List Nat) (child : Bool) (w : Cl) (op : ClOp) : List POp :=
  if w.allows nodes op then
    ((w.mgr op.node).step (fun _ => true) (op.op nodes child)).2.filterMap MOut.told?
  else []

/-- a task sends its message, `/repo/coerce/src/singleton/proxy/send.rs` 29-34. -/
def Svc.arrive (w : Svc) (d r id : Nat) : Svc :=
  match (w.cl.mgr r).live.getLast? with
  | some a => { w with got := setAt w.got d (w.got d ++ [(r, a, id)]) }
  | none => { w with failed := setAt w.failed d (w.failed d ++ [(r, id)]) }

/-- one step (`/repo/coerce/src/singleton/mod.rs` 87-106, `/repo/coerce/src/singleton/proxy/mod.rs` 62-103,
`/repo/coerce/src/singleton/proxy/send.rs` 22-77). -/
def Svc.next (nodes : List Nat) (child : Bool) (w : Svc) : SvcOp → Svc
  | .cl op => { w with
      cl := w.cl.next nodes child op
      mail := setAt w.mail op.node (w.mail op.node ++ w.cl.tells nodes child op) }
  | .send d m => { w with mail := setAt w.mail d (w.mail d ++ [.deliver m]) }
  | .handle d => match w.mail d with
    | [] => w
    | x :: rest => { w with proxy := setAt w.proxy d ((w.proxy d).next x), mail := setAt w.mail d rest }
  | .task d i => match (w.proxy d).tasks[i]? with
    | none => w
    | some t => ({ w with proxy := setAt w.proxy d ((w.proxy d).next (.task i)) }).arrive d t.1 t.2

/-- any number of steps (`/repo/coerce/src/singleton/mod.rs` 87-106, `/repo/coerce/src/singleton/proxy/mod.rs`
62-103). -/
def Svc.run (nodes : List Nat) (child : Bool) (w : Svc) (ops : List SvcOp) : Svc := ops.foldl (Svc.next nodes child) w

end Verif.Singleton
