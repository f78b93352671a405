import Verif.Singleton.ServiceModel
import Verif.Singleton.FirstStartSpec

/-!
# Sending to a cluster singleton: notions used in the statements
-/

namespace Verif.Singleton

/-- what happened to the managers. -/
def clOps (ops : List SvcOp) : List ClOp := ops.filterMap fun
  | .cl op => some op
  | _ => none

/-- the messages sent on node `d`. -/
def sentAt (d : Nat) (ops : List SvcOp) : List Nat := ops.filterMap fun
  | .send e m => if e = d then some m.id else none
  | _ => none

/-- every message is sent with `send`, none with `notify`. -/
def AllAsked (ops : List SvcOp) : Prop := ∀ d m, SvcOp.send d m ∈ ops → m.channel = true

/-- messages in a mailbox. -/
def inMail (l : List POp) : List Nat := l.filterMap fun
  | .deliver m => some m.id
  | _ => none

/-- messages kept by a proxy. -/
def PState.kept : PState → List Nat
  | .buffered q => q.map (·.id)
  | _ => []

/-- where a message sent on `d` may be: in the mailbox, kept by the proxy, with a task, at an instance, or returned
with an error. -/
def Svc.places (w : Svc) (d : Nat) : List Nat :=
  inMail (w.mail d) ++ (w.proxy d).st.kept ++ (w.proxy d).tasks.map (·.2) ++ (w.got d).map (·.2.2) ++ (w.failed d).map (·.2)

/-- nothing is left to do: not for the managers, nor for the proxies and tasks of the nodes. -/
def Svc.Quiet (nodes : List Nat) (w : Svc) : Prop :=
  w.cl.Settled nodes ∧ ∀ d ∈ nodes, w.mail d = [] ∧ (w.proxy d).tasks = []

end Verif.Singleton
