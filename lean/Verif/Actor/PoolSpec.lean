import Verif.Actor.PoolModel

/-!
# C103: what is said of a worker pool
-/

namespace Verif.Actor.Pool

variable {R : Type}

/-- the tasks given to the pool. -/
def given : List Op → List Nat
  | [] => []
  | .dispatch t :: ops => t :: given ops
  | _ :: ops => given ops

/-- nothing stops or panics. -/
def Op.Calm : Op → Prop
  | .panic _ => False
  | .stopWorker _ => False
  | .stopPool => False
  | _ => True

/-- nothing is left to do. -/
def Quiet (res : Nat → Nat → R) (σ : St R) : Prop :=
  handle σ = σ ∧ (∀ i, send σ i = σ) ∧ ∀ w, work res σ w = σ

/-- the steps the pool takes by itself. -/
def Op.Own : Op → Prop
  | .handle => True
  | .send _ => True
  | .work _ => True
  | _ => False

/-- task `t` was the `j`-th given, counted from 0. -/
def Nth (ops : List Op) (j t : Nat) : Prop := (given ops)[j]? = some t

/-- one task from beginning to end, worked on by `w`, before anything else happens. -/
def turn (t w : Nat) : List Op := [.dispatch t, .handle, .send 0, .work w]

/-- a caller gives task after task to a pool of `n` workers and waits for the answer each time. -/
def turns (n : Nat) (ts : List Nat) : List Op := ts.zipIdx.flatMap fun p => turn p.1 (p.2 % n)

end Verif.Actor.Pool
