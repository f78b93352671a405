import Verif.Singleton.ManagerModel

/-! # One singleton manager: notions used in the statements -/

namespace Verif.Singleton

/-- the manager starts the singleton actor while it handles `op`. -/
def Mgr.launches (sel : Nat → Bool) (σ : Mgr) (op : MOp) : Bool := decide (σ.starts < (σ.next sel op).starts)

/-- how often it does so in a run. -/
def Mgr.launched (sel : Nat → Bool) : Mgr → List MOp → Nat
  | _, [] => 0
  | σ, op :: ops => (if σ.launches sel op then 1 else 0) + (σ.next sel op).launched sel ops

def MState.isStopping : MState → Bool
  | .stopping _ _ => true
  | _ => false

def MState.taking : MState → Bool
  | .starting _ => true
  | _ => false

/-- the nodes whose acknowledgements are handled. -/
def acks (ops : List MOp) : List Nat :=
  ops.filterMap fun op => match op with
    | .recv (.ack n) => some n
    | _ => none

/-- the operation leaves the manager's knowledge of the cluster as it is. -/
def MOp.sameMembers : MOp → Bool
  | .memberUp _ _ => false
  | .nodeAdded _ => false
  | .nodeRemoved _ => false
  | _ => true

/-- every acknowledgement comes from a manager that is known when it is handled. -/
def Mgr.KnownAcks (sel : Nat → Bool) : Mgr → List MOp → Prop
  | _, [] => True
  | σ, op :: ops => (∀ n, op = .recv (.ack n) → n ∈ σ.managers) ∧ (σ.next sel op).KnownAcks sel ops

/-- in the run, `n` has acknowledged, and ever since before that the manager has been taking over. -/
def Mgr.AckedSince (sel : Nat → Bool) (σ : Mgr) (ops : List MOp) (n : Nat) : Prop :=
  ∃ p q, ops = p ++ .recv (.ack n) :: q ∧ (σ.run sel p).st.taking = true ∧
    ∀ q1 q2, q = q1 ++ q2 → (σ.run sel (p ++ .recv (.ack n) :: q1)).st.taking = true

/-- the manager never stops its instance for another node. -/
def Mgr.Keeps (sel : Nat → Bool) : Mgr → List MOp → Prop
  | σ, [] => σ.st.isStopping = false
  | σ, op :: ops => σ.st.isStopping = false ∧ (σ.next sel op).Keeps sel ops

end Verif.Singleton
