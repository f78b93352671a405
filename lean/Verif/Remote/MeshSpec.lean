import Verif.Remote.MeshModel

/-!
# C104: what is said of a cluster
-/

namespace Verif.Remote.Peering

/-- node `x` has node `y` in its registry. -/
def Knows (ops : List Op) (x y : Nat) : Prop := y ∈ (run ops).known x

/-- nothing is under way and no task has anything left to do. -/
def Quiet (σ : St) : Prop := σ.told = [] ∧ σ.acks = [] ∧ ∀ b ∈ σ.batches, b.waits ≠ []

/-- no connection fails. -/
def Op.Plain : Op → Prop
  | .join _ _ _ ok => ∀ n, ok n = true
  | .handle _ ok => ∀ n, ok n = true
  | .lose _ => False
  | _ => True

/-- the steps the cluster takes by itself, connections not failing. -/
def Op.Own : Op → Prop
  | .handle _ ok => ∀ n, ok n = true
  | .finish _ => True
  | .ack _ => True
  | _ => False

/-- a step of the cluster itself, connections failing or not, that has something to do. -/
def Enabled (σ : St) : Op → Prop
  | .handle i _ => i < σ.told.length
  | .lose i => i < σ.told.length
  | .finish j => ∃ c, σ.batches[j]? = some ⟨c, []⟩
  | .ack k => k < σ.acks.length
  | _ => False

/-- steps of the cluster itself, one after the other. -/
def Goes (σ : St) : List Op → Prop
  | [] => True
  | o :: os => Enabled σ o ∧ Goes (σ.step o) os

/-- the nodes that joined each other: a node is given another, both of them running. -/
inductive Linked (ops : List Op) : Nat → Nat → Prop where
  | self {x : Nat} : .start x ∈ ops → Linked ops x x
  | join {pre post : List Op} {x y c : Nat} {ns : List Nat} {ok : Nat → Bool} :
      ops = pre ++ .join x ns c ok :: post → .start x ∈ pre → .start y ∈ pre → y ∈ ns → Linked ops x y
  | symm {x y : Nat} : Linked ops x y → Linked ops y x
  | trans {x y z : Nat} : Linked ops x y → Linked ops y z → Linked ops x z

/-- the callers that asked a running node. -/
def asked : List Nat → List Op → List Nat
  | _, [] => []
  | up, .start x :: ops => asked (x :: up) ops
  | up, .join x _ c _ :: ops => if x ∈ up then c :: asked up ops else asked up ops
  | up, _ :: ops => asked up ops

end Verif.Remote.Peering
