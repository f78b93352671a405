import Verif.Remote.LookupModel

/-!
# C105: what is said of lookups
-/

namespace Verif.Remote.Lookup

/-- every node knows every other under the same details, no two of them with the same hash, and the first node a node registers is
itself. -/
structure Consistent (h : RNode → Nat) (D : Nat → RNode) (ops : List Op) : Prop where
  id : ∀ m, (D m).id = m
  clash : ∀ m m', h (D m) = h (D m') → m = m'
  same : ∀ x n, .learn x n ∈ ops → n = D n.id
  self : ∀ pre x n post, ops = pre ++ .learn x n :: post → n.id = x ∨ .learn x (D x) ∈ pre

/-- a step that the questions under way can take, those who ask giving up or not. -/
def Enabled (σ : St) : Op → Prop
  | .look i => ∃ a x p c, σ.chains[i]? = some ⟨a, x :: p, .asking, c⟩
  | .back i => ∃ a x p r c, σ.chains[i]? = some ⟨a, x :: p, .back r, c⟩
  | .giveUp i k => ∃ a p f c, σ.chains[i]? = some ⟨a, p, f, c⟩ ∧ 0 < k ∧ k < p.length
  | .lost i => ∃ a x y p f c, σ.chains[i]? = some ⟨a, x :: y :: p, f, c⟩
  | _ => False

def Goes (h : RNode → Nat) (key : Nat → Nat) (σ : St) : List Op → Prop
  | [] => True
  | o :: os => Enabled σ o ∧ Goes h key (σ.step h key o) os

/-- those who asked. -/
def asked (ops : List Op) : List Nat := ops.filterMap fun | .ask _ _ c => some c | _ => none

/-- nobody gives up and nothing is lost. -/
def Op.Calm : Op → Prop
  | .drop _ => False
  | .giveUp _ _ => False
  | .lost _ => False
  | _ => True

/-- no node registers another. -/
def Op.Settled : Op → Prop
  | .learn _ _ => False
  | _ => True

end Verif.Remote.Lookup
