import Verif.Singleton.ClusterSpec

/-!
# The first start of a cluster singleton: notions used in the statements
-/

namespace Verif.Singleton

/-- Something is done: a node that was joining is told that it is up, a message under way is handled, a start
under way succeeds, or the result of a start is handled. -/
def Cl.Works (nodes : List Nat) (w : Cl) : ClOp → Prop
  | .memberUp d _ => d ∈ nodes ∧ ∃ p, (w.mgr d).st = .joining p
  | .recv d m => d ∈ nodes ∧ (d, m) ∈ w.net
  | .boot d => d ∈ nodes ∧ 0 < (w.mgr d).starts
  | .started d a => d ∈ nodes ∧ a ∈ (w.mgr d).results
  | _ => False

/-- The life of a new cluster in which `L` is the leader: whoever is told of a leader is told of `L`, no node is
told twice that it is up, and the start of the singleton does not fail. -/
def Cl.Founding (nodes : List Nat) (child : Bool) (L : Nat) : Cl → List ClOp → Prop
  | _, [] => True
  | w, op :: ops => (match op with
      | .memberUp _ l => l = L
      | .leaderChanged _ l => l = L
      | .startFails _ => False
      | _ => True) ∧ ¬ w.Again op ∧ (w.next nodes child op).Founding nodes child L ops

instance (nodes : List Nat) (w : Cl) (op : ClOp) : Decidable (w.Works nodes op) := by
  unfold Cl.Works
  cases op with
  | memberUp d l =>
    simp only
    cases h : (w.mgr d).st with
    | joining p =>
      exact if hd : d ∈ nodes then .isTrue ⟨hd, p, rfl⟩ else .isFalse fun hp => hd hp.1
    | _ => exact .isFalse (by simp)
  | recv d m => exact inferInstanceAs (Decidable (_ ∧ _))
  | boot d => exact inferInstanceAs (Decidable (_ ∧ _))
  | started d a => exact inferInstanceAs (Decidable (_ ∧ _))
  | _ => exact .isFalse id

/-- how many steps of a history do something. -/
def Cl.worked (nodes : List Nat) (child : Bool) : Cl → List ClOp → Nat
  | _, [] => 0
  | w, op :: ops => (if w.Works nodes op then 1 else 0) + (w.next nodes child op).worked nodes child ops

/-- nothing is left to do. -/
def Cl.Settled (nodes : List Nat) (w : Cl) : Prop := ∀ op, ¬ w.Works nodes op

end Verif.Singleton
