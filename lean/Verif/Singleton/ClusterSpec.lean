import Verif.Singleton.ClusterModel

/-! # Cluster singletons: notions used in the statements -/

namespace Verif.Singleton

/-- instance `a` of the singleton runs on node `d`. -/
def Cl.Runs (w : Cl) (d a : Nat) : Prop := a ∈ (w.mgr d).live

/-- a manager that is already stopping its singleton for a node handles the request of another one. -/
def Cl.Early (w : Cl) : ClOp → Prop
  | .recv d (.request m) => (d, .request m) ∈ w.net ∧ (∃ a n, (w.mgr d).st = .stopping a n) ∧ ((w.mgr d).live ≠ [] ∨ (w.mgr d).ended ≠ [])
  | _ => False

/-- a node is told once more that it is up. -/
def Cl.Again (w : Cl) : ClOp → Prop
  | .memberUp d _ => ∀ p, (w.mgr d).st ≠ .joining p
  | _ => False

def Cl.Orderly (nodes : List Nat) (child : Bool) : Cl → List ClOp → Prop
  | _, [] => True
  | w, op :: ops => ¬ w.Early op ∧ ¬ w.Again op ∧ (w.next nodes child op).Orderly nodes child ops


/-- no node is told twice that it is up. -/
def Cl.UpOnce (nodes : List Nat) (child : Bool) : Cl → List ClOp → Prop
  | _, [] => True
  | w, op :: ops => ¬ w.Again op ∧ (w.next nodes child op).UpOnce nodes child ops

instance (w : Cl) (op : ClOp) : Decidable (w.Again op) := by
  unfold Cl.Again
  cases op with
  | memberUp d l =>
    simp only
    cases h : (w.mgr d).st with
    | joining p => exact .isFalse fun hp => hp p rfl
    | _ => exact .isTrue (by simp)
  | _ => exact .isFalse id

instance (w : Cl) (op : ClOp) : Decidable (w.Early op) := by
  unfold Cl.Early
  cases op with
  | recv d m =>
    cases m with
    | request m =>
      simp only
      cases h : (w.mgr d).st with
      | stopping a n =>
        if hb : (d, MMsg.request m) ∈ w.net ∧ ((w.mgr d).live ≠ [] ∨ (w.mgr d).ended ≠ []) then
          exact .isTrue ⟨hb.1, ⟨a, n, rfl⟩, hb.2⟩
        else exact .isFalse fun hp => hb ⟨hp.1, hp.2.2⟩
      | _ => exact .isFalse (by simp)
    | _ => exact .isFalse id
  | _ => exact .isFalse id

instance instDecidableOrderly (nodes : List Nat) (child : Bool) : (w : Cl) → (ops : List ClOp) → Decidable (w.Orderly nodes child ops)
  | _, [] => .isTrue trivial
  | w, op :: ops =>
    have := instDecidableOrderly nodes child (w.next nodes child op) ops
    inferInstanceAs (Decidable (¬ w.Early op ∧ ¬ w.Again op ∧ (w.next nodes child op).Orderly nodes child ops))

instance instDecidableUpOnce (nodes : List Nat) (child : Bool) : (w : Cl) → (ops : List ClOp) → Decidable (w.UpOnce nodes child ops)
  | _, [] => .isTrue trivial
  | w, op :: ops =>
    have := instDecidableUpOnce nodes child (w.next nodes child op) ops
    inferInstanceAs (Decidable (¬ w.Again op ∧ (w.next nodes child op).UpOnce nodes child ops))

end Verif.Singleton
