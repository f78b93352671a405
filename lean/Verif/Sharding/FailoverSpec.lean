import Verif.Sharding.SystemProps
import Verif.Sharding.FailoverModel

/-!
# What is said about shards when coordinators end and nodes crash

The words in which C97 is stated, see `FailoverProps`.
-/

namespace Verif.Sharding

variable {R : Type}

/-- what the code leaves to chance for shard `s`, see the head of `FailoverProps`. -/
def FSys.Orderly (w : FSys R) (s : Nat) : FOp R → Prop
  | .sys (.coord op) =>
    (∀ n, w.coord.shards.get s = some n → op = .nodeUnavailable n ∨ op = .nodeRemoved n → w.Quiet s) ∧
      (w.coord.shards.get s ≠ none → (w.coord.next op).shards.get s = none → ∀ d n, (d, HMsg.allocated s n) ∉ w.net)
  | .sys (.ask _ s' _) => s' = s → w.coord.shards.get s ≠ none ∨ w.Quiet s
  | .failover self nodes order =>
    (w.failover self nodes order).coord.shards.get s = w.coord.shards.get s ∨ w.Quiet s
  | _ => True

/-- every step of a run is orderly. -/
def FSys.OrderlyRun (f : R → Nat) (s : Nat) : FSys R → List (FOp R) → Prop
  | _, [] => True
  | w, op :: ops => w.Orderly s op ∧ (w.next f op).OrderlyRun f s ops

/-- the step leaves shard `s` on node `n`: no rebalance takes it, the node is not given up, and no further coordinator is
started. -/
def FSys.Stays (w : FSys R) (s n : Nat) : FOp R → Prop
  | .failover _ _ _ => False
  | .sys (.coord op) =>
    op ≠ .nodeUnavailable n ∧ op ≠ .nodeRemoved n ∧ (w.coord.next op).shards.get s = some n
  | _ => True

def FSys.StaysRun (f : R → Nat) (s n : Nat) : FSys R → List (FOp R) → Prop
  | _, [] => True
  | w, op :: ops => w.Stays s n op ∧ (w.next f op).StaysRun f s n ops

/-- shard `s` is at rest: no announcement of it and no request to stop it is under way, and no instance of it is
starting. -/
def FSys.Rests (w : FSys R) (s : Nat) : Prop :=
  (∀ d n, (d, HMsg.allocated s n) ∉ w.net) ∧ (∀ d o, (d, HMsg.stop s o) ∉ w.net) ∧ ∀ d a, (s, a) ∉ (w.host d).booting

/-- all announcements of `s` have been handled, and what was told to stop has stopped. -/
def FSys.Done (w : FSys R) (s : Nat) : Prop :=
  (∀ d n, (d, HMsg.allocated s n) ∉ w.net) ∧ (∀ d a, (s, a) ∉ (w.host d).closing) ∧
    ∀ d, ∀ t ∈ (w.host d).stops, t.s ≠ s

/-- the nodes that run `s` are known to the new coordinator, and healthy. -/
def FSys.Reached (w : FSys R) (s self : Nat) (nodes : List (Nat × Bool)) : Prop :=
  ∀ d a, w.Runs s d a → d = self ∨ (d, true) ∈ nodes ∧ (d, false) ∉ nodes

/-- the handling of a message by a host, or something on a node by itself. -/
def FOp.Inner : FOp R → Prop
  | .sys (.deliver _ _) => True
  | .sys (.host _ _) => True
  | _ => False

end Verif.Sharding
