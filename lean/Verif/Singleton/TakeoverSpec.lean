import Verif.Singleton.TakeoverModel
import Verif.Singleton.FirstStartSpec

/-! # Cluster singletons when nodes fail: notions used in the statements -/

namespace Verif.Singleton

/-- instance `a` runs on node `d`, which has not crashed. -/
def Fo.Runs (w : Fo) (d a : Nat) : Prop := d ∉ w.down ∧ w.cl.Runs d a

/-- the nodes that have not crashed. -/
def Fo.alive (nodes : List Nat) (w : Fo) : List Nat := nodes.filter fun d => decide (d ∉ w.down)

/-- Node `K` has crashed and `B` is the leader now. Something is done on a node that has not crashed: it is told of
the crash, it is `B` and is told that it leads while it has nothing to do with the singleton, a message under way
is handled, a start under way succeeds, or the result of a start is handled. -/
def Fo.Works (nodes : List Nat) (K B : Nat) (w : Fo) : FoOp → Prop
  | .cl (.leaderChanged d l) => d ∉ w.down ∧ d ∈ nodes ∧ d = B ∧ l = B ∧ (w.cl.mgr d).st = .idle
  | .cl op => op.node ∉ w.down ∧ w.cl.Works nodes op
  | .removed d n => d ∉ w.down ∧ d ∈ nodes ∧ n = K ∧ K ∈ (w.cl.mgr d).managers
  | .crash _ => False

/-- One event of the time after the crash of `K`, with `B` the leader: no node crashes, joins or is told that it is
up; no other node than `B` is told that it leads; no start fails; every node is told once that `K` has gone, and is
not told that it has come back. -/
def Fo.Peaceful (K B : Nat) (w : Fo) : FoOp → Prop
  | .cl (.memberUp _ _) => False
  | .cl (.startFails _) => False
  | .cl (.leaderChanged d l) => l = d → d = B
  | .cl (.nodeAdded _ n) => n ∉ w.down
  | .cl _ => True
  | .removed d n => n = K ∧ K ∈ (w.cl.mgr d).managers
  | .crash _ => False

def Fo.Takeover (nodes : List Nat) (child : Bool) (K B : Nat) : Fo → List FoOp → Prop
  | _, [] => True
  | w, op :: ops => w.Peaceful K B op ∧ (w.next nodes child op).Takeover nodes child K B ops

instance (nodes : List Nat) (K B : Nat) (w : Fo) (op : FoOp) : Decidable (w.Works nodes K B op) := by
  unfold Fo.Works
  cases op with
  | cl op => cases op <;> exact inferInstanceAs (Decidable (_ ∧ _))
  | removed d n => exact inferInstanceAs (Decidable (_ ∧ _))
  | crash d => exact .isFalse id

instance (K B : Nat) (w : Fo) (op : FoOp) : Decidable (w.Peaceful K B op) := by
  unfold Fo.Peaceful
  cases op with
  | cl op =>
    cases op with
    | leaderChanged d l => exact inferInstanceAs (Decidable (l = d → d = B))
    | nodeAdded d n => exact inferInstanceAs (Decidable (n ∉ w.down))
    | memberUp _ _ => exact .isFalse id
    | startFails _ => exact .isFalse id
    | _ => exact .isTrue trivial
  | removed d n => exact inferInstanceAs (Decidable (_ ∧ _))
  | crash d => exact .isFalse id

/-- how many steps of a history do something. -/
def Fo.worked (nodes : List Nat) (child : Bool) (K B : Nat) : Fo → List FoOp → Nat
  | _, [] => 0
  | w, op :: ops => (if w.Works nodes K B op then 1 else 0) + (w.next nodes child op).worked nodes child K B ops

/-- nothing is left to do. -/
def Fo.Settled (nodes : List Nat) (K B : Nat) (w : Fo) : Prop := ∀ op, ¬ w.Works nodes K B op

/-- A cluster that has been led to completion, `L` being its leader in the end: it came up and started its
singleton; then any number of times a node crashed, the leader or another one, and the cluster was left in
peace, with one of the nodes left for its leader, until nothing was left to do. A leader that did not crash stays
the leader. -/
inductive Led (nodes : List Nat) (child : Bool) : Nat → List FoOp → Prop where
  | first {L : Nat} {pre : List ClOp} (hL : L ∈ nodes) (hf : Cl.init.Founding nodes child L pre)
      (hs : (Cl.init.run nodes child pre).Settled nodes) : Led nodes child L (pre.map .cl)
  | next {L K B : Nat} {ops post : List FoOp} (h : Led nodes child L ops)
      (hK : K ∈ (Fo.run nodes child {} ops).alive nodes) (hB : B ∈ (Fo.run nodes child {} (ops ++ [.crash K])).alive nodes)
      (hL : K ≠ L → B = L) (hp : (Fo.run nodes child {} (ops ++ [.crash K])).Takeover nodes child K B post)
      (hs : (Fo.run nodes child {} (ops ++ .crash K :: post)).Settled nodes K B) : Led nodes child B (ops ++ .crash K :: post)

end Verif.Singleton
