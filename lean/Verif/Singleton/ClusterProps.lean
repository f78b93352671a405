import Verif.Singleton.ClusterRun

/-!
# C52: at most one instance of a cluster singleton

Full statement: at no time do two instances of the singleton run, on one node or on two, whatever the
order of leader changes, lease messages, starts and stops, provided all nodes know each other and
messages are delivered. The code violates it with three nodes. What is proved instead: it holds in every
run in which no manager that is still stopping its instance for one node handles the request of another
one, and no node is told twice that it is up; with at most two nodes the first condition always holds.
-/

namespace Verif.Singleton

/-- **C52, partial.** Any number of nodes. Missing: managers asked by a second node while they stop their
instance for a first one (`Cl.Early`). -/
theorem C52_at_most_one_instance_partial (nodes : List Nat) (child : Bool) (ops : List ClOp)
    (ho : Cl.init.Orderly nodes child ops) (d d' a a' : Nat)
    (h : (Cl.init.run nodes child ops).Runs d a) (h' : (Cl.init.run nodes child ops).Runs d' a') : d = d' ∧ a = a' := by
  have hi := (Inv.init nodes).run child ops ho
  have hal := (Inv.init nodes).aloneRun (fun X Y hX => by simp [Cl.init, Mgr.init, Mgr.busy] at hX) child ops ho
  have hd : d = d' := hal d d' (.inl (List.ne_nil_of_mem h)) (.inl (List.ne_nil_of_mem h'))
  subst hd
  refine ⟨rfl, ?_⟩
  have h1 := hi.k1 d
  unfold Cl.Runs at h h'
  match hl : ((Cl.init.run nodes child ops).mgr d).live with
  | [] => rw [hl] at h; simp at h
  | [x] =>
    rw [hl] at h h'
    simp only [List.mem_singleton] at h h'
    rw [h, h']
  | x :: y :: l => rw [hl] at h1; simp only [List.length_cons] at h1; omega

/-- the leader starts the singleton; the leader changes, the old leader's instance ends, the new leader
starts it. -/
def handover : List ClOp :=
  [.memberUp 0 0, .memberUp 1 0, .memberUp 2 0, .recv 1 (.request 0), .recv 2 (.request 0), .recv 0 (.ack 1),
    .recv 0 (.ack 2), .boot 0, .started 0 0, .leaderChanged 2 2, .recv 0 (.request 2), .recv 1 (.request 2),
    .recv 2 (.ack 1), .exits 0 0, .childStopped 0 0, .recv 2 (.ack 0), .boot 2, .started 2 0]

example : Cl.init.Orderly [0, 1, 2] true handover := by decide
example : (Cl.init.run [0, 1, 2] true handover).Runs 2 0 := by unfold Cl.Runs; decide
example : ¬ (Cl.init.run [0, 1, 2] true handover).Runs 0 0 := by unfold Cl.Runs; decide

/-- **C52, for at most two nodes.** Every run in which no node is told twice that it is up. -/
theorem C52_two_nodes (nodes : List Nat) (h2 : nodes.length ≤ 2) (child : Bool) (ops : List ClOp)
    (ho : Cl.init.UpOnce nodes child ops) (d d' a a' : Nat)
    (h : (Cl.init.run nodes child ops).Runs d a) (h' : (Cl.init.run nodes child ops).Runs d' a') : d = d' ∧ a = a' :=
  C52_at_most_one_instance_partial nodes child ops ((Inv.init nodes).orderly h2 child ops ho) d d' a a' h h'

/-- the leader starts the singleton, its instance fails to end, the other node is made leader. -/
def twoNodes : List ClOp :=
  [.memberUp 0 0, .memberUp 1 0, .recv 1 (.request 0), .recv 0 (.ack 1), .boot 0, .started 0 0, .leaderChanged 1 1,
    .recv 0 (.request 1), .leaderChanged 0 0, .recv 1 (.request 0)]

example : Cl.init.UpOnce [0, 1] false twoNodes := by decide
example : (Cl.init.run [0, 1] false twoNodes).Runs 0 0 := by unfold Cl.Runs; decide

/-- node 0 runs the singleton; node 2 becomes leader, then node 1; node 0 is asked by node 1 first and
begins to stop, and then grants the request of node 2 at once. -/
def threeNodes : List ClOp :=
  [.memberUp 0 0, .memberUp 1 0, .memberUp 2 0, .recv 1 (.request 0), .recv 2 (.request 0), .recv 0 (.ack 1),
    .recv 0 (.ack 2), .boot 0, .started 0 0, .leaderChanged 2 2, .recv 1 (.request 2), .recv 2 (.ack 1),
    .leaderChanged 1 1, .recv 0 (.request 1), .recv 0 (.request 2), .recv 2 (.ack 0), .boot 2]

/-- **C52 fails with three nodes**: two nodes run an instance, though every node was told once that it is
up. Both if the singleton is a child of its manager and if, as in the code, it is not. -/
theorem C52_at_most_one_instance_refuted :
    ∀ child, Cl.init.UpOnce [0, 1, 2] child threeNodes ∧
      (Cl.init.run [0, 1, 2] child threeNodes).Runs 0 0 ∧ (Cl.init.run [0, 1, 2] child threeNodes).Runs 2 0 := by
  unfold Cl.Runs
  decide

/-- a node is told again that it is up. -/
def upTwice : List ClOp := [.memberUp 0 0, .boot 0, .started 0 0, .memberUp 0 0, .boot 0]

/-- **C52 fails for one node** that is told twice that it is up: it starts a second instance. -/
theorem C52_up_twice_refuted :
    ∀ child, (Cl.init.run [0] child upTwice).Runs 0 0 ∧ (Cl.init.run [0] child upTwice).Runs 0 1 := by
  unfold Cl.Runs
  decide

/-!
# C54: the lease is never handed over

The statement asks that a new leader eventually starts the singleton. The code starts the singleton as
an actor without parent, so its manager is never told that it has ended (`child = false`), and the node
that waits for the lease waits for ever.
-/

/-- **C54 fails in every run**: as soon as a manager stops its instance because `B` asked for the lease,
no instance is ever started on `B` again, whatever happens next (`fresh` counts the instances started).
-/
theorem C54_never_handed_over (nodes : List Nat) (ops more : List ClOp) (A B a : Nat)
    (ho : Cl.init.Orderly nodes false ops)
    (hs : ((Cl.init.run nodes false ops).mgr A).st = .stopping a B)
    (hm : (Cl.init.run nodes false ops).Orderly nodes false more) :
    (((Cl.init.run nodes false ops).run nodes false more).mgr B).fresh = ((Cl.init.run nodes false ops).mgr B).fresh := by
  have hi := (Inv.init nodes).run false ops ho
  have hst := hi.stuck hs (ended_nil ops (fun d => rfl) A)
  obtain ⟨hA, hB, hne⟩ := hi.held A B (by rw [hs]; simp [MState.holds])
  exact (hst.run hi hA hB (Ne.symm hne) more hm).2

/-- a run to the point at which the old leader stops its instance. -/
def handoverBegun : List ClOp :=
  [.memberUp 0 0, .memberUp 1 0, .recv 1 (.request 0), .recv 0 (.ack 1), .boot 0, .started 0 0, .leaderChanged 1 1,
    .recv 0 (.request 1), .exits 0 0]

example : Cl.init.Orderly [0, 1] false handoverBegun ∧
    ((Cl.init.run [0, 1] false handoverBegun).mgr 0).st = .stopping 0 1 := by decide

/-- **C54 fails**: there is a run of two nodes after which node 1 never starts the singleton, though it
is the leader and knows it. -/
theorem C54_new_leader_starts_refuted :
    ∃ ops, Cl.init.Orderly [0, 1] false ops ∧ .leaderChanged 1 1 ∈ ops ∧
      ∀ more, (Cl.init.run [0, 1] false ops).Orderly [0, 1] false more →
        (((Cl.init.run [0, 1] false ops).run [0, 1] false more).mgr 1).fresh = 0 := by
  refine ⟨handoverBegun, by decide, by decide, fun more hm => ?_⟩
  rw [C54_never_handed_over [0, 1] handoverBegun more 0 1 0 (by decide) (by decide) hm]
  decide

end Verif.Singleton
