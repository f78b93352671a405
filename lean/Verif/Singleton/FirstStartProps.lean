import Verif.Singleton.FirstStartRun

/-!
# C107: the leader of a new cluster comes to run its singleton

Full statement: when the nodes of a cluster come up and agree on a leader, the leader starts the singleton, once
every node is up, and goes on to run it, whatever the order of events. Proved for every history in which the
start itself does not fail. The code does not try again after a start that failed, and never gives up its
claim either, so that no node ever runs the singleton.
-/

namespace Verif.Singleton

variable (nodes : List Nat) (L : Nat) (child : Bool) (ops : List ClOp)

/-- **C107 (it ends, if the start does not fail).** However the events are ordered, a new cluster of `n` nodes
takes at most `4n - 1` steps that do anything (each node is told that it is up; every other node is asked,
answers and is told of the start; the instance starts and its manager learns so), and nothing is left to do
exactly when `4n - 1` have been taken. -/
theorem C107_steps_partial (hn : nodes.Nodup) (hL : L ∈ nodes) (hf : Cl.init.Founding nodes child L ops) :
    Cl.init.worked nodes child ops + 1 ≤ 4 * nodes.length ∧
    ((Cl.init.run nodes child ops).Settled nodes ↔ Cl.init.worked nodes child ops + 1 = 4 * nodes.length) := by
  obtain ⟨h0, h1⟩ := Solo.init (nodes := nodes) hn hL
  obtain ⟨h2, h3⟩ := h0.run hn hL child ops hf
  rw [h2.done hL]
  omega

/-- **C107 (one at a time, and only when all are up).** At every moment: whatever instance runs is the first one
of the leader, and then every node has been told that it is up. -/
theorem C107_only_leader_partial (hn : nodes.Nodup) (hL : L ∈ nodes) (hf : Cl.init.Founding nodes child L ops) (d a : Nat)
    (hr : (Cl.init.run nodes child ops).Runs d a) :
    d = L ∧ a = 0 ∧ ∀ X ∈ nodes, ∀ p, ((Cl.init.run nodes child ops).mgr X).st ≠ .joining p := by
  obtain ⟨h0, _⟩ := Solo.init (nodes := nodes) hn hL
  obtain ⟨h2, _⟩ := h0.run hn hL child ops hf
  have hlt := live_lt (nodes := nodes) (w := Cl.init) child ops d (by simp [Cl.init, Mgr.init]) a hr
  generalize Cl.init.run nodes child ops = w at *
  by_cases e : d = L
  · subst e
    rcases h2.lead with ⟨a', b, c, e⟩ | ⟨l, a', al, b, c, e⟩ | ⟨l, a', al, b, c, e⟩ | ⟨l, a', al, b, c, e⟩ | ⟨a', b, c, e⟩
    · omega
    · omega
    · omega
    · exact ⟨rfl, by omega, h2.allUp hL a' al⟩
    · exact ⟨rfl, by omega, h2.up a'⟩
  · have := (h2.oth d e).fresh
    omega

/-- **C107 (it ends well).** When nothing is left to do, the leader's manager has the singleton running; and if
no instance has ended, one instance runs on the leader and none elsewhere. -/
theorem C107_runs_partial (hn : nodes.Nodup) (hL : L ∈ nodes) (hf : Cl.init.Founding nodes child L ops)
    (hs : (Cl.init.run nodes child ops).Settled nodes) :
    ((Cl.init.run nodes child ops).mgr L).st = .running 0 ∧
    ((∀ a, .exits L a ∉ ops) → ∀ d a, (Cl.init.run nodes child ops).Runs d a ↔ d = L ∧ a = 0) := by
  have hone := fun d a => C107_only_leader_partial nodes L child ops hn hL hf d a
  obtain ⟨h0, _⟩ := Solo.init (nodes := nodes) hn hL
  obtain ⟨h2, _⟩ := h0.run hn hL child ops hf
  have hl := live_range (nodes := nodes) (w := Cl.init) child ops L
  rw [h2.done hL] at hs
  have hrun : ((Cl.init.run nodes child ops).mgr L).st = .running 0 ∧ ((Cl.init.run nodes child ops).mgr L).fresh = 1 := by
    generalize Cl.init.run nodes child ops = w at *
    have hp : 0 < nodes.length := List.length_pos_of_mem hL
    unfold Cl.left at hs
    have hl : (w.mgr L).leadLeft nodes.length = 0 := by omega
    unfold Mgr.leadLeft at hl
    rcases h2.lead with ⟨a, b, c, e⟩ | ⟨l, a, al, b, c, e⟩ | ⟨l, a, al, b, c, e⟩ | ⟨l, a, al, b, c, e⟩ | ⟨a, b, c, e⟩
    · rw [a] at hl; simp only at hl; omega
    · rw [a, c] at hl; simp at hl
    · rw [a, c] at hl; simp at hl
    · rw [a, c] at hl; simp at hl; rw [hl] at hp; simp at hp
    · exact ⟨a, e⟩
  refine ⟨hrun.1, fun hx d a => ⟨fun h => ⟨(hone d a h).1, (hone d a h).2.1⟩, ?_⟩⟩
  rintro ⟨rfl, rfl⟩
  unfold Cl.Runs
  rw [hl hx rfl, hrun.2]
  simp

/-- **C107 (it can always go on).** From every moment of every such history, events that still have to happen
lead on to the moment at which nothing is left to do; no instance ends meanwhile. -/
theorem C107_reachable_partial (hn : nodes.Nodup) (hL : L ∈ nodes) (hf : Cl.init.Founding nodes child L ops) :
    ∃ more, Cl.init.Founding nodes child L (ops ++ more) ∧ (Cl.init.run nodes child (ops ++ more)).Settled nodes ∧
      ∀ d a, .exits d a ∉ more := by
  have key : ∀ k (w : Cl), Solo nodes L w → w.left nodes L ≤ k →
      ∃ more, w.Founding nodes child L more ∧ (w.run nodes child more).Settled nodes ∧ ∀ d a, .exits d a ∉ more := by
    intro k
    induction k with
    | zero => intro w h h0; exact ⟨[], trivial, (h.done hL).2 (by omega), by simp⟩
    | succ k ih =>
      intro w h hk
      by_cases hs : w.Settled nodes
      · exact ⟨[], trivial, hs, by simp⟩
      · obtain ⟨op, hw⟩ : ∃ op, w.Works nodes op := Classical.byContradiction fun hx => hs fun op hw => hx ⟨op, hw⟩
        have go : ∀ op, w.Works nodes op → (match op with
            | .memberUp _ l => l = L
            | .leaderChanged _ l => l = L
            | .startFails _ => False
            | _ => True) → ¬ w.Again op → ∃ more, w.Founding nodes child L more ∧ (w.run nodes child more).Settled nodes ∧
              ∀ d a, .exits d a ∉ more := by
          intro op hw hf ha
          obtain ⟨h1, h2⟩ := h.next hn hL child op hf ha
          rw [if_pos hw] at h2
          obtain ⟨more, h3, h4, h5⟩ := ih _ h1 (by omega)
          refine ⟨op :: more, ⟨hf, ha, h3⟩, h4, fun d a hx => ?_⟩
          rcases List.mem_cons.1 hx with rfl | hx
          · exact hw
          · exact h5 d a hx
        cases op with
        | memberUp d l =>
          obtain ⟨hd, p, hp⟩ := hw
          exact go (.memberUp d L) ⟨hd, p, hp⟩ rfl fun ha => ha p hp
        | recv d m => exact go (.recv d m) hw trivial id
        | boot d => exact go (.boot d) hw trivial id
        | started d a => exact go (.started d a) hw trivial id
        | _ => exact hw.elim
  obtain ⟨h0, h0'⟩ := Solo.init (nodes := nodes) hn hL
  obtain ⟨h2, h2'⟩ := h0.run hn hL child ops hf
  obtain ⟨more, h3, h4, h5⟩ := key _ _ h2 (Nat.le_refl _)
  refine ⟨more, ?_, ?_, h5⟩
  · clear h0 h0' h2 h2' h4 h5 key
    generalize Cl.init = w at *
    induction ops generalizing w with
    | nil => exact h3
    | cons op ops ih => exact ⟨hf.1, hf.2.1, ih _ hf.2.2 h3⟩
  · rw [show Cl.init.run nodes child (ops ++ more) = (Cl.init.run nodes child ops).run nodes child more by simp [Cl.run]]
    exact h4

/-- three nodes come up in a different order each, the second is the leader. -/
def founding : List ClOp :=
  [.memberUp 1 1, .nodeAdded 0 2, .recv 0 (.request 1), .memberUp 2 1, .leaderChanged 1 1, .recv 2 (.request 1), .memberUp 0 1,
    .recv 1 (.ack 0), .recv 1 (.ack 2), .boot 1, .leaderChanged 0 1, .started 1 0, .recv 0 (.started 1), .recv 2 (.started 1)]

instance instDecidableFounding (nodes : List Nat) (child : Bool) (L : Nat) :
    (w : Cl) → (ops : List ClOp) → Decidable (w.Founding nodes child L ops)
  | _, [] => .isTrue trivial
  | w, op :: ops =>
    have := instDecidableFounding nodes child L (w.next nodes child op) ops
    match op with
    | .memberUp d l => inferInstanceAs (Decidable (l = L ∧ ¬ w.Again (.memberUp d l) ∧ _))
    | .leaderChanged d l => inferInstanceAs (Decidable (l = L ∧ ¬ w.Again (.leaderChanged d l) ∧ _))
    | .startFails _ => .isFalse fun h => h.1
    | .nodeAdded d n => inferInstanceAs (Decidable (True ∧ ¬ w.Again (.nodeAdded d n) ∧ _))
    | .recv d m => inferInstanceAs (Decidable (True ∧ ¬ w.Again (.recv d m) ∧ _))
    | .boot d => inferInstanceAs (Decidable (True ∧ ¬ w.Again (.boot d) ∧ _))
    | .started d a => inferInstanceAs (Decidable (True ∧ ¬ w.Again (.started d a) ∧ _))
    | .exits d a => inferInstanceAs (Decidable (True ∧ ¬ w.Again (.exits d a) ∧ _))
    | .childStopped d a => inferInstanceAs (Decidable (True ∧ ¬ w.Again (.childStopped d a) ∧ _))

example : Cl.init.Founding [0, 1, 2] false 1 founding ∧ Cl.init.worked [0, 1, 2] false founding = 11 ∧
    ((Cl.init.run [0, 1, 2] false founding).mgr 1).live = [0] := by decide

/-- **C107 refuted (a failed start).** After the start of the singleton has failed, no instance is ever started
again on any node of the cluster, whatever happens next and whoever becomes the leader: the manager that failed
stays as it is, does not try again, and gives its lease to no other. -/
theorem C107_failed_start_refuted (hL : L ∈ nodes) (ho : Cl.init.Orderly nodes child ops)
    (hs : 0 < ((Cl.init.run nodes child ops).mgr L).starts) (more : List ClOp)
    (hm : (Cl.init.run nodes child (ops ++ [.startFails L])).Orderly nodes child more) (d : Nat) :
    ((Cl.init.run nodes child (ops ++ [.startFails L] ++ more)).mgr d).fresh =
      ((Cl.init.run nodes child ops).mgr d).fresh := by
  have hrun : Cl.init.run nodes child (ops ++ [.startFails L]) = (Cl.init.run nodes child ops).next nodes child (.startFails L) := by
    simp [Cl.run]
  have hrun' : Cl.init.run nodes child (ops ++ [.startFails L] ++ more) =
      (Cl.init.run nodes child (ops ++ [.startFails L])).run nodes child more := by
    simp [Cl.run]
  rw [hrun']
  rw [hrun] at hm ⊢
  have hi := (Inv.init nodes).run child ops ho
  generalize Cl.init.run nodes child ops = w at *
  have hi' := hi.next child (.startFails L) id id
  have hk := hi.k2 L
  have hc := hi.k2' L (by omega)
  have hmgr : ∀ X, (w.next nodes child (.startFails L)).mgr X =
      if X = L then { w.mgr L with starts := (w.mgr L).starts - 1 } else w.mgr X := by
    intro X
    have hal : w.allows nodes (.startFails L) = true := by simp [Cl.allows, ClOp.node, hL]
    unfold Cl.next
    rw [if_pos hal]
    simp only [Cl.at, Cl.setMgr, ClOp.node, ClOp.op, Mgr.step]
  have hfail : Failed L (w.next nodes child (.startFails L)) := by
    have hme := hmgr L
    rw [if_pos rfl] at hme
    refine ⟨?_, ?_, ?_⟩
    · unfold Mgr.complete; rw [hme]; exact hc
    · rw [hme]; simp only; omega
    · rw [hme]
      show (w.mgr L).results = []
      exact List.length_eq_zero_iff.1 (by omega)
  rw [hfail.run hi' hL child more hm d, hmgr]
  split
  · rename_i e; rw [e]
  · rfl

/-- two nodes; the start fails; node 1 becomes the leader, asks and waits. -/
example : Cl.init.Orderly [0, 1] false [.memberUp 0 0, .memberUp 1 0, .recv 1 (.request 0), .recv 0 (.ack 1)] ∧
    0 < ((Cl.init.run [0, 1] false [.memberUp 0 0, .memberUp 1 0, .recv 1 (.request 0), .recv 0 (.ack 1)]).mgr 0).starts ∧
    (Cl.init.run [0, 1] false [.memberUp 0 0, .memberUp 1 0, .recv 1 (.request 0), .recv 0 (.ack 1), .startFails 0]).Orderly [0, 1]
      false [.leaderChanged 0 0, .leaderChanged 1 1, .recv 0 (.request 1), .boot 0, .boot 1] := by decide

end Verif.Singleton
