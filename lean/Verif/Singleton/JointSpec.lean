import Verif.Singleton.JointModel
import Verif.Remote.OneLeaderSpec

/-!
# Heartbeats and singleton managers together: notions used in the statements
-/

namespace Verif.Singleton.Joint

open Verif.Remote.OneLeader (Conf Clu Up Answered Before)

/-- instance `a` of the singleton runs on node `i`. -/
def Sys.Runs (w : Sys) (i a : Nat) : Prop := Up w.clu i ∧ a ∈ (w.cl.mgr i).live

/-- node `i` has `j` in its registry. -/
def Registered (c : Clu) (i j : Nat) : Prop := ∃ n, (j, n) ∈ (c.hb i).nodes

/-- `i` knows an older node that answers its pings, and that is none of `gone`. -/
def Sheltered (C : Conf) (c : Clu) (i : Nat) (gone : List Nat) : Prop :=
  ∃ k, k ∉ gone ∧ Registered c i k ∧ Answered C c i k ∧ ¬ Before C i k

/-- The heartbeat of `i` can choose a leader: it is not its first tick, and the node has registered itself. -/
def Elects (c : Clu) (i : Nat) : Prop := (c.hb i).ticked = true ∧ Registered c i i

/-- No node but those of `R` chooses a leader without an older node answering it. -/
def GentleStep (C : Conf) (R : List Nat) (w : Sys) : JOp → Prop
  | .beat (.tick i) => i ∉ R → Elects w.clu i → Sheltered C w.clu i []
  | .beat (.notice i j) => i ∉ R → Elects w.clu i → Sheltered C w.clu i [j]
  | _ => True

/-- the same for every step of a history. -/
def Gentle (C : Conf) (R : List Nat) : Sys → List JOp → Prop
  | _, [] => True
  | w, op :: ops => GentleStep C R w op ∧ Gentle C R (w.step C op) ops

/-- the processes of `R` do not end, and their instances `inst` do not. -/
def Lasting (R : List Nat) (inst : Nat → Nat) : JOp → Prop
  | .beat (.stop i) => i ∉ R
  | .exits i a => i ∈ R → a ≠ inst i
  | _ => True

/-- nodes are not taken for removed. -/
def NoRemoval (ops : List JOp) : Prop := ∀ i j, .removed i j ∉ ops

end Verif.Singleton.Joint
