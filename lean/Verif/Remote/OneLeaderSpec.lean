import Verif.Remote.OneLeaderModel

/-!
# What agreement on a leader means
-/

namespace Verif.Remote.OneLeader

open Verif.Remote

/-- the process of `i` runs. -/
def Up (c : Clu) (i : Nat) : Prop := c.ended i = none

/-- `a` started before `b`; of two that started at the same time, the one with the smaller id. -/
def Before (C : Conf) (a b : Nat) : Prop := C.born a < C.born b ∨ (C.born a = C.born b ∧ a ≤ b)

/-- the oldest of the running nodes of `S`. -/
def Oldest (C : Conf) (c : Clu) (S : List Nat) (l : Nat) : Prop :=
  l ∈ S ∧ Up c l ∧ ∀ j ∈ S, Up c j → Before C l j

/-- The last ping of `i` to `j` that ended was answered in time, and that not long ago. -/
def Answered (C : Conf) (c : Clu) (i j : Nat) : Prop :=
  ∃ latency received, (c.hb i).pings.get j = some (.ok latency received) ∧ latency ≤ C.hb.unhealthy ∧
    c.time C i - received < C.hb.unhealthy ∧ c.time C i - received < C.hb.terminated

/-- `i` knows the nodes of `S` and no others. -/
def Knows (c : Clu) (i : Nat) (S : List Nat) : Prop :=
  ∀ j, j ∈ S ↔ ∃ n, (j, n) ∈ (c.hb i).nodes

/-- As node `i` sees it, all is well: every node of `S` that runs answers its pings, and those that do not run
have not run for twice the time after which a node counts as unhealthy. -/
structure Calm (C : Conf) (c : Clu) (S : List Nat) (i : Nat) : Prop where
  knows : Knows c i S
  answered : ∀ j ∈ S, j ≠ i → Up c j → Answered C c i j
  gone : ∀ j ∈ S, ∀ t, c.ended j = some t → t + 2 * C.hb.unhealthy ≤ c.clock

end Verif.Remote.OneLeader
