import Verif.Sharding.FailoverRunLemmas

/-!
# C97: shards when the coordinator changes and nodes crash

The coordinator ends and another is started, on any node, with any knowledge of the other nodes; nodes crash and start
again; messages, requests and answers are handled in any order. A new coordinator reads the journal, which has the
shards but not their places, and places them anew.

`C97_one_instance_partial` and `C97_where_partial`: at most one instance of a shard runs, where the coordinator says,
provided that (`FSys.OrderlyRun`), in addition to what C51 needs,

* the node of the shard is given up as lost only when the shard does not run and nothing about it is under way, and
* a new coordinator places the shard where it was, or it does not run and nothing about it is under way.

When a new coordinator places the shard elsewhere, it runs on two nodes for a time
(`C97_restart_refuted`). If then nothing about it is under way and it is not starting, and its nodes are known to the new
coordinator and healthy, every instance that runs elsewhere than it should is stopping or has yet to hear
(`C97_told_partial`); when the messages have been handled, all is as it should be (`C97_heals_partial`), which can always
come about (`C97_can_heal_partial`). If the node is not known to the new coordinator or not healthy, it is never told, and
both go on for ever (`C97_left_behind_refuted`). If a request to stop the shard is under way, it takes effect after
the new coordinator has placed the shard there, and afterwards it runs nowhere (`C97_stopped_refuted`).

`C97_remembers`: in every run, a shard that has ever run is placed by every later coordinator.
-/

namespace Verif.Sharding

variable {R : Type}

/-- **C97**, first part (partial: see the head of this file). -/
theorem C97_one_instance_partial (f : R → Nat) (self : Nat) (nodes : List (Nat × Bool)) (journal : List Nat)
    (ops : List (FOp R)) (s : Nat) (h : (FSys.start self nodes journal).OrderlyRun f s ops)
    {d a d' a' : Nat} (h1 : ((FSys.start self nodes journal).run f ops).Runs s d a)
    (h2 : ((FSys.start self nodes journal).run f ops).Runs s d' a') : d = d' ∧ a = a' :=
  (FSys.phase_run f (FSys.phase_start s self nodes journal) ops h).unique h1 h2

/-- **C97**, second part (partial: see the head of this file). -/
theorem C97_where_partial (f : R → Nat) (self : Nat) (nodes : List (Nat × Bool)) (journal : List Nat)
    (ops : List (FOp R)) (s : Nat) (h : (FSys.start self nodes journal).OrderlyRun f s ops)
    {d a n : Nat} (h1 : ((FSys.start self nodes journal).run f ops).Runs s d a)
    (h2 : ((FSys.start self nodes journal).run f ops).coord.shards.get s = some n) : d = n :=
  (FSys.phase_run f (FSys.phase_start s self nodes journal) ops h).where h1 h2

/-- **C97**: a shard that has run or had a place is placed by every later coordinator, on its own node or on one it
knows to be healthy, and all these are told. -/
theorem C97_remembers (f : R → Nat) (self : Nat) (nodes : List (Nat × Bool)) (journal : List Nat)
    (ops ops' : List (FOp R)) (s : Nat)
    (h : (∃ d a, ((FSys.start self nodes journal).run f ops).Runs s d a) ∨
      ((FSys.start self nodes journal : FSys R).run f ops).coord.shards.get s ≠ none)
    (self' : Nat) (nodes' : List (Nat × Bool)) (order : Assoc Nat HostInfo) :
    ∃ n, ((FSys.start self nodes journal : FSys R).run f (ops ++ ops' ++ [.failover self' nodes' order])).coord.shards.get s
        = some n ∧
      (n = self' ∨ (n, true) ∈ nodes') ∧
      ∀ d, d = self' ∨ (d, true) ∈ nodes' ∧ (d, false) ∉ nodes' →
        (d, HMsg.allocated s n) ∈
          ((FSys.start self nodes journal : FSys R).run f (ops ++ ops' ++ [.failover self' nodes' order])).net := by
  have hw := (FSys.written_start (R := R) self nodes journal).run f ops
  have hj : s ∈ ((FSys.start self nodes journal : FSys R).run f ops).coord.journal := by
    rcases h with ⟨d, a, h⟩ | h
    · exact hw.live d s a h
    · refine hw.owned s (.inl ?_)
      exact Option.isSome_iff_ne_none.2 h
  have hj' := FSys.journal_run f hw ops' s hj
  rw [FSys.run_append, FSys.run_append]
  generalize ((FSys.start self nodes journal : FSys R).run f ops).run f ops' = w at hj'
  obtain ⟨n, hn⟩ := Option.isSome_iff_exists.1 ((revive_assigned self' nodes' order w.coord.journal s).2 hj')
  exact ⟨n, hn, revive_ready hn, fun d hd => List.mem_append_right _ (revive_tells hd hn)⟩

/-- **C97**, third part (partial: the shard is at rest and its nodes are known, see the head of this file): when a new
coordinator has placed the shard elsewhere, every instance elsewhere is stopping or will hear of it. -/
theorem C97_told_partial (f : R → Nat) (self : Nat) (nodes : List (Nat × Bool)) (journal : List Nat)
    (ops : List (FOp R)) (s : Nat) (h : (FSys.start self nodes journal).OrderlyRun f s ops)
    (self' : Nat) (nodes' : List (Nat × Bool)) (order : Assoc Nat HostInfo) (n : Nat)
    (hr : ((FSys.start self nodes journal).run f ops).Rests s)
    (hk : ((FSys.start self nodes journal).run f ops).Reached s self' nodes')
    (hn : (((FSys.start self nodes journal).run f ops).failover self' nodes' order).coord.shards.get s = some n)
    (ops' : List (FOp R))
    (h' : (((FSys.start self nodes journal).run f ops).failover self' nodes' order).StaysRun f s n ops')
    {d a : Nat} (hd : d ≠ n)
    (h1 : ((((FSys.start self nodes journal).run f ops).failover self' nodes' order).run f ops').Runs s d a) :
    (s, a) ∈ (((((FSys.start self nodes journal).run f ops).failover self' nodes' order).run f ops').host d).closing ∨
      (∃ t ∈ (((((FSys.start self nodes journal).run f ops).failover self' nodes' order).run f ops').host d).stops,
        t.s = s ∧ t.a = a) ∨
      (d, HMsg.allocated s n) ∈ ((((FSys.start self nodes journal).run f ops).failover self' nodes' order).run f ops').net := by
  have hh := (FSys.healing_begins (FSys.phase_run f (FSys.phase_start s self nodes journal) ops h)
    ((FSys.dated_start self nodes journal).run f ops) hr hk hn).run f ops' h'
  rcases hh.other d hd with h2 | ⟨b, _, _, _, h2⟩
  · rcases h2.told a h1 with h3 | ⟨t, h3, h4⟩
    · exact .inl h3
    · obtain ⟨h5, h6⟩ := List.mem_filter.1 h3
      exact .inr (.inl ⟨t, h5, by simpa using h6, h4⟩)
  · exact .inr (.inr h2)

/-- **C97**, fourth part (partial, as before): when the announcements have been handled and what was told to stop has
stopped, at most one instance runs, where the coordinator says, and this remains so in orderly runs. -/
theorem C97_heals_partial (f : R → Nat) (self : Nat) (nodes : List (Nat × Bool)) (journal : List Nat)
    (ops : List (FOp R)) (s : Nat) (h : (FSys.start self nodes journal).OrderlyRun f s ops)
    (self' : Nat) (nodes' : List (Nat × Bool)) (order : Assoc Nat HostInfo) (n : Nat)
    (hr : ((FSys.start self nodes journal).run f ops).Rests s)
    (hk : ((FSys.start self nodes journal).run f ops).Reached s self' nodes')
    (hn : (((FSys.start self nodes journal).run f ops).failover self' nodes' order).coord.shards.get s = some n)
    (ops' : List (FOp R))
    (h' : (((FSys.start self nodes journal).run f ops).failover self' nodes' order).StaysRun f s n ops')
    (hd : ((((FSys.start self nodes journal).run f ops).failover self' nodes' order).run f ops').Done s)
    (ops'' : List (FOp R))
    (h'' : ((((FSys.start self nodes journal).run f ops).failover self' nodes' order).run f ops').OrderlyRun f s ops'')
    {d a : Nat}
    (h1 : (((((FSys.start self nodes journal).run f ops).failover self' nodes' order).run f ops').run f ops'').Runs s d a) :
    (∀ d' a', (((((FSys.start self nodes journal).run f ops).failover self' nodes' order).run f ops').run f ops'').Runs s d' a' →
        d' = d ∧ a' = a) ∧
      ∀ m, (((((FSys.start self nodes journal).run f ops).failover self' nodes' order).run f ops').run f ops'').coord.shards.get s
        = some m → d = m := by
  have hh := ((FSys.healing_begins (FSys.phase_run f (FSys.phase_start s self nodes journal) ops h)
    ((FSys.dated_start self nodes journal).run f ops) hr hk hn).run f ops' h').done hd
  have hp := FSys.phase_run f hh ops'' h''
  exact ⟨fun d' a' h2 => hp.unique h2 h1, fun m h2 => hp.where h1 h2⟩

/-- **C97**, fifth part (partial, as before): from every such state, handling what is under way leads there. -/
theorem C97_can_heal_partial (f : R → Nat) (self : Nat) (nodes : List (Nat × Bool)) (journal : List Nat)
    (ops : List (FOp R)) (s : Nat)
    (self' : Nat) (nodes' : List (Nat × Bool)) (order : Assoc Nat HostInfo) (n : Nat) (ops' : List (FOp R))
    (h' : (((FSys.start self nodes journal).run f ops).failover self' nodes' order).StaysRun f s n ops') :
    ∃ more : List (FOp R), (∀ op ∈ more, op.Inner) ∧
      (((FSys.start self nodes journal).run f ops).failover self' nodes' order).StaysRun f s n (ops' ++ more) ∧
      ((((FSys.start self nodes journal).run f ops).failover self' nodes' order).run f (ops' ++ more)).Done s := by
  have hf := ((((FSys.finite_start (R := R) self nodes journal).run f ops).next f (.failover self' nodes' order)).run f ops')
  obtain ⟨more, h1, h2⟩ := hf.can_finish f s
  refine ⟨more, h1, staysRun_append f h' (staysRun_inner f s n more h1 _), ?_⟩
  rw [FSys.run_append]
  exact h2

/-- **C97**: a crash takes from a node what it ran and what was under way to and from it, and nothing from any other
node or from the coordinator. -/
theorem C97_crash (w : FSys R) (d : Nat) :
    (w.crash d).coord = w.coord ∧
      (∀ s a, ¬ (w.crash d).Runs s d a) ∧
      (∀ m, (d, m) ∉ (w.crash d).net) ∧ (∀ s, (d, s) ∉ (w.crash d).asks) ∧ (∀ s, (s, d) ∉ (w.crash d).acks) ∧
      ∀ d', d' ≠ d → (w.crash d).host d' = w.host d' ∧
        (∀ m, (w.crash d).net.count (d', m) = w.net.count (d', m)) ∧
        (∀ s, (w.crash d).asks.count (d', s) = w.asks.count (d', s)) ∧
        ∀ s, (w.crash d).acks.count (s, d') = w.acks.count (s, d') := by
  refine ⟨rfl, ?_, ?_, ?_, ?_, ?_⟩
  · intro s a h
    simp [FSys.crash, Sys.Runs, Sys.setHost, Host.init] at h
  · intro m h; simp [FSys.crash] at h
  · intro s h; simp [FSys.crash] at h
  · intro s h; simp [FSys.crash] at h
  · intro d' h
    refine ⟨by simp [FSys.crash, Sys.setHost, h], fun m => ?_, fun s => ?_, fun s => ?_⟩ <;>
      exact List.count_filter (by simpa using h)

example : ((FSys.start 1 [(2, true)] [5] : FSys Nat).crash 2).net.length = 1 ∧
    (FSys.start 1 [(2, true)] [5] : FSys Nat).net.length = 2 := by decide

/-! ### concrete runs -/

/-- shard 0 is started on node 1, and node 2 joins. -/
def shardOnOne : List (FOp Nat) :=
  [.sys (.host 1 (.request 0)), .sys (.ask 1 0 true), .sys (.deliver 1 (.allocated 0 1)),
   .sys (.deliver 1 (.allocated 0 1)), .sys (.host 1 (.ready 0 0)), .sys (.coord (.nodeAdded 2))]

theorem shardOnOne_others (d : Nat) (h1 : d ≠ 1) :
    ((FSys.start 1 [] []).run id shardOnOne).host d = Host.init d := by
  refine FSys.run_untouched id _ shardOnOne d ?_
  simp [shardOnOne, FOp.node]
  exact fun e => h1 e.symm

theorem shardOnOne_orderly : (FSys.start 1 [] [] : FSys Nat).OrderlyRun id 0 shardOnOne := by
  have hask : ∀ d a, (0, a) ∉ (((FSys.start 1 [] [] : FSys Nat).next id (.sys (.host 1 (.request 0)))).host d).live := by
    intro d a
    show (0, a) ∉ (if d = 1 then _ else _ : Host Nat).live
    split
    · exact List.not_mem_nil
    · exact List.not_mem_nil
  exact ⟨trivial, fun _ => .inr ⟨hask, fun _ _ => List.not_mem_nil, fun _ _ => List.not_mem_nil,
      fun _ => List.not_mem_nil⟩, trivial, trivial, trivial,
    ⟨fun n _ h => by simp at h, fun _ h => absurd h (by decide)⟩, trivial⟩

/-- an orderly run in which node 1 crashes, and the coordinator with it: the one started on node 2 starts the shard
there. -/
example :
    ((FSys.start 1 [] [] : FSys Nat).OrderlyRun id 0
        (shardOnOne ++ [.crash 1, .failover 2 [(1, false)] [], .sys (.deliver 2 (.allocated 0 2))])) ∧
      ((FSys.start 1 [] []).run id
        (shardOnOne ++ [.crash 1, .failover 2 [(1, false)] [], .sys (.deliver 2 (.allocated 0 2))])).Runs 0 2 0 := by
  refine ⟨orderlyRun_append id shardOnOne_orderly ⟨trivial, .inr ⟨?_, ?_, ?_, ?_⟩, trivial, trivial⟩, ?_⟩
  · intro d a
    show (0, a) ∉ (if d = 1 then Host.init 1 else ((FSys.start 1 [] []).run id shardOnOne).host d : Host Nat).live
    split
    · exact List.not_mem_nil
    · rw [shardOnOne_others d (by assumption)]
      exact List.not_mem_nil
  · exact fun _ _ => List.not_mem_nil
  · exact fun _ _ => List.not_mem_nil
  · exact fun _ => List.not_mem_nil
  · unfold Sys.Runs; decide

/-- the coordinator is started again and places the shard on node 2; both nodes hear of it. -/
def shardMoves : List (FOp Nat) :=
  [.sys (.deliver 2 (.allocated 0 2)), .sys (.host 2 (.ready 0 0)), .sys (.deliver 1 (.allocated 0 2)),
   .sys (.host 1 (.closed 0 0))]

/-- the hypotheses of `C97_heals_partial` are met when the shard is moved from a running node by a new coordinator. -/
example :
    ((FSys.start 1 [] []).run id shardOnOne).Rests 0 ∧
      ((FSys.start 1 [] []).run id shardOnOne).Reached 0 1 [(2, true)] ∧
      (((FSys.start 1 [] []).run id shardOnOne).failover 1 [(2, true)] []).coord.shards.get 0 = some 2 ∧
      (((FSys.start 1 [] []).run id shardOnOne).failover 1 [(2, true)] []).StaysRun id 0 2 shardMoves ∧
      ((((FSys.start 1 [] []).run id shardOnOne).failover 1 [(2, true)] []).run id shardMoves).Done 0 ∧
      ((FSys.start 1 [] []).run id shardOnOne).Runs 0 1 0 ∧
      ((((FSys.start 1 [] []).run id shardOnOne).failover 1 [(2, true)] []).run id shardMoves).Runs 0 2 0 := by
  refine ⟨⟨fun _ _ => List.not_mem_nil, fun _ _ => List.not_mem_nil, ?_⟩, ?_, by decide, ⟨trivial, trivial, trivial, trivial, trivial⟩,
    ⟨?_, ?_, ?_⟩, by unfold Sys.Runs; decide, by unfold Sys.Runs; decide⟩
  · intro d a
    by_cases e : d = 1
    · subst e
      have : (((FSys.start 1 [] [] : FSys Nat).run id shardOnOne).host 1).booting = [] := by decide
      rw [this]; exact List.not_mem_nil
    · rw [shardOnOne_others d e]; exact List.not_mem_nil
  · intro d a h
    by_cases e : d = 1
    · exact .inl e
    · unfold Sys.Runs at h
      rw [shardOnOne_others d e] at h
      cases h
  · intro d n
    have : ((((FSys.start 1 [] [] : FSys Nat).run id shardOnOne).failover 1 [(2, true)] []).run id shardMoves).net = [] := by
      decide
    rw [this]; exact List.not_mem_nil
  · intro d a
    by_cases e1 : d = 1
    · subst e1
      have : ((((((FSys.start 1 [] [] : FSys Nat).run id shardOnOne).failover 1 [(2, true)] []).run id
        shardMoves).host 1).closing) = [] := by decide
      rw [this]; exact List.not_mem_nil
    · by_cases e2 : d = 2
      · subst e2
        have : ((((((FSys.start 1 [] [] : FSys Nat).run id shardOnOne).failover 1 [(2, true)] []).run id
          shardMoves).host 2).closing) = [] := by decide
        rw [this]; exact List.not_mem_nil
      · rw [FSys.run_untouched id _ shardMoves d (by simp [shardMoves, FOp.node]; omega)]
        show (0, a) ∉ (((FSys.start 1 [] [] : FSys Nat).run id shardOnOne).host d).closing
        rw [shardOnOne_others d e1]; exact List.not_mem_nil
  · intro d t ht
    exfalso
    revert ht
    by_cases e1 : d = 1
    · subst e1
      have : ((((((FSys.start 1 [] [] : FSys Nat).run id shardOnOne).failover 1 [(2, true)] []).run id
        shardMoves).host 1).stops) = [] := by decide
      rw [this]; exact List.not_mem_nil
    · by_cases e2 : d = 2
      · subst e2
        have : ((((((FSys.start 1 [] [] : FSys Nat).run id shardOnOne).failover 1 [(2, true)] []).run id
          shardMoves).host 2).stops) = [] := by decide
        rw [this]; exact List.not_mem_nil
      · rw [FSys.run_untouched id _ shardMoves d (by simp [shardMoves, FOp.node]; omega)]
        show t ∉ (((FSys.start 1 [] [] : FSys Nat).run id shardOnOne).host d).stops
        rw [shardOnOne_others d e1]; exact List.not_mem_nil

/-! ### what does not hold of the code -/

/-- **C97** does not hold of the code: no node is lost and nothing is under way; the coordinator is started again on the
same node, with the same nodes. It does not know where the shard runs and places it on the other node, which starts it
while the first goes on. -/
theorem C97_restart_refuted :
    ∃ (w : FSys Nat), (∃ ops, w = (FSys.start 1 [] []).run id ops ∧ ∀ op ∈ ops, ∀ d, op ≠ .crash d) ∧
      w.net = [] ∧ w.asks = [] ∧ w.acks = [] ∧ w.coord.shards.get 0 = some 1 ∧ w.Runs 0 1 0 ∧
      (w.run id [.failover 1 [(2, true)] [], .sys (.deliver 2 (.allocated 0 2))]).Runs 0 1 0 ∧
      (w.run id [.failover 1 [(2, true)] [], .sys (.deliver 2 (.allocated 0 2))]).Runs 0 2 0 := by
  refine ⟨(FSys.start 1 [] []).run id shardOnOne, ⟨shardOnOne, rfl, by simp [shardOnOne]⟩, ?_⟩
  unfold Sys.Runs
  decide

/-- **C97** does not hold of the code: node 1 runs the shard and is taken to be unhealthy when the new coordinator starts
on node 2. It is told nothing, neither then nor when it is found to be healthy. Both nodes serve the shard, and nothing is
under way that would change it. -/
theorem C97_left_behind_refuted :
    ∃ (w : FSys Nat), (∃ ops, w = (FSys.start 1 [] []).run id ops ∧ ∀ op ∈ ops, ∀ d, op ≠ .crash d) ∧
      w.net = [] ∧ w.asks = [] ∧ w.acks = [] ∧ w.coord.shards.get 0 = some 2 ∧
      (w.coord.hosts.get 1).map (·.status) = some .ready ∧
      (w.host 1).hosted.get 0 = some (.ready 0) ∧ w.Runs 0 1 0 ∧ (w.host 1).closing = [] ∧ (w.host 1).stops = [] ∧
      (w.host 2).hosted.get 0 = some (.ready 0) ∧ w.Runs 0 2 0 := by
  refine ⟨(FSys.start 1 [] []).run id (shardOnOne ++ [.failover 2 [(1, false)] [], .sys (.deliver 2 (.allocated 0 2)),
    .sys (.host 2 (.ready 0 0)), .sys (.coord (.nodeAdded 1))]), ⟨_, rfl, by simp [shardOnOne]⟩, ?_⟩
  unfold Sys.Runs
  decide

/-- **C97** does not hold of the code: the coordinator takes shard 0 from node 1 and ends; the new one places it on node 1;
then the old request to stop takes effect. The coordinator has the shard on node 1, node 2 forwards requests to it there,
it runs nowhere, and nothing is under way that would change it. -/
theorem C97_stopped_refuted :
    ∃ (w : FSys Nat), (∃ ops, w = (FSys.start 1 [] []).run id ops ∧ ∀ op ∈ ops, ∀ d, op ≠ .crash d) ∧
      w.net = [] ∧ w.asks = [] ∧ w.acks = [] ∧ w.coord.shards.get 0 = some 1 ∧
      (w.host 2).remote.get 0 = some 1 ∧ (w.host 1).hosted.get 0 = none ∧ (w.host 1).live = [] ∧
      (w.host 2).live = [(7, 0)] := by
  refine ⟨(FSys.start 1 [] []).run id
    [.sys (.host 1 (.request 0)), .sys (.ask 1 0 true), .sys (.deliver 1 (.allocated 0 1)),
     .sys (.deliver 1 (.allocated 0 1)), .sys (.host 1 (.ready 0 0)),
     .sys (.host 1 (.request 7)), .sys (.ask 1 7 true), .sys (.deliver 1 (.allocated 7 1)),
     .sys (.deliver 1 (.allocated 7 1)), .sys (.host 1 (.ready 7 1)),
     .sys (.coord (.nodeAdded 2)), .sys (.coord .rebalanceAll),
     .sys (.deliver 1 (.reallocating 0)), .sys (.deliver 2 (.reallocating 0)),
     .failover 1 [(2, true)] [(1, { status := .ready }), (2, { status := .ready })],
     .sys (.deliver 1 (.allocated 0 1)), .sys (.deliver 2 (.allocated 0 1)), .sys (.deliver 1 (.allocated 7 2)),
     .sys (.deliver 2 (.allocated 7 2)), .sys (.host 2 (.ready 7 0)), .sys (.host 1 (.closed 7 1)),
     .sys (.deliver 1 (.stop 0 0)), .sys (.host 1 (.stopDone { s := 0, a := 0, req := some { origin := 0, rid := 0 } }))],
    ⟨_, rfl, by simp⟩, ?_⟩
  decide

end Verif.Sharding
