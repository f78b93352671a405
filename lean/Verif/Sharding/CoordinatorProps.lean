import Verif.Sharding.CoordinatorLemmas

/-!
# C37 - C40, C42: assignment of shards to nodes
-/

namespace Verif.Sharding

/-! ### Specification -/

/-- the states a coordinator can be in: it is started on some node, knowing some nodes and with some
persisted messages, and then anything happens in any order. -/
def Coord.Reachable (σ : Coord) : Prop :=
  ∃ self nodes journal ops, σ = (Coord.start self nodes journal).run ops

/-- the coordinator assigns shard `s` to node `n`. -/
def Coord.Assigned (σ : Coord) (s n : Nat) : Prop := σ.shards.get s = some n

/-- node `n` is known with host information `h` (what it carries and its status). -/
def Coord.Knows (σ : Coord) (n : Nat) (h : HostInfo) : Prop := σ.hosts.get n = some h

/-- node `n` is available, and carries `k` shards. -/
def Coord.Avail (σ : Coord) (n k : Nat) : Prop :=
  ∃ h, σ.Knows n h ∧ h.status = .ready ∧ h.shards.length = k

/-- operations that may take shard `s` away from node `n`: a rebalance, or the loss of the node. -/
def CoordOp.mayMove (s n : Nat) : CoordOp → Bool
  | .rebalanceAll => true
  | .rebalanceShards l => s ∈ l
  | .nodeUnavailable m => m = n
  | .nodeRemoved m => m = n
  | .restart _ _ => true
  | _ => false

/-- operations that bring node `n` back. -/
def CoordOp.brings (n : Nat) : CoordOp → Bool
  | .nodeAdded m => m = n
  | .restart _ _ => true
  | _ => false

/-! ### Lemmas -/

theorem Coord.Reachable.inv {σ : Coord} (h : σ.Reachable) : Inv σ := by
  obtain ⟨self, nodes, j, ops, rfl⟩ := h
  exact reach_inv self nodes j ops

theorem Coord.Reachable.run {σ : Coord} (h : σ.Reachable) (ops : List CoordOp) : (σ.run ops).Reachable := by
  obtain ⟨self, nodes, j, ops', rfl⟩ := h
  exact ⟨self, nodes, j, ops' ++ ops, by simp [Coord.run]⟩

theorem Coord.Reachable.next {σ : Coord} (h : σ.Reachable) (op : CoordOp) : (σ.next op).Reachable :=
  h.run [op]

/-! ### C37 -/

/-- C37. In every reachable state: a shard is assigned to at most one node; shard `s` is assigned to
node `n` exactly if `n` is known and its list has `s`, where it is listed once; each node is known once;
and no handler has panicked. -/
theorem C37_consistent (σ : Coord) (hr : σ.Reachable) :
    (σ.shards.map (·.1)).Nodup ∧ (σ.hosts.map (·.1)).Nodup ∧
    (∀ s n, (s, n) ∈ σ.shards ↔ ∃ h, (n, h) ∈ σ.hosts ∧ s ∈ h.shards) ∧
    (∀ n h, (n, h) ∈ σ.hosts → h.shards.Nodup) ∧ σ.panicked = false := by
  have hi := hr.inv
  refine ⟨Assoc.uniq_iff.1 hi.su, Assoc.uniq_iff.1 hi.hu, ?_, ?_, hi.ok⟩
  · intro s n
    rw [← Assoc.get_iff hi.su, hi.agree']
    constructor
    · rintro ⟨h, h1, h2⟩; exact ⟨h, Assoc.mem_of_get h1, h2⟩
    · rintro ⟨h, h1, h2⟩; exact ⟨h, Assoc.get_of_mem hi.hu h1, h2⟩
  · intro n h hm; exact hi.nd n h (Assoc.get_of_mem hi.hu hm)

/-- C37, seen from the hosts: no shard is in the lists of two nodes. -/
theorem C37_one_host (σ : Coord) (hr : σ.Reachable) (s n m : Nat) (h h' : HostInfo) (h1 : σ.Knows n h)
    (h2 : σ.Knows m h') (h3 : s ∈ h.shards) (h4 : s ∈ h'.shards) : n = m := by
  have hi := hr.inv
  have e1 := (hi.agree' s n).2 ⟨h, h1, h3⟩
  have e2 := (hi.agree' s m).2 ⟨h', h2, h4⟩
  rw [e1] at e2
  exact Option.some.inj e2

/-- C37: shards are carried by available nodes only. -/
theorem C37_available (σ : Coord) (hr : σ.Reachable) (s n : Nat) (h : σ.Assigned s n) :
    ∃ k, σ.Avail n k := by
  have hi := hr.inv
  obtain ⟨hn, hg, hs⟩ := (hi.agree' s n).1 h
  exact ⟨_, hn, hg, hi.onReady n hn hg (fun e => by simp [e] at hs), rfl⟩

-- two nodes, three shards, a full rebalance after node 3 joined, one node lost
example : ((Coord.start 1 [(2, true)] []).run
    [.allocate 10 true, .allocate 11 true, .allocate 12 true, .nodeAdded 3, .rebalanceAll,
     .stopAcked 10 2, .nodeRemoved 1]).shards = [(11, 3), (10, 3), (12, 2)] := by decide

/-! ### C38 -/

/-- C38. A shard answered as newly allocated is on an available node, no available node carries fewer
shards, and the assignment is recorded. -/
theorem C38_least_loaded (σ : Coord) (hr : σ.Reachable) (op : CoordOp) (s n : Nat)
    (h : (σ.step op).2 = some (.allocated s n)) :
    ∃ k, σ.Avail n k ∧ (∀ m j, σ.Avail m j → k ≤ j) ∧ (σ.next op).Assigned s n := by
  have hi := hr.inv
  have key : ∀ τ : Coord, Inv τ → τ.hosts = σ.hosts → ∀ t, (τ.allocateShard t).2 = .allocated s n →
      ∃ k, σ.Avail n k ∧ (∀ m j, σ.Avail m j → k ≤ j) ∧ (τ.allocateShard t).1.Assigned s n := by
    intro τ hτ he t ht
    rcases Option.eq_none_or_eq_some (τ.shards.get t) with h0 | ⟨m, h0⟩
    · rcases hc : τ.choice with _ | ⟨m, hm⟩
      · rw [allocateShard_none h0 hc] at ht; simp at ht
      · rw [allocateShard_placed hτ h0 hc] at ht ⊢
        obtain ⟨c1, c2, c3⟩ := choice_some hc
        simp only [AllocResult.allocated.injEq] at ht
        obtain ⟨rfl, rfl⟩ := ht
        refine ⟨hm.shards.length, ⟨hm, ?_, c2, rfl⟩, ?_, ?_⟩
        · unfold Coord.Knows; rw [← he]; exact Assoc.get_of_mem hτ.hu c1
        · rintro m' j ⟨h', hk, hr', rfl⟩
          refine c3 m' h' ?_ hr'
          rw [he]; exact Assoc.mem_of_get hk
        · unfold Coord.Assigned; rw [placed_shards_get, if_pos rfl]
    · rw [allocateShard_already h0] at ht; simp at ht
  have key2 : ∀ τ : Coord, Inv τ → τ.hosts = σ.hosts → ∀ t r ok, (τ.handleAllocate t r ok).2 = .allocated s n →
      ∃ k, σ.Avail n k ∧ (∀ m j, σ.Avail m j → k ≤ j) ∧ (τ.handleAllocate t r ok).1.Assigned s n := by
    intro τ hτ he t r ok ht
    unfold Coord.handleAllocate at ht ⊢
    rcases Option.eq_none_or_eq_some (τ.shards.get t) with h0 | ⟨m, h0⟩
    · simp only [h0] at ht ⊢
      cases r with
      | true => exact key τ hτ he t ht
      | false =>
        cases ok with
        | true => exact key { τ with journal := τ.journal ++ [t] } (hτ.congr rfl rfl rfl rfl) he t ht
        | false => simp at ht
    · simp [h0] at ht
  unfold Coord.next
  cases op with
  | allocate t ok =>
    simp only [Coord.step, Option.some.injEq] at h ⊢
    exact key2 σ hi rfl t false ok h
  | stopAcked t m =>
    simp only [Coord.step] at h ⊢
    by_cases hm : (t, m) ∈ σ.moving
    · simp only [if_pos hm, Option.some.injEq] at h ⊢
      exact key2 { σ with moving := σ.moving.erase (t, m) } (hi.congr rfl rfl rfl rfl) rfl t true true h
    · simp [if_neg hm] at h
  | _ => simp [Coord.step] at h

theorem handleAllocate_cases (σ : Coord) (hi : Inv σ) (s : Nat) (r ok : Bool) :
    (∃ n, σ.shards.get s = some n ∧ (σ.handleAllocate s r ok).2 = .already s n) ∨
    (σ.shards.get s = none ∧ r = false ∧ ok = false ∧ (σ.handleAllocate s r ok).2 = .persistErr) ∨
    (σ.shards.get s = none ∧ (r = true ∨ ok = true) ∧ σ.choice = none ∧
      (σ.handleAllocate s r ok).2 = .notAllocated) ∨
    (σ.shards.get s = none ∧ (r = true ∨ ok = true) ∧ ∃ p, σ.choice = some p ∧
      (σ.handleAllocate s r ok).2 = .allocated s p.1) := by
  unfold Coord.handleAllocate
  rcases Option.eq_none_or_eq_some (σ.shards.get s) with h0 | ⟨m, h0⟩
  · right
    simp only [h0]
    have key : ∀ τ : Coord, Inv τ → τ.shards = σ.shards → τ.choice = σ.choice →
        (σ.choice = none ∧ (τ.allocateShard s).2 = .notAllocated) ∨
        (∃ p, σ.choice = some p ∧ (τ.allocateShard s).2 = .allocated s p.1) := by
      intro τ hτ hs hc
      rw [← hc]
      rcases h : τ.choice with _ | ⟨n, hn⟩
      · rw [allocateShard_none (by rw [hs, h0]) h]; simp
      · rw [allocateShard_placed hτ (by rw [hs, h0]) h]; simp
    cases r with
    | true =>
      right
      simp only [if_true]
      rcases key σ hi rfl rfl with h | h
      · exact .inl ⟨trivial, by simp, h⟩
      · exact .inr ⟨trivial, by simp, h⟩
    | false =>
      cases ok with
      | false => left; simp
      | true =>
        right
        have := key { σ with journal := σ.journal ++ [s] } (hi.congr rfl rfl rfl rfl) rfl rfl
        rcases this with h | h
        · exact .inl ⟨trivial, by simp, h⟩
        · exact .inr ⟨trivial, by simp, h⟩
  · left
    exact ⟨m, h0, by simp [h0]⟩

/-- C38. A request is refused only if no node is available, and then always; it fails otherwise only if
it cannot be persisted. -/
theorem C38_refused_iff (σ : Coord) (hr : σ.Reachable) (s : Nat) (ok : Bool) :
    ((σ.step (.allocate s ok)).2 = some .notAllocated ↔
      (∀ n, ¬ σ.Assigned s n) ∧ ok = true ∧ ∀ n k, ¬ σ.Avail n k) ∧
    ((σ.step (.allocate s ok)).2 = some .persistErr ↔ (∀ n, ¬ σ.Assigned s n) ∧ ok = false) := by
  have hi := hr.inv
  simp only [Coord.step, Option.some.injEq]
  have hav : (∀ n k, ¬ σ.Avail n k) ↔ σ.choice = none := by
    constructor
    · intro h
      rcases hc : σ.choice with _ | ⟨n, hn⟩
      · rfl
      · obtain ⟨h1, h2, _⟩ := choice_some hc
        exact absurd ⟨hn, Assoc.get_of_mem hi.hu h1, h2, rfl⟩ (h n _)
    · rintro h n k ⟨hn, h1, h2, _⟩
      exact choice_none h n hn (Assoc.mem_of_get h1) h2
  have has : (∀ n, ¬ σ.Assigned s n) ↔ σ.shards.get s = none := by
    unfold Coord.Assigned
    constructor
    · intro h
      rcases Option.eq_none_or_eq_some (σ.shards.get s) with h0 | ⟨m, h0⟩
      · exact h0
      · exact absurd h0 (h m)
    · intro h n; simp [h]
  rw [hav, has]
  rcases handleAllocate_cases σ hi s false ok with ⟨n, h1, h2⟩ | ⟨h1, _, h3, h4⟩ | ⟨h1, h2, h3, h4⟩ | ⟨h1, h2, p, h3, h4⟩
  · rw [h2]; simp [h1]
  · rw [h4]; simp [h1, h3]
  · rw [h4]; simp at h2; simp [h1, h2, h3]
  · rw [h4]; simp at h2; simp [h1, h2, h3]

-- node 2 carries one shard, nodes 1 and 3 none
example : ∃ σ : Coord, σ.Reachable ∧ σ.Avail 1 0 ∧ σ.Avail 2 1 ∧
    (σ.step (.allocate 7 true)).2 = some (.allocated 7 3) :=
  ⟨(Coord.start 1 [(2, true)] []).run [.allocate 10 true, .nodeAdded 3], ⟨1, [(2, true)], [], _, rfl⟩,
    ⟨_, rfl, rfl, rfl⟩, ⟨_, rfl, rfl, rfl⟩, by decide⟩

/-! ### C39 -/

theorem allocateShard_shards (σ : Coord) (s t : Nat) :
    (σ.allocateShard s).1.shards.get t =
      if t = s ∧ σ.shards.get s = none then σ.choice.map (·.1) else σ.shards.get t := by
  unfold Coord.allocateShard
  rcases Option.eq_none_or_eq_some (σ.shards.get s) with h | ⟨n, h⟩
  · simp only [h, and_true]
    rcases hc : σ.choice with _ | ⟨n, hn⟩
    · have hc' : (isort byLoad σ.readyHosts).head? = none := hc
      simp only [hc', Option.map_none]
      by_cases ht : t = s
      · simp [ht, h]
      · simp [ht]
    · have hc' : (isort byLoad σ.readyHosts).head? = some (n, hn) := hc
      simp only [hc', Assoc.get_insert, Option.map_some]
  · simp [h]

theorem allocateShard_keeps {σ : Coord} {s n : Nat} (h : σ.Assigned s n) (t : Nat) :
    (σ.allocateShard t).1.Assigned s n := by
  unfold Coord.Assigned at h ⊢
  rw [allocateShard_shards, if_neg, h]
  rintro ⟨rfl, e⟩
  simp [h] at e

theorem handleAllocate_keeps {σ : Coord} {s n : Nat} (h : σ.Assigned s n) (t : Nat) (r ok : Bool) :
    (σ.handleAllocate t r ok).1.Assigned s n := by
  unfold Coord.handleAllocate
  rcases Option.eq_none_or_eq_some (σ.shards.get t) with h0 | ⟨m, h0⟩
  · simp only [h0]
    cases r with
    | true => exact allocateShard_keeps h t
    | false =>
      cases ok with
      | true => exact allocateShard_keeps (σ := { σ with journal := σ.journal ++ [t] }) h t
      | false => exact h
  · simp only [h0]; exact h

theorem moveShard_shards (σ : Coord) (s t : Nat) (hts : t ≠ s) :
    (σ.moveShard s).shards.get t = σ.shards.get t := by
  unfold Coord.moveShard
  rw [allocateShard_shards, if_neg (fun e => hts e.1)]
  simp [Assoc.get_erase, hts]

theorem moveAll_shards (l : List Nat) (σ : Coord) (t : Nat) (ht : t ∉ l) :
    (l.foldl Coord.moveShard σ).shards.get t = σ.shards.get t := by
  induction l generalizing σ with
  | nil => rfl
  | cons s l ih =>
    rw [List.foldl_cons, ih _ (fun h => ht (by simp [h])), moveShard_shards]
    exact fun e => ht (by simp [e])

theorem nodeUnavailable_keeps {σ : Coord} (hi : Inv σ) {s n m : Nat} (h : σ.Assigned s n) (hm : m ≠ n) :
    (σ.nodeUnavailable m).Assigned s n := by
  rcases Option.eq_none_or_eq_some (σ.hosts.get m) with h0 | ⟨h', h0⟩
  · rw [nodeUnavailable_none h0]; exact h
  · rw [nodeUnavailable_some h0]
    unfold Coord.Assigned at h ⊢
    rw [moveAll_shards]
    · exact h
    · intro hs
      have := (hi.agree' s m).2 ⟨h', h0, hs⟩
      rw [h] at this
      exact hm (Option.some.inj this).symm

theorem takeShard_keeps {σ : Coord} {s n t : Nat} (hi : Inv σ) (h : σ.Assigned s n) (ht : s ≠ t) :
    (σ.takeShard t).Assigned s n := by
  rw [takeShard_eq hi]
  unfold Coord.Assigned at h ⊢
  rcases Option.eq_none_or_eq_some ((σ.announce t).shards.get t) with h0 | ⟨m, h0⟩
  · rw [detach_none h0]; exact h
  · rw [detach_hosts (hi.announce t) h0]
    show (σ.shards.erase t).get s = some n
    rw [Assoc.get_erase, if_neg ht, h]

theorem rebalanceShards_keeps {σ : Coord} {s n : Nat} (hi : Inv σ) (h : σ.Assigned s n) (l : List Nat)
    (hl : s ∉ l) : (σ.rebalanceShards l).Assigned s n := by
  unfold Coord.rebalanceShards
  induction l generalizing σ with
  | nil => exact h
  | cons t l ih =>
    exact ih (hi.takeShard t) (takeShard_keeps hi h (fun e => hl (by simp [e]))) (fun e => hl (by simp [e]))

theorem next_keeps {σ : Coord} {s n : Nat} (hi : Inv σ) (h : σ.Assigned s n) (op : CoordOp)
    (ho : op.mayMove s n = false) : (σ.next op).Assigned s n := by
  unfold Coord.next
  cases op with
  | allocate t ok => exact handleAllocate_keeps h t false ok
  | rebalanceAll => simp [CoordOp.mayMove] at ho
  | rebalanceShards l => exact rebalanceShards_keeps hi h l (by simpa [CoordOp.mayMove] using ho)
  | nodeUnavailable m => exact nodeUnavailable_keeps hi h (by simpa [CoordOp.mayMove] using ho)
  | nodeAdded m =>
    simp only [Coord.step, Coord.nodeAdded]
    rcases Option.eq_none_or_eq_some (σ.hosts.get m) with h0 | ⟨h', h0⟩
    · simp only [h0]; exact h
    · simp only [h0]; split <;> exact h
  | nodeRemoved m =>
    simp only [Coord.step, nodeRemoved_eq]
    exact nodeUnavailable_keeps hi h (by simpa [CoordOp.mayMove] using ho)
  | stopAcked t m =>
    simp only [Coord.step]
    split
    · exact handleAllocate_keeps (σ := { σ with moving := σ.moving.erase (t, m) }) h t true true
    · exact h
  | stopFailed t m => exact h
  | shuffle hosts => simp only [Coord.step, Coord.shuffle]; split <;> exact h
  | shuffleSet m l => exact h
  | restart self nodes => simp [CoordOp.mayMove] at ho

/-- C39 (for one life of the coordinator; a restart may change the assignment, see
`C39_restart_refuted`). Once shard `s` is assigned to node `n`, whatever happens except a rebalance
that may include the shard or the loss of node `n`, a request for it is answered with `n`, without
changing anything. -/
theorem C39_stable_partial (σ : Coord) (hr : σ.Reachable) (s n : Nat) (h : σ.Assigned s n) (ops : List CoordOp)
    (hops : ∀ op ∈ ops, op.mayMove s n = false) (ok : Bool) :
    ((σ.run ops).step (.allocate s ok)) = (σ.run ops, some (.already s n)) := by
  have : (σ.run ops).Assigned s n := by
    have hi := hr.inv
    clear hr
    unfold Coord.run
    induction ops generalizing σ with
    | nil => exact h
    | cons op ops ih =>
      exact ih _ (next_keeps hi h op (hops op (by simp))) (fun op' h' => hops op' (by simp [h'])) (hi.next op)
  unfold Coord.Assigned at this
  simp [Coord.step, Coord.handleAllocate, this]

/-- C39: an answer `Allocated` is such a beginning. -/
theorem C39_from_answer_partial (σ : Coord) (hr : σ.Reachable) (op : CoordOp) (s n : Nat)
    (h : (σ.step op).2 = some (.allocated s n)) (ops : List CoordOp)
    (hops : ∀ op ∈ ops, op.mayMove s n = false) (ok : Bool) :
    (((σ.next op).run ops).step (.allocate s ok)).2 = some (.already s n) := by
  obtain ⟨_, _, _, h3⟩ := C38_least_loaded σ hr op s n h
  rw [C39_stable_partial _ (hr.next op) s n h3 ops hops ok]

example : ((Coord.start 1 [(2, true)] []).run
    [.allocate 10 true, .allocate 11 true, .nodeAdded 3, .rebalanceShards [11], .nodeRemoved 1]).Assigned 10 2 := by
  unfold Coord.Assigned; decide

/-- C39 does not hold across a restart of the coordinator (leader change): the node is not persisted.
Here shards 10 and 11 are on node 1, node 2 joins, and after the restart shard 10 or 11 is on node 2,
without a rebalance and with node 1 available throughout. -/
theorem C39_restart_refuted : ∃ σ : Coord, σ.Reachable ∧ σ.Assigned 10 1 ∧
    (σ.next (.restart 1 [(2, true)])).Assigned 10 2 ∧
    ∃ k, (σ.next (.restart 1 [(2, true)])).Avail 1 k :=
  ⟨(Coord.start 1 [] []).run [.allocate 10 true, .allocate 11 true, .nodeAdded 2], ⟨1, [], [], _, rfl⟩,
    by unfold Coord.Assigned; decide, by unfold Coord.Assigned; decide, 1, _, rfl, by decide, by decide⟩

/-! ### C40 -/

theorem placed_status (σ : Coord) (s n m : Nat) :
    ((σ.placed s n).hosts.get m).map (·.status) = (σ.hosts.get m).map (·.status) := by
  rw [placed_hosts_get]
  split
  · rw [Option.map_map]; rfl
  · rfl

theorem allocateShard_status (σ : Coord) (s m : Nat) :
    ((σ.allocateShard s).1.hosts.get m).map (·.status) = (σ.hosts.get m).map (·.status) := by
  unfold Coord.allocateShard
  rcases Option.eq_none_or_eq_some (σ.shards.get s) with h | ⟨n, h⟩
  · simp only [h]
    rcases hc : (isort byLoad σ.readyHosts).head? with _ | ⟨n, hn⟩
    · rfl
    · simp only [Assoc.get_update]
      split
      · rw [Option.map_map]; rfl
      · rfl
  · simp only [h]

theorem moveAll_status (l : List Nat) (σ : Coord) (m : Nat) :
    ((l.foldl Coord.moveShard σ).hosts.get m).map (·.status) = (σ.hosts.get m).map (·.status) := by
  induction l generalizing σ with
  | nil => rfl
  | cons s l ih =>
    rw [List.foldl_cons, ih, Coord.moveShard, allocateShard_status]

theorem choice_isSome {σ : Coord} {m : Nat} {h : HostInfo} (hg : σ.hosts.get m = some h)
    (hr : h.status = .ready) : ∃ p, σ.choice = some p := by
  rcases hc : σ.choice with _ | p
  · exact absurd hr (choice_none hc m h (Assoc.mem_of_get hg))
  · exact ⟨p, rfl⟩

theorem moveAll_assigned (l : List Nat) (σ : Coord) (s : Nat) (hs : s ∈ l)
    (hr : ∃ m, (σ.hosts.get m).map (·.status) = some .ready) :
    ∃ m, (l.foldl Coord.moveShard σ).shards.get s = some m := by
  induction l generalizing σ with
  | nil => simp at hs
  | cons t l ih =>
    rw [List.foldl_cons]
    obtain ⟨m, hm⟩ := hr
    by_cases hl : s ∈ l
    · refine ih _ hl ⟨m, ?_⟩
      rw [Coord.moveShard, allocateShard_status]; exact hm
    · have hst : s = t := by simpa [hl] using hs
      subst hst
      rw [moveAll_shards l _ s hl, Coord.moveShard, allocateShard_shards, if_pos ⟨rfl, by simp [Assoc.get_erase]⟩]
      obtain ⟨h, hg, hst⟩ := Option.map_eq_some_iff.1 hm
      obtain ⟨p, hp⟩ := choice_isSome (σ := { σ with shards := σ.shards.erase s }) hg hst
      exact ⟨p.1, by rw [hp]; rfl⟩

theorem allocateShard_noready {σ : Coord} (hc : σ.choice = none) (s : Nat) : (σ.allocateShard s).1 = σ := by
  rcases Option.eq_none_or_eq_some (σ.shards.get s) with h | ⟨n, h⟩
  · rw [allocateShard_none h hc]
  · rw [allocateShard_already h]

theorem moveAll_noready (l : List Nat) (σ : Coord) (hr : ∀ m, (σ.hosts.get m).map (·.status) ≠ some .ready)
    (hu : Assoc.Uniq σ.hosts) (s : Nat) (hs : s ∈ l) : (l.foldl Coord.moveShard σ).shards.get s = none := by
  have hc : ∀ τ : Coord, τ.hosts = σ.hosts → τ.choice = none := by
    intro τ hτ
    rcases hc : τ.choice with _ | ⟨n, hn⟩
    · rfl
    · obtain ⟨h1, h2, _⟩ := choice_some hc
      rw [hτ] at h1
      exact absurd (by rw [Assoc.get_of_mem hu h1]; simp [h2]) (hr n)
  have key : ∀ (l : List Nat) (τ : Coord), τ.hosts = σ.hosts →
      ∀ s, (s ∈ l ∨ τ.shards.get s = none) → (l.foldl Coord.moveShard τ).shards.get s = none := by
    intro l
    induction l with
    | nil => intro τ _ s h; simpa using h
    | cons t l ih =>
      intro τ hτ s h
      have hm : τ.moveShard t = { τ with shards := τ.shards.erase t } :=
        allocateShard_noready (hc { τ with shards := τ.shards.erase t } hτ) t
      rw [List.foldl_cons, hm]
      refine ih { τ with shards := τ.shards.erase t } hτ s ?_
      by_cases hl : s ∈ l
      · exact .inl hl
      · right
        simp only [Assoc.get_erase]
        by_cases hst : s = t
        · rw [if_pos hst]
        · rw [if_neg hst]; simpa [hst, hl] using h
  exact key l σ rfl s (.inl hs)

theorem assigned_avail {σ : Coord} (hi : Inv σ) {s m : Nat} (h : σ.Assigned s m) :
    (σ.hosts.get m).map (·.status) = some .ready := by
  obtain ⟨hm, hg, hs⟩ := (hi.agree' s m).1 h
  rw [hg]
  simp [hi.onReady m hm hg (fun e => by simp [e] at hs)]

theorem unavailable_status {σ : Coord} {n m : Nat} {h : HostInfo} (hg : σ.hosts.get n = some h) :
    ((σ.nodeUnavailable n).hosts.get m).map (·.status) =
      if m = n then some .unavailable else (σ.hosts.get m).map (·.status) := by
  rw [nodeUnavailable_some hg, moveAll_status, marked_get]
  by_cases hm : m = n
  · subst hm; simp [hg]
  · simp [hm]

/-- C40. When known node `n` is lost: nothing is assigned to it any more; every shard it had is assigned
to an available node, provided another node was available, and to none otherwise; shards of other nodes
stay where they are, and no other shard is assigned. -/
theorem C40_lost (σ : Coord) (hr : σ.Reachable) (n : Nat) (hk : ∃ h, σ.Knows n h) (op : CoordOp)
    (hop : op = .nodeRemoved n ∨ op = .nodeUnavailable n) :
    (∀ s, ¬ (σ.next op).Assigned s n) ∧
    (∀ s, σ.Assigned s n → (∃ m k, m ≠ n ∧ σ.Avail m k) →
      ∃ m k, m ≠ n ∧ (σ.next op).Assigned s m ∧ (σ.next op).Avail m k) ∧
    (∀ s, σ.Assigned s n → (¬ ∃ m k, m ≠ n ∧ σ.Avail m k) → ∀ m, ¬ (σ.next op).Assigned s m) ∧
    (∀ s m, m ≠ n → (σ.Assigned s m ↔ (σ.next op).Assigned s m ∧ ¬ σ.Assigned s n)) := by
  have hi := hr.inv
  obtain ⟨h, hg⟩ := hk
  unfold Coord.Knows at hg
  have hnx : σ.next op = σ.nodeUnavailable n := by
    rcases hop with rfl | rfl
    · simp only [Coord.next, Coord.step, nodeRemoved_eq]
    · rfl
  rw [hnx]
  have hi' := hi.nodeUnavailable n
  have hst := @unavailable_status σ n
  have hno : ∀ s, ¬ (σ.nodeUnavailable n).Assigned s n := by
    intro s hs
    have := assigned_avail hi' hs
    rw [hst hg, if_pos rfl] at this
    simp at this
  have hav : (∃ m k, m ≠ n ∧ σ.Avail m k) ↔
      ∃ m, ((σ.marked n).hosts.get m).map (·.status) = some .ready := by
    constructor
    · rintro ⟨m, k, hm, h', hg', hr', _⟩
      exact ⟨m, by rw [marked_get, if_neg hm, show σ.hosts.get m = some h' from hg']; simp [hr']⟩
    · rintro ⟨m, hm⟩
      rw [marked_get] at hm
      by_cases hmn : m = n
      · subst hmn; simp [hg] at hm
      · rw [if_neg hmn] at hm
        obtain ⟨h', hg', hr'⟩ := Option.map_eq_some_iff.1 hm
        exact ⟨m, _, hmn, h', hg', hr', rfl⟩
  have hmem : ∀ s, σ.Assigned s n → s ∈ h.shards := by
    intro s hs
    obtain ⟨h', hg', hs'⟩ := (hi.agree' s n).1 hs
    rw [hg] at hg'
    rw [Option.some.inj hg']; exact hs'
  refine ⟨hno, ?_, ?_, ?_⟩
  · intro s hs ha
    obtain ⟨m, hm⟩ := moveAll_assigned h.shards (σ.marked n) s (hmem s hs) (hav.1 ha)
    rw [← nodeUnavailable_some hg] at hm
    have hmn : m ≠ n := fun e => hno s (e ▸ hm)
    obtain ⟨h', hg', hr'⟩ := Option.map_eq_some_iff.1 (assigned_avail hi' hm)
    exact ⟨m, _, hmn, hm, h', hg', hr', rfl⟩
  · intro s hs ha m hm
    have := moveAll_noready h.shards (σ.marked n) (fun m hm => ha (hav.2 ⟨m, hm⟩))
      (hi.marked hg).hu s (hmem s hs)
    rw [← nodeUnavailable_some hg] at this
    unfold Coord.Assigned at hm
    rw [this] at hm
    simp at hm
  · intro s m hmn
    constructor
    · intro hs
      refine ⟨nodeUnavailable_keeps hi hs (fun e => hmn e.symm), ?_⟩
      intro hs'
      unfold Coord.Assigned at hs hs'
      rw [hs] at hs'
      exact hmn (Option.some.inj hs')
    · rintro ⟨hs, hs'⟩
      unfold Coord.Assigned at hs
      rw [nodeUnavailable_some hg, moveAll_shards] at hs
      · exact hs
      · intro hm
        exact hs' ((hi.agree' s n).2 ⟨h, hg, hm⟩)

theorem handleAllocate_status (σ : Coord) (s m : Nat) (r ok : Bool) :
    ((σ.handleAllocate s r ok).1.hosts.get m).map (·.status) = (σ.hosts.get m).map (·.status) := by
  unfold Coord.handleAllocate
  rcases Option.eq_none_or_eq_some (σ.shards.get s) with h | ⟨n, h⟩
  · simp only [h]
    cases r with
    | true => exact allocateShard_status σ s m
    | false =>
      cases ok with
      | true => exact allocateShard_status { σ with journal := σ.journal ++ [s] } s m
      | false => rfl
  · simp only [h]

theorem takeShard_status (σ : Coord) (s m : Nat) :
    ((σ.takeShard s).hosts.get m).map (·.status) = (σ.hosts.get m).map (·.status) := by
  unfold Coord.takeShard
  split
  · rfl
  · unfold Coord.detach Coord.announce
    rcases Option.eq_none_or_eq_some (σ.shards.get s) with h | ⟨n, h⟩
    · simp only [h]
    · simp only [h]
      rcases Option.eq_none_or_eq_some (σ.hosts.get n) with h' | ⟨hn, h'⟩
      · simp only [h']
      · simp only [h', Assoc.get_update]
        split
        · rw [Option.map_map]; rfl
        · rfl

theorem rebalanceShards_status (σ : Coord) (l : List Nat) (m : Nat) :
    ((σ.rebalanceShards l).hosts.get m).map (·.status) = (σ.hosts.get m).map (·.status) := by
  unfold Coord.rebalanceShards
  induction l generalizing σ with
  | nil => rfl
  | cons s l ih => rw [List.foldl_cons, ih, takeShard_status]

theorem next_unavailable {σ : Coord} (hi : Inv σ) {n : Nat} (op : CoordOp) (ho : op.brings n = false)
    (h : (σ.hosts.get n).map (·.status) = some .unavailable) :
    ((σ.next op).hosts.get n).map (·.status) = some .unavailable := by
  unfold Coord.next
  have hun : ∀ m, ((σ.nodeUnavailable m).hosts.get n).map (·.status) = some .unavailable := by
    intro m
    rcases Option.eq_none_or_eq_some (σ.hosts.get m) with h0 | ⟨h', h0⟩
    · rw [nodeUnavailable_none h0]; exact h
    · rw [unavailable_status h0]
      split
      · rfl
      · exact h
  cases op with
  | allocate t ok => simp only [Coord.step]; rw [handleAllocate_status]; exact h
  | rebalanceAll =>
    simp only [Coord.step, Coord.rebalanceAll]
    rw [if_neg (hosts_ne_nil hi), rebalanceShards_status]; exact h
  | rebalanceShards l => simp only [Coord.step]; rw [rebalanceShards_status]; exact h
  | nodeUnavailable m => exact hun m
  | nodeAdded m =>
    have hmn : n ≠ m := fun e => by simp [CoordOp.brings, e] at ho
    simp only [Coord.step, Coord.nodeAdded]
    rcases Option.eq_none_or_eq_some (σ.hosts.get m) with h0 | ⟨h', h0⟩
    · simp only [h0, Assoc.get_insert, if_neg hmn]; exact h
    · simp only [h0]
      split
      · exact h
      · simp only [Assoc.get_update, if_neg hmn]; exact h
  | nodeRemoved m => simp only [Coord.step, nodeRemoved_eq]; exact hun m
  | stopAcked t m =>
    simp only [Coord.step]
    split
    · simp only [handleAllocate_status]; exact h
    · exact h
  | stopFailed t m => exact h
  | shuffle hosts =>
    simp only [Coord.step, Coord.shuffle]
    split
    · rename_i hp
      simp only
      rw [← Assoc.get_perm hi.hu (List.isPerm_iff.1 hp).symm]
      exact h
    · exact h
  | shuffleSet m l =>
    simp only [Coord.step, Coord.shuffleSet, Assoc.get_update]
    split
    · obtain ⟨h', hg, hst⟩ := Option.map_eq_some_iff.1 h
      rw [hg]
      simp only [Option.map_some, Option.some.injEq]
      split <;> exact hst
    · exact h
  | restart self nodes => simp [CoordOp.brings] at ho

/-- C40. A lost node is given no shard until it is announced again. -/
theorem C40_no_new_shards (σ : Coord) (hr : σ.Reachable) (n : Nat) (hk : ∃ h, σ.Knows n h) (op : CoordOp)
    (hop : op = .nodeRemoved n ∨ op = .nodeUnavailable n) (ops : List CoordOp)
    (hops : ∀ op ∈ ops, op.brings n = false) (s : Nat) : ¬ ((σ.next op).run ops).Assigned s n := by
  have h0 : ((σ.next op).hosts.get n).map (·.status) = some .unavailable := by
    obtain ⟨h, hg⟩ := hk
    have : σ.next op = σ.nodeUnavailable n := by
      rcases hop with rfl | rfl
      · simp only [Coord.next, Coord.step, nodeRemoved_eq]
      · rfl
    rw [this, unavailable_status hg, if_pos rfl]
  have hi := (hr.next op).inv
  have : Inv ((σ.next op).run ops) ∧ (((σ.next op).run ops).hosts.get n).map (·.status) = some .unavailable := by
    generalize σ.next op = τ at h0 hi ⊢
    unfold Coord.run
    induction ops generalizing τ with
    | nil => exact ⟨hi, h0⟩
    | cons op ops ih =>
      exact ih (fun op' h' => hops op' (by simp [h'])) _ (next_unavailable hi op (hops op (by simp)) h0) (hi.next op)
  intro hs
  have := (assigned_avail this.1 hs).symm.trans this.2
  simp at this

-- node 1 carries 11 and 12 and is lost; node 2 gets both and keeps 10
example : let σ := (Coord.start 1 [(2, true)] []).run [.allocate 10 true, .allocate 11 true, .allocate 12 true]
    σ.Assigned 11 1 ∧ σ.Assigned 10 2 ∧ (σ.next (.nodeRemoved 2)).Assigned 10 1 := by
  unfold Coord.Assigned; decide

/-- C40: a shard that is being moved off a node when the node is lost is not assigned to it any more, so
it is not among the shards moved then: it stays without a node until somebody asks for it. -/
theorem C40_in_flight : ∃ σ : Coord, σ.Reachable ∧ (∃ k, σ.Avail 1 k) ∧ (10, 2) ∈ σ.moving ∧
    ∀ m, ¬ (σ.next (.nodeRemoved 2)).Assigned 10 m :=
  ⟨(Coord.start 1 [(2, true)] []).run [.allocate 10 true, .rebalanceShards [10]], ⟨1, [(2, true)], [], _, rfl⟩,
    ⟨0, _, rfl, by decide, by decide⟩, by decide, fun m h => by
      have : (((Coord.start 1 [(2, true)] []).run [.allocate 10 true, .rebalanceShards [10]]).next
        (.nodeRemoved 2)).shards.get 10 = none := by decide
      unfold Coord.Assigned at h
      rw [this] at h
      simp at h⟩


/-- C40: a node that is discovered, or comes back, is available from then on and carries what it carried;
the other nodes and all assignments are untouched. A rebalance is scheduled exactly if the node was not
available before. -/
theorem C40_node_added (σ : Coord) (n : Nat) :
    ((σ.next (.nodeAdded n)).hosts.get n = some ⟨((σ.hosts.get n).map (·.shards)).getD [], .ready⟩) ∧
    (∀ m, m ≠ n → (σ.next (.nodeAdded n)).hosts.get m = σ.hosts.get m) ∧
    (σ.next (.nodeAdded n)).shards = σ.shards ∧
    ((∃ k, σ.Avail n k) → (σ.next (.nodeAdded n)).out = σ.out) ∧
    ((¬ ∃ k, σ.Avail n k) → (σ.next (.nodeAdded n)).out = σ.out ++ [.scheduleRebalance]) := by
  have hav : (∃ k, σ.Avail n k) ↔ (σ.hosts.get n).map (·.status) = some .ready := by
    constructor
    · rintro ⟨k, h, h1, h2, _⟩
      simp only [Coord.Knows] at h1
      simp [h1, h2]
    · intro h
      simp only [Option.map_eq_some_iff] at h
      obtain ⟨h, h1, h2⟩ := h
      exact ⟨_, h, h1, h2, rfl⟩
  simp only [hav]
  change (σ.nodeAdded n).hosts.get n = _ ∧ (∀ m, m ≠ n → (σ.nodeAdded n).hosts.get m = _) ∧ (σ.nodeAdded n).shards = _ ∧
    (_ → (σ.nodeAdded n).out = _) ∧ (_ → (σ.nodeAdded n).out = _)
  unfold Coord.nodeAdded
  cases hg : σ.hosts.get n with
  | none =>
    simp only [Assoc.get_insert, Option.map_none, Option.getD_none]
    exact ⟨by simp, fun m hm => by simp [hm], trivial, by simp⟩
  | some h =>
    obtain ⟨sh, st⟩ := h
    by_cases hst : st = .ready
    · subst hst
      simp [hg]
    · simp only [hst, if_false, Assoc.get_update, hg]
      exact ⟨by simp, fun m hm => by simp [hm], trivial, by simp [hst]⟩

example : ((Coord.start 1 [(2, false)] []).next (.nodeAdded 2)).hosts.get 2 = some ⟨[], .ready⟩ := by decide

end Verif.Sharding
