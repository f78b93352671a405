import Verif.Sharding.StatsModel
import Verif.Sharding.RebalanceProps
import Verif.Sharding.HostProps
import Verif.Sharding.ShardProps

/-!
# C85: statistics of sharded entities tell the truth
-/

namespace Verif.Sharding

/-! ## Specification -/

/-- every shard that is assigned to a node other than `self` runs there. -/
def OthersRun (self : Nat) (σ : Coord) (run : Running) : Prop :=
  ∀ s n, σ.Assigned s n → n ≠ self → (run n s).isSome = true

/-- `i` is what is true of shard `s` on node `n`. -/
def ShardInfo.Of (run : Running) (s n : Nat) (i : ShardInfo) : Prop :=
  i.shard = s ∧ i.node = n ∧ ∃ x, run n s = some x ∧ ∀ e, e ∈ i.entities ↔ (x.entities.get e).isSome = true

/-! ## Lemmas -/

theorem collect_some {α : Type} (l : List (Option α)) (h : ∀ x ∈ l, x.isSome = true) :
    ∃ r, collect l = some r ∧ l = r.map some := by
  induction l with
  | nil => exact ⟨[], rfl, rfl⟩
  | cons a l ih =>
    obtain ⟨r, h1, h2⟩ := ih fun x hx => h x (List.mem_cons_of_mem _ hx)
    cases a with
    | none => have := h none (List.mem_cons_self ..); cases this
    | some a => exact ⟨a :: r, by simp [collect, h1], by rw [h2]; rfl⟩

theorem collect_none {α : Type} (l : List (Option α)) (h : none ∈ l) : collect l = none := by
  induction l with
  | nil => cases h
  | cons a l ih =>
    cases a with
    | none => rfl
    | some a =>
      rcases List.mem_cons.1 h with h | h
      · cases h
      · simp [collect, ih h]

theorem stats_of {run : Running} {s n : Nat} {x : Shard} (h : run n s = some x) : (x.stats s n).Of run s n := by
  refine ⟨rfl, rfl, x, h, ?_⟩
  intro e
  rw [Assoc.get_isSome_iff]
  rfl

theorem askShard_ok (self : Nat) (run : Running) (p : Nat × Nat) (i : ShardInfo) (h : askShard self run p = some (some i)) :
    i.Of run p.1 p.2 := by
  unfold askShard at h
  split at h
  · rename_i e
    obtain ⟨x, h1, h2⟩ := Option.map_eq_some_iff.1 h
    cases h2
    rw [e]
    exact stats_of h1
  · simp only [Option.some.injEq] at h
    obtain ⟨x, h1, h2⟩ := Option.map_eq_some_iff.1 h
    cases h2
    exact stats_of h1

/-! ## Properties -/

/-- **C85.** The coordinator's account: the shards listed are exactly the ones assigned, each once; the nodes are
exactly the ones known, each once, with their status; the number given for a node is the number of shards assigned to
it; and the numbers add up to the total. -/
theorem C85_coordinator (σ : Coord) (hr : σ.Reachable) :
    (∀ s n, (s, n) ∈ σ.stats.shards ↔ σ.Assigned s n) ∧ (σ.stats.shards.map (·.1)).Nodup ∧
    σ.stats.total = σ.stats.shards.length ∧
    (∀ n k st, (n, k, st) ∈ σ.stats.nodes → (σ.stats.shards.filter fun p => p.2 = n).length = k) ∧
    (∀ n st, (∃ k, (n, k, st) ∈ σ.stats.nodes) ↔ ∃ h, σ.Knows n h ∧ h.status = st) ∧ (σ.stats.nodes.map (·.1)).Nodup ∧
    (σ.stats.nodes.map fun p => p.2.1).sum = σ.stats.total := by
  have hi := hr.inv
  refine ⟨?_, ?_, rfl, ?_, ?_, ?_, ?_⟩
  · intro s n; exact (Assoc.get_iff hi.su).symm
  · exact Assoc.uniq_iff.1 hi.su
  · intro n k st hm
    obtain ⟨⟨m, h⟩, hp, e⟩ := List.mem_map.1 hm
    simp only [Prod.mk.injEq] at e
    obtain ⟨rfl, rfl, rfl⟩ := e
    have hperm := hostPairs_perm hi
    have h1 := (hperm.filter fun p => decide (p.2 = m)).length_eq
    show (σ.shards.filter fun p => decide (p.2 = m)).length = h.shards.length
    rw [← h1]
    have hg := Assoc.get_of_mem hi.hu hp
    -- only the list of `m` contributes
    have key : ∀ l : Assoc Nat HostInfo, Assoc.Uniq l → (m, h) ∈ l →
        ((hostPairs l).filter fun p => decide (p.2 = m)).length = h.shards.length := by
      intro l
      induction l with
      | nil => intro _ hm; cases hm
      | cons q l ih =>
        intro hu hmem
        have hq : ∀ a : Nat × HostInfo, ((a.2.shards.map fun s => (s, a.1)).filter fun p => decide (p.2 = m)) =
            if a.1 = m then a.2.shards.map (fun s => (s, a.1)) else [] := by
          intro a
          split
          · rename_i e
            rw [List.filter_eq_self]
            intro p hp
            obtain ⟨s, -, rfl⟩ := List.mem_map.1 hp
            simpa using e
          · rename_i e
            rw [List.filter_eq_nil_iff]
            intro p hp
            obtain ⟨s, -, rfl⟩ := List.mem_map.1 hp
            simpa using e
        have hrest : ∀ l' : Assoc Nat HostInfo, (∀ p ∈ l', p.1 ≠ m) → (hostPairs l').filter (fun p => decide (p.2 = m)) = [] := by
          intro l' hl'
          rw [List.filter_eq_nil_iff]
          intro p hp
          obtain ⟨a, ha, hpa⟩ := List.mem_flatMap.1 hp
          obtain ⟨s, -, rfl⟩ := List.mem_map.1 hpa
          simpa using hl' a ha
        have hcons : hostPairs (q :: l) = (q.2.shards.map fun s => (s, q.1)) ++ hostPairs l := rfl
        rw [hcons, List.filter_append, hq]
        have hu' := List.pairwise_cons.1 hu
        rcases List.mem_cons.1 hmem with rfl | hmem
        · rw [if_pos rfl, hrest l fun p hp e => hu'.1 p hp e.symm]
          simp
        · rw [if_neg (fun e => hu'.1 _ hmem e), List.nil_append]
          exact ih hu'.2 hmem
    exact key σ.hosts hi.hu hp
  · intro n st
    constructor
    · rintro ⟨k, hm⟩
      obtain ⟨⟨m, h⟩, hp, e⟩ := List.mem_map.1 hm
      simp only [Prod.mk.injEq] at e
      obtain ⟨rfl, rfl, rfl⟩ := e
      exact ⟨h, Assoc.get_of_mem hi.hu hp, rfl⟩
    · rintro ⟨h, hk, rfl⟩
      exact ⟨_, List.mem_map.2 ⟨(n, h), Assoc.mem_of_get hk, rfl⟩⟩
  · have : σ.stats.nodes.map (·.1) = σ.hosts.map (·.1) := by
      simp [Coord.stats, List.map_map, Function.comp_def]
    rw [this]
    exact Assoc.uniq_iff.1 hi.hu
  · have : (σ.stats.nodes.map fun p => p.2.1) = loads σ.hosts := by
      simp [Coord.stats, loads, List.map_map, Function.comp_def]
    rw [this]
    exact loads_sum hi

/-- **C85.** The account of the cluster, if it is given: it has an entry for exactly those assigned shards that were
found running, each once and with exactly the entities known to the shard; the number of entities is the number of
those entries; and the number of available nodes is right. -/
theorem C85_cluster (self : Nat) (σ : Coord) (hr : σ.Reachable) (run : Running) (c : ClusterStats)
    (h : getClusterStats self true (some σ.stats) run = .stats c) :
    (∀ s n, (∃ i ∈ c.shards, i.shard = s ∧ i.node = n) ↔ σ.Assigned s n ∧ (run n s).isSome = true) ∧
    (∀ i ∈ c.shards, i.Of run i.shard i.node) ∧ (c.shards.map (·.shard)).Nodup ∧
    c.totalEntities = (c.shards.map fun i => i.entities.length).sum ∧
    c.total = σ.total ∧ c.availableNodes = σ.available ∧ c.totalNodes = σ.hosts.length ∧ c.nodes = σ.stats.nodes := by
  have hi := hr.inv
  unfold getClusterStats at h
  simp only [if_true] at h
  cases hc : collect (σ.stats.shards.filterMap (askShard self run)) with
  | none => rw [hc] at h; cases h
  | some l =>
    rw [hc] at h
    cases h
    have hall : ∀ x ∈ σ.stats.shards.filterMap (askShard self run), x.isSome = true := by
      intro x hx
      cases x with
      | some _ => rfl
      | none => rw [collect_none _ hx] at hc; cases hc
    obtain ⟨r, hr1, hr2⟩ := collect_some _ hall
    rw [hc] at hr1
    cases hr1
    have hmem : ∀ i, i ∈ l ↔ ∃ p ∈ σ.shards, askShard self run p = some (some i) := by
      intro i
      have : i ∈ l ↔ some i ∈ σ.stats.shards.filterMap (askShard self run) := by
        rw [hr2]; simp
      rw [this, List.mem_filterMap]
      rfl
    have hof : ∀ i ∈ l, i.Of run i.shard i.node := by
      intro i hm
      obtain ⟨p, -, hp⟩ := (hmem i).1 hm
      have := askShard_ok self run p i hp
      rw [this.1, this.2.1]
      exact this
    refine ⟨?_, hof, ?_, rfl, rfl, ?_, ?_, rfl⟩
    · intro s n
      constructor
      · rintro ⟨i, hm, rfl, rfl⟩
        obtain ⟨p, hp, hq⟩ := (hmem i).1 hm
        have ho := askShard_ok self run p i hq
        obtain ⟨x, hx, -⟩ := ho.2.2
        refine ⟨?_, by rw [ho.1, ho.2.1, hx]; rfl⟩
        have : (i.shard, i.node) = p := by rw [ho.1, ho.2.1]
        exact Assoc.get_of_mem hi.su (by rw [this]; exact hp)
      · rintro ⟨ha, hrun⟩
        obtain ⟨x, hx⟩ := Option.isSome_iff_exists.1 hrun
        refine ⟨x.stats s n, (hmem _).2 ⟨(s, n), Assoc.mem_of_get ha, ?_⟩, rfl, rfl⟩
        unfold askShard
        split
        · rename_i e
          simp only at e
          subst e
          simp [hx]
        · simp [hx]
    · -- each entry is about its own shard, and each shard is listed once
      have hkey : ∀ q : Assoc Nat Nat, ∀ l : List ShardInfo, Assoc.Uniq q → q.filterMap (askShard self run) = l.map some →
          (l.map (·.shard)).Nodup ∧ ∀ i ∈ l, ∃ n, (i.shard, n) ∈ q := by
        intro q
        induction q with
        | nil =>
          intro l _ he
          have : l = [] := by simpa using he.symm
          subst this
          exact ⟨List.nodup_nil, by intro i hm; cases hm⟩
        | cons p q ih =>
          intro l hu he
          have hu' := List.pairwise_cons.1 hu
          cases ha : askShard self run p with
          | none =>
            rw [List.filterMap_cons, ha] at he
            obtain ⟨h1, h2⟩ := ih l hu'.2 he
            exact ⟨h1, fun i hm => (h2 i hm).imp fun n hn => List.mem_cons_of_mem _ hn⟩
          | some y =>
            rw [List.filterMap_cons, ha] at he
            cases l with
            | nil => simp at he
            | cons i l =>
              simp only [List.map_cons, List.cons.injEq] at he
              obtain ⟨rfl, he⟩ := he
              obtain ⟨h1, h2⟩ := ih l hu'.2 he
              have ho := askShard_ok self run p i ha
              refine ⟨?_, ?_⟩
              · rw [List.map_cons, List.nodup_cons]
                refine ⟨?_, h1⟩
                intro hm
                obtain ⟨j, hj, e⟩ := List.mem_map.1 hm
                obtain ⟨n, hn⟩ := h2 j hj
                exact hu'.1 _ hn (by simp only; rw [e]; exact ho.1.symm)
              · intro j hj
                rcases List.mem_cons.1 hj with rfl | hj
                · exact ⟨p.2, by rw [ho.1]; exact List.mem_cons_self ..⟩
                · exact (h2 j hj).imp fun n hn => List.mem_cons_of_mem _ hn
      exact (hkey σ.shards l hi.su hr2).1
    · show ((σ.hosts.map fun p => (p.1, p.2.shards.length, p.2.status)).filter fun n => decide (n.2.2 = .ready)).length = _
      rw [List.filter_map, List.length_map]
      rfl
    · simp [clusterStats, Coord.stats]

/-- **C85.** The account is given exactly if all shards of other nodes are running; in that case and if the own ones run
too it is complete: it has as many entries as the total says. -/
theorem C85_given_iff (self : Nat) (σ : Coord) (hr : σ.Reachable) (run : Running) :
    ((∃ c, getClusterStats self true (some σ.stats) run = .stats c) ↔ OthersRun self σ run) := by
  have hi := hr.inv
  constructor
  · rintro ⟨c, hc⟩ s n ha hne
    refine Classical.byContradiction fun hno => ?_
    have hnone : run n s = none := by
      cases h : run n s with
      | none => rfl
      | some _ => rw [h] at hno; exact absurd rfl hno
    have : none ∈ σ.stats.shards.filterMap (askShard self run) := by
      rw [List.mem_filterMap]
      refine ⟨(s, n), Assoc.mem_of_get ha, ?_⟩
      unfold askShard
      rw [if_neg hne]
      simp [hnone]
    unfold getClusterStats at hc
    simp only [if_true] at hc
    rw [collect_none _ this] at hc
    cases hc
  · intro h
    have hall : ∀ x ∈ σ.stats.shards.filterMap (askShard self run), x.isSome = true := by
      intro x hx
      obtain ⟨⟨s, n⟩, hp, hq⟩ := List.mem_filterMap.1 hx
      unfold askShard at hq
      split at hq
      · obtain ⟨_, -, rfl⟩ := Option.map_eq_some_iff.1 hq
        rfl
      · rename_i hne
        simp only [Option.some.injEq] at hq
        subst hq
        have := h s n (Assoc.get_of_mem hi.su hp) hne
        rw [Option.isSome_map]
        exact this
    obtain ⟨r, h1, -⟩ := collect_some _ hall
    refine ⟨clusterStats σ.stats r, ?_⟩
    unfold getClusterStats
    simp only [if_true]
    rw [h1]

/-- Refuted: the statistics are given whenever the coordinator can be asked. One assigned shard that does not run on its
(other) node — it has not been started yet, or has just been stopped — makes the request fail. -/
theorem C85_one_missing_refuted (self : Nat) (σ : Coord) (hr : σ.Reachable) (run : Running) (s n : Nat)
    (ha : σ.Assigned s n) (hne : n ≠ self) (hno : run n s = none) :
    getClusterStats self true (some σ.stats) run = .panicked := by
  have := C85_given_iff self σ hr run
  have hnot : ¬ OthersRun self σ run := fun h => by have := h s n ha hne; rw [hno] at this; cases this
  have hex : ¬ ∃ c, getClusterStats self true (some σ.stats) run = .stats c := fun h => hnot (this.1 h)
  unfold getClusterStats at hex ⊢
  simp only [if_true] at hex ⊢
  cases hc : collect (σ.stats.shards.filterMap (askShard self run)) with
  | none => rfl
  | some l => exact absurd ⟨_, by rw [hc]⟩ hex

/-- Refuted: the statistics have an entry for every shard in the total. A shard of the own node that is not running is
left out without a word. -/
theorem C85_left_out_refuted : ∃ (σ : Coord) (run : Running) (c : ClusterStats), σ.Reachable ∧
    getClusterStats 1 true (some σ.stats) run = .stats c ∧ c.total = 1 ∧ c.shards = [] :=
  ⟨(Coord.start 1 [] []).run [.allocate 10 true], fun _ _ => none, _, ⟨1, [], [], [.allocate 10 true], rfl⟩, rfl, rfl, rfl⟩

/-- **C85.** A host's account of itself: how many shards it hosts (whatever their state), how many it has references to on
other nodes and which, for how many shards requests wait, and details of those hosted shards that have an actor and
answer. -/
theorem C85_host {R : Type} (σ : Host R) (hu : Assoc.Uniq σ.hosted) (ask : Nat → Nat → Option ShardInfo) :
    (σ.stats ask).hostedCount = σ.hosted.keys.length ∧ (σ.stats ask).remote = σ.remote ∧
    (σ.stats ask).remoteCount = σ.remote.keys.length ∧ (σ.stats ask).pending = σ.pending.keys.length ∧
    ∀ i, i ∈ (σ.stats ask).hosted ↔ ∃ s a, (σ.hosted.get s = some (.ready a) ∨ ∃ b q, σ.hosted.get s = some (.starting a b q)) ∧
      ask s a = some i := by
  refine ⟨by simp [Host.stats, Assoc.keys], rfl, by simp [Host.stats, Assoc.keys], by simp [Host.stats, Assoc.keys], ?_⟩
  intro i
  simp only [Host.stats, List.mem_filterMap]
  constructor
  · rintro ⟨⟨s, h⟩, hp, hq⟩
    obtain ⟨a, h1, h2⟩ := Option.bind_eq_some_iff.1 hq
    refine ⟨s, a, ?_, h2⟩
    have hg := Assoc.get_of_mem hu hp
    cases h with
    | starting b buf q => cases h1; exact .inr ⟨_, _, hg⟩
    | ready b => cases h1; exact .inl hg
    | stopping => cases h1
  · rintro ⟨s, a, h | ⟨b, q, h⟩, h2⟩
    · exact ⟨(s, .ready a), Assoc.mem_of_get h, h2⟩
    · exact ⟨(s, .starting a b q), Assoc.mem_of_get h, h2⟩

/-- Refuted: the node's statistics list the shards it counts. The lists are always empty. -/
theorem C85_empty_lists_refuted (h : HostStats) : h.view.hosted = [] ∧ h.view.remote = [] := ⟨rfl, rfl⟩

/-- Refuted: the node's statistics count each shard once. A shard that is both hosted and referred to (`C46_both_refuted`)
is counted twice. -/
theorem C85_counted_twice_refuted (ask : Nat → Nat → Option ShardInfo) : ∃ ops : List (HostOp Nat),
    (((Host.init 1).run (fun _ => 0) ops).stats ask).view.total = 2 ∧
    ∀ s, s ≠ 0 → ((Host.init 1).run (fun _ => 0) ops).hosted.get s = none ∧
      ((Host.init 1).run (fun _ => 0) ops).remote.get s = none := by
  refine ⟨[.shardAllocated 0 1, .shardAllocated 0 2, .ready 0 0], rfl, ?_⟩
  intro s hs
  have h1 : ((Host.init 1).run (fun _ => 0) [HostOp.shardAllocated 0 1, .shardAllocated 0 2, .ready 0 0]).hosted =
      [(0, (HShard.ready 0 : HShard Nat))] := by decide
  have h2 : ((Host.init 1).run (fun _ => 0) [(HostOp.shardAllocated 0 1 : HostOp Nat), .shardAllocated 0 2, .ready 0 0]).remote =
      [(0, 2)] := by decide
  rw [h1, h2]
  simp [Assoc.get_cons, Ne.symm hs]

/-- **C85** (for hosts that do not have a shard twice): the total is the number of shards known here. -/
theorem C85_node_total_partial {R : Type} (σ : Host R) (hh : Assoc.Uniq σ.hosted) (hr : Assoc.Uniq σ.remote)
    (hd : ∀ s, σ.hosted.get s = none ∨ σ.remote.get s = none) (ask : Nat → Nat → Option ShardInfo) (known : List Nat)
    (hk : known.Nodup) (hkn : ∀ s, s ∈ known ↔ (σ.hosted.get s).isSome = true ∨ (σ.remote.get s).isSome = true) :
    (σ.stats ask).view.total = known.length := by
  have hp : known.Perm (σ.hosted.keys ++ σ.remote.keys) := by
    rw [List.perm_ext_iff_of_nodup hk]
    · intro s
      rw [hkn, List.mem_append, Assoc.get_isSome_iff, Assoc.get_isSome_iff]
      rfl
    · rw [List.nodup_append]
      refine ⟨Assoc.uniq_iff.1 hh, Assoc.uniq_iff.1 hr, ?_⟩
      rintro a ha b hb rfl
      have h1 : (σ.hosted.get a).isSome = true := Assoc.get_isSome_iff.2 ha
      have h2 : (σ.remote.get a).isSome = true := Assoc.get_isSome_iff.2 hb
      rcases hd a with h | h
      · rw [h] at h1; cases h1
      · rw [h] at h2; cases h2
  rw [hp.length_eq]
  simp [Host.stats, HostStats.view, Assoc.keys]

/-! ## Cases -/

-- two nodes, three shards; node 2 is asked from node 1
def statsCoord : Coord := (Coord.start 1 [(2, true)] []).run [.allocate 10 true, .allocate 11 true, .allocate 12 true]

def statsRun : Running := fun _ s =>
  some ((Shard.boot []).run [.request { id := 1, entity := s * 10, recipe := some 3 } true])

example : statsCoord.Reachable := ⟨1, _, _, _, rfl⟩
example : getClusterStats 1 true (some statsCoord.stats) statsRun = .stats
    { total := 3, totalNodes := 2, availableNodes := 2, totalEntities := 3,
      nodes := [(2, 2, .ready), (1, 1, .ready)],
      shards := [⟨12, 2, [120]⟩, ⟨11, 1, [110]⟩, ⟨10, 2, [100]⟩] } := by decide +kernel

end Verif.Sharding
