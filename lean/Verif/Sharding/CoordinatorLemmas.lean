import Verif.Sharding.CoordinatorModel

/-!
# The shard coordinator: invariant
-/

namespace Verif.Sharding

theorem setInsert_of_not_mem {s : Nat} {l : List Nat} (h : s ∉ l) : setInsert s l = l ++ [s] := by
  simp [setInsert, h]

theorem byLoad_trans (a b c : Nat × HostInfo) : byLoad a b = true → byLoad b c = true → byLoad a c = true := by
  simp only [byLoad, decide_eq_true_eq]; omega

theorem byLoad_total (a b : Nat × HostInfo) : byLoad a b = true ∨ byLoad b a = true := by
  simp only [byLoad, decide_eq_true_eq]; omega

/-- Consistency of the two tables, where the shards in `l` are still listed under node `n` although the
host itself has lost them (which is so only inside `rebalance_unavailable_node`). -/
structure InvP (σ : Coord) (n : Nat) (l : List Nat) : Prop where
  hu : Assoc.Uniq σ.hosts
  su : Assoc.Uniq σ.shards
  agree : ∀ s m, σ.shards.get s = some m ↔
    (∃ h, σ.hosts.get m = some h ∧ s ∈ h.shards) ∨ (m = n ∧ s ∈ l)
  lnd : l.Nodup
  disj : ∀ s ∈ l, ∀ m h, σ.hosts.get m = some h → s ∉ h.shards
  nd : ∀ m h, σ.hosts.get m = some h → h.shards.Nodup
  onReady : ∀ m h, σ.hosts.get m = some h → h.shards ≠ [] → h.status = .ready
  self : ∃ h, σ.hosts.get σ.self = some h
  ok : σ.panicked = false

abbrev Inv (σ : Coord) : Prop := InvP σ 0 []

theorem Inv.agree' {σ : Coord} (h : Inv σ) (s m : Nat) :
    σ.shards.get s = some m ↔ ∃ hi, σ.hosts.get m = some hi ∧ s ∈ hi.shards := by
  simpa using h.agree s m

/-- the host chosen for a new shard, if there is one. -/
def Coord.choice (σ : Coord) : Option (Nat × HostInfo) := (isort byLoad σ.readyHosts).head?

theorem choice_some {σ : Coord} {n : Nat} {h : HostInfo} (hc : σ.choice = some (n, h)) :
    (n, h) ∈ σ.hosts ∧ h.status = .ready ∧
      ∀ m h', (m, h') ∈ σ.hosts → h'.status = .ready → h.shards.length ≤ h'.shards.length := by
  obtain ⟨h1, h2⟩ := isort_head byLoad_trans byLoad_total hc
  simp only [Coord.readyHosts, List.mem_filter, HostInfo.isReady, decide_eq_true_eq] at h1
  refine ⟨h1.1, h1.2, ?_⟩
  intro m h' hm hr
  have := h2 (m, h') (by simp [Coord.readyHosts, HostInfo.isReady, hm, hr])
  simpa [byLoad] using this

theorem choice_none {σ : Coord} (hc : σ.choice = none) : ∀ m h, (m, h) ∈ σ.hosts → h.status ≠ .ready := by
  intro m h hm hr
  rw [Coord.choice, List.head?_eq_none_iff] at hc
  have : (m, h) ∈ isort byLoad σ.readyHosts := by
    rw [mem_isort]; simp [Coord.readyHosts, HostInfo.isReady, hm, hr]
  simp [hc] at this

theorem allocateShard_already {σ : Coord} {s n : Nat} (h : σ.shards.get s = some n) :
    σ.allocateShard s = (σ, .already s n) := by
  simp [Coord.allocateShard, h]

theorem allocateShard_none {σ : Coord} {s : Nat} (h : σ.shards.get s = none) (hc : σ.choice = none) :
    σ.allocateShard s = (σ, .notAllocated) := by
  have hc' : (isort byLoad σ.readyHosts).head? = none := hc
  simp only [Coord.allocateShard, h, hc']

/-- the state after placing shard `s` on host `n`. -/
def Coord.placed (σ : Coord) (s n : Nat) : Coord :=
  { σ with
      shards := σ.shards.insert s n
      hosts := σ.hosts.update n fun h => { h with shards := h.shards ++ [s] }
      out := σ.out ++ [CoordOut.shardAllocated s n ((isort byLoad σ.readyHosts).map (·.1))] }

theorem update_congr {κ α : Type} [DecidableEq κ] {m : Assoc κ α} (hu : Assoc.Uniq m) {k : κ} {v : α}
    (hk : m.get k = some v) {f g : α → α} (hfg : f v = g v) : m.update k f = m.update k g := by
  unfold Assoc.update
  apply List.map_congr_left
  intro p hp
  by_cases h : p.1 = k
  · rw [if_pos h, if_pos h]
    have : m.get p.1 = some p.2 := Assoc.get_of_mem hu hp
    rw [h, hk] at this
    rw [← Option.some.inj this, hfg]
  · rw [if_neg h, if_neg h]

theorem not_mem_of_get_none {σ : Coord} {n : Nat} {l : List Nat} (hi : InvP σ n l) {s : Nat}
    (h : σ.shards.get s = none) {m : Nat} {hm : HostInfo} (hg : σ.hosts.get m = some hm) : s ∉ hm.shards := by
  intro hs
  have := (hi.agree s m).2 (.inl ⟨hm, hg, hs⟩)
  simp [h] at this

theorem allocateShard_placed {σ : Coord} {p : Nat} {l : List Nat} (hi : InvP σ p l) {s n : Nat}
    {hn : HostInfo} (h : σ.shards.get s = none) (hc : σ.choice = some (n, hn)) :
    σ.allocateShard s = (σ.placed s n, .allocated s n) := by
  have hg := Assoc.get_of_mem hi.hu (choice_some hc).1
  have hs := not_mem_of_get_none hi h hg
  have hc' : (isort byLoad σ.readyHosts).head? = some (n, hn) := hc
  simp only [Coord.allocateShard, h, hc', hs, if_false, Coord.placed]
  rw [update_congr hi.hu hg (f := fun h => { h with shards := setInsert s h.shards })
    (g := fun h => { h with shards := h.shards ++ [s] }) (by simp [setInsert_of_not_mem hs])]

theorem placed_hosts_get (σ : Coord) (s n m : Nat) :
    (σ.placed s n).hosts.get m =
      if m = n then (σ.hosts.get m).map fun h => { h with shards := h.shards ++ [s] } else σ.hosts.get m := by
  simp only [Coord.placed, Assoc.get_update]

theorem placed_shards_get (σ : Coord) (s n s' : Nat) :
    (σ.placed s n).shards.get s' = if s' = s then some n else σ.shards.get s' := by
  simp only [Coord.placed, Assoc.get_insert]

theorem InvP.placed {σ : Coord} {p : Nat} {l : List Nat} (hi : InvP σ p l) {s n : Nat} {hn : HostInfo}
    (h : σ.shards.get s = none) (hg : σ.hosts.get n = some hn) (hr : hn.status = .ready) :
    InvP (σ.placed s n) p l := by
  have hsl : s ∉ l := fun hs => by
    have := (hi.agree s p).2 (.inr ⟨rfl, hs⟩)
    simp [h] at this
  refine ⟨by dsimp only [Coord.placed]; exact hi.hu.update _ _, hi.su.insert _ _, ?_, hi.lnd, ?_, ?_, ?_, ?_, hi.ok⟩
  · intro s' m
    rw [placed_shards_get, placed_hosts_get]
    by_cases hs : s' = s
    · subst hs
      rw [if_pos rfl]
      constructor
      · intro e
        cases e
        left
        exact ⟨_, by rw [if_pos rfl, hg]; rfl, by simp⟩
      · rintro (⟨h', h1, h2⟩ | ⟨_, h2⟩)
        · by_cases hm : m = n
          · rw [hm]
          · rw [if_neg hm] at h1
            exact absurd h2 (not_mem_of_get_none hi h h1)
        · exact absurd h2 hsl
    · rw [if_neg hs, hi.agree]
      by_cases hm : m = n
      · subst hm
        simp [hg, hs]
      · simp only [if_neg hm]
  · intro s' hs' m h' hm
    rw [placed_hosts_get] at hm
    by_cases hmn : m = n
    · subst hmn
      rw [if_pos rfl, hg] at hm
      simp only [Option.map_some, Option.some.injEq] at hm
      subst hm
      have := hi.disj s' hs' _ _ hg
      simp only [List.mem_append, List.mem_singleton, not_or]
      exact ⟨this, fun e => hsl (e ▸ hs')⟩
    · rw [if_neg hmn] at hm
      exact hi.disj s' hs' _ _ hm
  · intro m h' hm
    rw [placed_hosts_get] at hm
    by_cases hmn : m = n
    · subst hmn
      rw [if_pos rfl, hg] at hm
      simp only [Option.map_some, Option.some.injEq] at hm
      subst hm
      have h1 := hi.nd _ _ hg
      have h2 := not_mem_of_get_none hi h hg
      rw [List.nodup_append]
      refine ⟨h1, by simp, ?_⟩
      intro a ha b hb
      simp only [List.mem_singleton] at hb
      subst hb
      exact fun e => h2 (e ▸ ha)
    · rw [if_neg hmn] at hm
      exact hi.nd _ _ hm
  · intro m h' hm hne
    rw [placed_hosts_get] at hm
    by_cases hmn : m = n
    · subst hmn
      rw [if_pos rfl, hg] at hm
      simp only [Option.map_some, Option.some.injEq] at hm
      subst hm
      exact hr
    · rw [if_neg hmn] at hm
      exact hi.onReady _ _ hm hne
  · obtain ⟨h', hs'⟩ := hi.self
    by_cases hmn : σ.self = n
    · exact ⟨_, by rw [placed_hosts_get]; show (if σ.self = n then Option.map _ (σ.hosts.get σ.self) else σ.hosts.get σ.self) = _; rw [if_pos hmn, hs']; rfl⟩
    · exact ⟨h', by rw [placed_hosts_get]; show (if σ.self = n then Option.map _ (σ.hosts.get σ.self) else σ.hosts.get σ.self) = _; rw [if_neg hmn, hs']⟩

theorem InvP.allocateShard {σ : Coord} {p : Nat} {l : List Nat} (hi : InvP σ p l) (s : Nat) :
    InvP (σ.allocateShard s).1 p l := by
  rcases Option.eq_none_or_eq_some (σ.shards.get s) with h | ⟨n, h⟩
  · rcases hc : σ.choice with _ | ⟨n, hn⟩
    · rw [allocateShard_none h hc]; exact hi
    · rw [allocateShard_placed hi h hc]
      obtain ⟨h1, h2, _⟩ := choice_some hc
      exact hi.placed h (Assoc.get_of_mem hi.hu h1) h2
  · rw [allocateShard_already h]; exact hi

/-- changing parts that the invariant does not mention. -/
theorem InvP.congr {σ τ : Coord} {p : Nat} {l : List Nat} (hi : InvP σ p l) (h1 : τ.hosts = σ.hosts)
    (h2 : τ.shards = σ.shards) (h3 : τ.self = σ.self) (h4 : τ.panicked = σ.panicked) : InvP τ p l := by
  constructor
  · rw [h1]; exact hi.hu
  · rw [h2]; exact hi.su
  · rw [h1, h2]; exact hi.agree
  · exact hi.lnd
  · rw [h1]; exact hi.disj
  · rw [h1]; exact hi.nd
  · rw [h1]; exact hi.onReady
  · rw [h1, h3]; exact hi.self
  · rw [h4]; exact hi.ok

theorem InvP.handleAllocate {σ : Coord} (hi : Inv σ) (s : Nat) (r ok : Bool) :
    Inv (σ.handleAllocate s r ok).1 := by
  unfold Coord.handleAllocate
  rcases Option.eq_none_or_eq_some (σ.shards.get s) with h | ⟨n, h⟩
  · simp only [h]
    cases r with
    | true => exact hi.allocateShard s
    | false =>
      cases ok with
      | true => exact InvP.allocateShard (σ := { σ with journal := σ.journal ++ [s] }) (hi.congr rfl rfl rfl rfl) s
      | false => exact hi
  · simp only [h]; exact hi

theorem detach_hosts {σ : Coord} (hi : Inv σ) {s n : Nat} (h : σ.shards.get s = some n) :
    σ.detach s =
      { σ with
          shards := σ.shards.erase s
          hosts := σ.hosts.update n fun h => { h with shards := h.shards.filter (· ≠ s) }
          moving := σ.moving ++ [(s, n)]
          out := σ.out ++ [CoordOut.stopShard s n] } := by
  obtain ⟨hn, hg, _⟩ := (hi.agree' s n).1 h
  simp only [Coord.detach, h, hg]

theorem detach_none {σ : Coord} {s : Nat} (h : σ.shards.get s = none) : σ.detach s = σ := by
  simp only [Coord.detach, h]

theorem InvP.detach {σ : Coord} (hi : Inv σ) (s : Nat) : Inv (σ.detach s) := by
  rcases Option.eq_none_or_eq_some (σ.shards.get s) with h | ⟨n, h⟩
  · rw [detach_none h]; exact hi
  rw [detach_hosts hi h]
  have hget : ∀ m, (σ.hosts.update n fun h => { h with shards := h.shards.filter (· ≠ s) }).get m =
      if m = n then (σ.hosts.get m).map fun h => { h with shards := h.shards.filter (· ≠ s) }
      else σ.hosts.get m := fun m => Assoc.get_update _ _ _ _
  obtain ⟨hn, hg, hmem⟩ := (hi.agree' s n).1 h
  refine ⟨by dsimp only; exact hi.hu.update _ _, hi.su.erase _, ?_, .nil, by simp, ?_, ?_, ?_, hi.ok⟩
  · intro s' m
    simp only [hget, Assoc.get_erase]
    by_cases hs : s' = s
    · subst hs
      simp only [if_true, reduceCtorEq, List.not_mem_nil, and_false, or_false, false_iff, not_exists]
      rintro h' ⟨h1, h2⟩
      by_cases hm : m = n
      · subst hm
        rw [if_pos rfl, hg] at h1
        simp only [Option.map_some, Option.some.injEq] at h1
        subst h1
        simp at h2
      · rw [if_neg hm] at h1
        have := (hi.agree' s' m).2 ⟨h', h1, h2⟩
        rw [h] at this
        exact hm (Option.some.inj this).symm
    · rw [if_neg hs, hi.agree']
      by_cases hm : m = n
      · subst hm
        simp [hg, hs]
      · simp only [if_neg hm]
        simp
  · intro m h' hm
    simp only [hget] at hm
    by_cases hmn : m = n
    · subst hmn
      rw [if_pos rfl, hg] at hm
      simp only [Option.map_some, Option.some.injEq] at hm
      subst hm
      exact (hi.nd _ _ hg).filter _
    · rw [if_neg hmn] at hm
      exact hi.nd _ _ hm
  · intro m h' hm hne
    simp only [hget] at hm
    by_cases hmn : m = n
    · subst hmn
      rw [if_pos rfl, hg] at hm
      simp only [Option.map_some, Option.some.injEq] at hm
      subst hm
      exact hi.onReady m hn hg (fun e => by rw [e] at hmem; simp at hmem)
    · rw [if_neg hmn] at hm
      exact hi.onReady _ _ hm hne
  · obtain ⟨h', hs'⟩ := hi.self
    by_cases hmn : σ.self = n
    · exact ⟨_, by simp only [hget]; rw [if_pos hmn, hs']; rfl⟩
    · exact ⟨h', by simp only [hget]; rw [if_neg hmn, hs']⟩

theorem takeShard_eq {σ : Coord} (hi : Inv σ) (s : Nat) : σ.takeShard s = (σ.announce s).detach s := by
  simp [Coord.takeShard, hi.ok]

theorem InvP.announce {σ : Coord} (hi : Inv σ) (s : Nat) : Inv (σ.announce s) :=
  hi.congr rfl rfl rfl rfl

theorem InvP.takeShard {σ : Coord} (hi : Inv σ) (s : Nat) : Inv (σ.takeShard s) := by
  rw [takeShard_eq hi]; exact (hi.announce s).detach s

theorem InvP.rebalanceShards {σ : Coord} (hi : Inv σ) (l : List Nat) : Inv (σ.rebalanceShards l) := by
  unfold Coord.rebalanceShards
  induction l generalizing σ with
  | nil => exact hi
  | cons s l ih => exact ih (hi.takeShard s)

theorem hosts_ne_nil {σ : Coord} (hi : Inv σ) : σ.hosts.length ≠ 0 := by
  obtain ⟨h, hs⟩ := hi.self
  intro e
  rw [List.length_eq_zero_iff] at e
  simp [e] at hs

theorem InvP.rebalanceAll {σ : Coord} (hi : Inv σ) : Inv σ.rebalanceAll := by
  unfold Coord.rebalanceAll
  rw [if_neg (hosts_ne_nil hi)]
  exact hi.rebalanceShards _

theorem InvP.drop {σ : Coord} {p s : Nat} {l : List Nat} (hi : InvP σ p (s :: l)) :
    InvP { σ with shards := σ.shards.erase s } p l ∧ (σ.shards.erase s).get s = none := by
  have hnd := List.nodup_cons.1 hi.lnd
  refine ⟨⟨hi.hu, hi.su.erase _, ?_, hnd.2, fun s' hs' => hi.disj s' (by simp [hs']), hi.nd, hi.onReady,
    hi.self, hi.ok⟩, by simp [Assoc.get_erase]⟩
  intro s' m
  simp only [Assoc.get_erase]
  by_cases hs : s' = s
  · subst hs
    simp only [if_true, reduceCtorEq, false_iff, not_or, not_exists, not_and]
    exact ⟨fun h' h1 => hi.disj s' (by simp) m h' h1, fun _ => hnd.1⟩
  · rw [if_neg hs, hi.agree]
    simp [hs]

theorem InvP.moveShard {σ : Coord} {p s : Nat} {l : List Nat} (hi : InvP σ p (s :: l)) :
    InvP (σ.moveShard s) p l := hi.drop.1.allocateShard s

theorem InvP.moveAll {σ : Coord} {p : Nat} {l : List Nat} (hi : InvP σ p l) :
    InvP (l.foldl Coord.moveShard σ) p [] := by
  induction l generalizing σ with
  | nil => exact hi
  | cons s l ih => exact ih hi.moveShard

/-- the invariant does not depend on the node when nothing is left over. -/
theorem InvP.toInv {σ : Coord} {p : Nat} (hi : InvP σ p []) : Inv σ :=
  ⟨hi.hu, hi.su, fun s m => by simpa using hi.agree s m, .nil, by simp, hi.nd, hi.onReady, hi.self, hi.ok⟩

/-- the host table right after a node was marked as unavailable. -/
def Coord.marked (σ : Coord) (n : Nat) : Coord :=
  { σ with hosts := σ.hosts.update n fun _ => { shards := [], status := .unavailable } }

theorem marked_get (σ : Coord) (n m : Nat) : (σ.marked n).hosts.get m =
    if m = n then (σ.hosts.get m).map fun _ => { shards := [], status := .unavailable }
    else σ.hosts.get m := by
  simp only [Coord.marked, Assoc.get_update]

theorem InvP.marked {σ : Coord} (hi : Inv σ) {n : Nat} {h : HostInfo} (hg : σ.hosts.get n = some h) :
    InvP (σ.marked n) n h.shards := by
  refine ⟨by dsimp only [Coord.marked]; exact hi.hu.update _ _, hi.su, ?_, hi.nd _ _ hg, ?_, ?_, ?_, ?_, hi.ok⟩
  · intro s m
    show σ.shards.get s = some m ↔ _
    rw [hi.agree', marked_get]
    by_cases hm : m = n
    · subst hm; simp [hg]
    · rw [if_neg hm]; simp only [hm, false_and, or_false]
  · intro s hs m h' hm hs'
    rw [marked_get] at hm
    by_cases hmn : m = n
    · subst hmn
      rw [if_pos rfl, hg] at hm
      simp only [Option.map_some, Option.some.injEq] at hm
      subst hm
      simp at hs'
    · rw [if_neg hmn] at hm
      have h1 := (hi.agree' s n).2 ⟨h, hg, hs⟩
      have h2 := (hi.agree' s m).2 ⟨h', hm, hs'⟩
      rw [h1] at h2
      exact hmn (Option.some.inj h2).symm
  · intro m h' hm
    rw [marked_get] at hm
    by_cases hmn : m = n
    · subst hmn
      rw [if_pos rfl, hg] at hm
      simp only [Option.map_some, Option.some.injEq] at hm
      subst hm
      exact .nil
    · rw [if_neg hmn] at hm
      exact hi.nd _ _ hm
  · intro m h' hm hne
    rw [marked_get] at hm
    by_cases hmn : m = n
    · subst hmn
      rw [if_pos rfl, hg] at hm
      simp only [Option.map_some, Option.some.injEq] at hm
      subst hm
      exact absurd rfl hne
    · rw [if_neg hmn] at hm
      exact hi.onReady _ _ hm hne
  · obtain ⟨h', hs'⟩ := hi.self
    by_cases hmn : σ.self = n
    · exact ⟨_, by rw [marked_get]; show (if σ.self = n then Option.map _ (σ.hosts.get σ.self) else σ.hosts.get σ.self) = _; rw [if_pos hmn, hs']; rfl⟩
    · exact ⟨h', by rw [marked_get]; show (if σ.self = n then Option.map _ (σ.hosts.get σ.self) else σ.hosts.get σ.self) = _; rw [if_neg hmn, hs']⟩

theorem nodeUnavailable_some {σ : Coord} {n : Nat} {h : HostInfo} (hg : σ.hosts.get n = some h) :
    σ.nodeUnavailable n = h.shards.foldl Coord.moveShard (σ.marked n) := by
  simp only [Coord.nodeUnavailable, hg, Coord.marked]

theorem nodeUnavailable_none {σ : Coord} {n : Nat} (hg : σ.hosts.get n = none) :
    σ.nodeUnavailable n = σ := by
  simp only [Coord.nodeUnavailable, hg]

theorem InvP.nodeUnavailable {σ : Coord} (hi : Inv σ) (n : Nat) : Inv (σ.nodeUnavailable n) := by
  rcases Option.eq_none_or_eq_some (σ.hosts.get n) with h | ⟨h, hg⟩
  · rw [nodeUnavailable_none h]; exact hi
  · rw [nodeUnavailable_some hg]
    exact (hi.marked hg).moveAll.toInv

theorem nodeRemoved_eq (σ : Coord) (n : Nat) : σ.nodeRemoved n = σ.nodeUnavailable n := by
  unfold Coord.nodeRemoved
  rcases Option.eq_none_or_eq_some (σ.hosts.get n) with h | ⟨h, hg⟩
  · rw [nodeUnavailable_none h]; simp only [h]
  · simp only [hg]

/-- a change of the host table which keeps what the hosts carry. -/
theorem InvP.rehost {σ τ : Coord} (hi : Inv σ) (hu : Assoc.Uniq τ.hosts) (h2 : τ.shards = σ.shards)
    (h3 : τ.self = σ.self) (h4 : τ.panicked = σ.panicked)
    (fwd : ∀ m h, σ.hosts.get m = some h → ∃ h', τ.hosts.get m = some h' ∧ h'.shards.Perm h.shards)
    (bwd : ∀ m h', τ.hosts.get m = some h' → h'.shards = [] ∨ (h'.status = .ready ∧
      ∃ h, σ.hosts.get m = some h ∧ h'.shards.Perm h.shards)) : Inv τ := by
  refine ⟨hu, h2 ▸ hi.su, ?_, .nil, by simp, ?_, ?_, ?_, h4 ▸ hi.ok⟩
  · intro s m
    rw [h2, hi.agree']
    simp only [List.not_mem_nil, and_false, or_false]
    constructor
    · rintro ⟨h, hg, hs⟩
      obtain ⟨h', hg', hp⟩ := fwd m h hg
      exact ⟨h', hg', hp.mem_iff.2 hs⟩
    · rintro ⟨h', hg', hs⟩
      rcases bwd m h' hg' with e | ⟨_, h, hg, hp⟩
      · simp [e] at hs
      · exact ⟨h, hg, hp.mem_iff.1 hs⟩
  · intro m h' hg'
    rcases bwd m h' hg' with e | ⟨_, h, hg, hp⟩
    · simp [e]
    · exact hp.nodup_iff.2 (hi.nd _ _ hg)
  · intro m h' hg' hne
    rcases bwd m h' hg' with e | ⟨hr, _⟩
    · exact absurd e hne
    · exact hr
  · obtain ⟨h, hs⟩ := hi.self
    obtain ⟨h', hg', _⟩ := fwd _ _ hs
    exact ⟨h', by rw [h3]; exact hg'⟩

theorem InvP.nodeAdded {σ : Coord} (hi : Inv σ) (n : Nat) : Inv (σ.nodeAdded n) := by
  unfold Coord.nodeAdded
  rcases Option.eq_none_or_eq_some (σ.hosts.get n) with hg | ⟨h, hg⟩
  · simp only [hg]
    refine hi.rehost (by dsimp only; exact hi.hu.insert _ _) rfl rfl rfl ?_ ?_
    · intro m h hm
      refine ⟨h, ?_, .refl _⟩
      rw [Assoc.get_insert, if_neg (fun e => by rw [e, hg] at hm; simp at hm), hm]
    · intro m h' hm
      rw [Assoc.get_insert] at hm
      by_cases e : m = n
      · rw [if_pos e] at hm
        left
        rw [← Option.some.inj hm]
      · rw [if_neg e] at hm
        by_cases hn : h'.shards = []
        · exact .inl hn
        · exact .inr ⟨hi.onReady _ _ hm hn, h', hm, .refl _⟩
  · simp only [hg]
    split
    · exact hi
    · refine hi.rehost (by dsimp only; exact hi.hu.update _ _) rfl rfl rfl ?_ ?_
      · intro m h hm
        simp only [Assoc.get_update]
        by_cases e : m = n
        · rw [if_pos e, hm]
          exact ⟨_, rfl, .refl _⟩
        · rw [if_neg e, hm]
          exact ⟨_, rfl, .refl _⟩
      · intro m h' hm
        simp only [Assoc.get_update] at hm
        by_cases e : m = n
        · rw [if_pos e] at hm
          right
          obtain ⟨h0, hm0, rfl⟩ := Option.map_eq_some_iff.1 hm
          exact ⟨rfl, h0, hm0, .refl _⟩
        · rw [if_neg e] at hm
          by_cases hn : h'.shards = []
          · exact .inl hn
          · exact .inr ⟨hi.onReady _ _ hm hn, h', hm, .refl _⟩

theorem InvP.shuffle {σ : Coord} (hi : Inv σ) (hosts : Assoc Nat HostInfo) : Inv (σ.shuffle hosts) := by
  unfold Coord.shuffle
  split
  · rename_i hp
    have hp : hosts.Perm σ.hosts := List.isPerm_iff.1 hp
    have hu : Assoc.Uniq hosts := by
      have := hi.hu
      rw [Assoc.uniq_iff] at this ⊢
      exact (hp.map _).nodup_iff.2 this
    refine hi.rehost hu rfl rfl rfl ?_ ?_
    · intro m h hm
      exact ⟨h, by rw [Assoc.get_perm hu hp, hm], .refl _⟩
    · intro m h' hm
      simp only at hm
      rw [Assoc.get_perm hu hp] at hm
      by_cases hn : h'.shards = []
      · exact .inl hn
      · exact .inr ⟨hi.onReady _ _ hm hn, h', hm, .refl _⟩
  · exact hi

theorem InvP.shuffleSet {σ : Coord} (hi : Inv σ) (n : Nat) (l : List Nat) : Inv (σ.shuffleSet n l) := by
  unfold Coord.shuffleSet
  refine hi.rehost (by dsimp only; exact hi.hu.update _ _) rfl rfl rfl ?_ ?_
  · intro m h hm
    simp only [Assoc.get_update, hm]
    by_cases e : m = n
    · rw [if_pos e]
      refine ⟨_, rfl, ?_⟩
      dsimp only
      split
      · rename_i hp; exact List.isPerm_iff.1 hp
      · exact .refl _
    · rw [if_neg e]
      exact ⟨_, rfl, .refl _⟩
  · intro m h' hm
    simp only [Assoc.get_update] at hm
    by_cases hn : h'.shards = []
    · exact .inl hn
    · right
      by_cases e : m = n
      · rw [if_pos e] at hm
        obtain ⟨h0, hm0, rfl⟩ := Option.map_eq_some_iff.1 hm
        by_cases hp : l.isPerm h0.shards
        · rw [if_pos hp] at hn ⊢
          have hp' := List.isPerm_iff.1 hp
          exact ⟨hi.onReady m h0 hm0 (fun e => hn (by rw [e] at hp'; exact List.perm_nil.1 hp')), h0, hm0, hp'⟩
        · rw [if_neg hp] at hn ⊢
          exact ⟨hi.onReady _ _ hm0 hn, h0, hm0, .refl _⟩
      · rw [if_neg e] at hm
        exact ⟨hi.onReady _ _ hm hn, h', hm, .refl _⟩

theorem fresh_hosts (self : Nat) (nodes : List (Nat × Bool)) (hosts : Assoc Nat HostInfo)
    (hu : Assoc.Uniq hosts) (he : ∀ m h, hosts.get m = some h → h.shards = [])
    (hs : hosts.get self = some { status := .ready }) :
    Assoc.Uniq (nodes.foldl (addNode self) hosts) ∧
      (∀ m h, (nodes.foldl (addNode self) hosts).get m = some h → h.shards = []) ∧
      (nodes.foldl (addNode self) hosts).get self = some { status := .ready } := by
  induction nodes generalizing hosts with
  | nil => exact ⟨hu, he, hs⟩
  | cons p nodes ih =>
    rw [List.foldl_cons]
    unfold addNode at ih ⊢
    by_cases hp : p.1 = self
    · rw [if_pos hp]; exact ih hosts hu he hs
    · rw [if_neg hp]
      apply ih _ (hu.insert _ _)
      · intro m h hm
        rw [Assoc.get_insert] at hm
        by_cases e : m = p.1
        · rw [if_pos e] at hm; rw [← Option.some.inj hm]
        · rw [if_neg e] at hm; exact he m h hm
      · rw [Assoc.get_insert, if_neg (fun e => hp e.symm), hs]

theorem InvP.fresh (self : Nat) (nodes : List (Nat × Bool)) (j : List Nat) : Inv (Coord.fresh self nodes j) := by
  obtain ⟨h1, h2, h3⟩ := fresh_hosts self nodes [(self, { status := .ready })]
    (by simp [Assoc.Uniq]) (by intro m h; simp [Assoc.get_cons]; rintro _ rfl; rfl)
    (by simp [Assoc.get_cons])
  refine ⟨h1, .nil, ?_, .nil, by simp, ?_, ?_, ⟨_, h3⟩, rfl⟩
  · intro s m
    simp only [Coord.fresh, Assoc.get_nil, reduceCtorEq, List.not_mem_nil, and_false, or_false, false_iff,
      not_exists, not_and]
    intro h hm
    rw [h2 m h hm]; simp
  · intro m h hm; rw [h2 m h hm]; simp
  · intro m h hm hne; exact absurd (h2 m h hm) hne

/-- recovering a list of persisted messages. -/
def Coord.recoverAll (σ : Coord) (l : List Nat) : Coord := l.foldl (fun σ s => (σ.allocateShard s).1) σ

theorem InvP.recoverAll {σ : Coord} (hi : Inv σ) (l : List Nat) : Inv (σ.recoverAll l) := by
  unfold Coord.recoverAll
  induction l generalizing σ with
  | nil => exact hi
  | cons s l ih => exact ih (hi.allocateShard s)

theorem start_eq (self : Nat) (nodes : List (Nat × Bool)) (j : List Nat) :
    Coord.start self nodes j = (Coord.fresh self nodes j).recoverAll j := rfl

theorem InvP.start (self : Nat) (nodes : List (Nat × Bool)) (j : List Nat) : Inv (Coord.start self nodes j) := by
  rw [start_eq]; exact (InvP.fresh self nodes j).recoverAll j

theorem InvP.next {σ : Coord} (hi : Inv σ) (op : CoordOp) : Inv (σ.next op) := by
  unfold Coord.next
  cases op with
  | allocate s ok => exact hi.handleAllocate s false ok
  | rebalanceAll => exact hi.rebalanceAll
  | rebalanceShards l => exact hi.rebalanceShards l
  | nodeUnavailable n => exact hi.nodeUnavailable n
  | nodeAdded n => exact hi.nodeAdded n
  | nodeRemoved n => simp only [Coord.step, nodeRemoved_eq]; exact hi.nodeUnavailable n
  | stopAcked s n =>
    simp only [Coord.step]
    split
    · exact InvP.handleAllocate (σ := { σ with moving := σ.moving.erase (s, n) }) (hi.congr rfl rfl rfl rfl) s true true
    · exact hi
  | stopFailed s n => exact hi.congr rfl rfl rfl rfl
  | shuffle hosts => exact hi.shuffle hosts
  | shuffleSet n l => exact hi.shuffleSet n l
  | restart self nodes => exact InvP.start _ _ _

theorem InvP.run {σ : Coord} (hi : Inv σ) (ops : List CoordOp) : Inv (σ.run ops) := by
  unfold Coord.run
  induction ops generalizing σ with
  | nil => exact hi
  | cons op ops ih => exact ih (hi.next op)

theorem reach_inv (self : Nat) (nodes : List (Nat × Bool)) (j : List Nat) (ops : List CoordOp) :
    Inv ((Coord.start self nodes j).run ops) := (InvP.start self nodes j).run ops

end Verif.Sharding
