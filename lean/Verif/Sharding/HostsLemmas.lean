import Verif.Remote.DiscoveryProps
import Verif.Sharding.CoordinatorProps
import Verif.Sharding.HostsModel

/-!
# Lemmas about discovery, registry and coordinator of one node
-/

namespace Verif.Sharding.Hosts

open Verif.Remote

/-! ### The discovery -/

/-- the message says that node `n` has been identified at some address. -/
def identifies (n : Nat) : DOp → Prop
  | .discover env _ => ∃ addr i, env.identify addr = some i ∧ i.node.id = n
  | _ => False

/-- what one message does to the discovery. -/
structure Moves (d d' : Disc) (o : DOp) : Prop where
  added : ∃ l, d'.added = d.added ++ l ∧ (∀ m ∈ l, m ∈ d.discovering ∧ m ∈ d.shakes.map (·.id)) ∧
    ∀ m, m ∈ d.discovering → m ∈ d'.discovering ∨ m ∈ l
  removed : ∃ l, d'.removed = d.removed ++ l ∧ ∀ m ∈ l, (d.byId.get m).isSome
  known : ∀ m, (d.reg.get m).isSome → (d'.reg.get m).isSome
  live : ∀ m, d.reg.get m = some false → d'.reg.get m = some false ∨ o = .status m true
  fresh : ∀ m, (d'.reg.get m).isSome → (d.reg.get m).isSome ∨
    m ∈ (d'.shakes.drop d.shakes.length).map (·.id) ∧ m ∈ d'.discovering
  shakes : ∀ m, m ∈ d'.shakes.map (·.id) → m ∈ d.shakes.map (·.id) ∨ ¬ d.reg.get m = some false
  byId : ∀ m, (d'.byId.get m).isSome → (d.byId.get m).isSome ∨ identifies m o
  disc : ∀ m, m ∈ d'.discovering → m ∈ d.discovering ∨ (d'.reg.get m).isSome

theorem getIdentity_byId (env : DEnv) (d : Disc) (addr : String) (m : Nat)
    (h : ((d.getIdentity env addr).1.byId.get m).isSome) :
    (d.byId.get m).isSome ∨ ∃ a i, env.identify a = some i ∧ i.node.id = m := by
  unfold Disc.getIdentity at h
  split at h
  · exact .inl h
  · split at h
    · exact .inl h
    · rename_i i hi
      simp only [Assoc.get_insert] at h
      by_cases e : m = i.node.id
      · exact .inr ⟨addr, i, hi, e.symm⟩
      · rw [if_neg e] at h; exact .inl h

theorem discoverPeers_byId (env : DEnv) (self : Nat) (ps : List DNode) (s : Disc × Assoc Nat Identity) (m : Nat)
    (h : ((Disc.discoverPeers env self ps s).1.byId.get m).isSome) :
    (s.1.byId.get m).isSome ∨ ∃ a i, env.identify a = some i ∧ i.node.id = m := by
  induction ps generalizing s with
  | nil => exact .inl h
  | cons p ps ih =>
    obtain ⟨σ, found⟩ := s
    simp only [Disc.discoverPeers] at h
    split at h
    · exact ih (σ, found) h
    · split at h
      · exact ih (σ, found) h
      · have hg := getIdentity_byId env σ p.addr m
        split at h
        · rename_i σ' heq
          rw [heq] at hg
          exact (ih (σ', found) h).elim hg .inr
        · rename_i σ' i heq
          rw [heq] at hg
          exact (ih (σ', found.insert p.id i) h).elim hg .inr

theorem discoverAll_byId (env : DEnv) (self : Nat) (is : List Identity) (s : Disc × Assoc Nat Identity) (m : Nat)
    (h : ((Disc.discoverAll env self is s).1.byId.get m).isSome) :
    (s.1.byId.get m).isSome ∨ ∃ a i, env.identify a = some i ∧ i.node.id = m := by
  induction is generalizing s with
  | nil => exact .inl h
  | cons i is ih => exact (ih _ h).elim (discoverPeers_byId env self _ s m) .inr

theorem discoverAddr_byId (env : DEnv) (self : Nat) (d : Disc) (addr : String) (m : Nat)
    (h : ((d.discoverAddr env self addr).byId.get m).isSome) :
    (d.byId.get m).isSome ∨ ∃ a i, env.identify a = some i ∧ i.node.id = m := by
  unfold Disc.discoverAddr at h
  split at h
  · exact .inl h
  · have hg := getIdentity_byId env d addr m
    split at h
    · rename_i heq; rw [heq] at hg; exact hg h
    · rename_i σ' seed heq
      rw [heq] at hg
      dsimp only at h
      have h1 := discoverPeers_byId env self seed.peers (σ', [(seed.node.id, seed)]) m
      split at h
      · exact (discoverAll_byId env self _ _ m h).elim (fun h => (h1 h).elim hg .inr) .inr
      · exact (h1 h).elim hg .inr

theorem discoverPeers_removed (env : DEnv) (self : Nat) (ps : List DNode) (s : Disc × Assoc Nat Identity) :
    (Disc.discoverPeers env self ps s).1.removed = s.1.removed := by
  have hg : ∀ (σ : Disc) a, (σ.getIdentity env a).1.removed = σ.removed := by
    intro σ a; unfold Disc.getIdentity; split
    · rfl
    · split <;> rfl
  induction ps generalizing s with
  | nil => rfl
  | cons p ps ih =>
    obtain ⟨σ, found⟩ := s
    simp only [Disc.discoverPeers]
    split
    · exact ih (σ, found)
    · split
      · exact ih (σ, found)
      · have hs := hg σ p.addr
        split
        · rename_i σ' heq; rw [heq] at hs; exact (ih (σ', found)).trans hs
        · rename_i σ' i heq; rw [heq] at hs; exact (ih (σ', found.insert p.id i)).trans hs

theorem discoverAll_removed (env : DEnv) (self : Nat) (is : List Identity) (s : Disc × Assoc Nat Identity) :
    (Disc.discoverAll env self is s).1.removed = s.1.removed := by
  induction is generalizing s with
  | nil => rfl
  | cons i is ih => exact (ih _).trans (discoverPeers_removed env self _ s)

theorem discoverAddr_removed (env : DEnv) (self : Nat) (d : Disc) (addr : String) :
    (d.discoverAddr env self addr).removed = d.removed := by
  have hg : (d.getIdentity env addr).1.removed = d.removed := by
    unfold Disc.getIdentity; split
    · rfl
    · split <;> rfl
  unfold Disc.discoverAddr
  split
  · rfl
  · split
    · rename_i heq; rw [heq] at hg; exact hg
    · rename_i σ' seed heq
      rw [heq] at hg
      dsimp only
      split
      · exact ((discoverAll_removed env self _ _).trans (discoverPeers_removed env self _ _)).trans hg
      · exact (discoverPeers_removed env self _ _).trans hg

/-- what trying nodes one after the other does. -/
structure Tried (cur : List Nat) (d d' : Disc) : Prop where
  added : d'.added = d.added
  removed : d'.removed = d.removed
  byId : d'.byId = d.byId
  disc : ∀ m, m ∈ d.discovering → m ∈ d'.discovering
  disc' : ∀ m, m ∈ d'.discovering → m ∈ d.discovering ∨ (d'.reg.get m).isSome
  known : ∀ m, (d.reg.get m).isSome → (d'.reg.get m).isSome
  live : ∀ m, d.reg.get m = some false → d'.reg.get m = some false
  shakes : ∃ l, d'.shakes = d.shakes ++ l ∧ (∀ m ∈ l.map (·.id), m ∉ cur ∧ m ∈ d'.discovering) ∧
    ∀ m, (d'.reg.get m).isSome → (d.reg.get m).isSome ∨ m ∈ l.map (·.id)

theorem Tried.refl (cur : List Nat) (d : Disc) : Tried cur d d :=
  ⟨rfl, rfl, rfl, fun _ h => h, fun _ h => .inl h, fun _ h => h, fun _ h => h, [], by simp, by simp, fun _ h => .inl h⟩

theorem Tried.trans {cur : List Nat} {a b c : Disc} (h : Tried cur a b) (h' : Tried cur b c) : Tried cur a c := by
  obtain ⟨l, h1, h2, h3⟩ := h.shakes
  obtain ⟨l', h1', h2', h3'⟩ := h'.shakes
  refine ⟨h'.added.trans h.added, h'.removed.trans h.removed, h'.byId.trans h.byId,
    fun m hm => h'.disc m (h.disc m hm),
    fun m hm => (h'.disc' m hm).elim (fun hm => (h.disc' m hm).imp_right (h'.known m)) .inr, fun m hm => h'.known m (h.known m hm),
    fun m hm => h'.live m (h.live m hm), l ++ l', by rw [h1', h1, List.append_assoc], ?_, ?_⟩
  · intro m hm
    rw [List.map_append, List.mem_append] at hm
    rcases hm with hm | hm
    · exact ⟨(h2 m hm).1, h'.disc m (h2 m hm).2⟩
    · exact h2' m hm
  · intro m hm
    rw [List.map_append, List.mem_append]
    rcases h3' m hm with hm | hm
    · rcases h3 m hm with hm | hm
      · exact .inl hm
      · exact .inr (.inl hm)
    · exact .inr (.inr hm)

theorem tried_one (env : DEnv) (cur : List Nat) (d : Disc) (x : DNode) : Tried cur d (d.tryNode env cur x) := by
  unfold Disc.tryNode
  split
  · rename_i hc
    refine ⟨rfl, rfl, rfl, fun m hm => List.mem_cons_of_mem _ hm, ?_, ?_, ?_, [x], rfl, ?_, ?_⟩
    · intro m hm
      rcases List.mem_cons.1 hm with e | hm
      · exact .inr (by simp [e, Assoc.get_insert])
      · exact .inl hm
    · intro m hm
      simp only [Assoc.get_insert]
      split
      · rfl
      · exact hm
    · intro m hm
      simp only [Assoc.get_insert]
      split
      · rfl
      · exact hm
    · intro m hm
      have : m = x.id := by simpa using hm
      subst this
      exact ⟨hc.1, List.mem_cons_self⟩
    · intro m hm
      simp only [Assoc.get_insert] at hm
      by_cases e : m = x.id
      · exact .inr (by simp [e])
      · rw [if_neg e] at hm; exact .inl hm
  · exact .refl _ _

theorem tried_all (env : DEnv) (d : Disc) (ns : List DNode) : Tried d.current d (d.discoverNodes env ns) := by
  unfold Disc.discoverNodes
  generalize d.current = cur
  induction ns generalizing d with
  | nil => exact .refl _ _
  | cons n ns ih => exact (tried_one env cur d n).trans (ih _)

theorem Moves.of_tried {d d' : Disc} (hu : Assoc.Uniq d.reg) (h : Tried d.current d d') (o : DOp) : Moves d d' o := by
  obtain ⟨l, h1, h2, h3⟩ := h.shakes
  refine ⟨⟨[], by simp [h.added], by simp, fun m hm => .inl (h.disc m hm)⟩, ⟨[], by simp [h.removed], by simp⟩,
    h.known, fun m hm => .inl (h.live m hm), ?_, ?_, fun m hm => .inl (by rw [h.byId] at hm; exact hm), h.disc'⟩
  · intro m hm
    rcases h3 m hm with hm | hm
    · exact .inl hm
    · exact .inr ⟨by rw [h1, List.drop_left]; exact hm, (h2 m hm).2⟩
  · intro m hm
    rw [h1, List.map_append, List.mem_append] at hm
    rcases hm with hm | hm
    · exact .inl hm
    · exact .inr fun e => (h2 m hm).1 ((mem_current d hu m).2 e)

theorem moves {d : Disc} (h : DWF d) (self : Nat) (o : DOp) : Moves d (d.step self o) o := by
  cases o with
  | discover env addr =>
    have hs := discoverAddr_same env self d addr
    have hr := discoverAddr_removed env self d addr
    refine ⟨⟨[], ?_, by simp, ?_⟩, ⟨[], ?_, by simp⟩, ?_, ?_, ?_, ?_, ?_, ?_⟩
    · rw [List.append_nil]; exact hs.added
    · intro m hm; simp only [Disc.step]; rw [hs.discovering]; exact .inl hm
    · rw [List.append_nil]; exact hr
    · intro m hm; simp only [Disc.step]; rw [hs.reg]; exact hm
    · intro m hm; simp only [Disc.step]; rw [hs.reg]; exact .inl hm
    · intro m hm; simp only [Disc.step] at hm; rw [hs.reg] at hm; exact .inl hm
    · intro m hm; simp only [Disc.step] at hm; rw [hs.shakes] at hm; exact .inl hm
    · intro m hm; exact discoverAddr_byId env self d addr m hm
    · intro m hm; simp only [Disc.step] at hm; rw [hs.discovering] at hm; exact .inl hm
  | next env =>
    simp only [Disc.step]
    split
    · exact Moves.of_tried h.uniq (.refl _ _) _
    · rename_i ns q hq
      have := Moves.of_tried (d := { d with queue := q }) h.uniq (tried_all env { d with queue := q } ns) (.next env)
      exact ⟨this.1, this.2, this.3, this.4, this.5, this.6, this.7, this.8⟩
  | nodes env ns => exact Moves.of_tried h.uniq (tried_all env d ns) _
  | shaken i ok =>
    simp only [Disc.step]
    rcases Option.eq_none_or_eq_some (d.shakes[i]?) with hi | ⟨n, hi⟩
    · simp only [hi]; exact Moves.of_tried h.uniq (.refl _ _) _
    · simp only [hi]
      have hmem : n ∈ d.shakes := List.mem_of_getElem? hi
      have hsub : ∀ m, m ∈ (d.shakes.eraseIdx i).map (·.id) → m ∈ d.shakes.map (·.id) := fun m hm =>
        ((List.eraseIdx_sublist d.shakes i).map (·.id)).subset hm
      have hin := h.sub n hmem
      unfold Disc.nodeDiscovered
      split
      · refine ⟨⟨[n.id], rfl, ?_, ?_⟩, ⟨[], (List.append_nil _).symm, by simp⟩, fun _ h => h, fun _ h => .inl h,
          fun _ h => .inl h, fun m hm => .inl (hsub m hm), fun _ h => .inl h, fun m hm => .inl (List.mem_filter.1 hm).1⟩
        · intro m hm
          have : m = n.id := by simpa using hm
          subst this
          exact ⟨hin, List.mem_map_of_mem (f := (·.id)) hmem⟩
        · intro m hm
          by_cases e : m = n.id
          · exact .inr (by simp [e])
          · exact .inl (by simp [hm, e])
      · exact ⟨⟨[], (List.append_nil _).symm, by simp, fun _ h => .inl h⟩, ⟨[], (List.append_nil _).symm, by simp⟩,
          fun _ h => h, fun _ h => .inl h, fun _ h => .inl h, fun m hm => .inl (hsub m hm), fun _ h => .inl h,
          fun _ h => .inl h⟩
  | forget addr =>
    simp only [Disc.step, Disc.forget]
    split
    · exact Moves.of_tried h.uniq (.refl _ _) _
    · rename_i i hi
      refine ⟨⟨[], (List.append_nil _).symm, by simp, fun _ h => .inl h⟩, ?_, fun _ h => h, fun _ h => .inl h,
        fun _ h => .inl h, fun _ h => .inl h, ?_, fun _ h => .inl h⟩
      · by_cases e : (d.byId.get i.node.id).isSome
        · refine ⟨[i.node.id], by simp [e], ?_⟩
          intro m hm
          have : m = i.node.id := by simpa using hm
          subst this; exact e
        · exact ⟨[], by simp [e], by simp⟩
      · intro m hm
        simp only [Assoc.get_erase] at hm
        split at hm
        · simp at hm
        · exact .inl hm
  | status id t =>
    refine ⟨⟨[], (List.append_nil _).symm, by simp, fun _ h => .inl h⟩, ⟨[], (List.append_nil _).symm, by simp⟩,
      ?_, ?_, ?_, fun _ h => .inl h, fun _ h => .inl h, fun _ h => .inl h⟩
    · intro m hm
      simp only [Disc.step, Assoc.get_update]
      split
      · simpa using hm
      · exact hm
    · intro m hm
      simp only [Disc.step, Assoc.get_update]
      by_cases e : m = id
      · subst e
        cases t with
        | true => exact .inr rfl
        | false => exact .inl (by simp [hm])
      · rw [if_neg e]; exact .inl hm
    · intro m hm
      simp only [Disc.step, Assoc.get_update] at hm
      split at hm
      · exact .inl (by simpa using hm)
      · exact .inl hm

/-- discovery leaves node `n` alone: it is in the registry, not `Terminated`, and was never contacted or announced. -/
structure Unasked (d : Disc) (n : Nat) : Prop where
  live : d.reg.get n = some false
  shakes : n ∉ d.shakes.map (·.id)
  added : n ∉ d.added

theorem Unasked.step {d : Disc} {n : Nat} (hd : DWF d) (h : Unasked d n) (self : Nat) (o : DOp)
    (ho : o ≠ .status n true) : Unasked (d.step self o) n := by
  have hm := moves hd self o
  obtain ⟨l, ha, hl, _⟩ := hm.added
  refine ⟨(hm.live n h.live).resolve_right ho, fun h' => (hm.shakes n h').elim h.shakes (fun h' => h' h.live), ?_⟩
  rw [ha, List.mem_append, not_or]
  exact ⟨h.added, fun h' => h.shakes (hl n h').2⟩

/-! ### The coordinator -/

/-- what the coordinator has as the status of a node. -/
def statusOf (c : Coord) (n : Nat) : Option HostStatus := (c.hosts.get n).map (·.status)

theorem own_status {c : Coord} (hi : Inv c) {o : CoordOp} (ho : own o = true) (n : Nat) :
    statusOf (c.next o) n = statusOf c n := by
  unfold statusOf Coord.next
  cases o with
  | allocate t ok => simp only [Coord.step]; rw [handleAllocate_status]
  | rebalanceAll =>
    simp only [Coord.step, Coord.rebalanceAll]
    rw [if_neg (hosts_ne_nil hi), rebalanceShards_status]
  | rebalanceShards l => simp only [Coord.step]; rw [rebalanceShards_status]
  | stopAcked t m =>
    simp only [Coord.step]
    split
    · simp only [handleAllocate_status]
    · rfl
  | stopFailed t m => rfl
  | shuffle hosts =>
    simp only [Coord.step, Coord.shuffle]
    split
    · rename_i hp
      simp only
      rw [← Assoc.get_perm hi.hu (List.isPerm_iff.1 hp).symm]
    · rfl
  | shuffleSet m l =>
    simp only [Coord.step, Coord.shuffleSet, Assoc.get_update]
    split
    · rw [Option.map_map]
      congr 1
      funext h
      simp only [Function.comp]
      split <;> rfl
    · rfl
  | _ => simp [own] at ho

theorem added_status (c : Coord) (n m : Nat) :
    statusOf (c.next (.nodeAdded n)) m = if m = n then some .ready else statusOf c m := by
  unfold statusOf Coord.next
  simp only [Coord.step, Coord.nodeAdded]
  rcases Option.eq_none_or_eq_some (c.hosts.get n) with h0 | ⟨h', h0⟩
  · simp only [h0, Assoc.get_insert]
    split <;> rfl
  · simp only [h0]
    by_cases hr : h'.status = .ready
    · rw [if_pos hr]
      split
      · rename_i e; subst e; simp [h0, hr]
      · rfl
    · rw [if_neg hr]
      simp only [Assoc.get_update]
      split
      · rename_i e; subst e; simp [h0]
      · rfl

theorem removed_status (c : Coord) (n m : Nat) :
    statusOf (c.next (.nodeRemoved n)) m =
      if m = n then (statusOf c m).map fun _ => .unavailable else statusOf c m := by
  unfold statusOf Coord.next
  simp only [Coord.step, nodeRemoved_eq]
  rcases Option.eq_none_or_eq_some (c.hosts.get n) with h0 | ⟨h', h0⟩
  · rw [nodeUnavailable_none h0]
    split
    · rename_i e; subst e; simp [h0]
    · rfl
  · rw [unavailable_status h0]
    split
    · rename_i e; subst e; simp [h0]
    · rfl

theorem recover_status (c : Coord) (j : List Nat) (n : Nat) : statusOf (c.recoverAll j) n = statusOf c n := by
  unfold Coord.recoverAll
  induction j generalizing c with
  | nil => rfl
  | cons s j ih =>
    rw [List.foldl_cons, ih]
    exact allocateShard_status c s n

theorem nodes_status (self : Nat) (order : List Nat) (f : Nat → Bool) (hosts : Assoc Nat HostInfo) (n : Nat) :
    (((order.map fun k => (k, f k)).foldl (addNode self) hosts).get n).map (·.status) =
      if n ∈ order ∧ n ≠ self then some (if f n then .ready else .unavailable)
      else (hosts.get n).map (·.status) := by
  induction order generalizing hosts with
  | nil => simp
  | cons k order ih =>
    rw [List.map_cons, List.foldl_cons, ih]
    by_cases h1 : n ∈ order ∧ n ≠ self
    · have h2 : n ∈ k :: order ∧ n ≠ self := ⟨List.mem_cons_of_mem _ h1.1, h1.2⟩
      rw [if_pos h1, if_pos h2]
    · rw [if_neg h1]
      unfold addNode
      by_cases hk : k = self
      · rw [if_pos hk]
        have : ¬ (n ∈ k :: order ∧ n ≠ self) := by
          rintro ⟨h2, h3⟩
          rcases List.mem_cons.1 h2 with e | h2
          · exact h3 (e.trans hk)
          · exact h1 ⟨h2, h3⟩
        rw [if_neg this]
      · rw [if_neg hk]
        simp only [Assoc.get_insert]
        by_cases e : n = k
        · subst e
          have h2 : n ∈ n :: order ∧ n ≠ self := ⟨List.mem_cons_self, hk⟩
          rw [if_pos rfl, if_pos h2]; rfl
        · have : ¬ (n ∈ k :: order ∧ n ≠ self) := by
            rintro ⟨h2, h3⟩
            rcases List.mem_cons.1 h2 with e' | h2
            · exact e e'
            · exact h1 ⟨h2, h3⟩
          rw [if_neg e, if_neg this]

theorem start_status (self : Nat) (order : List Nat) (f : Nat → Bool) (j : List Nat) (n : Nat) :
    statusOf (Coord.start self (order.map fun k => (k, f k)) j) n =
      if n = self then some .ready
      else if n ∈ order then some (if f n then .ready else .unavailable) else none := by
  rw [start_eq, recover_status]
  unfold statusOf Coord.fresh
  simp only
  rw [nodes_status]
  by_cases e : n = self
  · subst e; simp [Assoc.get_cons]
  · by_cases ho : n ∈ order
    · simp [e, ho]
    · have : ¬ self = n := fun h => e h.symm
      simp [e, ho, Assoc.get_cons, this]

theorem status_ready (c : Coord) (n : Nat) : statusOf c n = some .ready ↔ ∃ h, c.Knows n h ∧ h.status = .ready := by
  unfold statusOf Coord.Knows
  rw [Option.map_eq_some_iff]

theorem status_isSome (c : Coord) (n : Nat) : (statusOf c n).isSome ↔ ∃ h, c.Knows n h := by
  unfold statusOf Coord.Knows
  rw [Option.isSome_map, Option.isSome_iff_exists]

/-! ### The node -/

theorem runFrom_cons (self : Nat) (w : Site) (o : Op) (ops : List Op) :
    w.runFrom self (o :: ops) = (w.step self o).runFrom self ops := rfl

theorem runFrom_snoc (self : Nat) (w : Site) (ops : List Op) (o : Op) :
    w.runFrom self (ops ++ [o]) = (w.runFrom self ops).step self o := by simp [Site.runFrom]

theorem step_disc (self : Nat) (w : Site) (o : DOp) :
    w.step self (.disc o) = w ∨
      w.step self (.disc o) = w.disced (w.disc.step self o) ∧ ∀ k t, o ≠ .status k t := by
  cases o with
  | status k t => exact .inl rfl
  | _ => exact .inr ⟨rfl, fun _ _ => nofun⟩

/-- an event says that a node is there, or that it has gone. -/
def Ev.word (n : Nat) : Ev → Option Bool
  | .added m => if m = n then some true else none
  | .removed m => if m = n then some false else none

/-- what the last of the events about node `n` says. -/
def lastWord (n : Nat) (evs : List Ev) : Option Bool := (evs.filterMap (Ev.word n)).getLast?

theorem lastWord_snoc (n : Nat) (evs : List Ev) (e : Ev) :
    lastWord n (evs ++ [e]) = (e.word n).or (lastWord n evs) := by
  unfold lastWord
  rw [List.filterMap_append]
  cases h : e.word n with
  | none => simp [h]
  | some b => simp [h]

/-- what holds of a node at any time. -/
structure Sound (me : Nat) (w : Site) : Prop where
  dwf : DWF w.disc
  inv : ∀ c, w.coord = some c → Inv c ∧ w.hearing = true
  disc : ∀ n ∈ w.disc.discovering, (w.disc.reg.get n).isSome
  told : ∀ n ∈ w.disc.added, (w.disc.reg.get n).isSome
  added : ∀ c, w.coord = some c → ∀ n ∈ w.disc.added, (statusOf c n).isSome ∨ Ev.added n ∈ w.inbox
  known : ∀ c, w.coord = some c → ∀ n, (w.disc.reg.get n).isSome →
    (statusOf c n).isSome ∨ Ev.added n ∈ w.inbox ∨ n ∈ w.disc.discovering
  view : ∀ c, w.coord = some c → ∀ n, statusOf c n = some .ready ↔
    match lastWord n w.heard with
    | some b => b = true
    | none => n = me ∨ (n, true) ∈ w.listed

theorem Sound.init (self : Nat) : Sound self (Site.init self) := by
  refine ⟨⟨?_, by simp [Site.init], by simp [Site.init]⟩, nofun, ?_, ?_, nofun, nofun, nofun⟩
  · simp [Site.init, Assoc.Uniq]
  · simp [Site.init]
  · simp [Site.init]

theorem drop_append_left {α : Type} {a b c : List α} (h : b = a ++ c) : b.drop a.length = c := by
  rw [h, List.drop_left]

theorem Sound.disced {self : Nat} {w : Site} (h : Sound self w) (o : DOp) :
    Sound self (w.disced (w.disc.step self o)) := by
  have hm := moves h.dwf self o
  obtain ⟨l, ha, hl, hd⟩ := hm.added
  refine ⟨h.dwf.step self o, h.inv, ?_, ?_, ?_, ?_, h.view⟩
  · intro n hn
    rcases hm.disc n hn with hn | hn
    · exact hm.known n (h.disc n hn)
    · exact hn
  · intro n hn
    have hn : n ∈ w.disc.added ++ l := ha ▸ hn
    rcases List.mem_append.1 hn with hn | hn
    · exact hm.known n (h.told n hn)
    · exact hm.known n (h.disc n (hl n hn).1)
  · intro c hc n hn
    have hh := (h.inv c hc).2
    simp only [Site.disced, hh, if_true, drop_append_left ha]
    have hn : n ∈ w.disc.added ++ l := ha ▸ hn
    rcases List.mem_append.1 hn with hn | hn
    · exact (h.added c hc n hn).imp_right fun h => List.mem_append_left _ h
    · exact .inr (List.mem_append_right _ (List.mem_map_of_mem hn))
  · intro c hc n hn
    have hh := (h.inv c hc).2
    simp only [Site.disced, hh, if_true, drop_append_left ha]
    rcases hm.fresh n hn with hn | hn
    · rcases h.known c hc n hn with h1 | h1 | h1
      · exact .inl h1
      · exact .inr (.inl (List.mem_append_left _ h1))
      · rcases hd n h1 with h1 | h1
        · exact .inr (.inr h1)
        · exact .inr (.inl (List.mem_append_right _ (List.mem_map_of_mem h1)))
    · exact .inr (.inr hn.2)

theorem hear_status (c : Coord) (e : Ev) (n : Nat) :
    statusOf (c.next e.op) n = match e.word n with
      | some true => some .ready
      | some false => (statusOf c n).map fun _ => .unavailable
      | none => statusOf c n := by
  cases e with
  | added m =>
    simp only [Ev.op, Ev.word]
    rw [added_status]
    by_cases h : n = m
    · subst h; simp
    · have : ¬ m = n := fun e => h e.symm
      simp [h, this]
  | removed m =>
    simp only [Ev.op, Ev.word]
    rw [removed_status]
    by_cases h : n = m
    · subst h; simp
    · have : ¬ m = n := fun e => h e.symm
      simp [h, this]

theorem hear_isSome (c : Coord) (e : Ev) (n : Nat) (h : (statusOf c n).isSome) : (statusOf (c.next e.op) n).isSome := by
  rw [hear_status]
  split
  · rfl
  · simpa using h
  · exact h

theorem Sound.step {self : Nat} {w : Site} (h : Sound self w) (o : Op) : Sound self (w.step self o) := by
  cases o with
  | disc o =>
    rcases step_disc self w o with e | ⟨e, _⟩
    · rw [e]; exact h
    · rw [e]; exact h.disced o
  | status n s =>
    have hm := moves h.dwf self (.status n (s = .terminated))
    have hk : ∀ m, ((w.disc.step self (.status n (s = .terminated))).reg.get m).isSome → (w.disc.reg.get m).isSome := by
      intro m hr
      simp only [Disc.step, Assoc.get_update] at hr
      split at hr
      · simpa using hr
      · exact hr
    exact ⟨h.dwf.step self (.status n (s = .terminated)), h.inv, fun n hn => hm.known n (h.disc n hn), fun n hn => hm.known n (h.told n hn),
      h.added, fun c hc n hn => h.known c hc n (hk n hn), h.view⟩
  | gone n =>
    simp only [Site.step]
    split
    · refine ⟨h.dwf, h.inv, h.disc, h.told, ?_, ?_, h.view⟩
      · intro c hc m hm
        simp only [(h.inv c hc).2, if_true]
        exact (h.added c hc m hm).imp_right fun h => List.mem_append_left _ h
      · intro c hc m hm
        simp only [(h.inv c hc).2, if_true]
        exact (h.known c hc m hm).imp_right (Or.imp_left fun h => List.mem_append_left _ h)
    · exact h
  | subscribe =>
    simp only [Site.step]
    split
    · exact h
    · rename_i hh
      have hn : ∀ c, ¬ w.coord = some c := fun c hc => hh (h.inv c hc).2
      exact ⟨h.dwf, fun c hc => absurd hc (hn c), h.disc, h.told, fun c hc => absurd hc (hn c),
        fun c hc => absurd hc (hn c), fun c hc => absurd hc (hn c)⟩
  | list order journal =>
    simp only [Site.step]
    split
    · rename_i hg
      have hp := List.isPerm_iff.1 hg.2.2
      have hmem : ∀ n, n ∈ order ↔ (w.disc.reg.get n).isSome := by
        intro n
        rw [hp.mem_iff, Assoc.get_isSome_iff]
        rfl
      have hk : ∀ n, (w.disc.reg.get n).isSome →
          (statusOf (Coord.start self (order.map fun n => (n, w.fine n)) journal) n).isSome := by
        intro n hn
        rw [start_status]
        split
        · rfl
        · rw [if_pos ((hmem n).2 hn)]; rfl
      refine ⟨h.dwf, ?_, h.disc, h.told, ?_, ?_, ?_⟩
      · rintro c ⟨⟩
        exact ⟨InvP.start _ _ _, hg.1⟩
      · rintro c ⟨⟩ n hn
        exact .inl (hk n (h.told n hn))
      · rintro c ⟨⟩ n hn
        exact .inl (hk n hn)
      · rintro c ⟨⟩ n
        rw [start_status]
        simp only [lastWord, List.filterMap_nil, List.getLast?_nil, List.mem_map, Prod.mk.injEq]
        by_cases e : n = self
        · simp [e]
        · by_cases ho : n ∈ order
          · cases hf : w.fine n with
            | true => simpa [e, ho, hf] using ⟨n, ho, rfl, hf⟩
            | false =>
              simp only [e, ho, if_false, if_true, false_or]
              constructor
              · intro h; simp at h
              · rintro ⟨k, _, rfl, hk⟩; simp [hf] at hk
          · simp only [e, ho, if_false, false_or]
            constructor
            · intro h; simp at h
            · rintro ⟨k, hk, rfl, _⟩; exact absurd hk ho
    · exact h
  | hear =>
    simp only [Site.step]
    split
    · rename_i c e es hc hes
      refine ⟨h.dwf, ?_, h.disc, h.told, ?_, ?_, ?_⟩
      · rintro c' ⟨⟩
        exact ⟨(h.inv c hc).1.next _, (h.inv c hc).2⟩
      · rintro c' ⟨⟩ n hn
        rcases h.added c hc n hn with h1 | h1
        · exact .inl (hear_isSome c e n h1)
        · rw [hes] at h1
          rcases List.mem_cons.1 h1 with h1 | h1
          · subst h1
            refine .inl ?_
            rw [hear_status]; simp [Ev.word]
          · exact .inr h1
      · rintro c' ⟨⟩ n hn
        rcases h.known c hc n hn with h1 | h1 | h1
        · exact .inl (hear_isSome c e n h1)
        · rw [hes] at h1
          rcases List.mem_cons.1 h1 with h1 | h1
          · subst h1
            refine .inl ?_
            rw [hear_status]; simp [Ev.word]
          · exact .inr (.inl h1)
        · exact .inr (.inr h1)
      · rintro c' ⟨⟩ n
        have hv := h.view c hc n
        rw [hear_status]
        simp only [lastWord_snoc]
        cases hw : e.word n with
        | none => simpa using hv
        | some b =>
          cases b with
          | true => simp
          | false => cases statusOf c n <;> simp
    · exact h
  | work o =>
    simp only [Site.step]
    split
    · rename_i c hc
      split
      · rename_i ho
        refine ⟨h.dwf, ?_, h.disc, h.told, ?_, ?_, ?_⟩
        · rintro c' ⟨⟩
          exact ⟨(h.inv c hc).1.next _, (h.inv c hc).2⟩
        · rintro c' ⟨⟩ n hn
          rw [own_status (h.inv c hc).1 ho]; exact h.added c hc n hn
        · rintro c' ⟨⟩ n hn
          rw [own_status (h.inv c hc).1 ho]; exact h.known c hc n hn
        · rintro c' ⟨⟩ n
          rw [own_status (h.inv c hc).1 ho]; exact h.view c hc n
      · exact h
    · exact h
  | finish =>
    exact ⟨h.dwf, nofun, h.disc, h.told, nofun, nofun, nofun⟩

theorem Sound.runFrom {self : Nat} {w : Site} (h : Sound self w) (ops : List Op) : Sound self (w.runFrom self ops) := by
  induction ops generalizing w with
  | nil => exact h
  | cons o ops ih => exact ih (h.step o)

theorem Sound.run (self : Nat) (ops : List Op) : Sound self (Site.run self ops) := (Sound.init self).runFrom ops

end Verif.Sharding.Hosts
