import Verif.Remote.DiscoveryModel

/-!
# C32, C60: discovering nodes
-/

namespace Verif.Remote

/-! ### Frames -/

/-- the part of the state that decides about announcements. -/
structure Disc.Same (σ τ : Disc) : Prop where
  discovering : τ.discovering = σ.discovering
  reg : τ.reg = σ.reg
  shakes : τ.shakes = σ.shakes
  added : τ.added = σ.added

theorem Disc.Same.refl (σ : Disc) : Disc.Same σ σ := ⟨rfl, rfl, rfl, rfl⟩
theorem Disc.Same.trans {σ τ υ : Disc} (h : Disc.Same σ τ) (h' : Disc.Same τ υ) : Disc.Same σ υ :=
  ⟨h'.1.trans h.1, h'.2.trans h.2, h'.3.trans h.3, h'.4.trans h.4⟩

theorem getIdentity_same (env : DEnv) (σ : Disc) (addr : String) : Disc.Same σ (σ.getIdentity env addr).1 := by
  unfold Disc.getIdentity
  split
  · exact .refl _
  · split
    · exact .refl _
    · exact ⟨rfl, rfl, rfl, rfl⟩

theorem discoverPeers_same (env : DEnv) (self : Nat) (ps : List DNode) (s : Disc × Assoc Nat Identity) :
    Disc.Same s.1 (Disc.discoverPeers env self ps s).1 := by
  induction ps generalizing s with
  | nil => exact .refl _
  | cons p ps ih =>
    obtain ⟨σ, found⟩ := s
    simp only [Disc.discoverPeers]
    split
    · exact ih (σ, found)
    · split
      · exact ih (σ, found)
      · have hs := getIdentity_same env σ p.addr
        split
        · rename_i σ' heq
          rw [heq] at hs
          exact hs.trans (ih (σ', found))
        · rename_i σ' i heq
          rw [heq] at hs
          exact hs.trans (ih (σ', found.insert p.id i))

theorem discoverAll_same (env : DEnv) (self : Nat) (is : List Identity) (s : Disc × Assoc Nat Identity) :
    Disc.Same s.1 (Disc.discoverAll env self is s).1 := by
  induction is generalizing s with
  | nil => exact .refl _
  | cons i is ih => exact (discoverPeers_same env self _ s).trans (ih _)

theorem discoverAddr_same (env : DEnv) (self : Nat) (σ : Disc) (addr : String) :
    Disc.Same σ (σ.discoverAddr env self addr) := by
  unfold Disc.discoverAddr
  split
  · exact .refl _
  · have hs := getIdentity_same env σ addr
    split
    · rename_i heq; rw [heq] at hs; exact hs
    · rename_i σ' seed heq
      rw [heq] at hs
      have h1 := discoverPeers_same env self seed.peers (σ', [(seed.node.id, seed)])
      dsimp only
      split
      · rename_i hlt
        have h2 := discoverAll_same env self
          (Disc.discoverPeers env self seed.peers (σ', [(seed.node.id, seed)])).2.vals
          (Disc.discoverPeers env self seed.peers (σ', [(seed.node.id, seed)]))
        have h3 := (hs.trans h1).trans h2
        exact ⟨h3.1, h3.2, h3.3, h3.4⟩
      · have h3 := hs.trans h1
        exact ⟨h3.1, h3.2, h3.3, h3.4⟩

theorem mem_current (σ : Disc) (hu : Assoc.Uniq σ.reg) (id : Nat) :
    id ∈ σ.current ↔ σ.reg.get id = some false := by
  unfold Disc.current
  simp only [List.mem_map, List.mem_filter]
  constructor
  · rintro ⟨⟨i, b⟩, ⟨hm, hb⟩, rfl⟩
    have : b = false := by simpa using hb
    subst this
    exact Assoc.get_of_mem hu hm
  · intro h
    exact ⟨(id, false), ⟨Assoc.mem_of_get h, rfl⟩, rfl⟩

/-! ### Invariant -/

/-- the registry has unique ids; every handshake under way is of a node being discovered, one each. -/
structure DWF (σ : Disc) : Prop where
  uniq : Assoc.Uniq σ.reg
  nodup : (σ.shakes.map (·.id)).Nodup
  sub : ∀ n ∈ σ.shakes, n.id ∈ σ.discovering

theorem DWF.same {σ τ : Disc} (h : DWF σ) (hs : Disc.Same σ τ) : DWF τ :=
  ⟨by rw [hs.reg]; exact h.uniq, by rw [hs.shakes]; exact h.nodup,
   by rw [hs.shakes, hs.discovering]; exact h.sub⟩

theorem DWF.tryNode {σ : Disc} (h : DWF σ) (env : DEnv) (cur : List Nat) (n : DNode) :
    DWF (σ.tryNode env cur n) := by
  unfold Disc.tryNode
  split
  · rename_i hc
    refine ⟨h.uniq.insert _ _, ?_, ?_⟩
    · simp only [List.map_append, List.map_cons, List.map_nil]
      rw [List.nodup_append]
      refine ⟨h.nodup, by simp, ?_⟩
      intro a ha b hb e
      simp at hb; subst hb; subst e
      obtain ⟨m, hm, e⟩ := List.mem_map.1 ha
      exact hc.2.1 (e ▸ h.sub m hm)
    · intro m hm
      simp only [List.mem_append, List.mem_singleton] at hm
      rcases hm with hm | rfl
      · exact List.mem_cons_of_mem _ (h.sub m hm)
      · exact List.mem_cons_self
  · exact h

theorem DWF.discoverNodes {σ : Disc} (h : DWF σ) (env : DEnv) (ns : List DNode) :
    DWF (σ.discoverNodes env ns) := by
  unfold Disc.discoverNodes
  generalize σ.current = cur
  induction ns generalizing σ with
  | nil => exact h
  | cons n ns ih => exact ih (h.tryNode env cur n)

theorem nodup_ids_erase {l : List DNode} {i : Nat} {n : DNode} (hn : (l.map (·.id)).Nodup)
    (hi : l[i]? = some n) : ∀ m ∈ l.eraseIdx i, m.id ≠ n.id := by
  intro m hm e
  rw [List.mem_eraseIdx_iff_getElem?] at hm
  obtain ⟨j, hji, hj⟩ := hm
  obtain ⟨hi1, hi2⟩ := List.getElem?_eq_some_iff.1 hi
  obtain ⟨hj1, hj2⟩ := List.getElem?_eq_some_iff.1 hj
  have := List.pairwise_iff_getElem.1 hn
  rcases Nat.lt_or_gt_of_ne hji with h | h
  · exact this j i (by simpa using hj1) (by simpa using hi1) h (by simp [hj2, hi2, e])
  · exact this i j (by simpa using hi1) (by simpa using hj1) h (by simp [hj2, hi2, e])

theorem DWF.step {σ : Disc} (h : DWF σ) (self : Nat) (op : DOp) : DWF (σ.step self op) := by
  cases op with
  | discover env addr => exact h.same (discoverAddr_same env self σ addr)
  | next env =>
    simp only [Disc.step]
    split
    · exact h
    · rename_i ns q hq
      exact DWF.discoverNodes (σ := { σ with queue := q }) ⟨h.uniq, h.nodup, h.sub⟩ env ns
  | nodes env ns => exact h.discoverNodes env ns
  | shaken i ok =>
    simp only [Disc.step]
    rcases Option.eq_none_or_eq_some (σ.shakes[i]?) with hi | ⟨n, hi⟩
    · simp only [hi]; exact h
    · simp only [hi]
      have hne := nodup_ids_erase h.nodup hi
      have hsub : (σ.shakes.eraseIdx i).Sublist σ.shakes := List.eraseIdx_sublist _ _
      have hnd := h.nodup.sublist (hsub.map (·.id))
      unfold Disc.nodeDiscovered
      split
      · split
        · refine ⟨h.uniq, hnd, ?_⟩
          intro m hm
          simp only [List.mem_filter, decide_eq_true_eq]
          exact ⟨h.sub m (hsub.subset hm), hne m hm⟩
        · exact ⟨h.uniq, hnd, fun m hm => h.sub m (hsub.subset hm)⟩
      · exact ⟨h.uniq, hnd, fun m hm => h.sub m (hsub.subset hm)⟩
  | forget addr =>
    simp only [Disc.step, Disc.forget]
    split
    · exact h
    · exact ⟨h.uniq, h.nodup, h.sub⟩
  | status id t => exact ⟨by simpa [Disc.step] using h.uniq.update id _, h.nodup, h.sub⟩

theorem drun_snoc (self : Nat) (σ : Disc) (ops : List DOp) (op : DOp) :
    σ.run self (ops ++ [op]) = (σ.run self ops).step self op := by simp [Disc.run]

theorem DWF.run {σ : Disc} (h : DWF σ) (self : Nat) (ops : List DOp) : DWF (σ.run self ops) := by
  induction ops using snoc_induction with
  | nil => exact h
  | snoc ops op ih => rw [drun_snoc]; exact ih.step self op

theorem DWF.init : DWF {} := ⟨Assoc.Uniq.nil, by simp, by simp⟩

/-! ### Once -/

/-- the operation marks node `id` terminated. -/
def DOp.terminates (id : Nat) : DOp → Bool
  | .status i t => i = id && t
  | _ => false

/-- announcements of `id`, and one if it is about to be announced. -/
def dueOf (added discovering : List Nat) (id : Nat) : Nat :=
  added.count id + if id ∈ discovering then 1 else 0

def Disc.due (σ : Disc) (id : Nat) : Nat := dueOf σ.added σ.discovering id

/-- one if the node counts as known. -/
def liveOf (s : Option Bool) : Nat := if s = some false then 1 else 0

def Disc.live (σ : Disc) (id : Nat) : Nat := liveOf (σ.reg.get id)

theorem liveOf_le (s : Option Bool) : liveOf s ≤ 1 := by unfold liveOf; split <;> omega

theorem tryNode_due (env : DEnv) (σ : Disc) (cur : List Nat) (n : DNode) (id : Nat)
    (hcur : σ.reg.get id = some false → id ∈ cur ∨ id ∈ σ.discovering) :
    ((σ.tryNode env cur n).due id + σ.live id ≤ σ.due id + (σ.tryNode env cur n).live id) ∧
    ((σ.tryNode env cur n).reg.get id = some false → id ∈ cur ∨ id ∈ (σ.tryNode env cur n).discovering) := by
  unfold Disc.tryNode
  split
  · rename_i hc
    unfold Disc.due Disc.live
    simp only [Assoc.get_insert, List.mem_cons]
    by_cases hid : id = n.id
    · subst hid
      have : ¬ σ.reg.get n.id = some false := fun e => (hcur e).elim hc.1 hc.2.1
      simp [dueOf, liveOf, hc.2.1, this]
    · have e : dueOf σ.added (n.id :: σ.discovering) id = dueOf σ.added σ.discovering id := by
        simp [dueOf, hid]
      simp only [hid, if_false, false_or, e]
      exact ⟨Nat.le_refl _, hcur⟩
  · exact ⟨Nat.le_refl _, hcur⟩

theorem discoverNodes_due (env : DEnv) (σ : Disc) (hu : Assoc.Uniq σ.reg) (ns : List DNode) (id : Nat) :
    (σ.discoverNodes env ns).due id + σ.live id ≤ σ.due id + (σ.discoverNodes env ns).live id := by
  unfold Disc.discoverNodes
  have hcur : σ.reg.get id = some false → id ∈ σ.current ∨ id ∈ σ.discovering :=
    fun e => .inl ((mem_current σ hu id).2 e)
  generalize hc : σ.current = cur at *
  clear hc hu
  induction ns generalizing σ with
  | nil => exact Nat.le_refl _
  | cons n ns ih =>
    obtain ⟨h1, h2⟩ := tryNode_due env σ cur n id hcur
    have h3 := ih (σ.tryNode env cur n) h2
    simp only [List.foldl_cons]
    omega

theorem filter_mem {l : List Nat} {a b : Nat} : a ∈ l.filter (· ≠ b) ↔ a ∈ l ∧ a ≠ b := by simp

theorem step_due (self : Nat) (σ : Disc) (h : DWF σ) (op : DOp) (id : Nat) :
    (σ.step self op).due id + σ.live id ≤
      σ.due id + (σ.step self op).live id + (if op.terminates id then 1 else 0) := by
  cases op with
  | discover env addr =>
    have hs := discoverAddr_same env self σ addr
    simp only [Disc.step, Disc.due, Disc.live, hs.discovering, hs.reg, hs.added]
    omega
  | next env =>
    simp only [Disc.step]
    split
    · omega
    · rename_i ns q hq
      have := discoverNodes_due env { σ with queue := q } h.uniq ns id
      simp only [Disc.due, Disc.live] at this ⊢
      omega
  | nodes env ns =>
    have := discoverNodes_due env σ h.uniq ns id
    simp only [Disc.step]
    omega
  | shaken i ok =>
    simp only [Disc.step]
    rcases Option.eq_none_or_eq_some (σ.shakes[i]?) with hi | ⟨n, hi⟩
    · simp only [hi]; omega
    · simp only [hi, Disc.nodeDiscovered]
      split
      · split
        · rename_i hin
          have e : dueOf (σ.added ++ [n.id]) (σ.discovering.filter (· ≠ n.id)) id =
              dueOf σ.added σ.discovering id := by
            unfold dueOf
            rw [List.count_append, List.count_singleton]
            by_cases hid : id = n.id
            · subst hid; simp [hin]
            · have : ¬ n.id = id := fun e => hid e.symm
              simp [hid, this]
          simp only [Disc.due, Disc.live, e]
          omega
        · simp only [Disc.due, Disc.live]; omega
      · simp only [Disc.due, Disc.live]; omega
  | forget addr =>
    simp only [Disc.step, Disc.forget]
    split
    · omega
    · simp only [Disc.due, Disc.live]; omega
  | status i t =>
    simp only [Disc.step, Disc.due, Disc.live, Assoc.get_update, DOp.terminates]
    have hle := liveOf_le (σ.reg.get id)
    by_cases hid : i = id
    · subst hid
      cases t with
      | true =>
        simp only [Bool.and_true, decide_true, if_true]
        omega
      | false =>
        simp only [if_true, Bool.and_false, Bool.false_eq_true, if_false]
        rcases Option.eq_none_or_eq_some (σ.reg.get i) with hg | ⟨b, hg⟩
        · rw [hg]; simp
        · have : liveOf ((σ.reg.get i).map fun _ => false) = 1 := by simp [hg, liveOf]
          omega
    · have : ¬ id = i := fun e => hid e.symm
      simp only [this, if_false, hid, decide_false, Bool.false_and, Bool.false_eq_true]
      omega

/-- **C32 (once).** A node is announced at most once, plus once for each time it was marked terminated:
discovering a known node again announces nothing. -/
theorem C32_once (self : Nat) (ops : List DOp) (id : Nat) :
    ((({} : Disc).run self ops).added.count id) ≤ 1 + (ops.filter (·.terminates id)).length := by
  suffices h : (({} : Disc).run self ops).due id ≤
      (({} : Disc).run self ops).live id + (ops.filter (·.terminates id)).length by
    have : (({} : Disc).run self ops).live id ≤ 1 := liveOf_le _
    unfold Disc.due dueOf at h
    omega
  induction ops using snoc_induction with
  | nil => simp [Disc.run, Disc.due, Disc.live, dueOf, liveOf]
  | snoc ops op ih =>
    have hs := step_due self _ (DWF.init.run self ops) op id
    rw [drun_snoc, List.filter_append, List.length_append]
    have : ([op].filter (·.terminates id)).length = if op.terminates id then 1 else 0 := by
      by_cases ht : op.terminates id = true <;> simp [ht]
    rw [this]
    omega

/-- **C32 (known).** Discovering an address already discovered does nothing. -/
theorem C32_known_address (self : Nat) (σ : Disc) (env : DEnv) (addr : String) (i : Identity)
    (h : σ.byAddr.get addr = some i) : σ.step self (.discover env addr) = σ := by
  simp [Disc.step, Disc.discoverAddr, h]

/-- **C32 (known).** Discovering nodes that are known and not terminated does nothing. -/
theorem C32_known_nodes (self : Nat) (σ : Disc) (hw : DWF σ) (env : DEnv) (ns : List DNode)
    (h : ∀ n ∈ ns, σ.reg.get n.id = some false) : σ.step self (.nodes env ns) = σ := by
  simp only [Disc.step, Disc.discoverNodes]
  have hc : ∀ n ∈ ns, n.id ∈ σ.current := fun n hn => (mem_current σ hw.uniq n.id).2 (h n hn)
  generalize hcur : σ.current = cur at hc
  clear h hcur
  induction ns with
  | nil => rfl
  | cons n ns ih =>
    have : σ.tryNode env cur n = σ := by
      unfold Disc.tryNode
      rw [if_neg]
      exact fun e => e.1 (hc n (by simp))
    rw [List.foldl_cons, this]
    exact ih (fun m hm => hc m (by simp [hm]))

/-- **C32 (new nodes).** A node that is not known, not being discovered and can be reached is contacted,
and announced when the handshake succeeds. -/
theorem C32_announced_partial (self : Nat) (σ : Disc) (hw : DWF σ) (env : DEnv) (n : DNode)
    (h1 : σ.reg.get n.id ≠ some false) (h2 : n.id ∉ σ.discovering) (h3 : env.client n.addr = true) :
    ∃ i, (σ.step self (.nodes env [n])).shakes[i]? = some n ∧
      ((σ.run self [.nodes env [n], .shaken i true]).added = σ.added ++ [n.id]) ∧
      (σ.run self [.nodes env [n], .shaken i true]).reg.get n.id = some false := by
  have hc : n.id ∉ σ.current := fun e => h1 ((mem_current σ hw.uniq n.id).1 e)
  have hstep : σ.step self (.nodes env [n]) =
      { σ with reg := σ.reg.insert n.id false
               discovering := n.id :: σ.discovering
               shakes := σ.shakes ++ [n] } := by
    simp [Disc.step, Disc.discoverNodes, Disc.tryNode, hc, h2, h3]
  refine ⟨σ.shakes.length, ?_, ?_, ?_⟩
  · rw [hstep]; simp
  · simp only [Disc.run, List.foldl_cons, List.foldl_nil, hstep]
    simp [Disc.step, Disc.nodeDiscovered]
  · simp only [Disc.run, List.foldl_cons, List.foldl_nil, hstep]
    simp [Disc.step, Disc.nodeDiscovered, Assoc.get_insert]

/-- **C32 (forgotten).** A node that was forgotten and has terminated, and is not being discovered, can
be discovered again by its address. -/
theorem C32_rediscover_partial (self : Nat) (σ : Disc) (hw : DWF σ) (env : DEnv) (n : DNode)
    (h1 : σ.reg.get n.id = some true) (h2 : n.id ∉ σ.discovering) (h3 : env.client n.addr = true)
    (h4 : env.identify n.addr = some ⟨n, []⟩) (hq : σ.queue = []) :
    ∃ i, (σ.run self [.forget n.addr, .discover env n.addr, .next env, .shaken i true]).added =
      σ.added ++ [n.id] := by
  have hforget : Disc.Same σ (σ.forget n.addr) ∧ (σ.forget n.addr).byAddr.get n.addr = none ∧
      (σ.forget n.addr).queue = σ.queue := by
    unfold Disc.forget
    split
    · rename_i e; exact ⟨.refl _, e, rfl⟩
    · exact ⟨⟨rfl, rfl, rfl, rfl⟩, by simp [Assoc.get_erase], rfl⟩
  obtain ⟨hs, hb, hq'⟩ := hforget
  have hw' := hw.same hs
  let τ := σ.forget n.addr
  have hdisc : ∃ υ : Disc, τ.step self (.discover env n.addr) = { υ with queue := [[n]] } ∧ Disc.Same τ υ := by
    refine ⟨{ τ with byAddr := (τ.byAddr.insert n.addr ⟨n, []⟩).insert n.addr ⟨n, []⟩
                     byId := τ.byId.insert n.id ⟨n, []⟩ }, ?_, ⟨rfl, rfl, rfl, rfl⟩⟩
    have hq2 : τ.queue = [] := by show (σ.forget n.addr).queue = []; rw [hq', hq]
    have hb2 : τ.byAddr.get n.addr = none := hb
    simp [Disc.step, Disc.discoverAddr, hb2, Disc.getIdentity, h4, Disc.discoverPeers, Assoc.vals, hq2]
  obtain ⟨υ, hυ, hsυ⟩ := hdisc
  have hws := hw'.same hsυ
  have hreg : υ.reg = σ.reg := by rw [hsυ.reg]; exact hs.reg
  have hdc : υ.discovering = σ.discovering := by rw [hsυ.discovering]; exact hs.discovering
  obtain ⟨i, _, hadd, _⟩ := C32_announced_partial self { υ with queue := [] } ⟨hws.uniq, hws.nodup, hws.sub⟩ env n
    (by simp only [hreg, h1]; simp) (by simp only [hdc]; exact h2) h3
  refine ⟨i, ?_⟩
  have e : σ.run self [.forget n.addr, .discover env n.addr, .next env, .shaken i true] =
      ({ υ with queue := [] } : Disc).run self [.nodes env [n], .shaken i true] := by
    have : σ.run self [.forget n.addr, .discover env n.addr, .next env, .shaken i true] =
      (τ.step self (.discover env n.addr)).run self [.next env, .shaken i true] := rfl
    rw [this, hυ]
    rfl
  rw [e, hadd]
  show υ.added ++ [n.id] = _
  rw [hsυ.added, show τ.added = σ.added from hs.added]

/-! ### What goes wrong -/

theorem tryNode_stuck (env : DEnv) (cur : List Nat) (σ : Disc) (n : DNode) (id : Nat)
    (h1 : id ∈ σ.discovering) (h2 : ∀ m ∈ σ.shakes, m.id ≠ id) :
    id ∈ (σ.tryNode env cur n).discovering ∧ (∀ m ∈ (σ.tryNode env cur n).shakes, m.id ≠ id) ∧
    (σ.tryNode env cur n).added = σ.added := by
  unfold Disc.tryNode
  split
  · rename_i hc
    refine ⟨List.mem_cons_of_mem _ h1, ?_, rfl⟩
    intro m hm
    simp only [List.mem_append, List.mem_singleton] at hm
    rcases hm with hm | rfl
    · exact h2 m hm
    · intro e; exact hc.2.1 (e ▸ h1)
  · exact ⟨h1, h2, rfl⟩

theorem discoverNodes_stuck (env : DEnv) (σ : Disc) (ns : List DNode) (id : Nat)
    (h1 : id ∈ σ.discovering) (h2 : ∀ m ∈ σ.shakes, m.id ≠ id) :
    id ∈ (σ.discoverNodes env ns).discovering ∧ (∀ m ∈ (σ.discoverNodes env ns).shakes, m.id ≠ id) ∧
    (σ.discoverNodes env ns).added = σ.added := by
  unfold Disc.discoverNodes
  generalize σ.current = cur
  induction ns generalizing σ with
  | nil => exact ⟨h1, h2, rfl⟩
  | cons n ns ih =>
    obtain ⟨a, b, c⟩ := tryNode_stuck env cur σ n id h1 h2
    obtain ⟨a', b', c'⟩ := ih _ a b
    exact ⟨a', b', c'.trans c⟩

/-- a node being discovered without a handshake under way is never announced again, whatever happens. -/
theorem stuck_forever (self : Nat) (σ : Disc) (id : Nat) (h1 : id ∈ σ.discovering)
    (h2 : ∀ m ∈ σ.shakes, m.id ≠ id) (ops : List DOp) :
    (σ.run self ops).added.count id = σ.added.count id := by
  suffices h : id ∈ (σ.run self ops).discovering ∧ (∀ m ∈ (σ.run self ops).shakes, m.id ≠ id) ∧
      (σ.run self ops).added.count id = σ.added.count id from h.2.2
  induction ops using snoc_induction with
  | nil => exact ⟨h1, h2, rfl⟩
  | snoc ops op ih =>
    obtain ⟨a, b, c⟩ := ih
    rw [drun_snoc]
    generalize σ.run self ops = τ at *
    cases op with
    | discover env addr =>
      have hs := discoverAddr_same env self τ addr
      simp only [Disc.step, hs.discovering, hs.shakes, hs.added]
      exact ⟨a, b, c⟩
    | next env =>
      simp only [Disc.step]
      split
      · exact ⟨a, b, c⟩
      · rename_i ns q hq
        obtain ⟨x, y, z⟩ := discoverNodes_stuck env { τ with queue := q } ns id a b
        exact ⟨x, y, by rw [z]; exact c⟩
    | nodes env ns =>
      obtain ⟨x, y, z⟩ := discoverNodes_stuck env τ ns id a b
      exact ⟨x, y, by show List.count id (τ.discoverNodes env ns).added = _; rw [z]; exact c⟩
    | shaken i ok =>
      simp only [Disc.step]
      rcases Option.eq_none_or_eq_some (τ.shakes[i]?) with hi | ⟨n, hi⟩
      · simp only [hi]; exact ⟨a, b, c⟩
      · simp only [hi]
        have hne : n.id ≠ id := b n (List.mem_of_getElem? hi)
        have hb : ∀ m ∈ τ.shakes.eraseIdx i, m.id ≠ id := fun m hm => b m (List.mem_of_mem_eraseIdx hm)
        unfold Disc.nodeDiscovered
        split
        · split
          · refine ⟨filter_mem.2 ⟨a, Ne.symm hne⟩, hb, ?_⟩
            simp only [List.count_append, List.count_singleton]
            simp [hne, c]
          · exact ⟨a, hb, c⟩
        · exact ⟨a, hb, c⟩
    | forget addr =>
      simp only [Disc.step, Disc.forget]
      split <;> exact ⟨a, b, c⟩
    | status i t => exact ⟨a, b, c⟩

/-- **C32 refuted (failed handshake).** A node whose handshake failed is never announced afterwards,
whatever else happens: not when it is discovered again, nor when it was forgotten or terminated before. -/
theorem C32_failed_refuted (self : Nat) (ops ops' : List DOp) (i : Nat) (n : DNode)
    (hi : (({} : Disc).run self ops).shakes[i]? = some n) :
    (({} : Disc).run self (ops ++ .shaken i false :: ops')).added.count n.id =
      (({} : Disc).run self ops).added.count n.id := by
  have hw := DWF.init.run self ops
  have e : ({} : Disc).run self (ops ++ .shaken i false :: ops') =
      ((({} : Disc).run self ops).step self (.shaken i false)).run self ops' := by simp [Disc.run]
  rw [e]
  have hst : (({} : Disc).run self ops).step self (.shaken i false) =
      { ({} : Disc).run self ops with shakes := (({} : Disc).run self ops).shakes.eraseIdx i } := by
    simp [Disc.step, hi, Disc.nodeDiscovered]
  rw [hst]
  exact stuck_forever self
    { ({} : Disc).run self ops with shakes := (({} : Disc).run self ops).shakes.eraseIdx i } n.id (hw.sub n (List.mem_of_getElem? hi)) (nodup_ids_erase hw.nodup hi) ops'

/-- everything can be reached. -/
def demoEnv (ids : List (String × Identity)) : DEnv := { identify := fun a => Assoc.get ids a, client := fun _ => true }

/-- **C32 refuted (failed handshake, instance).** -/
theorem C32_failed_instance_refuted :
    let e := demoEnv [("b", ⟨⟨2, "b"⟩, []⟩)]
    let σ := ({} : Disc).run 1 [.discover e "b", .next e, .shaken 0 false, .status 2 true, .forget "b",
      .discover e "b", .next e, .shaken 0 true]
    σ.added = [] ∧ σ.shakes = [] := by decide

/-- **C32 refuted (no client).** A node that identified itself but whose own address could not be
connected to is neither known nor tried again by address: the address counts as discovered. -/
theorem C32_no_client_refuted :
    let e : DEnv := { identify := fun _ => some ⟨⟨2, "b"⟩, []⟩, client := fun _ => false }
    let e' : DEnv := { e with client := fun _ => true }
    let σ := ({} : Disc).run 1 [.discover e "b", .next e, .discover e' "b", .next e']
    σ.added = [] ∧ σ.shakes = [] ∧ σ.reg = [] := by decide

/-- **C32 refuted (forgotten, still known).** A node that was forgotten but not marked terminated is not
discovered again. -/
theorem C32_forgotten_refuted :
    let e := demoEnv [("b", ⟨⟨2, "b"⟩, []⟩)]
    let σ := ({} : Disc).run 1 [.discover e "b", .next e, .shaken 0 true, .forget "b", .discover e "b", .next e]
    σ.removed = [2] ∧ σ.added = [2] ∧ σ.shakes = [] := by decide

/-- **C32 refuted (alias).** A node found at an address other than its own is not forgotten under that
address: discovering it there again does nothing, even after it was forgotten and has terminated. -/
theorem C32_alias_refuted :
    let e := demoEnv [("alias", ⟨⟨2, "b"⟩, []⟩)]
    let σ := ({} : Disc).run 1 [.discover e "alias", .next e, .shaken 0 true, .status 2 true, .forget "b",
      .discover e "alias", .next e]
    σ.removed = [2] ∧ σ.added = [2] ∧ σ.shakes = [] := by decide

/-! ### How far discovery reaches -/

/-- **C60.** The seed itself is always among the nodes to contact, if it answers. -/
theorem C60_seed (env : DEnv) (self : Nat) (σ : Disc) (addr : String) (i : Identity)
    (h : σ.byAddr.get addr = none) (hi : env.identify addr = some i) :
    ∃ ns, (σ.discoverAddr env self addr).queue = σ.queue ++ [ns] ∧ i.node ∈ ns := by
  have hkeep : ∀ (ps : List DNode) (s : Disc × Assoc Nat Identity) (k : Nat) (x : Identity),
      (k, x) ∈ s.2 → (k, x) ∈ (Disc.discoverPeers env self ps s).2 ∧ (Disc.discoverPeers env self ps s).1.queue = s.1.queue := by
    intro ps
    induction ps with
    | nil => intro s k x hx; exact ⟨hx, rfl⟩
    | cons p ps ih =>
      rintro ⟨τ, found⟩ k x hx
      simp only [Disc.discoverPeers]
      split
      · exact ih _ k x hx
      · rcases Option.eq_none_or_eq_some (found.get p.id) with hp | ⟨y, hp⟩
        · simp only [hp]
          have hq : (τ.getIdentity env p.addr).1.queue = τ.queue := by
            unfold Disc.getIdentity
            split
            · rfl
            · split <;> rfl
          split
          · rename_i τ' heq
            rw [heq] at hq
            have := ih (τ', found) k x hx
            exact ⟨this.1, this.2.trans hq⟩
          · rename_i τ' j heq
            rw [heq] at hq
            have hx' : (k, x) ∈ found.insert p.id j := by
              rw [Assoc.mem_insert]
              right
              refine ⟨hx, ?_⟩
              rintro e
              simp only at e
              exact Assoc.get_none_iff.1 hp x (e ▸ hx)
            have := ih (τ', found.insert p.id j) k x hx'
            exact ⟨this.1, this.2.trans hq⟩
        · simp only [hp]
          exact ih _ k x hx
  have hkeepAll : ∀ (is : List Identity) (s : Disc × Assoc Nat Identity) (k : Nat) (x : Identity),
      (k, x) ∈ s.2 → (k, x) ∈ (Disc.discoverAll env self is s).2 ∧ (Disc.discoverAll env self is s).1.queue = s.1.queue := by
    intro is
    induction is with
    | nil => intro s k x hx; exact ⟨hx, rfl⟩
    | cons j is ih =>
      intro s k x hx
      have h1 := hkeep j.peers s k x hx
      have h2 := ih _ k x h1.1
      exact ⟨h2.1, h2.2.trans h1.2⟩
  unfold Disc.discoverAddr
  simp only [h]
  have hg : σ.getIdentity env addr = ({ σ with
      byAddr := (σ.byAddr.insert addr i).insert i.node.addr i
      byId := σ.byId.insert i.node.id i }, some i) := by
    simp [Disc.getIdentity, h, hi]
  rw [hg]
  dsimp only
  generalize hτ : ({ σ with
      byAddr := (σ.byAddr.insert addr i).insert i.node.addr i
      byId := σ.byId.insert i.node.id i } : Disc) = τ
  have hτq : τ.queue = σ.queue := by rw [← hτ]
  have h1 := hkeep i.peers (τ, [(i.node.id, i)]) i.node.id i (by simp)
  split
  · have h2 := hkeepAll (Disc.discoverPeers env self i.peers (τ, [(i.node.id, i)])).2.vals _ i.node.id i h1.1
    refine ⟨_, by rw [h2.2, h1.2, hτq], ?_⟩
    exact List.mem_map.2 ⟨i, List.mem_map.2 ⟨_, h2.1, rfl⟩, rfl⟩
  · refine ⟨_, by rw [h1.2, hτq], ?_⟩
    exact List.mem_map.2 ⟨i, List.mem_map.2 ⟨_, h1.1, rfl⟩, rfl⟩

/-- **C60 refuted.** Discovery looks at the seed, its peers and their peers; in a chain of nodes each
knowing the next only, the fourth is not found. -/
theorem C60_chain_refuted :
    let e := demoEnv [("a", ⟨⟨1, "a"⟩, [⟨2, "b"⟩]⟩), ("b", ⟨⟨2, "b"⟩, [⟨3, "c"⟩]⟩),
      ("c", ⟨⟨3, "c"⟩, [⟨4, "d"⟩]⟩), ("d", ⟨⟨4, "d"⟩, []⟩)]
    (({} : Disc).run 9 [.discover e "a"]).queue.map (·.map (·.id)) = [[3, 2, 1]] := by decide

/-! Concrete cases. -/
example : let e := demoEnv [("a", ⟨⟨1, "a"⟩, [⟨2, "b"⟩, ⟨9, "me"⟩]⟩), ("b", ⟨⟨2, "b"⟩, [⟨1, "a"⟩]⟩)]
    (({} : Disc).run 9 [.discover e "a", .next e, .shaken 1 true, .nodes e [⟨2, "b"⟩], .shaken 0 true,
      .discover e "b", .nodes e [⟨1, "a"⟩]]).added = [1, 2] := by decide

/-- **C32 (forgotten).** Forgetting an address announces the removal of the node that answered there,
exactly if that node is still known, and afterwards neither the address nor the node is known. -/
theorem C32_forget (self : Nat) (σ : Disc) (addr : String) (i : Identity) (h : σ.byAddr.get addr = some i) :
    (σ.step self (.forget addr)).removed =
        σ.removed ++ (if (σ.byId.get i.node.id).isSome then [i.node.id] else []) ∧
      (σ.step self (.forget addr)).byAddr.get addr = none ∧ (σ.step self (.forget addr)).byId.get i.node.id = none ∧
      (∀ a, a ≠ addr → (σ.step self (.forget addr)).byAddr.get a = σ.byAddr.get a) ∧
      ∀ k, k ≠ i.node.id → (σ.step self (.forget addr)).byId.get k = σ.byId.get k := by
  simp only [Disc.step, Disc.forget, h]
  refine ⟨?_, by simp [Assoc.get_erase], by simp [Assoc.get_erase], fun a ha => by simp [Assoc.get_erase, ha],
    fun k hk => by simp [Assoc.get_erase, hk]⟩
  split <;> simp

/-- the operation asks no other node who it is. -/
def DOp.quiet : DOp → Bool
  | .discover .. => false
  | _ => true

theorem foldl_tryNode_byId (env : DEnv) (cur : List Nat) (ns : List DNode) (σ : Disc) :
    (ns.foldl (Disc.tryNode env cur) σ).byId = σ.byId ∧ (ns.foldl (Disc.tryNode env cur) σ).removed = σ.removed := by
  induction ns generalizing σ with
  | nil => exact ⟨rfl, rfl⟩
  | cons n ns ih =>
    rw [List.foldl_cons, (ih _).1, (ih _).2]
    unfold Disc.tryNode
    split <;> exact ⟨rfl, rfl⟩

/-- only forgetting makes a node unknown, and only asking makes one known. -/
theorem quiet_step (self : Nat) (σ : Disc) (op : DOp) (hq : op.quiet = true) (hf : ∀ a, op ≠ .forget a) :
    (σ.step self op).byId = σ.byId ∧ (σ.step self op).removed = σ.removed := by
  cases op with
  | discover env addr => simp [DOp.quiet] at hq
  | next env =>
    simp only [Disc.step]
    split
    · exact ⟨rfl, rfl⟩
    · exact ⟨(foldl_tryNode_byId _ _ _ _).1, (foldl_tryNode_byId _ _ _ _).2⟩
  | nodes env ns => exact foldl_tryNode_byId _ _ _ _
  | shaken i ok =>
    simp only [Disc.step]
    split
    · exact ⟨rfl, rfl⟩
    · simp only [Disc.nodeDiscovered]
      cases ok with
      | false => exact ⟨rfl, rfl⟩
      | true => simp only [if_true]; split <;> exact ⟨rfl, rfl⟩
  | forget addr => exact absurd rfl (hf addr)
  | status k t => exact ⟨rfl, rfl⟩

/-- **C32 (removed once).** Until some node is asked again who it is, the removal of a node is announced
at most once, however many of its addresses are forgotten, and however often. -/
theorem C32_removed_once (self : Nat) (σ : Disc) (ops : List DOp) (hq : ∀ op ∈ ops, op.quiet = true) (id : Nat) :
    (σ.run self ops).removed.count id ≤ σ.removed.count id + 1 := by
  suffices h : (σ.run self ops).removed.count id + (if ((σ.run self ops).byId.get id).isSome then 1 else 0) ≤
      σ.removed.count id + (if (σ.byId.get id).isSome then 1 else 0) by
    have : (if (σ.byId.get id).isSome then 1 else 0) ≤ 1 := by split <;> omega
    omega
  induction ops using snoc_induction with
  | nil => exact Nat.le_refl _
  | snoc ops op ih =>
    have ih := ih (fun o ho => hq o (by simp [ho]))
    have hop := hq op (by simp)
    rw [drun_snoc]
    generalize σ.run self ops = τ at ih
    by_cases hf : ∃ addr, op = .forget addr
    · obtain ⟨addr, rfl⟩ := hf
      cases hb : τ.byAddr.get addr with
      | none => simp only [Disc.step, Disc.forget, hb]; exact ih
      | some i =>
        obtain ⟨h1, _, h3, _, h5⟩ := C32_forget self τ addr i hb
        rw [h1, List.count_append]
        by_cases e : id = i.node.id
        · subst e
          rw [h3]
          cases hg : τ.byId.get i.node.id <;> simp [hg] at ih ⊢ <;> omega
        · rw [h5 id e]
          have : List.count id (if (τ.byId.get i.node.id).isSome then [i.node.id] else []) = 0 := by
            split
            · simp [List.count_cons, Ne.symm e]
            · rfl
          omega
    · obtain ⟨h1, h2⟩ := quiet_step self τ op hop (fun a e => hf ⟨a, e⟩)
      rw [h1, h2]
      exact ih

/-- two addresses of one node, both forgotten: announced once. -/
example : let e := demoEnv [("alias", ⟨⟨2, "b"⟩, []⟩)]
    let σ := ({} : Disc).run 1 [.discover e "alias", .next e, .shaken 0 true]
    (σ.run 1 [.forget "b", .forget "alias"]).removed = [2] := by decide

end Verif.Remote
