import Verif.Sharding.RebalanceProps

/-!
# C42: recovery of the coordinator
-/

namespace Verif.Sharding

/-! ### Specification -/

/-- some request for shard `s` was answered `Allocated`. -/
def EverAllocated (answers : List AllocResult) (s : Nat) : Prop := ∃ n, .allocated s n ∈ answers

/-- after every prefix of `ops`, some node is available. -/
def AlwaysAvailable (σ : Coord) (ops : List CoordOp) : Prop :=
  ∀ pre post, ops = pre ++ post → ∃ n k, (σ.run pre).Avail n k

/-! ### Lemmas -/

theorem coord_run_snoc (σ : Coord) (ops : List CoordOp) (op : CoordOp) :
    σ.run (ops ++ [op]) = (σ.run ops).next op := by simp [Coord.run]

theorem answers_append (σ : Coord) (a b : List CoordOp) :
    σ.answers (a ++ b) = σ.answers a ++ (σ.run a).answers b := by
  induction a generalizing σ with
  | nil => rfl
  | cons op a ih =>
    simp only [List.cons_append, Coord.answers, ih, List.append_assoc]
    rfl

theorem answers_snoc (σ : Coord) (ops : List CoordOp) (op : CoordOp) :
    σ.answers (ops ++ [op]) = σ.answers ops ++ ((σ.run ops).step op).2.toList := by
  rw [answers_append]; simp [Coord.answers]

theorem allocateShard_journal (σ : Coord) (s : Nat) : (σ.allocateShard s).1.journal = σ.journal := by
  unfold Coord.allocateShard
  rcases Option.eq_none_or_eq_some (σ.shards.get s) with h | ⟨n, h⟩
  · simp only [h]
    rcases hc : (isort byLoad σ.readyHosts).head? with _ | ⟨n, hn⟩ <;> rfl
  · simp only [h]

theorem allocateShard_moving (σ : Coord) (s : Nat) : (σ.allocateShard s).1.moving = σ.moving := by
  unfold Coord.allocateShard
  rcases Option.eq_none_or_eq_some (σ.shards.get s) with h | ⟨n, h⟩
  · simp only [h]
    rcases hc : (isort byLoad σ.readyHosts).head? with _ | ⟨n, hn⟩ <;> rfl
  · simp only [h]

theorem recoverAll_journal (l : List Nat) (σ : Coord) : (σ.recoverAll l).journal = σ.journal := by
  unfold Coord.recoverAll
  induction l generalizing σ with
  | nil => rfl
  | cons s l ih => rw [List.foldl_cons, ih, allocateShard_journal]

theorem recoverAll_moving (l : List Nat) (σ : Coord) : (σ.recoverAll l).moving = σ.moving := by
  unfold Coord.recoverAll
  induction l generalizing σ with
  | nil => rfl
  | cons s l ih => rw [List.foldl_cons, ih, allocateShard_moving]

/-- with a node available, exactly the recovered shards are added. -/
theorem recoverAll_assigned (l : List Nat) (σ : Coord) (hr : ∃ m, (σ.hosts.get m).map (·.status) = some .ready)
    (t : Nat) : ((σ.recoverAll l).shards.get t).isSome = true ↔ t ∈ l ∨ (σ.shards.get t).isSome = true := by
  unfold Coord.recoverAll
  induction l generalizing σ with
  | nil => simp
  | cons s l ih =>
    obtain ⟨m, hm⟩ := hr
    rw [List.foldl_cons, ih _ ⟨m, by rw [allocateShard_status]; exact hm⟩, allocateShard_shards]
    obtain ⟨h, hg, hst⟩ := Option.map_eq_some_iff.1 hm
    obtain ⟨p, hp⟩ := choice_isSome hg hst
    by_cases hts : t = s
    · subst hts
      rcases Option.eq_none_or_eq_some (σ.shards.get t) with h0 | ⟨n, h0⟩ <;> simp [h0, hp]
    · simp [hts]

theorem fresh_self (self : Nat) (nodes : List (Nat × Bool)) (j : List Nat) :
    (Coord.fresh self nodes j).hosts.get self = some { status := .ready } :=
  (fresh_hosts self nodes [(self, { status := .ready })]
    (by simp [Assoc.Uniq]) (by intro m h; simp [Assoc.get_cons]; rintro _ rfl; rfl)
    (by simp [Assoc.get_cons])).2.2

theorem start_assigned (self : Nat) (nodes : List (Nat × Bool)) (j : List Nat) (t : Nat) :
    ((Coord.start self nodes j).shards.get t).isSome = true ↔ t ∈ j := by
  rw [start_eq, recoverAll_assigned _ _ ⟨self, by rw [fresh_self]; rfl⟩]
  simp [Coord.fresh]

/-- every shard that has a node or is being moved has been persisted. -/
def Owned (σ : Coord) : Prop :=
  ∀ s, ((σ.shards.get s).isSome = true ∨ ∃ n, (s, n) ∈ σ.moving) → s ∈ σ.journal

theorem start_owned (self : Nat) (nodes : List (Nat × Bool)) (j : List Nat) : Owned (Coord.start self nodes j) := by
  intro s h
  have hj : (Coord.start self nodes j).journal = j := by
    rw [start_eq, recoverAll_journal]; rfl
  have hm : (Coord.start self nodes j).moving = [] := by
    rw [start_eq, recoverAll_moving]; rfl
  rw [hj]
  rw [hm, start_assigned] at h
  simpa using h

theorem allocateShard_owned {σ : Coord} (ho : Owned σ) {s : Nat} (hs : s ∈ σ.journal) :
    Owned (σ.allocateShard s).1 := by
  intro t h
  rw [allocateShard_journal]
  rw [allocateShard_moving, allocateShard_shards] at h
  by_cases hts : t = s
  · rw [hts]; exact hs
  · exact ho t (by simpa [hts] using h)

theorem takeShard_journal (σ : Coord) (s : Nat) : (σ.takeShard s).journal = σ.journal := by
  unfold Coord.takeShard
  split
  · rfl
  · unfold Coord.detach Coord.announce
    rcases Option.eq_none_or_eq_some (σ.shards.get s) with h | ⟨n, h⟩
    · simp only [h]
    · simp only [h]
      rcases Option.eq_none_or_eq_some (σ.hosts.get n) with h' | ⟨hn, h'⟩ <;> simp only [h']

theorem rebalanceShards_journal (σ : Coord) (l : List Nat) : (σ.rebalanceShards l).journal = σ.journal := by
  unfold Coord.rebalanceShards
  induction l generalizing σ with
  | nil => rfl
  | cons s l ih => rw [List.foldl_cons, ih, takeShard_journal]

theorem rebalanceShards_owned {σ : Coord} (hi : Inv σ) (ho : Owned σ) (l : List Nat) :
    Owned (σ.rebalanceShards l) := by
  have ht := took_all hi l
  intro s h
  rw [rebalanceShards_journal]
  rcases h with h | ⟨n, h⟩
  · rw [ht.shards] at h
    by_cases hs : s ∈ l
    · simp [hs] at h
    · exact ho s (.inl (by simpa [hs] using h))
  · rcases (ht.moving s n).1 h with h | ⟨_, h⟩
    · exact ho s (.inr ⟨n, h⟩)
    · exact ho s (.inl (by simp [h]))

theorem moveAll_frame (l : List Nat) (σ : Coord) : (l.foldl Coord.moveShard σ).journal = σ.journal ∧
    (l.foldl Coord.moveShard σ).moving = σ.moving := by
  induction l generalizing σ with
  | nil => exact ⟨rfl, rfl⟩
  | cons s l ih =>
    rw [List.foldl_cons, (ih _).1, (ih _).2, Coord.moveShard, allocateShard_journal, allocateShard_moving]
    exact ⟨rfl, rfl⟩

theorem nodeUnavailable_frame (σ : Coord) (n : Nat) : (σ.nodeUnavailable n).journal = σ.journal ∧
    (σ.nodeUnavailable n).moving = σ.moving := by
  rcases Option.eq_none_or_eq_some (σ.hosts.get n) with h | ⟨h, hg⟩
  · rw [nodeUnavailable_none h]; exact ⟨rfl, rfl⟩
  · rw [nodeUnavailable_some hg]; exact moveAll_frame _ _

theorem nodeUnavailable_owned {σ : Coord} (hi : Inv σ) (ho : Owned σ) (n : Nat) :
    Owned (σ.nodeUnavailable n) := by
  obtain ⟨f1, f2⟩ := nodeUnavailable_frame σ n
  intro s h
  rw [f1]
  rw [f2] at h
  rcases h with h | h
  · apply ho s
    left
    rcases Option.eq_none_or_eq_some (σ.hosts.get n) with h0 | ⟨hn, hg⟩
    · rwa [nodeUnavailable_none h0] at h
    · rw [nodeUnavailable_some hg] at h
      by_cases hs : s ∈ hn.shards
      · rw [(hi.agree' s n).2 ⟨hn, hg, hs⟩]; rfl
      · rwa [moveAll_shards _ _ _ hs] at h
  · exact ho s (.inr h)

/-- what one step does to the journal and to what is known. -/
structure Noted (σ : Coord) (op : CoordOp) : Prop where
  owned : Owned (σ.next op)
  grows : ∀ s ∈ σ.journal, s ∈ (σ.next op).journal
  answer : ∀ s n, (σ.step op).2 = some (.allocated s n) → s ∈ (σ.next op).journal
  cause : (∃ n k, σ.Avail n k) → ∀ s ∈ (σ.next op).journal, s ∈ σ.journal ∨ ∃ n, (σ.step op).2 = some (.allocated s n)

theorem noted_same {σ : Coord} {op : CoordOp} (ho : Owned (σ.next op)) (hj : (σ.next op).journal = σ.journal)
    (ha : (σ.step op).2 = none) : Noted σ op :=
  ⟨ho, by rw [hj]; exact fun _ h => h, by simp [ha], by rw [hj]; exact fun _ s h => .inl h⟩

theorem noted_step {σ : Coord} (hi : Inv σ) (ho : Owned σ) (op : CoordOp) : Noted σ op := by
  cases op with
  | allocate s ok =>
    have hstep : σ.next (.allocate s ok) = (σ.handleAllocate s false ok).1 := rfl
    have hans : (σ.step (.allocate s ok)).2 = some (σ.handleAllocate s false ok).2 := rfl
    rcases Option.eq_none_or_eq_some (σ.shards.get s) with h0 | ⟨m, h0⟩
    · cases ok with
      | false =>
        have : σ.handleAllocate s false false = (σ, .persistErr) := by simp [Coord.handleAllocate, h0]
        rw [this] at hstep hans
        exact ⟨by rw [hstep]; exact ho, by rw [hstep]; exact fun _ h => h, by simp [hans],
          by rw [hstep]; exact fun _ s h => .inl h⟩
      | true =>
        have heq : σ.handleAllocate s false true = ({ σ with journal := σ.journal ++ [s] } : Coord).allocateShard s := by
          simp [Coord.handleAllocate, h0]
        rw [heq] at hstep hans
        have hj : (σ.next (.allocate s true)).journal = σ.journal ++ [s] := by
          rw [hstep, allocateShard_journal]
        have hia : Inv ({ σ with journal := σ.journal ++ [s] } : Coord) := hi.congr rfl rfl rfl rfl
        refine ⟨?_, ?_, ?_, ?_⟩
        · rw [hstep]
          refine allocateShard_owned ?_ (by simp)
          intro t ht
          simp only [List.mem_append, List.mem_singleton]
          exact .inl (ho t ht)
        · intro t ht; rw [hj]; simp [ht]
        · intro t n ht
          rw [hans] at ht
          rw [hj]
          rcases hc : ({ σ with journal := σ.journal ++ [s] } : Coord).choice with _ | ⟨m, hm⟩
          · rw [allocateShard_none (σ := { σ with journal := σ.journal ++ [s] }) h0 hc] at ht; simp at ht
          · rw [allocateShard_placed hia h0 hc] at ht
            simp only [Option.some.injEq, AllocResult.allocated.injEq] at ht
            simp [ht.1]
        · rintro ⟨n, k, h, hk, hr, _⟩ t ht
          rw [hj] at ht
          rcases List.mem_append.1 ht with ht | ht
          · exact .inl ht
          · right
            simp only [List.mem_singleton] at ht
            subst ht
            obtain ⟨⟨m, hm⟩, hp⟩ := choice_isSome (σ := { σ with journal := σ.journal ++ [t] }) hk hr
            exact ⟨m, by rw [hans, allocateShard_placed hia h0 hp]⟩
    · have : σ.handleAllocate s false ok = (σ, .already s m) := by simp [Coord.handleAllocate, h0]
      rw [this] at hstep hans
      exact ⟨by rw [hstep]; exact ho, by rw [hstep]; exact fun _ h => h, by simp [hans],
        by rw [hstep]; exact fun _ s h => .inl h⟩
  | rebalanceAll =>
    have : σ.next .rebalanceAll = σ.rebalanceShards (surplus σ.fairCount σ.hosts) := by
      simp only [Coord.next, Coord.step, Coord.rebalanceAll]
      rw [if_neg (hosts_ne_nil hi)]
    exact noted_same (this ▸ rebalanceShards_owned hi ho _) (by rw [this, rebalanceShards_journal]) rfl
  | rebalanceShards l =>
    exact noted_same (rebalanceShards_owned hi ho l) (rebalanceShards_journal σ l) rfl
  | nodeUnavailable n =>
    exact noted_same (nodeUnavailable_owned hi ho n) (nodeUnavailable_frame σ n).1 rfl
  | nodeAdded n =>
    have key : (σ.nodeAdded n).shards = σ.shards ∧ (σ.nodeAdded n).moving = σ.moving ∧
        (σ.nodeAdded n).journal = σ.journal := by
      unfold Coord.nodeAdded
      rcases Option.eq_none_or_eq_some (σ.hosts.get n) with h0 | ⟨h', h0⟩
      · simp only [h0]; exact ⟨trivial, trivial, trivial⟩
      · simp only [h0]; split <;> exact ⟨rfl, rfl, rfl⟩
    refine noted_same ?_ key.2.2 rfl
    intro s hs
    show s ∈ (σ.nodeAdded n).journal
    rw [key.2.2]
    have hs : ((σ.nodeAdded n).shards.get s).isSome = true ∨ ∃ m, (s, m) ∈ (σ.nodeAdded n).moving := hs
    rw [key.1, key.2.1] at hs
    exact ho s hs
  | nodeRemoved n =>
    have : σ.next (.nodeRemoved n) = σ.nodeUnavailable n := nodeRemoved_eq σ n
    exact noted_same (this ▸ nodeUnavailable_owned hi ho n) (by rw [this]; exact (nodeUnavailable_frame σ n).1) rfl
  | stopAcked s n =>
    by_cases hm : (s, n) ∈ σ.moving
    · have hs : s ∈ σ.journal := ho s (.inr ⟨n, hm⟩)
      have hstep : σ.step (.stopAcked s n) =
          ((({ σ with moving := σ.moving.erase (s, n) } : Coord).handleAllocate s true true).1,
           some (({ σ with moving := σ.moving.erase (s, n) } : Coord).handleAllocate s true true).2) := by
        simp only [Coord.step, if_pos hm]
      have hoe : Owned ({ σ with moving := σ.moving.erase (s, n) } : Coord) := by
        intro t ht
        rcases ht with ht | ⟨m, ht⟩
        · exact ho t (.inl ht)
        · exact ho t (.inr ⟨m, List.mem_of_mem_erase ht⟩)
      have hiτ : Inv ({ σ with moving := σ.moving.erase (s, n) } : Coord) := hi.congr rfl rfl rfl rfl
      have hjj : (σ.next (.stopAcked s n)).journal = σ.journal := by
        simp only [Coord.next, hstep]
        unfold Coord.handleAllocate
        rcases Option.eq_none_or_eq_some (σ.shards.get s) with h0 | ⟨m, h0⟩
        · simp only [h0, if_true, allocateShard_journal]
        · simp only [h0]
      refine ⟨?_, ?_, ?_, ?_⟩
      · simp only [Coord.next, hstep]
        unfold Coord.handleAllocate
        rcases Option.eq_none_or_eq_some (σ.shards.get s) with h0 | ⟨m, h0⟩
        · simp only [h0, if_true]; exact allocateShard_owned hoe hs
        · simp only [h0]; exact hoe
      · rw [hjj]; exact fun _ h => h
      · intro t m ht
        rw [hjj]
        rw [hstep] at ht
        simp only [Option.some.injEq] at ht
        rcases handleAllocate_cases _ hiτ s true true with ⟨_, _, h2⟩ | ⟨_, _, _, h2⟩ | ⟨_, _, _, h2⟩ | ⟨_, _, p, _, h2⟩
        · rw [h2] at ht; simp at ht
        · rw [h2] at ht; simp at ht
        · rw [h2] at ht; simp at ht
        · rw [h2] at ht
          simp only [AllocResult.allocated.injEq] at ht
          rw [← ht.1]; exact hs
      · rw [hjj]; exact fun _ s h => .inl h
    · have hstep : σ.step (.stopAcked s n) = (σ, none) := by simp only [Coord.step, if_neg hm]
      exact noted_same (by simp only [Coord.next, hstep]; exact ho) (by simp only [Coord.next, hstep])
        (by rw [hstep])
  | stopFailed s n =>
    refine noted_same ?_ rfl rfl
    intro t ht
    have ht : (σ.shards.get t).isSome = true ∨ ∃ m, (t, m) ∈ σ.moving.erase (s, n) := ht
    rcases ht with ht | ⟨m, ht⟩
    · exact ho t (.inl ht)
    · exact ho t (.inr ⟨m, List.mem_of_mem_erase ht⟩)
  | shuffle hosts =>
    refine noted_same ?_ ?_ rfl
    · show Owned (σ.shuffle hosts)
      unfold Coord.shuffle; split <;> exact ho
    · show (σ.shuffle hosts).journal = σ.journal
      unfold Coord.shuffle; split <;> rfl
  | shuffleSet n l => exact noted_same ho rfl rfl
  | restart self nodes =>
    refine noted_same (start_owned _ _ _) ?_ rfl
    show (Coord.start self nodes σ.journal).journal = σ.journal
    rw [start_eq, recoverAll_journal]; rfl

theorem noted_run (self : Nat) (nodes : List (Nat × Bool)) (ops : List CoordOp) :
    Owned ((Coord.start self nodes []).run ops) ∧
    (∀ s, EverAllocated ((Coord.start self nodes []).answers ops) s →
      s ∈ ((Coord.start self nodes []).run ops).journal) ∧
    (AlwaysAvailable (Coord.start self nodes []) ops → ∀ s ∈ ((Coord.start self nodes []).run ops).journal,
      EverAllocated ((Coord.start self nodes []).answers ops) s) := by
  induction ops using snoc_induction with
  | nil =>
    refine ⟨start_owned _ _ _, ?_, ?_⟩
    · rintro s ⟨n, h⟩; simp [Coord.answers] at h
    · intro _ s h
      simp only [Coord.run, List.foldl_nil, start_eq, Coord.recoverAll, Coord.fresh] at h
      simp at h
  | snoc ops op ih =>
    obtain ⟨h1, h2, h3⟩ := ih
    have hn := noted_step (reach_inv self nodes [] ops) h1 op
    rw [coord_run_snoc, answers_snoc]
    refine ⟨hn.owned, ?_, ?_⟩
    · rintro s ⟨n, h⟩
      rcases List.mem_append.1 h with h | h
      · exact hn.grows s (h2 s ⟨n, h⟩)
      · refine hn.answer s n ?_
        rwa [Option.mem_toList] at h
    · intro ha s hs
      have ha' : AlwaysAvailable (Coord.start self nodes []) ops := by
        intro pre post e
        exact ha pre (post ++ [op]) (by rw [e, List.append_assoc])
      rcases hn.cause (ha ops [op] rfl) s hs with h | ⟨n, h⟩
      · obtain ⟨n, h⟩ := h3 ha' s h
        exact ⟨n, List.mem_append_left _ h⟩
      · exact ⟨n, List.mem_append_right _ (by rw [Option.mem_toList]; exact h)⟩

/-! ### C42 -/

/-- C42, no loss. After any history since the cluster was started, a coordinator started anywhere with
any view of the nodes knows every shard that was ever allocated, on an available node (on exactly one by
C37). -/
theorem C42_no_loss (self : Nat) (nodes : List (Nat × Bool)) (ops : List CoordOp) (self' : Nat)
    (nodes' : List (Nat × Bool)) (s : Nat)
    (h : EverAllocated ((Coord.start self nodes []).answers ops) s) :
    ∃ n k, ((Coord.start self nodes []).run (ops ++ [.restart self' nodes'])).Assigned s n ∧
      ((Coord.start self nodes []).run (ops ++ [.restart self' nodes'])).Avail n k := by
  have hj := (noted_run self nodes ops).2.1 s h
  have hs := (start_assigned self' nodes' _ s).2 hj
  obtain ⟨n, hn⟩ := Option.isSome_iff_exists.1 hs
  rw [coord_run_snoc]
  have hr : ((Coord.start self nodes []).run (ops ++ [.restart self' nodes'])).Reachable := ⟨_, _, _, _, rfl⟩
  rw [coord_run_snoc] at hr
  obtain ⟨k, hk⟩ := C37_available _ hr s n hn
  exact ⟨n, k, hn, hk⟩

/-- C42, exactly. If a node was available all the time, the shards known after a restart are exactly
those that were ever allocated. -/
theorem C42_exact (self : Nat) (nodes : List (Nat × Bool)) (ops : List CoordOp) (self' : Nat)
    (nodes' : List (Nat × Bool)) (ha : AlwaysAvailable (Coord.start self nodes []) ops) (s : Nat) :
    (∃ n, ((Coord.start self nodes []).run (ops ++ [.restart self' nodes'])).Assigned s n) ↔
      EverAllocated ((Coord.start self nodes []).answers ops) s := by
  constructor
  · rintro ⟨n, h⟩
    rw [coord_run_snoc] at h
    refine (noted_run self nodes ops).2.2 ha s ?_
    rw [← start_assigned self' nodes']
    have h : (Coord.start self' nodes' ((Coord.start self nodes []).run ops).journal).shards.get s = some n := h
    rw [h]; rfl
  · intro h
    obtain ⟨n, _, h, _⟩ := C42_no_loss self nodes ops self' nodes' s h
    exact ⟨n, h⟩

/-- a node is available as long as the coordinator's own node is never reported lost. -/
theorem C42_exact_own_node (self : Nat) (nodes : List (Nat × Bool)) (ops : List CoordOp) (self' : Nat)
    (nodes' : List (Nat × Bool))
    (ho : ∀ op ∈ ops, op ≠ .nodeRemoved self ∧ op ≠ .nodeUnavailable self ∧ ∀ x l, op ≠ .restart x l) (s : Nat) :
    (∃ n, ((Coord.start self nodes []).run (ops ++ [.restart self' nodes'])).Assigned s n) ↔
      EverAllocated ((Coord.start self nodes []).answers ops) s := by
  refine C42_exact self nodes ops self' nodes' ?_ s
  have key : ∀ ops : List CoordOp,
      (∀ op ∈ ops, op ≠ .nodeRemoved self ∧ op ≠ .nodeUnavailable self ∧ ∀ x l, op ≠ .restart x l) →
      (((Coord.start self nodes []).run ops).hosts.get self).map (·.status) = some .ready := by
    intro ops
    induction ops using snoc_induction with
    | nil =>
      intro _
      show ((Coord.start self nodes []).hosts.get self).map (·.status) = _
      have : Coord.start self nodes [] = Coord.fresh self nodes [] := rfl
      rw [this, fresh_self]; rfl
    | snoc ops op ih =>
      intro ho
      have ih := ih (fun op' h => ho op' (by simp [h]))
      have ho := ho op (by simp)
      have hi := reach_inv self nodes [] ops
      rw [coord_run_snoc]
      generalize (Coord.start self nodes []).run ops = σ at ih hi ⊢
      unfold Coord.next
      cases op with
      | allocate t ok => simp only [Coord.step]; rw [handleAllocate_status]; exact ih
      | rebalanceAll =>
        simp only [Coord.step, Coord.rebalanceAll]
        rw [if_neg (hosts_ne_nil hi), rebalanceShards_status]; exact ih
      | rebalanceShards l => simp only [Coord.step]; rw [rebalanceShards_status]; exact ih
      | nodeUnavailable m =>
        have hm : self ≠ m := fun e => ho.2.1 (by rw [e])
        simp only [Coord.step]
        rcases Option.eq_none_or_eq_some (σ.hosts.get m) with h0 | ⟨h', h0⟩
        · rw [nodeUnavailable_none h0]; exact ih
        · rw [unavailable_status h0, if_neg hm]; exact ih
      | nodeAdded m =>
        simp only [Coord.step, Coord.nodeAdded]
        rcases Option.eq_none_or_eq_some (σ.hosts.get m) with h0 | ⟨h', h0⟩
        · simp only [h0, Assoc.get_insert]
          by_cases e : self = m
          · rw [if_pos e]; rfl
          · rw [if_neg e]; exact ih
        · simp only [h0]
          split
          · exact ih
          · simp only [Assoc.get_update]
            by_cases e : self = m
            · rw [if_pos e]; subst e; simp [h0]
            · rw [if_neg e]; exact ih
      | nodeRemoved m =>
        have hm : self ≠ m := fun e => ho.1 (by rw [e])
        simp only [Coord.step, nodeRemoved_eq]
        rcases Option.eq_none_or_eq_some (σ.hosts.get m) with h0 | ⟨h', h0⟩
        · rw [nodeUnavailable_none h0]; exact ih
        · rw [unavailable_status h0, if_neg hm]; exact ih
      | stopAcked t m =>
        simp only [Coord.step]
        split
        · simp only [handleAllocate_status]; exact ih
        · exact ih
      | stopFailed t m => exact ih
      | shuffle hosts =>
        simp only [Coord.step, Coord.shuffle]
        split
        · rename_i hp
          simp only
          rw [← Assoc.get_perm hi.hu (List.isPerm_iff.1 hp).symm]
          exact ih
        · exact ih
      | shuffleSet m l =>
        simp only [Coord.step, Coord.shuffleSet, Assoc.get_update]
        split
        · obtain ⟨h', hg, hst⟩ := Option.map_eq_some_iff.1 ih
          rw [hg]
          simp only [Option.map_some, Option.some.injEq]
          split <;> exact hst
        · exact ih
      | restart x l => exact absurd rfl (ho.2.2 x l)
  intro pre post e
  have := key pre (fun op h => ho op (by rw [e]; simp [h]))
  obtain ⟨h, hg, hst⟩ := Option.map_eq_some_iff.1 this
  exact ⟨self, _, h, hg, hst, rfl⟩

/-- C42 without the condition: a request refused because no node is available is persisted all the
same, so after a restart the shard is known although it was never allocated. -/
theorem C42_refused_recovered_refuted : ∃ ops,
    (Coord.start 1 [] []).answers ops = [.notAllocated] ∧
    ((Coord.start 1 [] []).run (ops ++ [.restart 1 []])).Assigned 10 1 :=
  ⟨[.nodeRemoved 1, .allocate 10 true], by decide, by unfold Coord.Assigned; decide⟩

-- three shards, one of them in the middle of a move, one not persisted; restart on another node
example : EverAllocated ((Coord.start 1 [(2, true)] []).answers
      [.allocate 10 true, .allocate 11 true, .rebalanceShards [10], .allocate 12 false]) 10 ∧
    ((Coord.start 1 [(2, true)] []).run [.allocate 10 true, .allocate 11 true, .rebalanceShards [10],
      .allocate 12 false, .restart 2 [(1, true)]]).shards.map (·.1) = [11, 10] :=
  ⟨⟨2, by decide⟩, by decide⟩

end Verif.Sharding
