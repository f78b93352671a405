import Verif.Sharding.FailoverHealLemmas

/-!
# What runs is in the journal

Used by `FailoverHealProps`.
-/

namespace Verif.Sharding

variable {R : Type}

/-! ### everything that runs is in the journal -/

/-- a step of the coordinator announces only what is so afterwards. -/
theorem announces {σ : Coord} (hi : Inv σ) (op : CoordOp) (hr : ∀ a b, op ≠ .restart a b) {d s n : Nat}
    (hm : (d, HMsg.allocated s n) ∈ (σ.next op).sentSince σ.out.length) : (σ.next op).shards.get s = some n := by
  have leaves : ∀ c : Coord, σ.Leaves s c → (d, HMsg.allocated s n) ∉ c.sentSince σ.out.length := by
    intro c hl hm
    have := hl.sent.1 _ hm
    simp [isAlloc] at this
  have gives : ∀ c : Coord, σ.Gives s c → (d, HMsg.allocated s n) ∈ c.sentSince σ.out.length → c.shards.get s = some n := by
    intro c hg hm
    obtain ⟨n', e1, e2, _⟩ := hg.sent
    obtain ⟨d', e⟩ := e2 _ hm
    simp only [Prod.mk.injEq, HMsg.allocated.injEq, true_and] at e
    rw [e.2]; exact e1
  by_cases hl : op.isLocal = true
  · by_cases hlo : ∃ m, op = .nodeUnavailable m ∨ op = .nodeRemoved m
    · obtain ⟨m, hop⟩ := hlo
      have hsay : σ.SaysSince s (σ.next op) := by
        rcases hop with rfl | rfl
        · exact nodeUnavailable_says hi s m
        · show σ.SaysSince s (σ.nodeRemoved m)
          rw [nodeRemoved_eq]
          exact nodeUnavailable_says hi s m
      exact hsay.sent.1 _ hm n rfl
    · have hloses : ∀ m, σ.shards.get s = some m → op.loses m = false := by
        intro m _
        have : ¬ (op = .nodeUnavailable m ∨ op = .nodeRemoved m) := fun e => hlo ⟨m, e⟩
        cases op <;> simp_all [CoordOp.loses]
      rcases coordLocal_rel hi s op hl hloses with h | h
      · exact absurd hm (leaves _ h)
      · have := h.sent.1 _ hm
        simp [isAlloc] at this
  · cases op with
    | allocate s' ok =>
      rcases handleAllocate_rel hi s s' false ok with h | ⟨_, h⟩
      · exact absurd hm (leaves _ h)
      · exact gives _ h hm
    | stopAcked s' m =>
      rcases stopAcked_rel hi s s' m with h | ⟨_, h⟩
      · exact absurd hm (leaves _ h)
      · exact gives _ h hm
    | restart a b => exact absurd rfl (hr a b)
    | _ => simp [CoordOp.isLocal] at hl

theorem Host.live_next (f : R → Nat) (h : Host R) (op : HostOp R) {s a : Nat} (hm : (s, a) ∈ (h.next f op).live) :
    (s, a) ∈ h.live ∨ ∃ n, op = .shardAllocated s n := by
  by_cases hs : op.shard f = s
  · cases op with
    | shardAllocated s' n =>
      simp only [HostOp.shard] at hs
      subst hs
      exact .inr ⟨n, rfl⟩
    | request r =>
      left
      rw [show h.next f (.request r) = (h.request (f r) r).1 from rfl] at hm
      exact ((h.request_same s (f r) r).live a).1 hm
    | reallocating s' => exact .inl hm
    | stopShard s' q =>
      left
      simp only [Host.next, Host.step, Host.stopShard] at hm
      split at hm <;> exact hm
    | ready s' b =>
      left
      simp only [Host.next, Host.step] at hm
      split at hm
      · simp only [Host.shardReady] at hm
        split at hm
        · split at hm <;> exact hm
        · exact hm
      · exact hm
    | stopDone t =>
      left
      simp only [Host.next, Host.step] at hm
      split at hm
      · exact (List.mem_filter.1 hm).1
      · exact hm
    | closed s' b =>
      left
      simp only [Host.next, Host.step] at hm
      split at hm
      · exact (List.mem_filter.1 hm).1
      · exact hm
  · left
    exact ((h.next_same_other f op hs).live a).1 hm

/-- what is announced, and what runs, is in the journal. -/
structure FSys.Written (w : FSys R) : Prop where
  inv : Inv w.coord
  owned : Owned w.coord
  net : ∀ d s n, (d, HMsg.allocated s n) ∈ w.net → s ∈ w.coord.journal
  live : ∀ d s a, w.Runs s d a → s ∈ w.coord.journal

theorem FSys.Written.tell {w : FSys R} (h : w.Written) (op : CoordOp) (hr : ∀ a b, op ≠ .restart a b)
    {e : List (Nat × HMsg)} {as ak : List (Nat × Nat)}
    (he : ∀ d s n, (d, HMsg.allocated s n) ∈ e → (w.coord.next op).shards.get s = some n) :
    (w.tell (w.coord.next op) e as ak).Written := by
  have hn := noted_step h.inv h.owned op
  refine ⟨h.inv.next op, hn.owned, ?_, fun d s a hm => hn.grows s (h.live d s a hm)⟩
  intro d s n hm
  rcases List.mem_append.1 hm with hm | hm
  · exact hn.grows s (h.net d s n hm)
  · have hget : (w.coord.next op).shards.get s = some n := by
      rcases List.mem_append.1 hm with hm | hm
      · exact announces h.inv op hr ((stampAll_alloc _ _ _ _ _).1 hm)
      · exact he d s n hm
    exact hn.owned s (.inl (by rw [hget]; rfl))

theorem FSys.Written.hostStep (f : R → Nat) {w : FSys R} (h : w.Written) (d : Nat) (op : HostOp R)
    (ho : ∀ s n, op = .shardAllocated s n → s ∈ w.coord.journal) : (w.hostStep f d op).Written := by
  refine ⟨h.inv, h.owned, h.net, ?_⟩
  intro x s a hm
  have hm : (s, a) ∈ (w.setHost d ((w.host d).next f op) x).live := hm
  by_cases e : x = d
  · subst e
    rw [Sys.setHost_self] at hm
    rcases Host.live_next f _ op hm with hm | ⟨n, e⟩
    · exact h.live x s a hm
    · exact ho s n e
  · rw [Sys.setHost_other _ _ e] at hm
    exact h.live x s a hm

theorem FSys.Written.next (f : R → Nat) {w : FSys R} (h : w.Written) (op : FOp R) : (w.next f op).Written := by
  cases op with
  | failover self nodes order =>
    have hj : (w.failover self nodes order).coord.journal = w.coord.journal := revive_journal self nodes order _
    have ho : Owned (w.failover self nodes order).coord := by
      intro s hs
      rw [hj]
      rcases hs with hs | ⟨n, hs⟩
      · exact (revive_assigned self nodes order _ s).1 hs
      · have : (w.failover self nodes order).coord.moving = [] := revive_moving self nodes order _
        rw [this] at hs; cases hs
    refine ⟨InvP.revive self nodes order _, ho, ?_, fun d s a hm => hj ▸ h.live d s a hm⟩
    intro d s n hm
    rcases List.mem_append.1 hm with hm | hm
    · exact hj ▸ h.net d s n hm
    · have := (revive_sent s self (w.epoch + 1) nodes order w.coord.journal).1 _ hm n rfl
      refine ho s (.inl ?_)
      show ((Coord.revive self nodes order w.coord.journal).shards.get s).isSome = true
      rw [this]; rfl
  | crash d =>
    refine ⟨h.inv, h.owned, fun x s n hm => h.net x s n (List.mem_filter.1 hm).1, ?_⟩
    intro x s a hm
    have hm : (s, a) ∈ (w.setHost d (Host.init d) x).live := hm
    by_cases e : x = d
    · subst e
      rw [Sys.setHost_self] at hm
      cases hm
    · rw [Sys.setHost_other _ _ e] at hm
      exact h.live x s a hm
  | sys op =>
    simp only [FSys.next]
    cases op with
    | host d op =>
      simp only [FSys.sysStep]
      split
      · rename_i hl
        refine h.hostStep f d op ?_
        rintro s n rfl
        simp [HostOp.isLocal] at hl
      · exact h
    | deliver d m =>
      simp only [FSys.sysStep]
      split
      · rename_i hm
        have ht : (w.take d m).Written :=
          ⟨h.inv, h.owned, fun x s n hx => h.net x s n (List.mem_of_mem_erase hx), h.live⟩
        refine ht.hostStep f d _ ?_
        intro s n e
        cases m with
        | allocated s' n' =>
          simp only [HMsg.op, HostOp.shardAllocated.injEq] at e
          exact h.net d s n (by rw [← e.1, ← e.2]; exact hm)
        | reallocating s' => simp [HMsg.op] at e
        | stop s' o => simp [HMsg.op] at e
      · exact h
    | coord op =>
      simp only [FSys.sysStep]
      split
      · rename_i hl
        refine h.tell op ?_ (by simp)
        rintro a b rfl
        simp [CoordOp.isLocal] at hl
      · exact h
    | ack s' m =>
      simp only [FSys.sysStep]
      split
      · exact h.tell _ (by simp) (by simp)
      · exact h
    | ask m s' ok =>
      simp only [FSys.sysStep]
      split
      · refine h.tell (.allocate s' ok) (by simp) ?_
        intro d s n hm
        obtain ⟨n', e1, e2⟩ := handleAllocate_answer h.inv s' m false ok _ hm
        simp only [Prod.mk.injEq, HMsg.allocated.injEq] at e1
        rw [e1.2.1, e1.2.2]
        exact e2
      · exact h

theorem FSys.Written.run (f : R → Nat) {w : FSys R} (h : w.Written) (ops : List (FOp R)) : (w.run f ops).Written := by
  induction ops generalizing w with
  | nil => exact h
  | cons op ops ih => exact ih (h.next f op)

theorem FSys.written_start (self : Nat) (nodes : List (Nat × Bool)) (j : List Nat) :
    (FSys.start self nodes j : FSys R).Written := by
  have ho := start_owned self nodes j
  refine ⟨(Sys.phase_start (R := R) 0 self nodes j).inv, ho, ?_, fun d s a hm => nomatch hm⟩
  intro d s n hm
  have := (Coord.start_says s self nodes j).sent.1 d n hm
  refine ho s (.inl ?_)
  rw [this]; rfl

end Verif.Sharding
