import Verif.Sharding.FailoverPhaseLemmas

/-! # How hosts get over a new coordinator -/

namespace Verif.Sharding

variable {R : Type}

/-! ### one host -/

/-- nothing of shard `s` is left but an instance that has been told to stop. -/
structure Host.Fading (s : Nat) (h : Host R) : Prop where
  hosted : h.hosted.get s = none
  booting : ∀ a, (s, a) ∉ h.booting
  one : ∃ a, ∀ b, (s, b) ∈ h.live → b = a
  told : ∀ a, (s, a) ∈ h.live → (s, a) ∈ h.closing ∨ ∃ t ∈ h.stopsOf s, t.a = a

theorem Host.Blank.fading {s : Nat} {h : Host R} (hb : h.Blank s) : h.Fading s :=
  ⟨hb.hosted, hb.booting, ⟨0, fun b hm => absurd hm (hb.live b)⟩, fun a hm => absurd hm (hb.live a)⟩

theorem Host.Fading.same {s : Nat} {h h' : Host R} (hf : h.Fading s) (hs : h.SameFor s h') : h'.Fading s := by
  refine ⟨?_, ?_, ?_, ?_⟩
  · have := hs.hosted; rw [hf.hosted] at this; simpa using this
  · intro a; rw [hs.booting]; exact hf.booting a
  · obtain ⟨a, ha⟩ := hf.one
    exact ⟨a, fun b hm => ha b ((hs.live b).1 hm)⟩
  · intro a hm
    rw [hs.closing, hs.stops]
    exact hf.told a ((hs.live a).1 hm)

/-- an announcement that `s` is elsewhere, on a node that does not have `s`. -/
theorem Host.vacant_allocOther {s n : Nat} {h : Host R} (hb : h.hosted.get s = none) (hn : n ≠ h.self) :
    h.SameFor s (h.shardAllocated s n).1 := by
  have hs := h.shardAllocated_same s s n
  refine Host.SameFor.trans ?_ hs
  unfold Host.allocated
  rw [if_neg hn]
  simp only [hb]
  exact ⟨by simp [Assoc.get_erase, hb], fun _ => .rfl, fun _ => .rfl, fun _ => .rfl, rfl⟩

theorem Host.Fading.next (f : R → Nat) {s : Nat} {h : Host R} (hf : h.Fading s) (op : HostOp R)
    (hop : op ≠ .shardAllocated s h.self) : (h.next f op).Fading s := by
  by_cases hs : op.shard f = s
  · cases op with
    | request r => exact hf.same (h.request_same s (f r) r)
    | shardAllocated s' n =>
      have e : s' = s := hs
      subst e
      exact hf.same (Host.vacant_allocOther hf.hosted fun e => hop (by rw [e]))
    | reallocating s' => exact hf.same ⟨rfl, fun _ => .rfl, fun _ => .rfl, fun _ => .rfl, rfl⟩
    | stopShard s' q =>
      have e : s' = s := hs
      subst e
      have : h.next f (.stopShard s' q) = h := by
        simp only [Host.next, Host.step, Host.stopShard, hf.hosted]
      rw [this]; exact hf
    | ready s' a =>
      have e : s' = s := hs
      subst e
      simp only [Host.next, Host.step, if_neg (hf.booting a)]
      exact hf
    | stopDone t =>
      have e : t.s = s := hs
      simp only [Host.next, Host.step]
      split
      · refine ⟨?_, hf.booting, ?_, ?_⟩
        · simp [Host.stopDone, Assoc.get_erase, hf.hosted]
        · obtain ⟨a, ha⟩ := hf.one
          exact ⟨a, fun b hm => ha b (List.mem_filter.1 hm).1⟩
        · intro a hm
          obtain ⟨h1, h2⟩ := List.mem_filter.1 hm
          rcases hf.told a h1 with h3 | ⟨t', h3, h4⟩
          · exact .inl h3
          · refine .inr ⟨t', ?_, h4⟩
            have hne : t' ≠ t := by
              rintro rfl
              simp only [decide_eq_true_eq] at h2
              exact h2 (by rw [e, h4])
            obtain ⟨h5, h6⟩ := List.mem_filter.1 h3
            exact List.mem_filter.2 ⟨(List.mem_erase_of_ne hne).2 h5, h6⟩
      · exact hf
    | closed s' b =>
      have e : s' = s := hs
      subst e
      simp only [Host.next, Host.step]
      split
      · refine ⟨hf.hosted, hf.booting, ?_, ?_⟩
        · obtain ⟨a, ha⟩ := hf.one
          exact ⟨a, fun b hm => ha b (List.mem_filter.1 hm).1⟩
        · intro a hm
          obtain ⟨h1, h2⟩ := List.mem_filter.1 hm
          rcases hf.told a h1 with h3 | h3
          · exact .inl (List.mem_filter.2 ⟨h3, h2⟩)
          · exact .inr h3
      · exact hf
  · exact hf.same (h.next_same_other f op hs)

/-- the announcement that the shard is elsewhere, on a node where it runs. -/
theorem Host.Held.allocOther {s a n : Nat} {h : Host R} (hb : h.Held s a) (hnb : (s, a) ∉ h.booting) (hn : n ≠ h.self) :
    ((h.shardAllocated s n).1).Fading s := by
  refine Host.Fading.same ?_ (h.shardAllocated_same s s n)
  unfold Host.allocated
  rw [if_neg hn]
  refine ⟨by simp [Assoc.get_erase], ?_, ⟨a, fun b hm => (hb.live b).1 hm⟩, ?_⟩
  · intro b hm
    have := hb.booting b hm
    subst this
    exact hnb hm
  · intro b hm
    have := (hb.live b).1 hm
    subst this
    rcases hb.kept with hk | hk | hk
    · left
      simp only [hk]
      simp
    · exact absurd hk hnb
    · obtain ⟨t, ht⟩ := List.exists_mem_of_ne_nil _ hk
      exact .inr ⟨t, ht, (hb.stops t ht).1⟩

/-- no task to stop `s` is added but by a request to stop it. -/
theorem Host.stopsOf_next (f : R → Nat) {s : Nat} {h : Host R} (hi : h.Inv) (op : HostOp R)
    (hop : ∀ q, op ≠ .stopShard s q) : ∀ t ∈ (h.next f op).stopsOf s, t ∈ h.stopsOf s := by
  by_cases hs : op.shard f = s
  · cases op with
    | request r => rw [show h.next f (.request r) = (h.request (f r) r).1 from rfl, (h.request_same s (f r) r).stops]; exact fun _ h => h
    | shardAllocated s' n =>
      rw [show h.next f (.shardAllocated s' n) = (h.shardAllocated s' n).1 from rfl, (h.shardAllocated_same s s' n).stops]
      unfold Host.stopsOf
      rw [(h.allocated_frame s' n).2.1]
      exact fun _ h => h
    | reallocating s' => exact fun _ h => h
    | stopShard s' q =>
      have e : s' = s := hs
      subst e
      exact absurd rfl (hop q)
    | ready s' a =>
      simp only [Host.next, Host.step]
      split
      · have key : (({ h with booting := h.booting.filter (· ≠ (s', a)) } : Host R).shardReady s' a).1.stops = h.stops := by
          simp only [Host.shardReady]
          split
          · rename_i b buf st hh
            have := (hi.hosted s' _ hh).1
            simp only [HShard.stopReq] at this
            subst this
            rfl
          · rfl
        unfold Host.stopsOf
        rw [key]
        exact fun _ h => h
      · exact fun _ h => h
    | stopDone t =>
      simp only [Host.next, Host.step]
      split
      · intro u hu
        obtain ⟨h1, h2⟩ := List.mem_filter.1 hu
        exact List.mem_filter.2 ⟨List.mem_of_mem_erase h1, h2⟩
      · exact fun _ h => h
    | closed s' a =>
      simp only [Host.next, Host.step]
      split <;> exact fun _ h => h
  · rw [(h.next_same_other f op hs).stops]; exact fun _ h => h

/-- answers about `s` to coordinator `e`, which has asked for no stop of it. -/
theorem Host.no_acksTo (f : R → Nat) {s e d : Nat} {h : Host R} (op : HostOp R)
    (hold : ∀ t ∈ h.stopsOf s, ∀ q, t.req = some q → q.origin ≠ e) :
    ((h.step f op).2.filterMap (HostOut.ackTo e d)).countP (fun p => decide (p.1 = s)) = 0 := by
  by_cases ht : ∃ t ∈ h.stops, op = .stopDone t
  · obtain ⟨t, h1, rfl⟩ := ht
    simp only [Host.step, if_pos h1, Host.stopDone]
    by_cases hts : t.s = s
    · have := hold t (List.mem_filter.2 ⟨h1, by simpa using hts⟩)
      cases hq : t.req with
      | none => rfl
      | some q =>
        simp only [Option.toList, List.map_cons, List.map_nil, List.filterMap_cons, HostOut.ackTo, if_neg (this q hq),
          List.filterMap_nil]
        rfl
    · rw [List.countP_eq_zero]
      rintro ⟨s', d'⟩ hm
      obtain ⟨o, h2, h3⟩ := List.mem_filterMap.1 hm
      obtain ⟨q, _, rfl⟩ := List.mem_map.1 h2
      simp only [HostOut.ackTo] at h3
      split at h3
      · simp only [Option.some.injEq, Prod.mk.injEq] at h3
        simp only [decide_eq_true_eq]
        rw [← h3.1]
        exact hts
      · cases h3
  · have h0 := h.step_acks f d op fun t h1 e => ht ⟨t, h1, e⟩
    have := acksTo_count e d s (h.step f op).2
    rw [h0] at this
    simpa using this

/-! ### dates -/

/-- requests to stop are dated: none is from a coordinator to come. -/
structure FSys.Dated (w : FSys R) : Prop where
  inv : ∀ d, (w.host d).Inv
  net : ∀ d s o, (d, HMsg.stop s o) ∈ w.net → o ≤ w.epoch
  stops : ∀ d q, w.epoch < q.origin → ∀ t ∈ (w.host d).stops, t.req ≠ some q

theorem stampAll_dates {e d s o : Nat} {l : List (Nat × HMsg)} (h : (d, HMsg.stop s o) ∈ stampAll e l) : o = e := by
  obtain ⟨⟨d', m⟩, h1, h2⟩ := List.mem_map.1 h
  cases m with
  | allocated s' n' => simp [HMsg.stamp] at h2
  | reallocating s' => simp [HMsg.stamp] at h2
  | stop s' o' =>
    simp only [HMsg.stamp, Prod.mk.injEq, HMsg.stop.injEq] at h2
    exact h2.2.2.symm

theorem FSys.Dated.tell {w : FSys R} (h : w.Dated) (c : Coord) {e : List (Nat × HMsg)} (as ak : List (Nat × Nat))
    (he : ∀ d s o, (d, HMsg.stop s o) ∉ e) : (w.tell c e as ak).Dated := by
  refine ⟨h.inv, ?_, h.stops⟩
  intro d s o hm
  rcases List.mem_append.1 hm with hm | hm
  · exact h.net d s o hm
  · rcases List.mem_append.1 hm with hm | hm
    · exact Nat.le_of_eq (stampAll_dates hm)
    · exact absurd hm (he d s o)

theorem FSys.Dated.hostStep (f : R → Nat) {w : FSys R} (h : w.Dated) (d : Nat) (op : HostOp R)
    (hop : ∀ q, op.asks = some q → q.origin ≤ w.epoch) : (w.hostStep f d op).Dated := by
  refine ⟨?_, h.net, ?_⟩
  · intro x
    show (w.setHost d _ x).Inv
    by_cases e : x = d
    · subst e; rw [Sys.setHost_self]; exact (h.inv x).next f op
    · rw [Sys.setHost_other _ _ e]; exact h.inv x
  · intro x q hq
    show ∀ t ∈ (w.setHost d _ x).stops, _
    by_cases e : x = d
    · subst e
      rw [Sys.setHost_self]
      refine (Host.unasked f (h.inv x) (h.stops x q hq) op ?_).1
      intro e
      exact absurd (hop q e) (Nat.not_le.2 hq)
    · rw [Sys.setHost_other _ _ e]; exact h.stops x q hq

theorem FSys.Dated.next (f : R → Nat) {w : FSys R} (h : w.Dated) (op : FOp R) : (w.next f op).Dated := by
  cases op with
  | sys op =>
    simp only [FSys.next]
    cases op with
    | coord op =>
      simp only [FSys.sysStep]
      split
      · exact h.tell _ _ _ (by simp)
      · exact h
    | ask m s ok =>
      simp only [FSys.sysStep]
      split
      · refine h.tell _ _ _ ?_
        intro d s' o hm
        cases hr : (w.coord.handleAllocate s false ok).2 <;> rw [hr] at hm <;> simp [AllocResult.notice] at hm
      · exact h
    | ack s n =>
      simp only [FSys.sysStep]
      split
      · exact h.tell _ _ _ (by simp)
      · exact h
    | deliver d m =>
      simp only [FSys.sysStep]
      split
      · rename_i hm
        have ht : (w.take d m).Dated := ⟨h.inv, fun d' s o hm => h.net d' s o (List.mem_of_mem_erase hm), h.stops⟩
        refine ht.hostStep f d m.op ?_
        intro q hq
        cases m with
        | allocated s n => simp [HMsg.op, HostOp.asks] at hq
        | reallocating s => simp [HMsg.op, HostOp.asks] at hq
        | stop s o =>
          simp only [HMsg.op, HostOp.asks, Option.some.injEq] at hq
          subst hq
          exact h.net d s o hm
      · exact h
    | host d op =>
      simp only [FSys.sysStep]
      split
      · rename_i hl
        refine h.hostStep f d op ?_
        intro q hq
        cases op <;> simp [HostOp.isLocal] at hl <;> simp [HostOp.asks] at hq
      · exact h
  | crash d =>
    refine ⟨?_, fun d' s o hm => h.net d' s o (List.mem_filter.1 hm).1, ?_⟩
    · intro x
      show (w.setHost d _ x).Inv
      by_cases e : x = d
      · subst e; rw [Sys.setHost_self]; exact .init x
      · rw [Sys.setHost_other _ _ e]; exact h.inv x
    · intro x q hq
      show ∀ t ∈ (w.setHost d _ x).stops, _
      by_cases e : x = d
      · subst e
        rw [Sys.setHost_self]
        simp [Host.init]
      · rw [Sys.setHost_other _ _ e]; exact h.stops x q hq
  | failover self nodes order =>
    refine ⟨h.inv, ?_, ?_⟩
    · intro d s o hm
      show o ≤ w.epoch + 1
      rcases List.mem_append.1 hm with hm | hm
      · exact Nat.le_succ_of_le (h.net d s o hm)
      · exact Nat.le_of_eq (stampAll_dates hm)
    · intro d q hq
      exact h.stops d q (Nat.lt_of_succ_lt hq)

theorem FSys.Dated.run (f : R → Nat) {w : FSys R} (h : w.Dated) (ops : List (FOp R)) : (w.run f ops).Dated := by
  induction ops generalizing w with
  | nil => exact h
  | cons op ops ih => exact ih (h.next f op)

theorem FSys.dated_start (self : Nat) (nodes : List (Nat × Bool)) (j : List Nat) :
    (FSys.start self nodes j : FSys R).Dated := by
  refine ⟨fun d => .init d, ?_, fun d q _ => by simp [FSys.start, Host.init]⟩
  intro d s o hm
  have h := (Coord.start_says s self nodes j).sent.2
  rw [List.countP_eq_zero] at h
  exact absurd (by simp [isStop]) (h _ hm)

/-! ### everybody is told -/

theorem allocateShard_hosts_status {σ : Coord} {s d : Nat} :
    ((σ.allocateShard s).1.hosts.get d).map (·.status) = (σ.hosts.get d).map (·.status) := allocateShard_status σ s d

theorem mem_readyHosts {σ : Coord} {d : Nat} (h : (σ.hosts.get d).map (·.status) = some .ready) :
    d ∈ (isort byLoad σ.readyHosts).map (·.1) := by
  obtain ⟨x, hx, hs⟩ := Option.map_eq_some_iff.1 h
  refine List.mem_map.2 ⟨(d, x), ?_, rfl⟩
  rw [mem_isort]
  exact List.mem_filter.2 ⟨Assoc.mem_of_get hx, by simpa [HostInfo.isReady] using hs⟩

theorem allocateShard_grows {σ : Coord} {p : Nat} {l : List Nat} (hi : InvP σ p l) (s : Nat) :
    ∃ new, (σ.allocateShard s).1.out = σ.out ++ new := by
  rcases allocateShard_self hi s with ⟨_, new, h, _⟩ | ⟨n, to, _, _, h⟩
  · exact ⟨new, h⟩
  · exact ⟨_, h⟩

/-- a shard that is recovered is announced to every host that is ready. -/
theorem recoverAll_tells (l : List Nat) {σ : Coord} (hi : Inv σ) {s n d : Nat}
    (hs : σ.shards.get s = none ∨ ∃ to, CoordOut.shardAllocated s n to ∈ σ.out ∧ d ∈ to)
    (hd : (σ.hosts.get d).map (·.status) = some .ready)
    (hn : (σ.recoverAll l).shards.get s = some n) :
    ∃ to, CoordOut.shardAllocated s n to ∈ (σ.recoverAll l).out ∧ d ∈ to := by
  induction l generalizing σ with
  | nil =>
    rcases hs with hs | hs
    · rw [show (σ.recoverAll []).shards = σ.shards from rfl, hs] at hn
      cases hn
    · exact hs
  | cons x l ih =>
    have hst : (((σ.allocateShard x).1).hosts.get d).map (·.status) = some .ready := by
      rw [allocateShard_hosts_status]; exact hd
    have hstep : σ.recoverAll (x :: l) = ((σ.allocateShard x).1).recoverAll l := rfl
    rw [hstep] at hn ⊢
    rcases hs with hs | ⟨to, h1, h2⟩
    · by_cases hx : x = s
      · subst hx
        obtain ⟨x', hx', hs'⟩ := Option.map_eq_some_iff.1 hd
        obtain ⟨⟨m, hm⟩, hc⟩ := choice_isSome hx' hs'
        have hpl := allocateShard_placed hi hs hc
        have hget : ((σ.allocateShard x).1).shards.get x = some m := by
          rw [hpl]
          exact (placed_shards_get σ x m x).trans (if_pos rfl)
        have hkeep : ∀ (l : List Nat) (τ : Coord), τ.shards.get x = some m → (τ.recoverAll l).shards.get x = some m := by
          intro l
          induction l with
          | nil => exact fun τ h => h
          | cons y l ih => exact fun τ h => ih _ (allocateShard_keeps h y)
        have hmn : m = n := by
          have := hkeep l _ hget
          rw [hn] at this
          simpa using this.symm
        subst hmn
        refine ih (hi.allocateShard x) (.inr ⟨(isort byLoad σ.readyHosts).map (·.1), ?_, mem_readyHosts hd⟩) hst hn
        rw [hpl]
        simp [Coord.placed]
      · refine ih (hi.allocateShard x) (.inl ?_) hst hn
        rw [(allocateShard_other hi hx).1]
        exact hs
    · refine ih (hi.allocateShard x) (.inr ⟨to, ?_, h2⟩) hst hn
      obtain ⟨new, e⟩ := allocateShard_grows hi x
      rw [e]
      exact List.mem_append_left _ h1

theorem addNodes_status (self : Nat) (nodes : List (Nat × Bool)) (hosts : Assoc Nat HostInfo) (d : Nat) (hd : d ≠ self) :
    ((nodes.foldl (addNode self) hosts).get d).map (·.status) =
      match (nodes.filter fun p => p.1 = d).getLast? with
      | none => (hosts.get d).map (·.status)
      | some p => some (if p.2 then .ready else .unavailable) := by
  induction nodes using snoc_induction with
  | nil => rfl
  | snoc l x ih =>
    rw [List.foldl_append, List.foldl_cons, List.foldl_nil, List.filter_append]
    by_cases hx : x.1 = d
    · subst hx
      unfold addNode
      rw [if_neg hd]
      simp [Assoc.get_insert]
    · have : List.filter (fun p => decide (p.1 = d)) [x] = [] := by simp [hx]
      rw [this, List.append_nil, ← ih]
      rw [addNode]
      split
      · rfl
      · rw [Assoc.get_insert, if_neg (fun e => hx e.symm)]

theorem fresh_ready {self : Nat} {nodes : List (Nat × Bool)} {j : List Nat} {d : Nat}
    (h : d = self ∨ (d, true) ∈ nodes ∧ (d, false) ∉ nodes) :
    ((Coord.fresh self nodes j).hosts.get d).map (·.status) = some .ready := by
  by_cases hd : d = self
  · subst hd
    rw [fresh_self]; rfl
  · obtain ⟨h1, h2⟩ := h.resolve_left hd
    show ((nodes.foldl (addNode self) [(self, { status := .ready })]).get d).map _ = _
    rw [addNodes_status _ _ _ _ hd]
    cases hl : (nodes.filter fun p => p.1 = d).getLast? with
    | none =>
      rw [List.getLast?_eq_none_iff] at hl
      have : (d, true) ∈ nodes.filter fun p => p.1 = d := List.mem_filter.2 ⟨h1, by simp⟩
      rw [hl] at this; cases this
    | some p =>
      obtain ⟨h3, h4⟩ := List.mem_filter.1 (List.mem_of_getLast? hl)
      obtain ⟨x, b⟩ := p
      simp only [decide_eq_true_eq] at h4
      subst h4
      cases b with
      | true => rfl
      | false => exact absurd h3 h2

theorem fresh_ready_only {self : Nat} {nodes : List (Nat × Bool)} {j : List Nat} {d : Nat}
    (h : ((Coord.fresh self nodes j).hosts.get d).map (·.status) = some .ready) :
    d = self ∨ (d, true) ∈ nodes := by
  by_cases hd : d = self
  · exact .inl hd
  · right
    replace h : ((nodes.foldl (addNode self) [(self, { status := .ready })]).get d).map (·.status) = some HostStatus.ready := h
    rw [addNodes_status _ _ _ _ hd] at h
    cases hl : (nodes.filter fun p => p.1 = d).getLast? with
    | none =>
      rw [hl] at h
      simp [Assoc.get_cons, Ne.symm hd, hd] at h
    | some p =>
      rw [hl] at h
      obtain ⟨h3, h4⟩ := List.mem_filter.1 (List.mem_of_getLast? hl)
      obtain ⟨x, b⟩ := p
      simp only [decide_eq_true_eq] at h4
      subst h4
      cases b with
      | true => exact h3
      | false => simp at h

theorem shuffle_get {σ : Coord} (hu : Assoc.Uniq σ.hosts) (o : Assoc Nat HostInfo) (d : Nat) :
    (σ.shuffle o).hosts.get d = σ.hosts.get d := by
  unfold Coord.shuffle
  split
  · rename_i h
    exact (Assoc.get_perm hu (List.isPerm_iff.1 h).symm d).symm
  · rfl

/-- a shard the new coordinator has placed is announced to every ready node. -/
theorem revive_tells {self : Nat} {nodes : List (Nat × Bool)} {o : Assoc Nat HostInfo} {j : List Nat} {s n d e : Nat}
    (hd : d = self ∨ (d, true) ∈ nodes ∧ (d, false) ∉ nodes)
    (hn : (Coord.revive self nodes o j).shards.get s = some n) :
    (d, HMsg.allocated s n) ∈ stampAll e ((Coord.revive self nodes o j).sentSince 0) := by
  rw [stampAll_alloc]
  have hi := (InvP.fresh self nodes j).shuffle o
  have hs : ((Coord.fresh self nodes j).shuffle o).shards.get s = none := by
    rw [(shuffle_out _ o).2.1]; rfl
  obtain ⟨to, h1, h2⟩ := recoverAll_tells (d := d) j hi (.inl hs)
    (by rw [shuffle_get (InvP.fresh self nodes j).hu]; exact fresh_ready hd) hn
  refine List.mem_flatMap.2 ⟨CoordOut.shardAllocated s n to, h1, ?_⟩
  exact List.mem_map.2 ⟨d, h2, rfl⟩

theorem recoverAll_status (l : List Nat) (σ : Coord) (d : Nat) :
    ((σ.recoverAll l).hosts.get d).map (·.status) = (σ.hosts.get d).map (·.status) := by
  induction l generalizing σ with
  | nil => rfl
  | cons x l ih => exact (ih (σ.allocateShard x).1).trans (allocateShard_status σ x d)

/-- a new coordinator knows the shards of the journal and no others. -/
theorem revive_assigned (self : Nat) (nodes : List (Nat × Bool)) (o : Assoc Nat HostInfo) (j : List Nat) (t : Nat) :
    ((Coord.revive self nodes o j).shards.get t).isSome = true ↔ t ∈ j := by
  have hu := (InvP.fresh self nodes j).hu
  refine (recoverAll_assigned j ((Coord.fresh self nodes j).shuffle o)
    ⟨self, by rw [shuffle_get hu, fresh_self]; rfl⟩ t).trans ?_
  rw [(shuffle_out _ o).2.1]
  simp [Coord.fresh]

theorem revive_ready {self : Nat} {nodes : List (Nat × Bool)} {o : Assoc Nat HostInfo} {j : List Nat} {s n : Nat}
    (hn : (Coord.revive self nodes o j).shards.get s = some n) : n = self ∨ (n, true) ∈ nodes := by
  have hi := InvP.revive self nodes o j
  obtain ⟨x, h1, h2⟩ := (hi.agree' s n).1 hn
  have h3 := hi.onReady n x h1 (List.ne_nil_of_mem h2)
  refine fresh_ready_only (j := j) ?_
  rw [← shuffle_get (InvP.fresh self nodes j).hu o, ← recoverAll_status j]
  rw [show (((Coord.fresh self nodes j).shuffle o).recoverAll j).hosts.get n = some x from h1]
  simpa using h3

theorem revive_journal (self : Nat) (nodes : List (Nat × Bool)) (o : Assoc Nat HostInfo) (j : List Nat) :
    (Coord.revive self nodes o j).journal = j :=
  (recoverAll_journal j _).trans (shuffle_out _ o).2.2.1

theorem revive_moving (self : Nat) (nodes : List (Nat × Bool)) (o : Assoc Nat HostInfo) (j : List Nat) :
    (Coord.revive self nodes o j).moving = [] :=
  (recoverAll_moving j _).trans (shuffle_out _ o).2.2.2

/-! ### healing -/

/-- After a coordinator has placed `s` on `n`: whatever else runs has been told to stop, or is about to be told where
`s` is now. -/
structure FSys.Healing (s n : Nat) (w : FSys R) : Prop where
  self : ∀ d, (w.host d).self = d
  inv : Inv w.coord
  dated : w.Dated
  as : w.coord.shards.get s = some n
  noStop : w.toSys.nStop s = 0
  noAck : w.toSys.nAck s = 0
  alloc : ∀ d m, (d, HMsg.allocated s m) ∈ w.net → m = n
  own : (w.host n).Blank s ∨ ∃ a, (w.host n).Held s a ∧ ((w.host n).stopsOf s).length ≤ 1
  other : ∀ d, d ≠ n → (w.host d).Fading s ∨
    ∃ a, (w.host d).Held s a ∧ (s, a) ∉ (w.host d).booting ∧ ((w.host d).stopsOf s).length ≤ 1 ∧
      (d, HMsg.allocated s n) ∈ w.net
  old : ∀ d, ∀ t ∈ (w.host d).stopsOf s, ∀ q, t.req = some q → q.origin ≠ w.epoch

theorem FSys.Healing.tell {s n : Nat} {w : FSys R} (h : w.Healing s n) {c : Coord} {e : List (Nat × HMsg)}
    {as ak : List (Nat × Nat)} (hi : Inv c) (hl : w.coord.Leaves s c)
    (he : ∀ m ∈ e, ∃ d s' n', m = (d, HMsg.allocated s' n') ∧ (s' = s → n' = n))
    (hak : (ak.countP fun p => p.1 = s) = 0) : (w.tell c e as ak).Healing s n := by
  have hst : e.countP (isStop s) = 0 := by
    rw [List.countP_eq_zero]
    intro m hm
    obtain ⟨d, s', n', rfl, _⟩ := he m hm
    simp [isStop]
  refine ⟨h.self, hi, ?_, hl.1.trans h.as, ?_, hak, ?_, h.own, ?_, h.old⟩
  · refine h.dated.tell c as ak ?_
    intro d s' o hm
    obtain ⟨_, _, _, e', _⟩ := he _ hm
    simp at e'
  · show (w.net ++ (stampAll w.epoch _ ++ e)).countP (isStop s) = 0
    rw [List.countP_append, List.countP_append, stampAll_stops, hl.sent.2, hst]
    exact h.noStop
  · intro d m hm
    rcases List.mem_append.1 hm with hm | hm
    · exact h.alloc d m hm
    · rcases List.mem_append.1 hm with hm | hm
      · have := stampAll_neutral hl.sent.1 _ hm
        simp [isAlloc] at this
      · obtain ⟨d', s', n', e', h'⟩ := he _ hm
        simp only [Prod.mk.injEq, HMsg.allocated.injEq] at e'
        rw [e'.2.2]
        exact h' e'.2.1.symm
  · intro d hd
    rcases h.other d hd with h1 | ⟨a, h1, h2, h3, h4⟩
    · exact .inl h1
    · exact .inr ⟨a, h1, h2, h3, List.mem_append_left _ h4⟩

/-- what a step of a host that is not the delivery of a message about `s` does to `s`. -/
theorem Host.Held.step_quiet (f : R → Nat) {s a : Nat} {h : Host R} (hb : h.Held s a) (h1 : (h.stopsOf s).length ≤ 1)
    (op : HostOp R) (hl : op.isLocal = true ∨ op.shard f ≠ s) :
    (h.next f op).Blank s ∨ ((h.next f op).Held s a ∧ ((h.next f op).stopsOf s).length ≤ 1) := by
  by_cases hs : op.shard f = s
  · have hl := hl.resolve_right (fun e => e hs)
    by_cases ht : ∃ t ∈ h.stops, t.s = s ∧ op = .stopDone t
    · obtain ⟨t, ht, hts, rfl⟩ := ht
      exact .inl (hb.stopDone f ht hts h1)
    · obtain ⟨h2, h3⟩ := hb.isLocal f op hl fun t h1 h2 e => ht ⟨t, h1, h2, e⟩
      exact .inr ⟨h2, by rw [h3]; exact h1⟩
  · have := h.next_same_other f op hs
    exact .inr ⟨hb.same this, by rw [this.stops]; exact h1⟩

theorem Host.booting_next (f : R → Nat) {s a : Nat} {h : Host R} (hb : (s, a) ∉ h.booting) (op : HostOp R)
    (hl : op.isLocal = true ∨ op.shard f ≠ s) : (s, a) ∉ (h.next f op).booting := by
  by_cases hs : op.shard f = s
  · have hl := hl.resolve_right (fun e => e hs)
    cases op with
    | request r =>
      rw [show h.next f (.request r) = (h.request (f r) r).1 from rfl, (h.request_same s (f r) r).booting]
      exact hb
    | shardAllocated _ _ => simp [HostOp.isLocal] at hl
    | reallocating _ => simp [HostOp.isLocal] at hl
    | stopShard _ _ => simp [HostOp.isLocal] at hl
    | ready s' b =>
      simp only [Host.next, Host.step]
      split
      · obtain ⟨_, _, _, _, _, f6, _⟩ :=
          ({ h with booting := h.booting.filter (· ≠ (s', b)) } : Host R).shardReady_frame s' b
        rw [f6]
        exact fun hm => hb (List.mem_filter.1 hm).1
      · exact hb
    | stopDone t =>
      simp only [Host.next, Host.step]
      split <;> exact hb
    | closed s' b =>
      simp only [Host.next, Host.step]
      split <;> exact hb
  · rw [(h.next_same_other f op hs).booting]; exact hb

theorem FSys.Healing.hostStep (f : R → Nat) {s n : Nat} {w : FSys R} (h : w.Healing s n) (d : Nat) (op : HostOp R)
    (hl : op.isLocal = true ∨ op.shard f ≠ s) (hop : ∀ q, op.asks = some q → q.origin ≤ w.epoch) :
    (w.hostStep f d op).Healing s n := by
  have hself : ((w.host d).next f op).self = d := ((w.host d).next_self f op).trans (h.self d)
  have hns : ∀ q, op ≠ .stopShard s q := by
    rintro q rfl
    rcases hl with e | e
    · simp [HostOp.isLocal] at e
    · exact e rfl
  have hna : ∀ m, op ≠ .shardAllocated s m := by
    rintro q rfl
    rcases hl with e | e
    · simp [HostOp.isLocal] at e
    · exact e rfl
  refine ⟨Sys.moved_self h.self hself, h.inv, h.dated.hostStep f d op hop, h.as, h.noStop, ?_, h.alloc, ?_, ?_, ?_⟩
  · show (w.acks ++ _).countP _ = 0
    rw [List.countP_append, Host.no_acksTo f op (h.old d)]
    exact h.noAck
  · show (w.setHost d _ n).Blank s ∨ ∃ a, (w.setHost d _ n).Held s a ∧ ((w.setHost d _ n).stopsOf s).length ≤ 1
    by_cases e : n = d
    · subst e
      rw [Sys.setHost_self]
      rcases h.own with h1 | ⟨a, h1, h2⟩
      · left
        by_cases hs : op.shard f = s
        · exact h1.same (h1.isLocal f op (hl.resolve_right fun e => e hs))
        · exact h1.same ((w.host n).next_same_other f op hs)
      · rcases h1.step_quiet f h2 op hl with h3 | ⟨h3, h4⟩
        · exact .inl h3
        · exact .inr ⟨a, h3, h4⟩
    · rw [Sys.setHost_other _ _ e]
      exact h.own
  · intro x hx
    show (w.setHost d _ x).Fading s ∨ ∃ a, (w.setHost d _ x).Held s a ∧ (s, a) ∉ (w.setHost d _ x).booting ∧
      ((w.setHost d _ x).stopsOf s).length ≤ 1 ∧ (x, HMsg.allocated s n) ∈ w.net
    by_cases e : x = d
    · subst e
      rw [Sys.setHost_self]
      rcases h.other x hx with h1 | ⟨a, h1, h2, h3, h4⟩
      · exact .inl (h1.next f op (hna _))
      · rcases h1.step_quiet f h3 op hl with h5 | ⟨h5, h6⟩
        · exact .inl h5.fading
        · exact .inr ⟨a, h5, Host.booting_next f h2 op hl, h6, h4⟩
    · rw [Sys.setHost_other _ _ e]
      exact h.other x hx
  · intro x
    show ∀ t ∈ (w.setHost d _ x).stopsOf s, _
    by_cases e : x = d
    · subst e
      rw [Sys.setHost_self]
      exact fun t ht => h.old x t (Host.stopsOf_next f (h.dated.inv x) op hns t ht)
    · rw [Sys.setHost_other _ _ e]
      exact h.old x

/-- an announcement of `s` is handled. -/
theorem FSys.Healing.heard (f : R → Nat) {s n : Nat} {w : FSys R} (h : w.Healing s n) (d : Nat)
    (hm : (d, HMsg.allocated s n) ∈ w.net) :
    ((w.take d (.allocated s n)).hostStep f d (.shardAllocated s n)).Healing s n := by
  have hself : ((w.host d).next f (.shardAllocated s n)).self = d := ((w.host d).next_self f _).trans (h.self d)
  have hnet : ∀ m ∈ w.net.erase (d, HMsg.allocated s n), m ∈ w.net := fun m hm => List.mem_of_mem_erase hm
  have hd : (w.take d (.allocated s n)).Dated :=
    ⟨h.dated.inv, fun d' s' o hm => h.dated.net d' s' o (hnet _ hm), h.dated.stops⟩
  refine ⟨Sys.moved_self h.self hself, h.inv, hd.hostStep f d _ (by simp [HostOp.asks]), h.as, ?_, ?_,
    fun x m hx => h.alloc x m (hnet _ hx), ?_, ?_, ?_⟩
  · have : (w.net.erase (d, HMsg.allocated s n)).countP (isStop s) ≤ w.toSys.nStop s := (List.erase_sublist).countP_le
    have h0 := h.noStop
    show (w.net.erase (d, HMsg.allocated s n)).countP (isStop s) = 0
    omega
  · show (w.acks ++ _).countP _ = 0
    rw [List.countP_append]
    have := Host.no_acksTo (h := w.host d) (e := w.epoch) (d := d) f (.shardAllocated s n) (h.old d)
    have hk := h.noAck
    unfold Sys.nAck at hk
    rw [hk]
    show 0 + (((w.host d).step f (.shardAllocated s n)).2.filterMap (HostOut.ackTo w.epoch d)).countP _ = 0
    rw [this]
  · show (w.setHost d _ n).Blank s ∨ ∃ a, (w.setHost d _ n).Held s a ∧ ((w.setHost d _ n).stopsOf s).length ≤ 1
    by_cases e : n = d
    · subst e
      rw [Sys.setHost_self]
      rcases h.own with h1 | ⟨a, h1, h2⟩
      · obtain ⟨a, h3, h4⟩ := h1.allocSelf (h.self n).symm
        exact .inr ⟨a, h3, by rw [show ((w.take n (.allocated s n)).host n).next f (.shardAllocated s n) = ((w.host n).shardAllocated s n).1 from rfl, h4]; simp⟩
      · have := h1.allocSelf (h.self n).symm
        exact .inr ⟨a, h1.same this, by rw [show ((w.take n (.allocated s n)).host n).next f (.shardAllocated s n) = ((w.host n).shardAllocated s n).1 from rfl, this.stops]; exact h2⟩
    · rw [Sys.setHost_other _ _ e]
      exact h.own
  · intro x hx
    show (w.setHost d _ x).Fading s ∨ ∃ a, (w.setHost d _ x).Held s a ∧ (s, a) ∉ (w.setHost d _ x).booting ∧
      ((w.setHost d _ x).stopsOf s).length ≤ 1 ∧ (x, HMsg.allocated s n) ∈ w.net.erase (d, HMsg.allocated s n)
    by_cases e : x = d
    · subst e
      rw [Sys.setHost_self]
      left
      have hne : n ≠ (w.host x).self := by rw [h.self x]; exact fun e => hx e.symm
      rcases h.other x hx with h1 | ⟨a, h1, h2, h3, h4⟩
      · exact h1.next f _ (by simpa using hne)
      · exact h1.allocOther h2 hne
    · rw [Sys.setHost_other _ _ e]
      rcases h.other x hx with h1 | ⟨a, h1, h2, h3, h4⟩
      · exact .inl h1
      · refine .inr ⟨a, h1, h2, h3, (List.mem_erase_of_ne ?_).2 h4⟩
        simp [e]
  · intro x
    show ∀ t ∈ (w.setHost d _ x).stopsOf s, _
    by_cases e : x = d
    · subst e
      rw [Sys.setHost_self]
      exact fun t ht => h.old x t (Host.stopsOf_next f (h.dated.inv x) _ (by simp) t ht)
    · rw [Sys.setHost_other _ _ e]
      exact h.old x

theorem FSys.Healing.crash {s n : Nat} {w : FSys R} (h : w.Healing s n) (d : Nat) : (w.crash d).Healing s n := by
  have hnet : ∀ m ∈ (w.crash d).net, m ∈ w.net := fun m hm => (List.mem_filter.1 hm).1
  have hst : (w.crash d).toSys.nStop s ≤ w.toSys.nStop s := List.filter_sublist.countP_le
  have hak : (w.crash d).toSys.nAck s ≤ w.toSys.nAck s := List.filter_sublist.countP_le
  refine ⟨Sys.moved_self h.self rfl, h.inv, h.dated.next (fun _ => 0) (.crash d), h.as, ?_, ?_,
    fun x m hx => h.alloc x m (hnet _ hx), ?_, ?_, ?_⟩
  · have := h.noStop; omega
  · have := h.noAck; omega
  · show (w.setHost d _ n).Blank s ∨ ∃ a, (w.setHost d _ n).Held s a ∧ ((w.setHost d _ n).stopsOf s).length ≤ 1
    by_cases e : n = d
    · subst e
      rw [Sys.setHost_self]
      exact .inl (Host.init_blank s n)
    · rw [Sys.setHost_other _ _ e]
      exact h.own
  · intro x hx
    show (w.setHost d _ x).Fading s ∨ ∃ a, (w.setHost d _ x).Held s a ∧ (s, a) ∉ (w.setHost d _ x).booting ∧
      ((w.setHost d _ x).stopsOf s).length ≤ 1 ∧ (x, HMsg.allocated s n) ∈ w.net.filter fun p => p.1 ≠ d
    by_cases e : x = d
    · subst e
      rw [Sys.setHost_self]
      exact .inl (Host.init_blank s x).fading
    · rw [Sys.setHost_other _ _ e]
      rcases h.other x hx with h1 | ⟨a, h1, h2, h3, h4⟩
      · exact .inl h1
      · exact .inr ⟨a, h1, h2, h3, List.mem_filter.2 ⟨h4, by simpa using e⟩⟩
  · intro x
    show ∀ t ∈ (w.setHost d _ x).stopsOf s, _
    by_cases e : x = d
    · subst e
      rw [Sys.setHost_self]
      simp [Host.init, Host.stopsOf]
    · rw [Sys.setHost_other _ _ e]
      exact h.old x

end Verif.Sharding
