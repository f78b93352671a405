import Verif.Sharding.HostLemmas

/-! Lemmas about stopping shards at a host. -/

namespace Verif.Sharding

variable {R : Type}

/-! ### the instances mentioned in a state -/

/-- the instance a hosted shard refers to. -/
def HShard.inst : HShard R → Option Nat
  | .starting a _ _ => some a
  | .ready a => some a
  | .stopping => none

/-- the stop request remembered for a starting shard. -/
def HShard.stopReq : HShard R → Option StopReq
  | .starting _ _ st => st
  | _ => none

theorem HShard.request_inst (s : Nat) (r : R) (h : HShard R) : (h.request s r).1.inst = h.inst := by
  cases h <;> rfl

theorem HShard.request_stopReq (s : Nat) (r : R) (h : HShard R) : (h.request s r).1.stopReq = h.stopReq := by
  cases h <;> rfl

theorem Host.request_hosted (σ : Host R) (s : Nat) (r : R) (s' : Nat) (h' : HShard R)
    (hh : (σ.request s r).1.hosted.get s' = some h') :
    ∃ h, σ.hosted.get s' = some h ∧ h'.inst = h.inst ∧ h'.stopReq = h.stopReq := by
  unfold Host.request at hh
  split at hh
  · rename_i c hc
    simp only [Assoc.get_update] at hh
    split at hh
    · rename_i e
      subst e
      rw [hc] at hh
      simp only [Option.map_some, Option.some.injEq] at hh
      subst hh
      exact ⟨c, hc, HShard.request_inst _ _ _, HShard.request_stopReq _ _ _⟩
    · exact ⟨h', hh, rfl, rfl⟩
  · split at hh
    · exact ⟨h', hh, rfl, rfl⟩
    · exact ⟨h', hh, rfl, rfl⟩

theorem Host.requests_hosted (σ : Host R) (s : Nat) (rs : List R) (s' : Nat) (h' : HShard R)
    (hh : (σ.requests s rs).1.hosted.get s' = some h') :
    ∃ h, σ.hosted.get s' = some h ∧ h'.inst = h.inst ∧ h'.stopReq = h.stopReq := by
  induction rs generalizing σ with
  | nil => exact ⟨h', hh, rfl, rfl⟩
  | cons r rs ih =>
    obtain ⟨h, h1, h2, h3⟩ := ih _ hh
    obtain ⟨k, k1, k2, k3⟩ := σ.request_hosted s r s' h h1
    exact ⟨k, k1, h2.trans k2, h3.trans k3⟩

theorem Host.allocated_frame (σ : Host R) (s n : Nat) :
    (σ.allocated s n).self = σ.self ∧ (σ.allocated s n).stops = σ.stops ∧ σ.fresh ≤ (σ.allocated s n).fresh := by
  unfold allocated
  split
  · split <;> simp
  · simp

/-- instances are numbered from `0`, and no stop request is ever remembered for a starting shard. -/
structure Host.Inv (σ : Host R) : Prop where
  hosted : ∀ s h, σ.hosted.get s = some h → h.stopReq = none ∧ ∀ a, h.inst = some a → a < σ.fresh
  booting : ∀ s a, (s, a) ∈ σ.booting → a < σ.fresh

theorem Host.Inv.init (n : Nat) : (Host.init n : Host R).Inv := by
  refine ⟨?_, ?_⟩ <;> simp [Host.init, Assoc.get_nil]

theorem Host.Inv.request {σ : Host R} (hi : σ.Inv) (s : Nat) (r : R) : (σ.request s r).1.Inv := by
  have hf := σ.request_frame s r
  refine ⟨?_, ?_⟩
  · intro s' h' hh
    obtain ⟨h, h1, h2, h3⟩ := σ.request_hosted s r s' h' hh
    rw [hf.2.2.1, h2, h3]
    exact hi.hosted s' h h1
  · rw [hf.2.2.1, hf.2.2.2.2.1]; exact hi.booting

theorem Host.Inv.requests {σ : Host R} (hi : σ.Inv) (s : Nat) (rs : List R) : (σ.requests s rs).1.Inv := by
  induction rs generalizing σ with
  | nil => exact hi
  | cons r rs ih => exact ih (hi.request s r)

theorem Host.Inv.allocated {σ : Host R} (hi : σ.Inv) (s n : Nat) : (σ.allocated s n).Inv := by
  unfold Host.allocated
  split
  · split
    · exact ⟨hi.hosted, hi.booting⟩
    · refine ⟨?_, ?_⟩
      · intro s' h' hh
        simp only [Assoc.get_insert] at hh
        split at hh
        · simp only [Option.some.injEq] at hh
          subst hh
          simp [HShard.stopReq, HShard.inst]
        · obtain ⟨h1, h2⟩ := hi.hosted s' h' hh
          exact ⟨h1, fun a ha => Nat.lt_succ_of_lt (h2 a ha)⟩
      · intro s' a ha
        simp only [List.mem_append, List.mem_singleton, Prod.mk.injEq] at ha
        rcases ha with ha | ha
        · exact Nat.lt_succ_of_lt (hi.booting s' a ha)
        · rw [ha.2]; exact Nat.lt_succ_self _
  · refine ⟨?_, hi.booting⟩
    intro s' h' hh
    simp only [Assoc.get_erase] at hh
    split at hh
    · cases hh
    · exact hi.hosted s' h' hh

theorem Host.Inv.next {σ : Host R} (f : R → Nat) (hi : σ.Inv) (op : HostOp R) : (σ.next f op).Inv := by
  cases op with
  | request r => exact hi.request _ _
  | shardAllocated s n =>
    simp only [Host.next, Host.step, Host.shardAllocated]
    have ha := hi.allocated s n
    split
    · exact Host.Inv.requests (σ := (σ.allocated s n).dropPending s) ⟨ha.hosted, ha.booting⟩ s _
    · exact ha
  | reallocating s => exact ⟨hi.hosted, hi.booting⟩
  | stopShard s q =>
    have key : ∀ s' h', (σ.hosted.insert s HShard.stopping).get s' = some h' →
        h'.stopReq = none ∧ ∀ a, h'.inst = some a → a < σ.fresh := by
      intro s' h' hh
      simp only [Assoc.get_insert] at hh
      split at hh
      · simp only [Option.some.injEq] at hh
        subst hh
        simp [HShard.stopReq, HShard.inst]
      · exact hi.hosted s' h' hh
    simp only [Host.next, Host.step, Host.stopShard]
    split
    · exact hi
    · exact ⟨key, hi.booting⟩
    · exact ⟨key, hi.booting⟩
  | ready s a =>
    simp only [Host.next, Host.step]
    split
    · rename_i hm
      have hf := Host.shardReady_frame { σ with booting := σ.booting.filter (· ≠ (s, a)) } s a
      refine ⟨?_, ?_⟩
      · intro s' h' hh
        rw [Host.shardReady_hosted, Assoc.get_insert] at hh
        rw [hf.2.2.2.1]
        split at hh
        · simp only [Option.some.injEq] at hh
          subst hh
          simp only [HShard.stopReq, HShard.inst, Option.some.injEq, true_and, forall_eq']
          exact hi.booting s a hm
        · exact hi.hosted s' h' hh
      · rw [hf.2.2.2.1, hf.2.2.2.2.2.1]
        intro s' b hb
        exact hi.booting s' b (List.mem_filter.mp hb).1
    · exact hi
  | stopDone t =>
    simp only [Host.next, Host.step]
    split
    · refine ⟨?_, hi.booting⟩
      intro s' h' hh
      simp only [Host.stopDone, Assoc.get_erase] at hh
      split at hh
      · cases hh
      · exact hi.hosted s' h' hh
    · exact hi
  | closed s a =>
    simp only [Host.next, Host.step]
    split
    · exact ⟨hi.hosted, hi.booting⟩
    · exact hi

theorem Host.Inv.run {σ : Host R} (f : R → Nat) (hi : σ.Inv) (ops : List (HostOp R)) : (σ.run f ops).Inv := by
  induction ops generalizing σ with
  | nil => exact hi
  | cons op ops ih => exact ih (hi.next f op)

/-! ### stop tasks -/

/-- the stop request an operation carries. -/
def HostOp.asks : HostOp R → Option StopReq
  | .stopShard _ q => some q
  | _ => none

/-- a stop task never changes and is only removed when it is done. -/
theorem Host.stops_mono (f : R → Nat) (σ : Host R) (op : HostOp R) {t : StopTask} (ht : t ∈ σ.stops)
    (hop : op ≠ .stopDone t) : t ∈ (σ.next f op).stops := by
  cases op with
  | request r => rwa [show (σ.next f (.request r)).stops = σ.stops from (σ.request_frame (f r) r).2.2.2.2.2.2]
  | shardAllocated s n =>
    simp only [Host.next, Host.step, Host.shardAllocated]
    split
    · rw [(Host.requests_frame _ _ _).2.2.2.2.2.2]
      show t ∈ (σ.allocated s n).stops
      rwa [(σ.allocated_frame s n).2.1]
    · rwa [(σ.allocated_frame s n).2.1]
  | reallocating s => exact ht
  | stopShard s q =>
    simp only [Host.next, Host.step, Host.stopShard]
    split
    · exact ht
    · exact List.mem_append_left _ ht
    · exact ht
  | ready s a =>
    simp only [Host.next, Host.step]
    split
    · simp only [Host.shardReady]
      split
      · split
        · exact List.mem_append_left _ ht
        · exact ht
      · exact ht
    · exact ht
  | stopDone t' =>
    simp only [Host.next, Host.step]
    split
    · have hne : t ≠ t' := fun e => hop (by rw [e])
      exact (List.mem_erase_of_ne hne).mpr ht
    · exact ht
  | closed s a =>
    simp only [Host.next, Host.step]
    split <;> exact ht

/-- a stop request that is not waiting and is not asked for is still not waiting afterwards. -/
theorem Host.unasked (f : R → Nat) {σ : Host R} (hi : σ.Inv) {q : StopReq} (hq : ∀ t ∈ σ.stops, t.req ≠ some q)
    (op : HostOp R) (hop : op.asks ≠ some q) :
    (∀ t ∈ (σ.next f op).stops, t.req ≠ some q) ∧ ∀ s, HostOut.reply q s ∉ (σ.step f op).2 := by
  have hreq : ∀ (τ : Host R) s r, ∀ s', HostOut.reply q s' ∉ (τ.request s r).2 := by
    intro τ s r s'
    unfold Host.request
    split
    · rename_i h _
      cases h <;> simp [HShard.request]
    · split <;> simp
  have hreqs : ∀ rs (τ : Host R) s, ∀ s', HostOut.reply q s' ∉ (τ.requests s rs).2 := by
    intro rs
    induction rs with
    | nil => intro τ s s'; simp [Host.requests]
    | cons r rs ih =>
      intro τ s s'
      simp only [Host.requests, List.mem_append, not_or]
      exact ⟨hreq τ s r s', ih _ s s'⟩
  cases op with
  | request r =>
    refine ⟨?_, hreq σ _ r⟩
    rw [show (σ.next f (.request r)).stops = σ.stops from (σ.request_frame (f r) r).2.2.2.2.2.2]
    exact hq
  | shardAllocated s n =>
    simp only [Host.next, Host.step, Host.shardAllocated]
    split
    · refine ⟨?_, fun s' => hreqs _ _ _ s'⟩
      rw [(Host.requests_frame _ _ _).2.2.2.2.2.2]
      show ∀ t ∈ (σ.allocated s n).stops, _
      rwa [(σ.allocated_frame s n).2.1]
    · refine ⟨?_, by simp⟩
      rwa [(σ.allocated_frame s n).2.1]
  | reallocating s => exact ⟨hq, by simp [Host.step]⟩
  | stopShard s q' =>
    refine ⟨?_, by simp [Host.step]⟩
    simp only [HostOp.asks, ne_eq, Option.some.injEq] at hop
    simp only [Host.next, Host.step, Host.stopShard]
    split
    · exact hq
    · intro t ht
      simp only [List.mem_append, List.mem_singleton] at ht
      rcases ht with ht | ht
      · exact hq t ht
      · subst ht; simpa using hop
    · exact hq
  | ready s a =>
    simp only [Host.next, Host.step]
    split
    · simp only [Host.shardReady]
      split
      · rename_i b buf st hh
        have := (hi.hosted s _ hh).1
        simp only [HShard.stopReq] at this
        subst this
        exact ⟨hq, by simp⟩
      · exact ⟨hq, by simp⟩
    · exact ⟨hq, by simp⟩
  | stopDone t =>
    simp only [Host.next, Host.step]
    split
    · rename_i hm
      refine ⟨fun t' ht' => hq t' (List.mem_of_mem_erase ht'), ?_⟩
      intro s
      simp only [Host.stopDone, List.mem_map, Option.mem_toList, not_exists, not_and]
      intro q' hq' e
      simp only [HostOut.reply.injEq] at e
      exact hq t hm (by rw [← e.1]; exact hq')
    · exact ⟨hq, by simp⟩
  | closed s a =>
    simp only [Host.next, Host.step]
    split <;> exact ⟨hq, by simp⟩

/-- an instance that is gone does not come back. -/
theorem Host.dead_next (f : R → Nat) (σ : Host R) (op : HostOp R) {s a : Nat} (hd : (s, a) ∉ σ.live)
    (ha : a < σ.fresh) : (s, a) ∉ (σ.next f op).live ∧ a < (σ.next f op).fresh := by
  cases op with
  | request r =>
    obtain ⟨_, _, h3, h4, _⟩ := σ.request_frame (f r) r
    exact ⟨by show _ ∉ (σ.request (f r) r).1.live; rw [h4]; exact hd,
      by show _ < (σ.request (f r) r).1.fresh; rw [h3]; exact ha⟩
  | shardAllocated s' n =>
    have key : (s, a) ∉ (σ.allocated s' n).live ∧ a < (σ.allocated s' n).fresh := by
      unfold Host.allocated
      split
      · split
        · exact ⟨hd, ha⟩
        · refine ⟨?_, Nat.lt_succ_of_lt ha⟩
          simp only [List.mem_append, List.mem_singleton, Prod.mk.injEq, not_or]
          exact ⟨hd, fun e => by omega⟩
      · exact ⟨hd, ha⟩
    simp only [Host.next, Host.step, Host.shardAllocated]
    split
    · rw [(Host.requests_frame _ _ _).2.2.1, (Host.requests_frame _ _ _).2.2.2.1]
      exact key
    · exact key
  | reallocating s' => exact ⟨hd, ha⟩
  | stopShard s' q =>
    obtain ⟨_, _, _, h4, h5, _⟩ := σ.stopShard_frame s' q
    exact ⟨by show _ ∉ (σ.stopShard s' q).live; rw [h5]; exact hd,
      by show _ < (σ.stopShard s' q).fresh; rw [h4]; exact ha⟩
  | ready s' b =>
    simp only [Host.next, Host.step]
    split
    · obtain ⟨_, _, _, h4, h5, _⟩ := Host.shardReady_frame { σ with booting := σ.booting.filter (· ≠ (s', b)) } s' b
      rw [h4, h5]; exact ⟨hd, ha⟩
    · exact ⟨hd, ha⟩
  | stopDone t =>
    simp only [Host.next, Host.step]
    split
    · exact ⟨fun h => hd (List.mem_filter.mp h).1, ha⟩
    · exact ⟨hd, ha⟩
  | closed s' b =>
    simp only [Host.next, Host.step]
    split
    · exact ⟨fun h => hd (List.mem_filter.mp h).1, ha⟩
    · exact ⟨hd, ha⟩

theorem Host.dead_run (f : R → Nat) (σ : Host R) (ops : List (HostOp R)) {s a : Nat} (hd : (s, a) ∉ σ.live)
    (ha : a < σ.fresh) : (s, a) ∉ (σ.run f ops).live := by
  induction ops generalizing σ with
  | nil => exact hd
  | cons op ops ih =>
    obtain ⟨h1, h2⟩ := σ.dead_next f op hd ha
    exact ih _ h1 h2

/-- instance numbers only grow. -/
theorem Host.fresh_mono (f : R → Nat) (σ : Host R) (op : HostOp R) : σ.fresh ≤ (σ.next f op).fresh := by
  rcases Nat.eq_zero_or_pos σ.fresh with h | h
  · omega
  · -- an instance number below `fresh` that is not running for a shard beyond all those running
    obtain ⟨s, hs⟩ : ∃ s, (s, σ.fresh - 1) ∉ σ.live := by
      refine ⟨(σ.live.map Prod.fst).sum + 1, fun hm => ?_⟩
      have : (σ.live.map Prod.fst).sum + 1 ∈ σ.live.map Prod.fst := List.mem_map.mpr ⟨_, hm, rfl⟩
      have h2 : ∀ (l : List Nat) x, x ∈ l → x ≤ l.sum := by
        intro l
        induction l with
        | nil => intro x hx; cases hx
        | cons y l ih =>
          intro x hx
          rw [List.sum_cons]
          rcases List.mem_cons.mp hx with e | e
          · omega
          · have := ih x e; omega
      have := h2 _ _ this
      omega
    have := (σ.dead_next f op hs (by omega)).2
    omega

end Verif.Sharding
