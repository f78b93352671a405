import Verif.Sharding.HostModel

/-! Lemmas about the shard host. -/

namespace Verif.Sharding

variable {R : Type}

theorem Host.run_nil (f : R → Nat) (σ : Host R) : σ.run f [] = σ := rfl

theorem Host.run_cons (f : R → Nat) (σ : Host R) (op : HostOp R) (ops : List (HostOp R)) :
    σ.run f (op :: ops) = (σ.next f op).run f ops := rfl

theorem Host.run_append (f : R → Nat) (σ : Host R) (l₁ l₂ : List (HostOp R)) :
    σ.run f (l₁ ++ l₂) = (σ.run f l₁).run f l₂ := List.foldl_append

theorem Host.outs_append (f : R → Nat) (σ : Host R) (l₁ l₂ : List (HostOp R)) :
    σ.outs f (l₁ ++ l₂) = σ.outs f l₁ ++ (σ.run f l₁).outs f l₂ := by
  induction l₁ generalizing σ with
  | nil => rfl
  | cons op l₁ ih => simp only [List.cons_append, outs, ih, List.append_assoc]; rfl

/-- the requests waiting in the state of a shard. -/
def HShard.buffer : HShard R → List R
  | .starting _ buf _ => buf
  | _ => []

/-- requests of shard `s` kept by the host. -/
def Host.kept (σ : Host R) (s : Nat) : List R :=
  ((σ.hosted.get s).map HShard.buffer).getD [] ++ (σ.pending.get s).getD []

/-- the request an output passes on for shard `s`. -/
def HostOut.sent (s : Nat) : HostOut R → Option R
  | .deliver s' _ r => if s' = s then some r else none
  | .forward _ s' r => if s' = s then some r else none
  | _ => none

/-! ### frame -/

theorem Host.request_other (σ : Host R) {s s' : Nat} (h : s' ≠ s) (r : R) :
    ((σ.request s' r).1).kept s = σ.kept s ∧ (σ.request s' r).2.filterMap (HostOut.sent s) = [] ∧
      ((σ.request s' r).1).hosted.get s = σ.hosted.get s ∧
      ((σ.request s' r).1).remote = σ.remote ∧
      ((σ.request s' r).1).pending.get s = σ.pending.get s := by
  have h2 : s ≠ s' := fun e => h e.symm
  unfold Host.request
  rcases hh : σ.hosted.get s' with _ | c
  · rcases hr : σ.remote.get s' with _ | n
    · simp [kept, Assoc.get_insert, h2, HostOut.sent]
    · simp [HostOut.sent, h]
  · cases c <;> simp [kept, Assoc.get_update, h, h2, HShard.request, HostOut.sent]

theorem Host.request_frame (σ : Host R) (s : Nat) (r : R) :
    ((σ.request s r).1).self = σ.self ∧ ((σ.request s r).1).remote = σ.remote ∧
      ((σ.request s r).1).fresh = σ.fresh ∧ ((σ.request s r).1).live = σ.live ∧
      ((σ.request s r).1).booting = σ.booting ∧ ((σ.request s r).1).closing = σ.closing ∧
      ((σ.request s r).1).stops = σ.stops := by
  unfold Host.request
  split
  · simp
  · split <;> simp

theorem Host.requests_frame (σ : Host R) (s : Nat) (rs : List R) :
    ((σ.requests s rs).1).self = σ.self ∧ ((σ.requests s rs).1).remote = σ.remote ∧
      ((σ.requests s rs).1).fresh = σ.fresh ∧ ((σ.requests s rs).1).live = σ.live ∧
      ((σ.requests s rs).1).booting = σ.booting ∧ ((σ.requests s rs).1).closing = σ.closing ∧
      ((σ.requests s rs).1).stops = σ.stops := by
  induction rs generalizing σ with
  | nil => simp [requests]
  | cons r rs ih =>
    obtain ⟨h1, h2, h3, h4, h5, h6, h7⟩ := ih (σ.request s r).1
    obtain ⟨k1, k2, k3, k4, k5, k6, k7⟩ := σ.request_frame s r
    simp only [requests]
    exact ⟨h1.trans k1, h2.trans k2, h3.trans k3, h4.trans k4, h5.trans k5, h6.trans k6, h7.trans k7⟩

theorem Host.requests_other (σ : Host R) {s s' : Nat} (h : s' ≠ s) (rs : List R) :
    ((σ.requests s' rs).1).kept s = σ.kept s ∧ (σ.requests s' rs).2.filterMap (HostOut.sent s) = [] ∧
      ((σ.requests s' rs).1).hosted.get s = σ.hosted.get s ∧
      ((σ.requests s' rs).1).pending.get s = σ.pending.get s := by
  induction rs generalizing σ with
  | nil => simp [requests]
  | cons r rs ih =>
    obtain ⟨h1, h2, h3, h4⟩ := ih (σ.request s' r).1
    obtain ⟨k1, k2, k3, _, k4⟩ := σ.request_other h r
    simp only [requests, List.filterMap_append, h2, k2, List.append_nil]
    exact ⟨h1.trans k1, trivial, h3.trans k3, h4.trans k4⟩

theorem Host.allocated_other (σ : Host R) {s s' : Nat} (h : s' ≠ s) (n : Nat) :
    (σ.allocated s' n).hosted.get s = σ.hosted.get s ∧ (σ.allocated s' n).pending = σ.pending ∧
      (σ.allocated s' n).remote.get s = σ.remote.get s := by
  have h2 : s ≠ s' := fun e => h e.symm
  unfold Host.allocated
  split
  · split <;> simp [Assoc.get_insert, Assoc.get_erase, h2]
  · simp [Assoc.get_insert, Assoc.get_erase, h2]

theorem Host.allocated_pending (σ : Host R) (s n : Nat) : (σ.allocated s n).pending = σ.pending := by
  unfold Host.allocated
  split
  · split <;> rfl
  · rfl

/-- the shard an operation is about. -/
def HostOp.shard (f : R → Nat) : HostOp R → Nat
  | .request r => f r
  | .shardAllocated s _ => s
  | .reallocating s => s
  | .stopShard s _ => s
  | .ready s _ => s
  | .stopDone t => t.s
  | .closed s _ => s

theorem Host.shardReady_hosted (σ : Host R) (s a : Nat) :
    (σ.shardReady s a).1.hosted = σ.hosted.insert s (.ready a) := by
  unfold Host.shardReady
  split
  · split <;> rfl
  · rfl

theorem Host.shardReady_frame (σ : Host R) (s a : Nat) :
    (σ.shardReady s a).1.self = σ.self ∧ (σ.shardReady s a).1.remote = σ.remote ∧
      (σ.shardReady s a).1.pending = σ.pending ∧ (σ.shardReady s a).1.fresh = σ.fresh ∧
      (σ.shardReady s a).1.live = σ.live ∧ (σ.shardReady s a).1.booting = σ.booting ∧
      (σ.shardReady s a).1.closing = σ.closing := by
  unfold Host.shardReady
  split
  · split <;> simp
  · simp

theorem Host.shardReady_sent_other (σ : Host R) {s s' : Nat} (h : s' ≠ s) (a : Nat) :
    (σ.shardReady s' a).2.filterMap (HostOut.sent s) = [] := by
  unfold Host.shardReady
  split
  · split
    · rfl
    · simp [HostOut.sent, h]
  · rfl

theorem Host.stopShard_hosted_other (σ : Host R) {s s' : Nat} (h : s' ≠ s) (q : StopReq) :
    (σ.stopShard s' q).hosted.get s = σ.hosted.get s := by
  have h2 : s ≠ s' := fun e => h e.symm
  unfold Host.stopShard
  split <;> simp [Assoc.get_insert, h2]

theorem Host.stopShard_frame (σ : Host R) (s : Nat) (q : StopReq) :
    (σ.stopShard s q).self = σ.self ∧ (σ.stopShard s q).remote = σ.remote ∧
      (σ.stopShard s q).pending = σ.pending ∧ (σ.stopShard s q).fresh = σ.fresh ∧
      (σ.stopShard s q).live = σ.live ∧ (σ.stopShard s q).booting = σ.booting ∧
      (σ.stopShard s q).closing = σ.closing := by
  unfold Host.stopShard
  split <;> simp

theorem Host.sent_reply (s : Nat) (o : Option StopReq) (s' : Nat) :
    (o.toList.map fun q => (HostOut.reply q s' : HostOut R)).filterMap (HostOut.sent s) = [] := by
  cases o <;> simp [HostOut.sent]

/-- an operation about another shard leaves a shard alone. -/
theorem Host.step_other (f : R → Nat) (σ : Host R) (op : HostOp R) {s : Nat} (h : op.shard f ≠ s) :
    (σ.next f op).kept s = σ.kept s ∧ (σ.step f op).2.filterMap (HostOut.sent s) = [] ∧
      (σ.next f op).hosted.get s = σ.hosted.get s ∧ (σ.next f op).pending.get s = σ.pending.get s ∧
      (σ.next f op).remote.get s = σ.remote.get s := by
  have h2 : s ≠ op.shard f := fun e => h e.symm
  suffices H : (σ.step f op).2.filterMap (HostOut.sent s) = [] ∧
      (σ.next f op).hosted.get s = σ.hosted.get s ∧ (σ.next f op).pending.get s = σ.pending.get s ∧
      (σ.next f op).remote.get s = σ.remote.get s by
    refine ⟨?_, H⟩
    unfold Host.kept; rw [H.2.1, H.2.2.1]
  cases op with
  | request r =>
    obtain ⟨_, k2, k3, k4, k5⟩ := σ.request_other h r
    exact ⟨k2, k3, k5, congrArg (fun x => Assoc.get x s) k4⟩
  | shardAllocated s' n =>
    simp only [HostOp.shard] at h h2
    obtain ⟨a1, a2, a3⟩ := σ.allocated_other h n
    simp only [next, step, shardAllocated]
    split
    · rename_i rs _
      obtain ⟨_, b2, b3, b4⟩ := Host.requests_other
        ((σ.allocated s' n).dropPending s') h rs
      have b5 := (Host.requests_frame
        ((σ.allocated s' n).dropPending s') s' rs).2.1
      refine ⟨b2, b3.trans a1, b4.trans ?_, by rw [b5]; exact a3⟩
      show ((σ.allocated s' n).pending.erase s').get s = _
      rw [Assoc.get_erase, if_neg h2, a2]
    · exact ⟨rfl, a1, by rw [a2], a3⟩
  | reallocating s' =>
    simp only [HostOp.shard] at h h2
    simp [next, step, reallocating, Assoc.get_erase, h2]
  | stopShard s' q =>
    obtain ⟨_, b2, b3, _⟩ := σ.stopShard_frame s' q
    refine ⟨rfl, σ.stopShard_hosted_other h q, ?_, ?_⟩
    · show (σ.stopShard s' q).pending.get s = _; rw [b3]
    · show (σ.stopShard s' q).remote.get s = _; rw [b2]
  | ready s' a =>
    simp only [HostOp.shard] at h h2
    simp only [next, step]
    split
    · obtain ⟨_, b2, b3, _⟩ := Host.shardReady_frame { σ with booting := σ.booting.filter (· ≠ (s', a)) } s' a
      refine ⟨Host.shardReady_sent_other _ h a, ?_, ?_, ?_⟩
      · rw [Host.shardReady_hosted, Assoc.get_insert, if_neg h2]
      · rw [b3]
      · rw [b2]
    · simp
  | stopDone t =>
    simp only [HostOp.shard] at h h2
    simp only [next, step]
    split
    · refine ⟨Host.sent_reply _ _ _, ?_, rfl, rfl⟩
      simp [stopDone, Assoc.get_erase, h2]
    · simp
  | closed s' a =>
    simp only [next, step]
    split <;> simp

/-! ### at most once -/

theorem Host.request_count [BEq R] [LawfulBEq R] (σ : Host R) (s : Nat) (r x : R) :
    ((σ.request s r).2.filterMap (HostOut.sent s)).count x + (((σ.request s r).1).kept s).count x
      ≤ (σ.kept s).count x + [r].count x := by
  unfold Host.request
  rcases hh : σ.hosted.get s with _ | c
  · rcases hr : σ.remote.get s with _ | n
    · simp [kept, Assoc.get_insert, List.filterMap_cons, HostOut.sent, hh]
    · simp [HostOut.sent, Nat.add_comm]
  · cases c with
    | starting a buf st =>
      simp only [kept, Assoc.get_update, hh, if_pos, HShard.request, HShard.buffer, Option.map_some, Option.getD_some,
        List.count_append, List.filterMap_nil, List.count_nil]
      omega
    | ready a =>
      simp [kept, Assoc.get_update, hh, HShard.request, HShard.buffer, HostOut.sent, Nat.add_comm]
    | stopping => simp [kept, Assoc.get_update, hh, HShard.request, HShard.buffer]

theorem Host.requests_count [BEq R] [LawfulBEq R] (σ : Host R) (s : Nat) (rs : List R) (x : R) :
    ((σ.requests s rs).2.filterMap (HostOut.sent s)).count x + (((σ.requests s rs).1).kept s).count x
      ≤ (σ.kept s).count x + rs.count x := by
  induction rs generalizing σ with
  | nil => simp [requests]
  | cons r rs ih =>
    have h1 := σ.request_count s r x
    have h2 := ih (σ.request s r).1
    have h3 : (r :: rs).count x = [r].count x + rs.count x := by
      rw [← List.count_append]; rfl
    simp only [requests, List.filterMap_append, List.count_append] at *
    omega

theorem Host.allocated_kept [BEq R] [LawfulBEq R] (σ : Host R) (s n : Nat) (x : R) :
    (((σ.allocated s n).dropPending s).kept s).count x
      + ((σ.pending.get s).getD []).count x ≤ (σ.kept s).count x := by
  unfold Host.allocated
  split
  · split
    · simp [kept, dropPending, Assoc.get_erase]
    · rename_i hh
      simp [kept, dropPending, Assoc.get_erase, Assoc.get_insert, HShard.buffer]
  · simp [kept, dropPending, Assoc.get_erase]

/-- the requests an operation brings for shard `s`. -/
def HostOp.brings (f : R → Nat) (s : Nat) : HostOp R → Option R
  | .request r => if f r = s then some r else none
  | _ => none

theorem Host.step_count [BEq R] [LawfulBEq R] (f : R → Nat) (σ : Host R) (op : HostOp R) (s : Nat) (x : R) :
    ((σ.step f op).2.filterMap (HostOut.sent s)).count x + ((σ.next f op).kept s).count x
      ≤ (σ.kept s).count x + (op.brings f s).toList.count x := by
  by_cases hs : op.shard f = s
  · cases op with
    | request r =>
      simp only [HostOp.shard] at hs
      subst hs
      simpa [HostOp.brings, next, step] using σ.request_count (f r) r x
    | shardAllocated s' n =>
      simp only [HostOp.shard] at hs
      subst hs
      have h1 := σ.allocated_kept s' n x
      simp only [next, step, shardAllocated]
      rcases hp : (σ.allocated s' n).pending.get s' with _ | rs
      · rw [Host.allocated_pending] at hp
        simp only [hp, Option.getD_none, List.count_nil, Nat.add_zero] at h1
        simp only [List.filterMap_nil, List.count_nil, Nat.zero_add]
        refine Nat.le_trans (Nat.le_trans ?_ h1) (Nat.le_add_right _ _)
        unfold Host.kept
        simp [dropPending, Host.allocated_pending, hp]
      · have h2 := Host.requests_count
          ((σ.allocated s' n).dropPending s') s' rs x
        rw [Host.allocated_pending] at hp
        simp only [hp, Option.getD_some] at h1
        simp only [HostOp.brings, Option.toList_none, List.count_nil]
        omega
    | reallocating s' =>
      simp [next, step, reallocating, HostOp.brings, kept]
    | stopShard s' q =>
      simp only [HostOp.shard] at hs
      subst hs
      simp only [next, step, stopShard]
      split
      · simp
      · simp [kept, Assoc.get_insert, HShard.buffer, HostOp.brings]
      · simp [kept, Assoc.get_insert, HShard.buffer, HostOp.brings]
    | ready s' a =>
      simp only [HostOp.shard] at hs
      subst hs
      simp only [next, step]
      split
      · simp only [shardReady]
        split
        · rename_i b buf stop hh
          split
          · simp only [kept, Assoc.get_insert, if_pos, Option.map_some, HShard.buffer, Option.getD_some, List.filterMap_nil,
              List.count_nil, List.nil_append, List.count_append]
            omega
          · simp only [List.filterMap_map]
            rw [show (HostOut.sent s' ∘ fun r => HostOut.deliver s' a r) = (some : R → Option R) from by
              funext r; simp [HostOut.sent]]
            simp [kept, Assoc.get_insert, HShard.buffer, hh]
        · simp only [kept, Assoc.get_insert, if_pos, Option.map_some, HShard.buffer, Option.getD_some, List.filterMap_nil,
            List.count_nil, List.nil_append, List.count_append]
          omega
      · simp
    | stopDone t =>
      simp only [HostOp.shard] at hs
      subst hs
      simp only [next, step]
      split
      · simp only [stopDone, Host.sent_reply]
        simp only [kept, Assoc.get_erase, if_pos, Option.map_none, Option.getD_none,
          List.count_nil, List.nil_append, List.count_append]
        omega
      · simp
    | closed s' a =>
      simp only [next, step]
      split <;> simp [kept]
  · obtain ⟨h1, h2, _⟩ := σ.step_other f op hs
    rw [h1, h2]
    simp

theorem Host.run_count [BEq R] [LawfulBEq R] (f : R → Nat) (σ : Host R) (ops : List (HostOp R)) (s : Nat) (x : R) :
    ((σ.outs f ops).filterMap (HostOut.sent s)).count x + ((σ.run f ops).kept s).count x
      ≤ (σ.kept s).count x + (ops.filterMap (HostOp.brings f s)).count x := by
  induction ops generalizing σ with
  | nil => simp [outs, run]
  | cons op ops ih =>
    have h1 := σ.step_count f op s x
    have h2 := ih (σ.next f op)
    simp only [outs, run_cons, List.filterMap_append, List.count_append]
    have h3 : ((op :: ops).filterMap (HostOp.brings f s)).count x
        = (op.brings f s).toList.count x + (ops.filterMap (HostOp.brings f s)).count x := by
      rw [List.filterMap_cons]
      cases op.brings f s with
      | none => simp
      | some y =>
        show (y :: ops.filterMap (HostOp.brings f s)).count x = _
        rw [← List.count_append]; rfl
    omega

/-! ### nothing lost while the shard is neither stopped nor moved away -/

/-- what holds of shard `s` as long as it was never stopped nor taken away while hosted here. -/
structure Host.Undisturbed (σ : Host R) (s : Nat) : Prop where
  hp : σ.pending.get s ≠ none → σ.hosted.get s = none ∧ σ.remote.get s = none
  hst : ∀ a buf st, σ.hosted.get s = some (.starting a buf st) → st = none
  hns : σ.hosted.get s ≠ some .stopping
  hb : ∀ a, (s, a) ∈ σ.booting → ∃ buf, σ.hosted.get s = some (.starting a buf none)
  ht : ∀ t ∈ σ.stops, t.s ≠ s

theorem Host.request_conserve {σ : Host R} {s : Nat} (h : σ.Undisturbed s) (r : R) :
    (σ.request s r).2.filterMap (HostOut.sent s) ++ ((σ.request s r).1).kept s = σ.kept s ++ [r] ∧
      ((σ.request s r).1).Undisturbed s := by
  obtain ⟨hp, hst, hns, hb, ht⟩ := h
  unfold Host.request
  rcases hh : σ.hosted.get s with _ | c
  · rcases hr : σ.remote.get s with _ | n
    · refine ⟨?_, ?_, ?_, ?_, ?_, ?_⟩
      · simp [kept, Assoc.get_insert, HostOut.sent, hh]
      · intro _; exact ⟨hh, hr⟩
      · exact hst
      · exact hns
      · exact hb
      · exact ht
    · have hpn : σ.pending.get s = none := by
        rcases hq : σ.pending.get s with _ | l
        · rfl
        · have := (hp (by simp [hq])).2; rw [hr] at this; cases this
      refine ⟨?_, hp, hst, hns, hb, ht⟩
      simp [kept, HostOut.sent, hh, hpn]
  · have hpn : σ.pending.get s = none := by
      rcases hq : σ.pending.get s with _ | l
      · rfl
      · have := (hp (by simp [hq])).1; rw [hh] at this; cases this
    cases c with
    | starting a buf st =>
      have := hst _ _ _ hh
      subst this
      refine ⟨?_, ?_, ?_, ?_, ?_, ?_⟩
      · simp [kept, Assoc.get_update, hh, hpn, HShard.request, HShard.buffer]
      · intro h; exact absurd hpn h
      · intro a' buf' st' h'
        simp only [Assoc.get_update, hh, if_pos, Option.map_some, HShard.request, Option.some.injEq,
          HShard.starting.injEq] at h'
        exact h'.2.2.symm
      · simp [Assoc.get_update, hh, HShard.request]
      · intro a' ha'
        obtain ⟨buf', hb'⟩ := hb a' ha'
        rw [hh] at hb'
        simp only [Option.some.injEq, HShard.starting.injEq] at hb'
        exact ⟨buf ++ [r], by simp [Assoc.get_update, hh, HShard.request, hb'.1]⟩
      · exact ht
    | ready a =>
      refine ⟨?_, ?_, ?_, ?_, ?_, ?_⟩
      · simp [kept, Assoc.get_update, hh, hpn, HShard.request, HShard.buffer, HostOut.sent]
      · intro h; exact absurd hpn h
      · intro a' buf' st' h'
        simp [Assoc.get_update, hh, HShard.request] at h'
      · simp [Assoc.get_update, hh, HShard.request]
      · intro a' ha'
        obtain ⟨buf', hb'⟩ := hb a' ha'
        rw [hh] at hb'; cases hb'
      · exact ht
    | stopping => exact absurd hh hns

theorem Host.requests_conserve {σ : Host R} {s : Nat} (h : σ.Undisturbed s) (rs : List R) :
    (σ.requests s rs).2.filterMap (HostOut.sent s) ++ ((σ.requests s rs).1).kept s = σ.kept s ++ rs ∧
      ((σ.requests s rs).1).Undisturbed s := by
  induction rs generalizing σ with
  | nil => simpa [requests] using h
  | cons r rs ih =>
    obtain ⟨h1, h2⟩ := request_conserve h r
    obtain ⟨h3, h4⟩ := ih h2
    refine ⟨?_, h4⟩
    simp only [requests, List.filterMap_append, List.append_assoc]
    rw [h3, ← List.append_assoc, h1, List.append_assoc]
    rfl

/-- operations that stop shard `s` or take it away while this host has it. -/
def Host.disturbs (σ : Host R) (s : Nat) : HostOp R → Prop
  | .stopShard s' _ => s' = s ∧ σ.hosted.get s ≠ none
  | .shardAllocated s' n => s' = s ∧ n ≠ σ.self ∧ σ.hosted.get s ≠ none
  | _ => False

theorem Host.step_booting_other (f : R → Nat) (σ : Host R) (op : HostOp R) {s : Nat} (h : op.shard f ≠ s) (a : Nat)
    (hm : (s, a) ∈ (σ.next f op).booting) : (s, a) ∈ σ.booting := by
  cases op with
  | request r => rwa [show (σ.next f (.request r)).booting = σ.booting from (σ.request_frame (f r) r).2.2.2.2.1] at hm
  | shardAllocated s' n =>
    have key : (s, a) ∈ (σ.allocated s' n).booting → (s, a) ∈ σ.booting := by
      simp only [HostOp.shard] at h
      have h2 : s ≠ s' := fun e => h e.symm
      unfold allocated
      split
      · split
        · exact id
        · simp [h2]
      · exact id
    simp only [next, step, shardAllocated] at hm
    split at hm
    · rename_i rs _
      rw [(Host.requests_frame
        ((σ.allocated s' n).dropPending s') s' rs).2.2.2.2.1] at hm
      exact key hm
    · exact key hm
  | reallocating s' => exact hm
  | stopShard s' q =>
    rw [show (σ.next f (.stopShard s' q)).booting = σ.booting from (σ.stopShard_frame s' q).2.2.2.2.2.1] at hm
    exact hm
  | ready s' b =>
    simp only [next, step] at hm
    split at hm
    · rw [(Host.shardReady_frame { σ with booting := σ.booting.filter (· ≠ (s', b)) } s' b).2.2.2.2.2.1] at hm
      exact (List.mem_filter.mp hm).1
    · exact hm
  | stopDone t =>
    simp only [next, step] at hm
    split at hm
    · exact hm
    · exact hm
  | closed s' b =>
    simp only [next, step] at hm
    split at hm
    · exact hm
    · exact hm

theorem Host.step_stops_other (f : R → Nat) (σ : Host R) (op : HostOp R) {s : Nat} (h : op.shard f ≠ s)
    {t : StopTask} (ht : t.s = s) (hm : t ∈ (σ.next f op).stops) : t ∈ σ.stops := by
  cases op with
  | request r => rwa [show (σ.next f (.request r)).stops = σ.stops from (σ.request_frame (f r) r).2.2.2.2.2.2] at hm
  | shardAllocated s' n =>
    have key : (σ.allocated s' n).stops = σ.stops := by
      unfold allocated
      split
      · split <;> rfl
      · rfl
    simp only [next, step, shardAllocated] at hm
    split at hm
    · rename_i rs _
      rw [(Host.requests_frame
        ((σ.allocated s' n).dropPending s') s' rs).2.2.2.2.2.2] at hm
      rwa [← key]
    · rwa [← key]
  | reallocating s' => exact hm
  | stopShard s' q =>
    simp only [HostOp.shard] at h
    simp only [next, step, stopShard] at hm
    split at hm
    · exact hm
    · simp only [List.mem_append, List.mem_singleton] at hm
      rcases hm with hm | hm
      · exact hm
      · subst hm; exact absurd ht h
    · exact hm
  | ready s' b =>
    simp only [HostOp.shard] at h
    simp only [next, step] at hm
    split at hm
    · unfold shardReady at hm
      split at hm
      · split at hm
        · simp only [List.mem_append, List.mem_singleton] at hm
          rcases hm with hm | hm
          · exact hm
          · subst hm; exact absurd ht h
        · exact hm
      · exact hm
    · exact hm
  | stopDone t' =>
    simp only [next, step] at hm
    split at hm
    · exact List.mem_of_mem_erase hm
    · exact hm
  | closed s' b =>
    simp only [next, step] at hm
    split at hm
    · exact hm
    · exact hm

theorem Host.Undisturbed.allocated {σ : Host R} {s n : Nat} (h : σ.Undisturbed s)
    (hd : ¬ (n ≠ σ.self ∧ σ.hosted.get s ≠ none)) :
    ((σ.allocated s n).dropPending s).Undisturbed s ∧
    ((σ.allocated s n).dropPending s).kept s
      ++ (σ.pending.get s).getD [] = σ.kept s := by
  obtain ⟨hp, hst, hns, hb, ht⟩ := h
  unfold Host.allocated
  by_cases hn : n = σ.self
  · rw [if_pos hn]
    rcases hh : σ.hosted.get s with _ | c
    · refine ⟨⟨?_, ?_, ?_, ?_, ?_⟩, ?_⟩
      · intro h; simp [dropPending, Assoc.get_erase] at h
      · intro a buf st h'
        simp only [dropPending, Assoc.get_insert, if_pos, Option.some.injEq, HShard.starting.injEq] at h'
        exact h'.2.2.symm
      · simp [dropPending, Assoc.get_insert]
      · intro a ha
        simp only [dropPending, List.mem_append, List.mem_singleton, Prod.mk.injEq, true_and] at ha
        rcases ha with ha | ha
        · obtain ⟨buf, hb'⟩ := hb a ha
          rw [hh] at hb'; cases hb'
        · exact ⟨[], by simp [dropPending, Assoc.get_insert, ha]⟩
      · exact ht
      · simp [kept, dropPending, Assoc.get_insert, Assoc.get_erase, HShard.buffer, hh]
    · refine ⟨⟨?_, ?_, ?_, ?_, ?_⟩, ?_⟩
      · intro h; simp [dropPending, Assoc.get_erase] at h
      · exact hst
      · exact hns
      · exact hb
      · exact ht
      · simp [kept, dropPending, Assoc.get_erase]
  · rw [if_neg hn]
    have hh : σ.hosted.get s = none := by
      rcases hq : σ.hosted.get s with _ | c
      · rfl
      · exact absurd ⟨hn, by simp [hq]⟩ hd
    refine ⟨⟨?_, ?_, ?_, ?_, ?_⟩, ?_⟩
    · intro h; simp [dropPending, Assoc.get_erase] at h
    · simp [dropPending, Assoc.get_erase]
    · simp [dropPending, Assoc.get_erase]
    · intro a ha
      obtain ⟨buf, hb'⟩ := hb a ha
      rw [hh] at hb'; cases hb'
    · exact ht
    · simp [kept, dropPending, Assoc.get_erase, hh]

theorem Host.step_conserve (f : R → Nat) {σ : Host R} {s : Nat} (h : σ.Undisturbed s) (op : HostOp R)
    (hd : ¬ σ.disturbs s op) :
    (σ.step f op).2.filterMap (HostOut.sent s) ++ (σ.next f op).kept s
      = σ.kept s ++ (op.brings f s).toList ∧ (σ.next f op).Undisturbed s := by
  by_cases hs : op.shard f = s
  · cases op with
    | request r =>
      simp only [HostOp.shard] at hs
      subst hs
      simpa [HostOp.brings, next, step] using request_conserve h r
    | shardAllocated s' n =>
      simp only [HostOp.shard] at hs
      subst hs
      obtain ⟨h1, h2⟩ := h.allocated (n := n) (fun e => hd ⟨rfl, e⟩)
      simp only [next, step, shardAllocated]
      rcases hp : (σ.allocated s' n).pending.get s' with _ | rs
      · rw [Host.allocated_pending] at hp
        rw [hp] at h2
        have he : ((σ.allocated s' n).dropPending s').kept s'
            = (σ.allocated s' n).kept s' := by
          unfold Host.kept
          simp [dropPending, Host.allocated_pending, hp, Assoc.get_erase]
        refine ⟨?_, ?_⟩
        · simp only [List.filterMap_nil, List.nil_append, HostOp.brings, Option.toList_none, List.append_nil]
          rw [← h2, he]; simp
        · obtain ⟨a1, a2, a3, a4, a5⟩ := h1
          exact ⟨fun e => absurd (by rw [Host.allocated_pending]; exact hp) e, a2, a3, a4, a5⟩
      · obtain ⟨h3, h4⟩ := requests_conserve h1 rs
        rw [Host.allocated_pending] at hp
        rw [hp, Option.getD_some] at h2
        refine ⟨?_, h4⟩
        simp only [HostOp.brings, Option.toList_none, List.append_nil]
        rw [h3, h2]
    | reallocating s' =>
      obtain ⟨hp, hst, hns, hb, ht⟩ := h
      simp only [HostOp.shard] at hs
      subst hs
      refine ⟨by simp [next, step, reallocating, HostOp.brings, kept], ?_, hst, hns, hb, ht⟩
      intro h
      exact ⟨(hp h).1, by simp [next, step, reallocating, Assoc.get_erase]⟩
    | stopShard s' q =>
      simp only [HostOp.shard] at hs
      subst hs
      have hh : σ.hosted.get s' = none := by
        rcases hq : σ.hosted.get s' with _ | c
        · rfl
        · exact absurd ⟨rfl, by simp [hq]⟩ hd
      have : σ.next f (.stopShard s' q) = σ := by simp [next, step, stopShard, hh]
      rw [this]
      exact ⟨by simp [step, HostOp.brings], h⟩
    | ready s' a =>
      simp only [HostOp.shard] at hs
      subst hs
      simp only [next, step]
      split
      · rename_i hm
        obtain ⟨hp, hst, hns, hb, ht⟩ := h
        obtain ⟨buf, hh⟩ := hb a hm
        have hpn : σ.pending.get s' = none := by
          rcases hq : σ.pending.get s' with _ | l
          · rfl
          · have := (hp (by simp [hq])).1; rw [hh] at this; cases this
        simp only [shardReady, hh]
        refine ⟨?_, ?_, ?_, ?_, ?_, ?_⟩
        · simp only [List.filterMap_map]
          rw [show (HostOut.sent s' ∘ fun r => HostOut.deliver s' a r) = (some : R → Option R) from by
              funext r; simp [HostOut.sent]]
          simp [kept, Assoc.get_insert, HShard.buffer, hh, hpn, HostOp.brings]
        · intro e; exact absurd hpn e
        · intro _ _ _ h'; simp [Assoc.get_insert] at h'
        · simp [Assoc.get_insert]
        · intro b hb'
          simp only [List.mem_filter, ne_eq, Prod.mk.injEq, true_and, decide_eq_true_eq] at hb'
          obtain ⟨buf', h'⟩ := hb b hb'.1
          rw [hh] at h'
          simp only [Option.some.injEq, HShard.starting.injEq] at h'
          exact absurd h'.1.symm hb'.2
        · exact ht
      · exact ⟨by simp [HostOp.brings], h⟩
    | stopDone t =>
      simp only [HostOp.shard] at hs
      have hm : t ∉ σ.stops := fun hm => h.ht t hm hs
      simp only [next, step, if_neg hm]
      exact ⟨by simp [HostOp.brings], h⟩
    | closed s' a =>
      simp only [next, step]
      split
      · exact ⟨by simp [HostOp.brings, kept], h.hp, h.hst, h.hns, h.hb, h.ht⟩
      · exact ⟨by simp [HostOp.brings], h⟩
  · obtain ⟨h1, h2, h3, h4, h5⟩ := σ.step_other f op hs
    have hbr : op.brings f s = none := by
      cases op with
      | request r => simp only [HostOp.shard] at hs; simp [HostOp.brings, hs]
      | _ => rfl
    refine ⟨by rw [h1, h2, hbr]; simp, ?_, ?_, ?_, ?_, ?_⟩
    · rw [h4, h3, h5]; exact h.hp
    · rw [h3]; exact h.hst
    · rw [h3]; exact h.hns
    · intro a ha
      rw [h3]
      exact h.hb a (σ.step_booting_other f op hs a ha)
    · intro t hm ht
      exact h.ht t (σ.step_stops_other f op hs ht hm) ht

theorem Host.Undisturbed.init (n s : Nat) : (Host.init n : Host R).Undisturbed s := by
  refine ⟨?_, ?_, ?_, ?_, ?_⟩ <;> simp [Host.init, Assoc.get_nil]

end Verif.Sharding
