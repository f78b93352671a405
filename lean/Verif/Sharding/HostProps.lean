import Verif.Sharding.HostStopLemmas

/-!
# Properties of the shard host (C44, C45, C46)

All statements are about runs of `ShardHost` from its start: any sequence of requests, announcements,
stop requests and reports of shard actors, in any order.
-/

namespace Verif.Sharding

variable {R : Type}

/-- the requests for shard `s` among a sequence of operations, in order of arrival. -/
def arrivedFor (f : R → Nat) (s : Nat) (ops : List (HostOp R)) : List R :=
  ops.filterMap fun op => match op with
    | .request r => if f r = s then some r else none
    | _ => none

/-- the requests passed on for shard `s`, to its instance on this node or to another node, in the order in
which they were passed on. -/
def passedOn (s : Nat) (outs : List (HostOut R)) : List R :=
  outs.filterMap fun o => match o with
    | .deliver s' _ r => if s' = s then some r else none
    | .forward _ s' r => if s' = s then some r else none
    | _ => none

theorem arrivedFor_eq (f : R → Nat) (s : Nat) (ops : List (HostOp R)) :
    arrivedFor f s ops = ops.filterMap (HostOp.brings f s) := by
  unfold arrivedFor
  congr 1

theorem passedOn_eq (s : Nat) (outs : List (HostOut R)) :
    passedOn s outs = outs.filterMap (HostOut.sent s) := by
  unfold passedOn
  congr 1

/-- the requests the host still has for shard `s`: those waiting for the shard to start, and those waiting
for it to be located. -/
def Host.waiting (σ : Host R) (s : Nat) : List R :=
  (match σ.hosted.get s with
    | some (.starting _ buf _) => buf
    | _ => []) ++ (σ.pending.get s).getD []

theorem Host.waiting_eq (σ : Host R) (s : Nat) : σ.waiting s = σ.kept s := by
  unfold Host.waiting Host.kept
  rcases σ.hosted.get s with _ | c
  · rfl
  · cases c <;> rfl

/-- Shard `s` is neither stopped nor announced to be elsewhere at any time this host has it. -/
def NeverTaken (f : R → Nat) (n s : Nat) (ops : List (HostOp R)) : Prop :=
  ∀ pre op post, ops = pre ++ op :: post → ((Host.init n).run f pre).hosted.get s ≠ none →
    (∀ q, op ≠ .stopShard s q) ∧ (∀ m, m ≠ n → op ≠ .shardAllocated s m)

theorem Host.next_self (f : R → Nat) (σ : Host R) (op : HostOp R) : (σ.next f op).self = σ.self := by
  cases op with
  | request r => exact (σ.request_frame _ r).1
  | shardAllocated s n =>
    simp only [Host.next, Host.step, Host.shardAllocated]
    split
    · rw [(Host.requests_frame _ _ _).1]
      exact (σ.allocated_frame s n).1
    · exact (σ.allocated_frame s n).1
  | reallocating s => rfl
  | stopShard s q => exact (σ.stopShard_frame s q).1
  | ready s a =>
    simp only [Host.next, Host.step]
    split
    · exact (Host.shardReady_frame _ s a).1
    · rfl
  | stopDone t =>
    simp only [Host.next, Host.step]
    split <;> rfl
  | closed s a =>
    simp only [Host.next, Host.step]
    split <;> rfl

theorem Host.run_self (f : R → Nat) (σ : Host R) (ops : List (HostOp R)) : (σ.run f ops).self = σ.self := by
  induction ops generalizing σ with
  | nil => rfl
  | cons op ops ih => exact (ih _).trans (σ.next_self f op)

/-! ### C44 -/

theorem neverTaken_undisturbed (f : R → Nat) (n s : Nat) (ops : List (HostOp R)) (h : NeverTaken f n s ops) :
    passedOn s ((Host.init n).outs f ops) ++ ((Host.init n).run f ops).kept s = arrivedFor f s ops ∧
      ((Host.init n).run f ops).Undisturbed s := by
  rw [passedOn_eq, arrivedFor_eq]
  induction ops using snoc_induction with
  | nil => exact ⟨by simp [Host.outs, Host.run, Host.init, Host.kept, Assoc.get_nil], Host.Undisturbed.init n s⟩
  | snoc ops op ih =>
    obtain ⟨h1, h2⟩ := ih (fun pre op' post e => h pre op' (post ++ [op]) (by rw [e]; simp))
    have hd : ¬ ((Host.init n).run f ops).disturbs s op := by
      have hop := h ops op [] rfl
      intro hdis
      cases op with
      | stopShard s' q =>
        obtain ⟨rfl, hh⟩ := hdis
        exact (hop hh).1 q rfl
      | shardAllocated s' m =>
        obtain ⟨rfl, hm, hh⟩ := hdis
        rw [Host.run_self] at hm
        exact (hop hh).2 m hm rfl
      | _ => exact hdis
    obtain ⟨h3, h4⟩ := Host.step_conserve f h2 op hd
    rw [Host.run_append, Host.outs_append]
    refine ⟨?_, h4⟩
    have e : ((Host.init n : Host R).run f ops).outs f [op] = (((Host.init n).run f ops).step f op).2 := by
      simp [Host.outs]
    rw [e, List.filterMap_append, List.append_assoc, List.filterMap_append, ← h1, List.append_assoc]
    congr 1

/-- **C44.** As long as a shard is neither stopped nor announced to be elsewhere while this host has it,
the requests that arrived for it are those passed on, in order of arrival and each exactly once, followed
by those still waiting; and none is waiting once the shard is ready here or located elsewhere. -/
theorem C44_kept_in_order_partial (f : R → Nat) (n s : Nat) (ops : List (HostOp R)) (h : NeverTaken f n s ops) :
    arrivedFor f s ops = passedOn s ((Host.init n).outs f ops) ++ ((Host.init n).run f ops).waiting s ∧
    ((∃ a, ((Host.init n).run f ops).hosted.get s = some (.ready a)) ∨
        (((Host.init n).run f ops).hosted.get s = none ∧ ((Host.init n).run f ops).remote.get s ≠ none) →
      ((Host.init n).run f ops).waiting s = []) := by
  obtain ⟨h1, h2⟩ := neverTaken_undisturbed f n s ops h
  rw [Host.waiting_eq]
  refine ⟨h1.symm, ?_⟩
  intro hr
  unfold Host.kept
  have hp : ((Host.init n).run f ops).pending.get s = none := by
    rcases hq : ((Host.init n).run f ops).pending.get s with _ | l
    · rfl
    · have := h2.hp (by simp [hq])
      rcases hr with ⟨a, ha⟩ | ⟨_, hr⟩
      · rw [this.1] at ha; cases ha
      · exact absurd this.2 hr
  rcases hr with ⟨a, ha⟩ | ⟨hh, _⟩
  · simp [ha, hp, HShard.buffer]
  · simp [hh, hp]

/-- a shard located on this node after two requests, started, and sent a third. -/
example :
    let ops : List (HostOp Nat) :=
      [.request 10, .request 11, .shardAllocated 0 1, .request 12, .ready 0 0, .request 13]
    passedOn 0 ((Host.init 1).outs (fun _ => 0) ops) = [10, 11, 12, 13] ∧
      ((Host.init 1).run (fun _ => 0) (ops.take 4)).waiting 0 = [10, 11, 12] := by decide

/-- **C44.** In every run whatever, a request is passed on at most as often as it arrived, and requests
waiting have not been passed on. -/
theorem C44_at_most_once [BEq R] [LawfulBEq R] (f : R → Nat) (n s : Nat) (ops : List (HostOp R)) (r : R) :
    (passedOn s ((Host.init n).outs f ops)).count r + (((Host.init n).run f ops).waiting s).count r
      ≤ (arrivedFor f s ops).count r := by
  rw [passedOn_eq, arrivedFor_eq, Host.waiting_eq]
  have := Host.run_count f (Host.init n) ops s r
  have h0 : (Host.init n : Host R).kept s = [] := by simp [Host.init, Host.kept, Assoc.get_nil]
  rw [h0] at this
  simpa using this

example : (passedOn 0 ((Host.init 1).outs (fun _ => 0)
    [.request 10, .shardAllocated 0 1, .stopShard 0 ⟨1, 7⟩, .ready 0 0, .request 11])).count 11 = 1 := by decide

/-- a request no longer waiting and not sent again is never passed on afterwards. -/
theorem lost_for_ever [BEq R] [LawfulBEq R] (f : R → Nat) (σ : Host R) (s : Nat) (r : R) (hw : r ∉ σ.waiting s)
    (post : List (HostOp R)) (hr : HostOp.request r ∉ post) : r ∉ passedOn s (σ.outs f post) := by
  have h1 := Host.run_count f σ post s r
  rw [Host.waiting_eq] at hw
  have h2 : (post.filterMap (HostOp.brings f s)).count r = 0 := by
    rw [List.count_eq_zero]
    intro hm
    obtain ⟨op, ho, hb⟩ := List.mem_filterMap.mp hm
    cases op with
    | request r' =>
      simp only [HostOp.brings] at hb
      split at hb
      · simp only [Option.some.injEq] at hb
        subst hb; exact hr ho
      · cases hb
    | _ => cases hb
  rw [List.count_eq_zero.mpr hw] at h1
  rw [passedOn_eq]
  exact List.count_eq_zero.mp (by omega)

/-- **C44 fails** when the shard is asked to stop while it starts: the requests waiting for it are dropped,
and whatever happens afterwards they are never passed on, although the shard comes up. -/
theorem C44_stop_while_starting_refuted :
    ∃ pre : List (HostOp Nat), arrivedFor (fun _ => 0) 0 pre = [10] ∧
      (∀ post, HostOp.request 10 ∉ post → 10 ∉ passedOn 0 ((Host.init 1).outs (fun _ => 0) (pre ++ post))) ∧
      ((Host.init 1).run (fun _ => 0) (pre ++ [.ready 0 0])).hosted.get 0 = some (.ready 0) := by
  refine ⟨[.request 10, .shardAllocated 0 1, .stopShard 0 ⟨1, 7⟩], by decide, ?_, by decide⟩
  intro post hp
  rw [Host.outs_append, passedOn_eq, List.filterMap_append, ← passedOn_eq, ← passedOn_eq, List.mem_append, not_or]
  refine ⟨by decide, lost_for_ever _ _ _ _ (by decide) post hp⟩

/-- **C44 fails** when the shard is announced to be on another node while it starts here: the requests
waiting are dropped instead of being sent to the new owner. -/
theorem C44_moved_while_starting_refuted :
    ∃ pre : List (HostOp Nat), arrivedFor (fun _ => 0) 0 pre = [10] ∧ (∀ q, HostOp.stopShard 0 q ∉ pre) ∧
      ((Host.init 1).run (fun _ => 0) pre).remote.get 0 = some 2 ∧
      (∀ post, HostOp.request 10 ∉ post → 10 ∉ passedOn 0 ((Host.init 1).outs (fun _ => 0) (pre ++ post))) := by
  refine ⟨[.request 10, .shardAllocated 0 1, .shardAllocated 0 2], by decide, by simp, by decide, ?_⟩
  intro post hp
  rw [Host.outs_append, passedOn_eq, List.filterMap_append, ← passedOn_eq, ← passedOn_eq, List.mem_append, not_or]
  refine ⟨by decide, lost_for_ever _ _ _ _ (by decide) post hp⟩

/-- **C44 fails** in order after a move back and forth: an instance reported late makes the shard ready
while an earlier request still waits to have it located, and a later request overtakes it. -/
theorem C44_order_refuted :
    ∃ ops : List (HostOp Nat), arrivedFor (fun _ => 0) 0 ops = [10, 11] ∧
      passedOn 0 ((Host.init 1).outs (fun _ => 0) ops) = [11, 10] := by
  refine ⟨[.shardAllocated 0 1, .shardAllocated 0 2, .reallocating 0, .request 10, .ready 0 0, .request 11,
    .shardAllocated 0 1], by decide, by decide⟩

/-! ### C45 -/

/-- **C45.** A shard that is ready when it is asked to stop does stop and the asker is told: in every
continuation, either the shard's instance is still being stopped on behalf of this request, or the answer
has been sent and the instance has gone for good. -/
theorem C45_ready_partial (f : R → Nat) (n s a : Nat) (pre post : List (HostOp R)) (q : StopReq)
    (hh : ((Host.init n).run f pre).hosted.get s = some (.ready a)) :
    let σ := ((Host.init n).run f pre).next f (.stopShard s q)
    ⟨s, a, some q⟩ ∈ (σ.run f post).stops ∨
      (HostOut.reply q s ∈ σ.outs f post ∧ (s, a) ∉ (σ.run f post).live) := by
  intro σ
  have hi : ((Host.init n).run f pre).Inv := (Host.Inv.init n).run f pre
  have hfr : a < σ.fresh := Nat.lt_of_lt_of_le ((hi.hosted s _ hh).2 a rfl) (Host.fresh_mono f _ _)
  have ht : (⟨s, a, some q⟩ : StopTask) ∈ σ.stops := by
    show _ ∈ (((Host.init n).run f pre).stopShard s q).stops
    simp [Host.stopShard, hh]
  clear_value σ
  clear hi hh
  induction post generalizing σ with
  | nil => exact .inl ht
  | cons op post ih =>
    by_cases hop : op = .stopDone ⟨s, a, some q⟩
    · right
      subst hop
      have hst : σ.step f (.stopDone ⟨s, a, some q⟩) = σ.stopDone ⟨s, a, some q⟩ := by
        simp only [Host.step, if_pos ht]
      refine ⟨?_, ?_⟩
      · simp only [Host.outs, hst, List.mem_append]
        left; simp [Host.stopDone]
      · rw [Host.run_cons]
        apply Host.dead_run
        · show _ ∉ (σ.step f (.stopDone ⟨s, a, some q⟩)).1.live
          rw [hst]; simp [Host.stopDone]
        · exact Nat.lt_of_lt_of_le hfr (Host.fresh_mono f _ _)
    · rcases ih (σ.next f op) (Nat.lt_of_lt_of_le hfr (Host.fresh_mono f _ _)) (Host.stops_mono f σ op ht hop) with h | h
      · left; exact h
      · right
        exact ⟨by simp only [Host.outs, List.mem_append]; exact .inr h.1, h.2⟩

/-- Completing the stop of an instance always answers the request and frees the shard. -/
theorem C45_completed (f : R → Nat) (σ : Host R) (s a : Nat) (q : StopReq)
    (ht : (⟨s, a, some q⟩ : StopTask) ∈ σ.stops) :
    (σ.step f (.stopDone ⟨s, a, some q⟩)).2 = [.reply q s] ∧
      (s, a) ∉ (σ.next f (.stopDone ⟨s, a, some q⟩)).live ∧
      (σ.next f (.stopDone ⟨s, a, some q⟩)).hosted.get s = none := by
  simp [Host.next, Host.step, ht, Host.stopDone, Assoc.get_erase]

example :
    let ops : List (HostOp Nat) := [.shardAllocated 0 1, .ready 0 0, .stopShard 0 ⟨5, 7⟩, .stopDone ⟨0, 0, some ⟨5, 7⟩⟩]
    (Host.init 1).outs (fun _ => 0) ops = [.reply ⟨5, 7⟩ 0] ∧
      ((Host.init 1).run (fun _ => 0) (ops.take 3)).live = [(0, 0)] ∧
      ((Host.init 1).run (fun _ => 0) ops).live = [] := by decide

/-- **C45 fails** in every other state. If the shard is not ready when it is asked to stop (it is starting,
stopping or not there), the request is never answered, whatever happens afterwards. -/
theorem C45_unanswered_refuted (f : R → Nat) (n s : Nat) (pre post : List (HostOp R)) (q : StopReq)
    (hh : ∀ a, ((Host.init n).run f pre).hosted.get s ≠ some (.ready a))
    (hpre : ∀ s', HostOp.stopShard s' q ∉ pre) (hpost : ∀ s', HostOp.stopShard s' q ∉ post) (s' : Nat) :
    HostOut.reply q s' ∉ (Host.init n).outs f (pre ++ .stopShard s q :: post) := by
  have go : ∀ (ops : List (HostOp R)) (τ : Host R), τ.Inv → (∀ t ∈ τ.stops, t.req ≠ some q) →
      (∀ s', HostOp.stopShard s' q ∉ ops) →
      (∀ t ∈ (τ.run f ops).stops, t.req ≠ some q) ∧ HostOut.reply q s' ∉ τ.outs f ops := by
    intro ops
    induction ops with
    | nil => intro τ _ hq _; exact ⟨hq, by simp [Host.outs]⟩
    | cons op ops ih =>
      intro τ hi hq hops
      have hop : op.asks ≠ some q := by
        cases op with
        | stopShard s'' q' =>
          simp only [HostOp.asks, ne_eq, Option.some.injEq]
          intro e; subst e; exact hops s'' (List.mem_cons_self)
        | _ => simp [HostOp.asks]
      obtain ⟨h1, h2⟩ := Host.unasked f hi hq op hop
      obtain ⟨h3, h4⟩ := ih (τ.next f op) (hi.next f op) h1 (fun s'' hm => hops s'' (List.mem_cons_of_mem _ hm))
      refine ⟨h3, ?_⟩
      simp only [Host.outs, List.mem_append, not_or]
      exact ⟨h2 s', h4⟩
  obtain ⟨h1, h2⟩ := go pre (Host.init n) (Host.Inv.init n) (by simp [Host.init]) hpre
  have hi : ((Host.init n).run f pre).Inv := (Host.Inv.init n).run f pre
  have h3 : ∀ t ∈ (((Host.init n).run f pre).next f (.stopShard s q)).stops, t.req ≠ some q := by
    simp only [Host.next, Host.step, Host.stopShard]
    split
    · exact h1
    · rename_i a ha; exact absurd ha (hh a)
    · exact h1
  obtain ⟨_, h5⟩ := go post _ (hi.next f (.stopShard s q)) h3 hpost
  rw [Host.outs_append, List.mem_append, not_or]
  refine ⟨h2, ?_⟩
  simp only [Host.outs, List.mem_append, not_or]
  exact ⟨by simp [Host.step], h5⟩

/-- **C45 fails**: a shard asked to stop while it starts is not stopped. It comes up and keeps running. -/
theorem C45_keeps_running_refuted :
    let ops : List (HostOp Nat) := [.shardAllocated 0 1, .stopShard 0 ⟨5, 7⟩, .ready 0 0]
    (∀ a, ((Host.init 1).run (fun _ => 0) (ops.take 1)).hosted.get 0 ≠ some (.ready a)) ∧
      ((Host.init 1).run (fun _ => 0) ops).hosted.get 0 = some (.ready 0) ∧
      ((Host.init 1).run (fun _ => 0) ops).live = [(0, 0)] ∧
      ((Host.init 1).run (fun _ => 0) ops).stops = [] ∧ ((Host.init 1).run (fun _ => 0) ops).closing = [] := by
  refine ⟨?_, by decide, by decide, by decide, by decide⟩
  intro a
  simp [Host.run, Host.next, Host.step, Host.shardAllocated, Host.allocated, Host.init, Assoc.get_insert, Assoc.get_nil]

/-! ### C46 -/

/-- the node last announced as the owner of shard `s`, other than this one, and not withdrawn since. -/
def lastAnnounced (self s : Nat) (ops : List (HostOp R)) : Option Nat :=
  ops.foldl (fun cur op => match op with
    | .shardAllocated s' n => if s' = s then (if n = self then none else some n) else cur
    | .reallocating s' => if s' = s then none else cur
    | _ => cur) none

theorem lastAnnounced_snoc (self s : Nat) (ops : List (HostOp R)) (op : HostOp R) :
    lastAnnounced self s (ops ++ [op]) = match op with
      | .shardAllocated s' n => if s' = s then (if n = self then none else some n) else lastAnnounced self s ops
      | .reallocating s' => if s' = s then none else lastAnnounced self s ops
      | _ => lastAnnounced self s ops := by
  unfold lastAnnounced
  rw [List.foldl_append]
  cases op <;> rfl

theorem Host.shardAllocated_remote (σ : Host R) (s n : Nat) :
    (σ.shardAllocated s n).1.remote.get s = if n = σ.self then none else some n := by
  have key : (σ.allocated s n).remote.get s = if n = σ.self then none else some n := by
    unfold Host.allocated
    split
    · split <;> simp [Assoc.get_erase]
    · simp [Assoc.get_insert]
  unfold Host.shardAllocated
  split
  · rw [(Host.requests_frame _ _ _).2.1]; exact key
  · exact key

theorem remote_announced (f : R → Nat) (n s : Nat) (ops : List (HostOp R)) :
    ((Host.init n).run f ops).remote.get s = lastAnnounced n s ops := by
  induction ops using snoc_induction with
  | nil => rfl
  | snoc ops op ih =>
    rw [Host.run_append, lastAnnounced_snoc]
    show (((Host.init n).run f ops).next f op).remote.get s = _
    by_cases hs : op.shard f = s
    · cases op with
      | request r =>
        rw [show (((Host.init n).run f ops).next f (.request r)).remote = _ from (Host.request_frame _ _ _).2.1]
        exact ih
      | shardAllocated s' m =>
        simp only [HostOp.shard] at hs
        subst hs
        simp only [if_pos]
        show (((Host.init n).run f ops).shardAllocated s' m).1.remote.get s' = _
        rw [Host.shardAllocated_remote, Host.run_self]; rfl
      | reallocating s' =>
        simp only [HostOp.shard] at hs
        subst hs
        simp [Host.next, Host.step, Host.reallocating, Assoc.get_erase]
      | stopShard s' q =>
        rw [show (((Host.init n).run f ops).next f (.stopShard s' q)).remote = _ from (Host.stopShard_frame _ _ _).2.1]
        exact ih
      | ready s' a =>
        simp only [Host.next, Host.step]
        split
        · rw [(Host.shardReady_frame _ _ _).2.1]; exact ih
        · exact ih
      | stopDone t =>
        simp only [Host.next, Host.step]
        split <;> exact ih
      | closed s' a =>
        simp only [Host.next, Host.step]
        split <;> exact ih
    · rw [(Host.step_other f _ op hs).2.2.2.2, ih]
      cases op with
      | shardAllocated s' m => simp only [HostOp.shard] at hs; simp [hs]
      | reallocating s' => simp only [HostOp.shard] at hs; simp [hs]
      | _ => rfl

/-- **C46.** A request for a shard this host has is not sent to another node; one for a shard it does not
have is sent, once and only, to the node last announced as its owner; and if no such node is known the
request is kept and the coordinator is asked. -/
theorem C46_routing (f : R → Nat) (n : Nat) (ops : List (HostOp R)) (r : R) :
    let σ := (Host.init n).run f ops
    (σ.hosted.get (f r) ≠ none → ∀ m s' r', HostOut.forward m s' r' ∉ (σ.step f (.request r)).2) ∧
    (σ.hosted.get (f r) = none → ∀ m, lastAnnounced n (f r) ops = some m →
      (σ.step f (.request r)).2 = [.forward m (f r) r]) ∧
    (σ.hosted.get (f r) = none → lastAnnounced n (f r) ops = none →
      (σ.step f (.request r)).2 = [.ask (f r)] ∧ r ∈ (σ.next f (.request r)).waiting (f r)) := by
  intro σ
  have hr : σ.remote.get (f r) = lastAnnounced n (f r) ops := remote_announced f n (f r) ops
  refine ⟨?_, ?_, ?_⟩
  · intro hh m s' r'
    simp only [Host.step, Host.request]
    split
    · rename_i h _
      cases h <;> simp [HShard.request]
    · rename_i e; exact absurd e hh
  · intro hh m hm
    rw [← hr] at hm
    simp [Host.step, Host.request, hh, hm]
  · intro hh hm
    rw [← hr] at hm
    simp [Host.next, Host.step, Host.request, hh, hm, Host.waiting, Assoc.get_insert]

example : ((Host.init 1).run (fun _ => 0) [(.shardAllocated 0 2 : HostOp Nat), .shardAllocated 0 3]).step (fun _ => 0)
    (.request 10) = ({ self := 1, remote := [(0, 3)] }, [.forward 3 0 10]) := by decide

/-- **C46.** If a shard is never announced to be elsewhere while an instance of it is starting here, it is
at no time both hosted here and routed to another node. -/
theorem C46_exclusive_partial (f : R → Nat) (n s : Nat) (ops : List (HostOp R))
    (h : ∀ pre m post, ops = pre ++ .shardAllocated s m :: post → m ≠ n →
      ∀ a, (s, a) ∉ ((Host.init n).run f pre).booting) :
    ¬ (((Host.init n).run f ops).hosted.get s ≠ none ∧ ((Host.init n).run f ops).remote.get s ≠ none) := by
  suffices H : (((Host.init n).run f ops).hosted.get s ≠ none ∨ ∃ a, (s, a) ∈ ((Host.init n).run f ops).booting) →
      ((Host.init n).run f ops).remote.get s = none by
    rintro ⟨h1, h2⟩
    exact h2 (H (.inl h1))
  induction ops using snoc_induction with
  | nil => intro _; rfl
  | snoc ops op ih =>
    have ih := ih (fun pre m post e => h pre m (post ++ [op]) (by rw [e]; simp))
    have hop : ∀ m, op = .shardAllocated s m → m ≠ n → ∀ a, (s, a) ∉ ((Host.init n).run f ops).booting :=
      fun m e => h ops m [] (by rw [e])
    rw [Host.run_append]
    show (((((Host.init n).run f ops).next f op).hosted.get s ≠ none ∨
      ∃ a, (s, a) ∈ (((Host.init n).run f ops).next f op).booting) →
      (((Host.init n).run f ops).next f op).remote.get s = none)
    have hself : ((Host.init n : Host R).run f ops).self = n := Host.run_self _ _ _
    generalize (Host.init n : Host R).run f ops = σ at ih hop hself
    by_cases hs : op.shard f = s
    · cases op with
      | request r =>
        have hf := σ.request_frame (f r) r
        intro hc
        rw [show (σ.next f (.request r)).remote = σ.remote from hf.2.1]
        refine ih ?_
        rcases hc with hc | ⟨a, ha⟩
        · left
          obtain ⟨c, hc⟩ := Option.ne_none_iff_exists'.mp hc
          obtain ⟨k, hk, _⟩ := σ.request_hosted (f r) r s c hc
          rw [hk]; simp
        · right
          rw [show (σ.next f (.request r)).booting = σ.booting from hf.2.2.2.2.1] at ha
          exact ⟨a, ha⟩
      | shardAllocated s' m =>
        simp only [HostOp.shard] at hs
        subst hs
        intro hc
        show (σ.shardAllocated s' m).1.remote.get s' = none
        rw [Host.shardAllocated_remote]
        split
        · rfl
        · rename_i hm
          exfalso
          rw [hself] at hm
          have hb := hop m rfl hm
          have e1 : (σ.allocated s' m).hosted.get s' = none ∧ (σ.allocated s' m).booting = σ.booting := by
            unfold Host.allocated
            rw [if_neg (by rw [hself]; exact hm)]
            simp [Assoc.get_erase]
          simp only [Host.next, Host.step, Host.shardAllocated] at hc
          split at hc
          · rcases hc with hc | ⟨a, ha⟩
            · obtain ⟨c, hc⟩ := Option.ne_none_iff_exists'.mp hc
              obtain ⟨k, hk, _⟩ := Host.requests_hosted _ _ _ _ _ hc
              have : (σ.allocated s' m).hosted.get s' = some k := hk
              rw [e1.1] at this; cases this
            · rw [(Host.requests_frame _ _ _).2.2.2.2.1] at ha
              have : (s', a) ∈ (σ.allocated s' m).booting := ha
              rw [e1.2] at this
              exact hb a this
          · rcases hc with hc | ⟨a, ha⟩
            · exact hc e1.1
            · rw [e1.2] at ha; exact hb a ha
      | reallocating s' =>
        simp only [HostOp.shard] at hs
        subst hs
        intro _
        simp [Host.next, Host.step, Host.reallocating, Assoc.get_erase]
      | stopShard s' q =>
        simp only [HostOp.shard] at hs
        subst hs
        have hf := σ.stopShard_frame s' q
        intro hc
        rw [show (σ.next f (.stopShard s' q)).remote = σ.remote from hf.2.1]
        refine ih ?_
        rcases hc with hc | ⟨a, ha⟩
        · left
          intro e
          refine hc ?_
          show (σ.stopShard s' q).hosted.get s' = none
          simp [Host.stopShard, e]
        · right
          rw [show (σ.next f (.stopShard s' q)).booting = σ.booting from hf.2.2.2.2.2.1] at ha
          exact ⟨a, ha⟩
      | ready s' a =>
        simp only [HostOp.shard] at hs
        subst hs
        simp only [Host.next, Host.step]
        split
        · rename_i hm
          intro _
          rw [(Host.shardReady_frame _ _ _).2.1]
          exact ih (.inr ⟨a, hm⟩)
        · exact ih
      | stopDone t =>
        simp only [HostOp.shard] at hs
        subst hs
        simp only [Host.next, Host.step]
        split
        · intro hc
          refine ih ?_
          rcases hc with hc | hc
          · simp [Host.stopDone, Assoc.get_erase] at hc
          · exact .inr hc
        · exact ih
      | closed s' a =>
        simp only [Host.next, Host.step]
        split <;> exact ih
    · obtain ⟨_, _, h3, _, h5⟩ := σ.step_other f op hs
      rw [h3, h5]
      intro hc
      refine ih ?_
      rcases hc with hc | ⟨a, ha⟩
      · exact .inl hc
      · exact .inr ⟨a, σ.step_booting_other f op hs a ha⟩

/-- the hypothesis of `C46_exclusive_partial` in a run with a move away and back. -/
example :
    let ops : List (HostOp Nat) := [.shardAllocated 0 1, .ready 0 0, .shardAllocated 0 2, .shardAllocated 0 1]
    ((Host.init 1).run (fun _ => 0) (ops.take 2)).booting = [] ∧
      ((Host.init 1).run (fun _ => 0) (ops.take 3)).remote.get 0 = some 2 ∧
      ((Host.init 1).run (fun _ => 0) ops).remote.get 0 = none := by decide

/-- **C46 fails** otherwise: an instance that reports after its shard was announced elsewhere makes the
shard hosted here and routed to another node at once. Requests are then given to that instance, even after
it has stopped, and not to the owner. -/
theorem C46_both_refuted :
    let ops : List (HostOp Nat) := [.shardAllocated 0 1, .shardAllocated 0 2, .ready 0 0]
    let σ := (Host.init 1).run (fun _ => 0) ops
    σ.hosted.get 0 = some (.ready 0) ∧ σ.remote.get 0 = some 2 ∧ lastAnnounced 1 0 ops = some 2 ∧
      (let τ := σ.next (fun _ => 0) (.closed 0 0)
       τ.live = [] ∧ (τ.step (fun _ => 0) (.request 10)).2 = [.deliver 0 0 10]) := by decide

/-- instances told to stop were created here. -/
theorem Host.closing_next (f : R → Nat) {σ : Host R} (hi : σ.Inv) (hc : ∀ s a, (s, a) ∈ σ.closing → a < σ.fresh)
    (op : HostOp R) : ∀ s a, (s, a) ∈ (σ.next f op).closing → a < (σ.next f op).fresh := by
  intro s a h
  refine Nat.lt_of_lt_of_le ?_ (Host.fresh_mono f σ op)
  cases op with
  | request r =>
    have : (σ.next f (.request r)).closing = σ.closing := (σ.request_frame (f r) r).2.2.2.2.2.1
    rw [this] at h; exact hc s a h
  | shardAllocated t n =>
    have key : ∀ s a, (s, a) ∈ (σ.allocated t n).closing → a < σ.fresh := by
      intro s a h
      unfold Host.allocated at h
      split at h
      · split at h <;> exact hc s a h
      · simp only at h
        split at h
        · rename_i b _ _ hb
          rcases List.mem_append.1 h with h | h
          · exact hc s a h
          · simp only [List.mem_singleton, Prod.mk.injEq] at h
            rw [h.2]; exact (hi.hosted t _ hb).2 b rfl
        · rename_i b hb
          rcases List.mem_append.1 h with h | h
          · exact hc s a h
          · simp only [List.mem_singleton, Prod.mk.injEq] at h
            rw [h.2]; exact (hi.hosted t _ hb).2 b rfl
        · exact hc s a h
    simp only [Host.next, Host.step, Host.shardAllocated] at h
    split at h
    · rw [(Host.requests_frame _ _ _).2.2.2.2.2.1] at h; exact key s a h
    · exact key s a h
  | reallocating t => exact hc s a h
  | stopShard t q =>
    simp only [Host.next, Host.step, Host.stopShard] at h
    split at h <;> exact hc s a h
  | ready t b =>
    simp only [Host.next, Host.step, Host.shardReady] at h
    split at h
    · split at h
      · split at h <;> exact hc s a h
      · exact hc s a h
    · exact hc s a h
  | stopDone t =>
    simp only [Host.next, Host.step] at h
    split at h <;> exact hc s a h
  | closed t b =>
    simp only [Host.next, Host.step] at h
    split at h
    · exact hc s a (List.mem_filter.1 h).1
    · exact hc s a h

theorem Host.closing_run (f : R → Nat) (n : Nat) (ops : List (HostOp R)) :
    ∀ s a, (s, a) ∈ ((Host.init n).run f ops).closing → a < ((Host.init n).run f ops).fresh := by
  induction ops using snoc_induction with
  | nil => intro s a h; simp [Host.run, Host.init] at h
  | snoc ops op ih =>
    rw [Host.run_append]
    exact Host.closing_next f ((Host.Inv.init n).run f ops) ih op

/-- **C46.** An instance given up because its shard was announced elsewhere ends for good when it has
stopped; the other instances, and the others given up, are not touched. -/
theorem C46_ended_for_good (f : R → Nat) (n s a : Nat) (pre post : List (HostOp R))
    (h : (s, a) ∈ ((Host.init n).run f pre).closing) :
    let σ := ((Host.init n).run f pre).next f (.closed s a)
    (s, a) ∉ (σ.run f post).live ∧ (s, a) ∉ σ.closing ∧
      ∀ t b, (t, b) ≠ (s, a) →
        ((t, b) ∈ σ.live ↔ (t, b) ∈ ((Host.init n).run f pre).live) ∧
        ((t, b) ∈ σ.closing ↔ (t, b) ∈ ((Host.init n).run f pre).closing) := by
  intro σ
  have hst : σ = { (Host.init n).run f pre with
      closing := ((Host.init n).run f pre).closing.filter (· ≠ (s, a))
      live := ((Host.init n).run f pre).live.filter (· ≠ (s, a)) } := by
    show (Host.step f _ _).1 = _
    simp only [Host.step, if_pos h]
  refine ⟨Host.dead_run f σ post (by rw [hst]; simp) ?_, by rw [hst]; simp, ?_⟩
  · exact Nat.lt_of_lt_of_le (Host.closing_run f n pre s a h) (Host.fresh_mono f _ _)
  · intro t b hne
    rw [hst]
    simp only [List.mem_filter, ne_eq, hne, not_false_eq_true, decide_true, and_true, iff_self, and_self]

example : let ops : List (HostOp Nat) := [.shardAllocated 0 1, .ready 0 0, .shardAllocated 0 2]
    let σ := (Host.init 1).run (fun _ => 0) ops
    (0, 0) ∈ σ.closing ∧ (0, 0) ∈ σ.live ∧ (0, 0) ∉ (σ.next (fun _ => 0) (.closed 0 0)).live := by decide

end Verif.Sharding
