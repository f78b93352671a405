import Verif.Sharding.SystemModel
import Verif.Sharding.HostStopLemmas
import Verif.Sharding.ShardLemmas

/-! # One shard as seen on one node -/

namespace Verif.Sharding
variable {R : Type}

/-- a shard state without its buffer. -/
def HShard.shape : HShard R → HShard R
  | .starting a _ st => .starting a [] st
  | .ready a => .ready a
  | .stopping => .stopping

/-- tasks waiting for an instance of `s` to stop. -/
def Host.stopsOf (h : Host R) (s : Nat) : List StopTask := h.stops.filter fun t => t.s = s

/-- nothing relevant about `s` has changed. -/
structure Host.SameFor (s : Nat) (h h' : Host R) : Prop where
  hosted : (h'.hosted.get s).map HShard.shape = (h.hosted.get s).map HShard.shape
  live : ∀ a, (s, a) ∈ h'.live ↔ (s, a) ∈ h.live
  booting : ∀ a, (s, a) ∈ h'.booting ↔ (s, a) ∈ h.booting
  closing : ∀ a, (s, a) ∈ h'.closing ↔ (s, a) ∈ h.closing
  stops : h'.stopsOf s = h.stopsOf s

theorem Host.SameFor.refl (s : Nat) (h : Host R) : h.SameFor s h :=
  ⟨rfl, fun _ => .rfl, fun _ => .rfl, fun _ => .rfl, rfl⟩

theorem Host.SameFor.trans {s : Nat} {h h' h'' : Host R} (h1 : h.SameFor s h') (h2 : h'.SameFor s h'') :
    h.SameFor s h'' :=
  ⟨h2.hosted.trans h1.hosted, fun a => (h2.live a).trans (h1.live a), fun a => (h2.booting a).trans (h1.booting a),
   fun a => (h2.closing a).trans (h1.closing a), h2.stops.trans h1.stops⟩

/-- a node that has nothing to do with shard `s`. -/
structure Host.Blank (s : Nat) (h : Host R) : Prop where
  hosted : h.hosted.get s = none
  live : ∀ a, (s, a) ∉ h.live
  booting : ∀ a, (s, a) ∉ h.booting
  closing : ∀ a, (s, a) ∉ h.closing
  stops : h.stopsOf s = []

/-- a node that runs instance `a` of shard `s` and no other. -/
structure Host.Held (s a : Nat) (h : Host R) : Prop where
  hosted : ∃ c, h.hosted.get s = some c ∧ c.stopReq = none ∧ (∀ b, c.inst = some b → b = a) ∧
    (∀ b, c = .ready b → (s, a) ∉ h.booting)
  live : ∀ b, (s, b) ∈ h.live ↔ b = a
  booting : ∀ b, (s, b) ∈ h.booting → b = a
  closing : ∀ b, (s, b) ∉ h.closing
  stops : ∀ t ∈ h.stopsOf s, t.a = a ∧ (s, a) ∉ h.booting
  kept : h.hosted.get s = some (.ready a) ∨ (s, a) ∈ h.booting ∨ h.stopsOf s ≠ []

theorem Host.Blank.same {s : Nat} {h h' : Host R} (hb : h.Blank s) (hs : h.SameFor s h') : h'.Blank s := by
  refine ⟨?_, ?_, ?_, ?_, ?_⟩
  · have := hs.hosted; rw [hb.hosted] at this; simpa using this
  · intro a; rw [hs.live]; exact hb.live a
  · intro a; rw [hs.booting]; exact hb.booting a
  · intro a; rw [hs.closing]; exact hb.closing a
  · rw [hs.stops]; exact hb.stops

theorem HShard.shape_eq {c c' : HShard R} (h : c'.shape = c.shape) :
    c'.stopReq = c.stopReq ∧ c'.inst = c.inst ∧ ∀ b, c' = .ready b → c = .ready b := by
  cases c <;> cases c' <;> simp_all [HShard.shape, HShard.stopReq, HShard.inst]

theorem Host.Held.same {s a : Nat} {h h' : Host R} (hb : h.Held s a) (hs : h.SameFor s h') : h'.Held s a := by
  refine ⟨?_, ?_, ?_, ?_, ?_, ?_⟩
  · obtain ⟨c, h1, h2, h3, h4⟩ := hb.hosted
    have := hs.hosted
    rw [h1] at this
    simp only [Option.map_some, Option.map_eq_some_iff] at this
    obtain ⟨c', e1, e2⟩ := this
    obtain ⟨e3, e4, e5⟩ := HShard.shape_eq e2
    refine ⟨c', e1, e3 ▸ h2, ?_, ?_⟩
    · rw [e4]; exact h3
    · intro b hb'; rw [hs.booting]; exact h4 b (e5 b hb')
  · intro b; rw [hs.live]; exact hb.live b
  · intro b; rw [hs.booting]; exact hb.booting b
  · intro b; rw [hs.closing]; exact hb.closing b
  · rw [hs.stops, hs.booting]; exact hb.stops
  · rw [hs.stops, hs.booting]
    refine hb.kept.imp_left fun h1 => ?_
    have := hs.hosted
    rw [h1] at this
    simp only [Option.map_some, Option.map_eq_some_iff] at this
    obtain ⟨c', e1, e2⟩ := this
    rw [e1]
    cases c' <;> simp [HShard.shape] at e2 ⊢
    exact e2

theorem Host.request_shape (σ : Host R) (s s' : Nat) (r : R) :
    ((σ.request s' r).1.hosted.get s).map HShard.shape = (σ.hosted.get s).map HShard.shape := by
  unfold Host.request
  split
  · rename_i c hc
    simp only [Assoc.get_update]
    split
    · rename_i e
      subst e
      rw [hc]
      cases c <;> rfl
    · rfl
  · split <;> rfl

theorem Host.request_same (σ : Host R) (s s' : Nat) (r : R) : σ.SameFor s (σ.request s' r).1 := by
  obtain ⟨_, _, _, h4, h5, h6, h7⟩ := σ.request_frame s' r
  refine ⟨σ.request_shape s s' r, ?_, ?_, ?_, ?_⟩
  · intro a; rw [h4]
  · intro a; rw [h5]
  · intro a; rw [h6]
  · unfold Host.stopsOf; rw [h7]

theorem Host.requests_same (σ : Host R) (s s' : Nat) (rs : List R) : σ.SameFor s (σ.requests s' rs).1 := by
  induction rs generalizing σ with
  | nil => exact .refl s σ
  | cons r rs ih => exact (σ.request_same s s' r).trans (ih _)

theorem Host.dropPending_same (σ : Host R) (s s' : Nat) : σ.SameFor s (σ.dropPending s') :=
  ⟨rfl, fun _ => .rfl, fun _ => .rfl, fun _ => .rfl, rfl⟩

/-- after the announcement itself, only kept requests are handled. -/
theorem Host.shardAllocated_same (σ : Host R) (s s' n : Nat) :
    (σ.allocated s' n).SameFor s (σ.shardAllocated s' n).1 := by
  unfold Host.shardAllocated
  split
  · exact (Host.dropPending_same _ s s').trans (Host.requests_same _ s s' _)
  · exact .refl _ _

theorem Host.allocated_same_other (σ : Host R) {s s' : Nat} (h : s' ≠ s) (n : Nat) :
    σ.SameFor s (σ.allocated s' n) := by
  have h2 : s ≠ s' := fun e => h e.symm
  unfold Host.allocated
  split
  · split
    · exact ⟨rfl, fun _ => .rfl, fun _ => .rfl, fun _ => .rfl, rfl⟩
    · refine ⟨?_, ?_, ?_, fun _ => .rfl, rfl⟩
      · simp [Assoc.get_insert, h2]
      · simp [h2]
      · simp [h2]
  · refine ⟨?_, fun _ => .rfl, fun _ => .rfl, ?_, rfl⟩
    · simp [Assoc.get_erase, h2]
    · intro a
      dsimp only
      split <;> simp [h2]

/-- an operation about another shard. -/
theorem Host.next_same_other (f : R → Nat) (σ : Host R) (op : HostOp R) {s : Nat} (h : op.shard f ≠ s) :
    σ.SameFor s (σ.next f op) := by
  have h2 : s ≠ op.shard f := fun e => h e.symm
  cases op with
  | request r => exact σ.request_same s (f r) r
  | shardAllocated s' n => exact (σ.allocated_same_other h n).trans (σ.shardAllocated_same s s' n)
  | reallocating s' => exact ⟨rfl, fun _ => .rfl, fun _ => .rfl, fun _ => .rfl, rfl⟩
  | stopShard s' q =>
    simp only [HostOp.shard] at h h2
    show σ.SameFor s (σ.stopShard s' q)
    obtain ⟨_, _, _, _, f5, f6, f7⟩ := σ.stopShard_frame s' q
    refine ⟨?_, ?_, ?_, ?_, ?_⟩
    · rw [σ.stopShard_hosted_other h]
    · intro a; rw [f5]
    · intro a; rw [f6]
    · intro a; rw [f7]
    · unfold Host.stopsOf Host.stopShard
      split
      · rfl
      · simp [List.filter_append, h]
      · rfl
  | ready s' a =>
    simp only [HostOp.shard] at h h2
    simp only [Host.next, Host.step]
    split
    · have hb : σ.SameFor s { σ with booting := σ.booting.filter (· ≠ (s', a)) } := by
        refine ⟨rfl, fun _ => .rfl, ?_, fun _ => .rfl, rfl⟩
        intro b
        simp [h2]
      refine hb.trans ?_
      generalize ({ σ with booting := σ.booting.filter (· ≠ (s', a)) } : Host R) = τ
      obtain ⟨_, _, _, _, f5, f6, f7⟩ := τ.shardReady_frame s' a
      refine ⟨?_, ?_, ?_, ?_, ?_⟩
      · rw [τ.shardReady_hosted, Assoc.get_insert, if_neg h2]
      · intro a; rw [f5]
      · intro a; rw [f6]
      · intro a; rw [f7]
      · unfold Host.stopsOf Host.shardReady
        split
        · split
          · simp [List.filter_append, h]
          · rfl
        · rfl
    · exact .refl _ _
  | stopDone t =>
    simp only [HostOp.shard] at h h2
    simp only [Host.next, Host.step]
    split
    · refine ⟨?_, ?_, fun _ => .rfl, fun _ => .rfl, ?_⟩
      · simp [Host.stopDone, Assoc.get_erase, h2]
      · intro a; simp [Host.stopDone, h2]
      · simp only [Host.stopsOf, Host.stopDone]
        rw [List.filter_erase']
        simp [h]
    · exact .refl _ _
  | closed s' a =>
    simp only [HostOp.shard] at h h2
    simp only [Host.next, Host.step]
    split
    · refine ⟨rfl, ?_, fun _ => .rfl, ?_, rfl⟩
      · intro b; simp [h2]
      · intro b; simp [h2]
    · exact .refl _ _

/-! ### operations about the shard itself -/

theorem Host.Blank.allocSelf {s n : Nat} {h : Host R} (hb : h.Blank s) (hn : n = h.self) :
    ∃ a, ((h.shardAllocated s n).1).Held s a ∧ ((h.shardAllocated s n).1).stopsOf s = [] := by
  have hs := h.shardAllocated_same s s n
  suffices H : (h.allocated s n).Held s h.fresh ∧ (h.allocated s n).stopsOf s = [] from
    ⟨h.fresh, H.1.same hs, by rw [hs.stops]; exact H.2⟩
  unfold Host.allocated
  rw [if_pos hn]
  simp only [hb.hosted]
  refine ⟨⟨?_, ?_, ?_, ?_, ?_, .inr (.inl (by simp))⟩, hb.stops⟩
  · exact ⟨_, by simp only [Assoc.get_insert, if_true]; rfl, rfl, by simp [HShard.inst], by simp⟩
  · intro b; simp [hb.live]
  · intro b; simp [hb.booting]
  · exact hb.closing
  · intro t ht
    have : t ∈ h.stopsOf s := ht
    simp [hb.stops] at this

theorem Host.Held.allocSelf {s a n : Nat} {h : Host R} (hb : h.Held s a) (hn : n = h.self) :
    h.SameFor s (h.shardAllocated s n).1 := by
  have hs := h.shardAllocated_same s s n
  refine Host.SameFor.trans ?_ hs
  obtain ⟨c, hc, _⟩ := hb.hosted
  unfold Host.allocated
  rw [if_pos hn]
  simp only [hc]
  exact ⟨rfl, fun _ => .rfl, fun _ => .rfl, fun _ => .rfl, rfl⟩

theorem Host.Blank.allocOther {s n : Nat} {h : Host R} (hb : h.Blank s) (hn : n ≠ h.self) :
    h.SameFor s (h.shardAllocated s n).1 := by
  have hs := h.shardAllocated_same s s n
  refine Host.SameFor.trans ?_ hs
  unfold Host.allocated
  rw [if_neg hn]
  simp only [hb.hosted]
  exact ⟨by simp [Assoc.get_erase, hb.hosted], fun _ => .rfl, fun _ => .rfl, fun _ => .rfl, rfl⟩

theorem Host.Blank.stop {s : Nat} {h : Host R} (hb : h.Blank s) (q : StopReq) : h.stopShard s q = h := by
  simp only [Host.stopShard, hb.hosted]

theorem Host.Held.stop {s a : Nat} {h : Host R} (hb : h.Held s a) (q : StopReq) :
    (h.stopShard s q).Held s a ∧ ((h.stopShard s q).stopsOf s).length ≤ (h.stopsOf s).length + 1 := by
  obtain ⟨c, hc, h2, h3, h4⟩ := hb.hosted
  cases c with
  | ready b =>
    have hba : b = a := h3 b rfl
    subst hba
    have hnb := h4 b rfl
    simp only [Host.stopShard, hc]
    refine ⟨⟨?_, hb.live, hb.booting, hb.closing, ?_, .inr (.inr (by simp [Host.stopsOf]))⟩, ?_⟩
    · exact ⟨.stopping, by simp [Assoc.get_insert], rfl, by simp [HShard.inst], by simp⟩
    · intro t ht
      simp only [Host.stopsOf, List.mem_filter, List.mem_append, List.mem_singleton] at ht
      rcases ht with ⟨ht | rfl, ht2⟩
      · exact hb.stops t (by simp [Host.stopsOf, ht]; simpa using ht2)
      · exact ⟨rfl, hnb⟩
    · simp [Host.stopsOf, List.filter_append]
  | starting b buf st =>
    simp only [Host.stopShard, hc]
    refine ⟨⟨?_, hb.live, hb.booting, hb.closing, hb.stops, .inr (hb.kept.resolve_left (by rw [hc]; simp))⟩, ?_⟩
    · exact ⟨.stopping, by simp [Assoc.get_insert], rfl, by simp [HShard.inst], by simp⟩
    · simp [Host.stopsOf]
  | stopping =>
    simp only [Host.stopShard, hc]
    refine ⟨⟨?_, hb.live, hb.booting, hb.closing, hb.stops, .inr (hb.kept.resolve_left (by rw [hc]; simp))⟩, ?_⟩
    · exact ⟨.stopping, by simp [Assoc.get_insert], rfl, by simp [HShard.inst], by simp⟩
    · simp [Host.stopsOf]

/-- what happens by itself on a node that has nothing to do with `s`. -/
theorem Host.Blank.isLocal (f : R → Nat) {s : Nat} {h : Host R} (hb : h.Blank s) (op : HostOp R)
    (hl : op.isLocal = true) : h.SameFor s (h.next f op) := by
  by_cases hs : op.shard f = s
  · cases op with
    | request r => exact h.request_same s (f r) r
    | shardAllocated _ _ => simp [HostOp.isLocal] at hl
    | reallocating _ => simp [HostOp.isLocal] at hl
    | stopShard _ _ => simp [HostOp.isLocal] at hl
    | ready s' a =>
      simp only [HostOp.shard] at hs
      subst hs
      simp only [Host.next, Host.step, if_neg (hb.booting a)]
      exact .refl _ _
    | stopDone t =>
      simp only [HostOp.shard] at hs
      have : t ∉ h.stops := by
        intro ht
        have h1 : t ∈ h.stopsOf s := by simp [Host.stopsOf, ht, hs]
        simp [hb.stops] at h1
      simp only [Host.next, Host.step, if_neg this]
      exact .refl _ _
    | closed s' a =>
      simp only [HostOp.shard] at hs
      subst hs
      simp only [Host.next, Host.step, if_neg (hb.closing a)]
      exact .refl _ _
  · exact h.next_same_other f op hs

/-- what happens by itself on the node that runs `s`, other than the end of a stop of `s`. -/
theorem Host.Held.isLocal (f : R → Nat) {s a : Nat} {h : Host R} (hb : h.Held s a) (op : HostOp R)
    (hl : op.isLocal = true) (hd : ∀ t ∈ h.stops, t.s = s → op ≠ .stopDone t) :
    (h.next f op).Held s a ∧ (h.next f op).stopsOf s = h.stopsOf s := by
  by_cases hs : op.shard f = s
  · cases op with
    | request r =>
      have := h.request_same s (f r) r
      exact ⟨hb.same this, this.stops⟩
    | shardAllocated _ _ => simp [HostOp.isLocal] at hl
    | reallocating _ => simp [HostOp.isLocal] at hl
    | stopShard _ _ => simp [HostOp.isLocal] at hl
    | ready s' b =>
      simp only [HostOp.shard] at hs
      subst hs
      simp only [Host.next, Host.step]
      split
      · rename_i hm
        have hba := hb.booting b hm
        subst hba
        obtain ⟨c, hc, h2, h3, h4⟩ := hb.hosted
        have key : ∀ τ : Host R, τ.hosted = h.hosted → (τ.shardReady s' b).1.stops = τ.stops := by
          intro τ hτ
          unfold Host.shardReady
          rw [hτ, hc]
          cases c with
          | starting a' buf st =>
            simp only [HShard.stopReq] at h2
            subst h2
            rfl
          | ready _ => rfl
          | stopping => rfl
        have key := key { h with booting := h.booting.filter (· ≠ (s', b)) } rfl
        have hbt : (s', b) ∉ h.booting.filter (· ≠ (s', b)) := by simp
        obtain ⟨_, _, _, _, f5, f6, f7⟩ :=
          ({ h with booting := h.booting.filter (· ≠ (s', b)) } : Host R).shardReady_frame s' b
        refine ⟨⟨?_, ?_, ?_, ?_, ?_, .inl (by rw [Host.shardReady_hosted]; simp [Assoc.get_insert])⟩, ?_⟩
        · refine ⟨.ready b, by rw [Host.shardReady_hosted]; simp [Assoc.get_insert], rfl, by simp [HShard.inst], ?_⟩
          intro _ _
          rw [f6]; exact hbt
        · intro x; rw [f5]; exact hb.live x
        · intro x; rw [f6]; intro hx; exact hb.booting x (List.mem_filter.1 hx |>.1)
        · intro x; rw [f7]; exact hb.closing x
        · intro t ht
          unfold Host.stopsOf at ht
          rw [key] at ht
          rw [f6]
          exact ⟨(hb.stops t ht).1, hbt⟩
        · unfold Host.stopsOf
          rw [key]
      · exact ⟨hb, rfl⟩
    | stopDone t =>
      simp only [HostOp.shard] at hs
      have : t ∉ h.stops := fun ht => hd t ht hs rfl
      simp only [Host.next, Host.step, if_neg this]
      exact ⟨hb, trivial⟩
    | closed s' b =>
      simp only [HostOp.shard] at hs
      subst hs
      simp only [Host.next, Host.step, if_neg (hb.closing b)]
      exact ⟨hb, trivial⟩
  · have := h.next_same_other f op hs
    exact ⟨hb.same this, this.stops⟩

/-- the end of the stop of `s`. -/
theorem Host.Held.stopDone (f : R → Nat) {s a : Nat} {h : Host R} (hb : h.Held s a) {t : StopTask}
    (ht : t ∈ h.stops) (hts : t.s = s) (h1 : (h.stopsOf s).length ≤ 1) :
    (h.next f (.stopDone t)).Blank s := by
  have hm : t ∈ h.stopsOf s := by simp [Host.stopsOf, ht, hts]
  obtain ⟨ha, hnb⟩ := hb.stops t hm
  subst hts ha
  simp only [Host.next, Host.step, if_pos ht, Host.stopDone]
  refine ⟨by simp [Assoc.get_erase], ?_, ?_, hb.closing, ?_⟩
  · intro b hx
    simp only [List.mem_filter, decide_eq_true_eq] at hx
    exact hx.2 (by rw [(hb.live b).1 hx.1])
  · intro b hx
    have := hb.booting b hx
    subst this
    exact hnb hx
  · simp only [Host.stopsOf]
    rw [List.filter_erase']
    simp only [decide_true, if_true]
    apply List.length_eq_zero_iff.mp
    have hm' : t ∈ h.stops.filter fun u => decide (u.s = t.s) := hm
    rw [List.length_erase_of_mem hm']
    have h1' : (h.stops.filter fun u => decide (u.s = t.s)).length ≤ 1 := h1
    omega

/-! ### answers to stop requests -/

theorem Host.request_acks (σ : Host R) (s d : Nat) (r : R) :
    (σ.request s r).2.filterMap (HostOut.ack? d) = [] := by
  unfold Host.request
  split
  · rename_i c _
    cases c <;> rfl
  · split <;> rfl

theorem Host.requests_acks (σ : Host R) (s d : Nat) (rs : List R) :
    (σ.requests s rs).2.filterMap (HostOut.ack? d) = [] := by
  induction rs generalizing σ with
  | nil => rfl
  | cons r rs ih => simp only [Host.requests, List.filterMap_append, Host.request_acks, ih, List.append_nil]

theorem Host.step_acks (f : R → Nat) (σ : Host R) (d : Nat) (op : HostOp R)
    (h : ∀ t ∈ σ.stops, op ≠ .stopDone t) : (σ.step f op).2.filterMap (HostOut.ack? d) = [] := by
  cases op with
  | request r => exact σ.request_acks _ d r
  | shardAllocated s n =>
    simp only [Host.step, Host.shardAllocated]
    split
    · exact Host.requests_acks _ _ d _
    · rfl
  | reallocating s => rfl
  | stopShard s q => rfl
  | ready s a =>
    simp only [Host.step]
    split
    · unfold Host.shardReady
      split
      · split
        · rfl
        · simp [List.filterMap_map, HostOut.ack?]
      · rfl
    · rfl
  | stopDone t =>
    simp only [Host.step]
    rw [if_neg (fun ht => h t ht rfl)]
    rfl
  | closed s a =>
    simp only [Host.step]
    split <;> rfl

theorem Host.stopDone_acks (f : R → Nat) (σ : Host R) (d : Nat) (t : StopTask) (ht : t ∈ σ.stops) :
    (σ.step f (.stopDone t)).2.filterMap (HostOut.ack? d) = t.req.toList.map fun _ => (t.s, d) := by
  simp only [Host.step, if_pos ht, Host.stopDone]
  cases t.req <;> rfl

theorem Host.next_self (f : R → Nat) (σ : Host R) (op : HostOp R) : (σ.next f op).self = σ.self := by
  cases op with
  | request r => exact (σ.request_frame (f r) r).1
  | shardAllocated s n =>
    simp only [Host.next, Host.step, Host.shardAllocated]
    have h1 := (σ.allocated_frame s n).1
    split
    · exact (Host.requests_frame _ s _).1.trans h1
    · exact h1
  | reallocating s => rfl
  | stopShard s q => exact (σ.stopShard_frame s q).1
  | ready s a =>
    simp only [Host.next, Host.step]
    split
    · exact (Host.shardReady_frame _ s a).1
    · rfl
  | stopDone t =>
    simp only [Host.next, Host.step]
    split <;> rfl
  | closed s a =>
    simp only [Host.next, Host.step]
    split <;> rfl

end Verif.Sharding
