import Verif.Sharding.FailoverModel
import Verif.Sharding.SystemProps
import Verif.Sharding.CoordRecoveryProps

/-! # Lemmas about the system whose coordinators end -/

namespace Verif.Sharding

variable {R : Type}

/-! ### stamps -/

theorem isAlloc_stamp (s e : Nat) (p : Nat × HMsg) : isAlloc s (p.1, p.2.stamp e) = isAlloc s p := by
  obtain ⟨d, m⟩ := p
  cases m <;> rfl

theorem isStop_stamp (s e : Nat) (p : Nat × HMsg) : isStop s (p.1, p.2.stamp e) = isStop s p := by
  obtain ⟨d, m⟩ := p
  cases m <;> rfl

theorem stampAll_stops (s e : Nat) (l : List (Nat × HMsg)) : (stampAll e l).countP (isStop s) = l.countP (isStop s) := by
  unfold stampAll
  rw [List.countP_map]
  congr 1
  funext p
  exact isStop_stamp s e p

theorem stampAll_alloc (s n e d : Nat) (l : List (Nat × HMsg)) :
    (d, HMsg.allocated s n) ∈ stampAll e l ↔ (d, HMsg.allocated s n) ∈ l := by
  unfold stampAll
  constructor
  · intro h
    obtain ⟨⟨d', m⟩, h1, h2⟩ := List.mem_map.1 h
    cases m with
    | allocated s' n' =>
      simp only [HMsg.stamp, Prod.mk.injEq, HMsg.allocated.injEq] at h2
      obtain ⟨rfl, rfl, rfl⟩ := h2
      exact h1
    | reallocating s' => simp [HMsg.stamp] at h2
    | stop s' o => simp [HMsg.stamp] at h2
  · intro h
    exact List.mem_map.2 ⟨_, h, rfl⟩

theorem stampAll_mem {e : Nat} {l : List (Nat × HMsg)} {m : Nat × HMsg} (h : m ∈ stampAll e l) (n s : Nat)
    (hm : m.2 = .allocated s n) : m ∈ l := by
  obtain ⟨d, x⟩ := m
  simp only at hm
  subst hm
  exact (stampAll_alloc s n e d l).1 h

/-! ### fewer answers -/

theorem Sys.Phase.fewer {s : Nat} {w : Sys R} (h : w.Phase s) {ak : List (Nat × Nat)}
    (hak : (ak.countP fun p => p.1 = s) ≤ w.nAck s) : ({ w with acks := ak } : Sys R).Phase s := by
  have := h.leaves (c := w.coord) (e := []) (as := w.asks) (ak := ak) h.inv rfl rfl (by simp) hak
  simpa [Sys.heard] using this

theorem acksTo_count (e d s : Nat) (l : List (HostOut R)) :
    (l.filterMap (HostOut.ackTo e d)).countP (fun p => decide (p.1 = s))
      ≤ (l.filterMap (HostOut.ack? d)).countP (fun p => decide (p.1 = s)) := by
  induction l with
  | nil => exact Nat.le_refl _
  | cons x l ih =>
    cases x with
    | reply q t =>
      simp only [List.filterMap_cons, HostOut.ackTo, HostOut.ack?]
      split
      · rename_i h
        rw [List.countP_cons]
        exact Nat.le_trans ih (Nat.le_add_right _ _)
      · rename_i b h
        split at h
        · simp only [Option.some.injEq] at h
          subst h
          simp only [List.countP_cons]
          omega
        · cases h
    | ask t => exact ih
    | deliver t a r => exact ih
    | forward n t r => exact ih

theorem Sys.Phase.hostStepF (f : R → Nat) {s : Nat} {w : FSys R} {d : Nat} {op : HostOp R}
    (h : (w.toSys.hostStep f d op).Phase s) : (w.hostStep f d op).toSys.Phase s := by
  refine h.fewer (ak := w.acks ++ ((w.host d).step f op).2.filterMap (HostOut.ackTo w.epoch d)) ?_
  show _ ≤ (w.acks ++ ((w.host d).step f op).2.filterMap (HostOut.ack? d)).countP _
  rw [List.countP_append, List.countP_append]
  exact Nat.add_le_add_left (acksTo_count _ _ _ _) _

/-! ### when there is no trace of the shard -/

theorem Sys.Phase.blank_of_quiet {s : Nat} {w : Sys R} (h : w.Phase s) (hq : w.Quiet s) : ∀ d, (w.host d).Blank s := by
  rcases h.phase with hg | ⟨A, a, hg⟩ | ⟨A, hg⟩
  · exact hg.blank
  · exact absurd ((hg.held.live a).2 rfl) (hq.1 A a)
  · rcases hg.own with hb | ⟨a, hb, _⟩
    · intro d
      by_cases e : d = A
      · subst e; exact hb
      · exact hg.blank d e
    · exact absurd ((hb.live a).2 rfl) (hq.1 A a)

/-- whatever the coordinator has become, it says where the shard is, which runs nowhere. -/
theorem Sys.Phase.anew {s : Nat} {w : Sys R} (h : w.Phase s) (hq : w.Quiet s) {c : Coord} (hi : Inv c)
    {e : List (Nat × HMsg)} {as ak : List (Nat × Nat)} (he : e.countP (isStop s) = 0)
    (hea : ∀ m ∈ e, ∀ n, m.2 = .allocated s n → c.shards.get s = some n)
    (hak : (ak.countP fun p => p.1 = s) = 0) : (w.heard c e as ak).Phase s := by
  have hb := h.blank_of_quiet hq
  have hst := hq.counts.1
  refine ⟨h.self, hi, ?_⟩
  rcases hg : c.shards.get s with _ | A
  · refine .inl ⟨hg, hb, Sys.heard_noAlloc (noAlloc_iff.2 hq.2.1) ?_, ?_⟩
    · intro m hm
      rw [isAlloc_false_iff]
      intro n e'
      have := hea m hm n e'
      rw [hg] at this; simp at this
    · have : (w.heard c e as ak).nAck s = 0 := hak
      rw [Sys.heard_nStop, he, hst, this]
      exact Nat.zero_le _
  · refine .inr (.inr ⟨A, hg, fun d _ => hb d, .inl (hb A), ?_, hak, ?_⟩)
    · rw [Sys.heard_nStop, he, hst]
    · intro d n hm
      rcases List.mem_append.1 hm with hm | hm
      · exact absurd hm (hq.2.1 d n)
      · have := hea _ hm n rfl
        rw [hg] at this
        simpa using this.symm

/-! ### a lost node -/

/-- since `c`, the coordinator has asked nobody to stop `s`, and has not announced it anywhere else than where it is. -/
def Coord.SaysSince (s : Nat) (c c' : Coord) : Prop :=
  ∃ new, c'.out = c.out ++ new ∧ (∀ n to, CoordOut.shardAllocated s n to ∈ new → c'.shards.get s = some n) ∧
    ∀ n, CoordOut.stopShard s n ∉ new

theorem Coord.SaysSince.leaves {s : Nat} {c c' c'' : Coord} (h : c.SaysSince s c') (h' : c'.Leaves s c'') :
    c.SaysSince s c'' := by
  obtain ⟨new, h1, h2, h3⟩ := h
  obtain ⟨e1, new', e2, e3⟩ := h'
  refine ⟨new ++ new', by rw [e2, h1, List.append_assoc], ?_, ?_⟩
  · intro n to hm
    rcases List.mem_append.1 hm with hm | hm
    · rw [e1]; exact h2 n to hm
    · exact absurd rfl (e3 _ hm)
  · intro n hm
    rcases List.mem_append.1 hm with hm | hm
    · exact h3 n hm
    · exact absurd rfl (e3 _ hm)

theorem Coord.Leaves.saysSince {s : Nat} {c c' c'' : Coord} (h : c.Leaves s c') (h' : c'.SaysSince s c'') :
    c.SaysSince s c'' := by
  obtain ⟨_, new, h1, h2⟩ := h
  obtain ⟨new', e1, e2, e3⟩ := h'
  refine ⟨new ++ new', by rw [e1, h1, List.append_assoc], ?_, ?_⟩
  · intro n to hm
    rcases List.mem_append.1 hm with hm | hm
    · exact absurd rfl (h2 _ hm)
    · exact e2 n to hm
  · intro n hm
    rcases List.mem_append.1 hm with hm | hm
    · exact absurd rfl (h2 _ hm)
    · exact e3 n hm

theorem Coord.SaysSince.sent {s : Nat} {c c' : Coord} (h : c.SaysSince s c') :
    (∀ m ∈ c'.sentSince c.out.length, ∀ n, m.2 = .allocated s n → c'.shards.get s = some n) ∧
      (c'.sentSince c.out.length).countP (isStop s) = 0 := by
  obtain ⟨new, h1, h2, h3⟩ := h
  rw [sentSince_append h1]
  refine ⟨?_, ?_⟩
  · rintro ⟨d, m⟩ hm n e
    simp only at e
    subst e
    obtain ⟨o, ho, hm⟩ := List.mem_flatMap.1 hm
    cases o with
    | shardAllocated s' n' to =>
      simp only [CoordOut.msgs, List.mem_map, Prod.mk.injEq, HMsg.allocated.injEq] at hm
      obtain ⟨_, _, _, rfl, rfl⟩ := hm
      exact h2 _ _ ho
    | shardReallocating s' to => simp [CoordOut.msgs] at hm
    | stopShard s' n' => simp [CoordOut.msgs] at hm
    | scheduleRebalance => simp [CoordOut.msgs] at hm
  · rw [List.countP_eq_zero]
    intro m hm
    obtain ⟨o, ho, hm⟩ := List.mem_flatMap.1 hm
    cases o with
    | shardAllocated s' n' to =>
      simp only [CoordOut.msgs, List.mem_map] at hm
      obtain ⟨d, _, rfl⟩ := hm
      simp [isStop]
    | shardReallocating s' to =>
      simp only [CoordOut.msgs, List.mem_map] at hm
      obtain ⟨d, _, rfl⟩ := hm
      simp [isStop]
    | stopShard s' n' =>
      simp only [CoordOut.msgs, List.mem_singleton] at hm
      subst hm
      simp only [isStop, decide_eq_true_eq]
      rintro rfl
      exact h3 _ ho
    | scheduleRebalance => simp [CoordOut.msgs] at hm

theorem moveShard_says {σ : Coord} {p s : Nat} {l : List Nat} (hi : InvP σ p (s :: l)) :
    σ.SaysSince s (σ.moveShard s) := by
  have hg : (σ.shards.erase s).get s = none := by rw [Assoc.get_erase, if_pos rfl]
  rcases allocateShard_self hi.drop.1 s with ⟨h1, new, h2, h3⟩ | ⟨n, to, h1, h2, h3⟩
  · exact ⟨new, h2, fun n to hm => absurd rfl (h3 _ hm), fun n hm => absurd rfl (h3 _ hm)⟩
  · refine ⟨_, h3, ?_, ?_⟩
    · intro n' to' hm
      simp only [List.mem_singleton, CoordOut.shardAllocated.injEq] at hm
      rw [hm.2.1]
      exact h2
    · intro n' hm
      simp at hm

theorem moveAll_says {σ : Coord} {p s : Nat} {l : List Nat} (hi : InvP σ p l) :
    σ.SaysSince s (l.foldl Coord.moveShard σ) := by
  induction l generalizing σ with
  | nil => exact ⟨[], by simp, by simp, by simp⟩
  | cons x l ih =>
    by_cases hx : x = s
    · subst hx
      have hn : x ∉ l := (List.nodup_cons.1 hi.lnd).1
      exact (moveShard_says hi).leaves (moveAll_leaves hi.moveShard hn)
    · have h1 : σ.Leaves s (σ.moveShard x) := by
        obtain ⟨e1, new, e2, e3⟩ := allocateShard_other hi.drop.1 hx
        refine ⟨e1.trans ?_, new, e2, e3⟩
        show (σ.shards.erase x).get s = _
        rw [Assoc.get_erase, if_neg (Ne.symm hx)]
      exact h1.saysSince (ih hi.moveShard)

theorem nodeUnavailable_says {σ : Coord} (hi : Inv σ) (s n : Nat) : σ.SaysSince s (σ.nodeUnavailable n) := by
  rcases Option.eq_none_or_eq_some (σ.hosts.get n) with hn | ⟨hh, hg⟩
  · rw [nodeUnavailable_none hn]; exact ⟨[], by simp, by simp, by simp⟩
  · rw [nodeUnavailable_some hg]
    exact moveAll_says (s := s) (hi.marked hg)

/-! ### a new coordinator -/

theorem InvP.revive (self : Nat) (nodes : List (Nat × Bool)) (o : Assoc Nat HostInfo) (j : List Nat) :
    Inv (Coord.revive self nodes o j) :=
  ((InvP.fresh self nodes j).shuffle o).recoverAll j

theorem shuffle_out (σ : Coord) (o : Assoc Nat HostInfo) :
    (σ.shuffle o).out = σ.out ∧ (σ.shuffle o).shards = σ.shards ∧ (σ.shuffle o).journal = σ.journal ∧
      (σ.shuffle o).moving = σ.moving := by
  unfold Coord.shuffle
  split <;> exact ⟨rfl, rfl, rfl, rfl⟩

theorem Coord.revive_says (s self : Nat) (nodes : List (Nat × Bool)) (o : Assoc Nat HostInfo) (j : List Nat) :
    (Coord.revive self nodes o j).Says s := by
  obtain ⟨h1, h2, _⟩ := shuffle_out (Coord.fresh self nodes j) o
  refine Coord.recoverAll_says ((InvP.fresh self nodes j).shuffle o) s j ⟨?_, ?_⟩
  · intro n to hm
    rw [h1] at hm
    simp [Coord.fresh] at hm
  · intro n hm
    rw [h1] at hm
    simp [Coord.fresh] at hm

theorem revive_sent (s self e : Nat) (nodes : List (Nat × Bool)) (o : Assoc Nat HostInfo) (j : List Nat) :
    (∀ m ∈ stampAll e ((Coord.revive self nodes o j).sentSince 0), ∀ n, m.2 = .allocated s n →
        (Coord.revive self nodes o j).shards.get s = some n) ∧
      (stampAll e ((Coord.revive self nodes o j).sentSince 0)).countP (isStop s) = 0 := by
  have h := (Coord.revive_says s self nodes o j).sent
  refine ⟨?_, by rw [stampAll_stops]; exact h.2⟩
  rintro ⟨d, m⟩ hm n e'
  simp only at e'
  subst e'
  exact h.1 d n ((stampAll_alloc s n e d _).1 hm)

/-! ### a crash -/

theorem Host.init_blank (s d : Nat) : (Host.init d : Host R).Blank s :=
  ⟨rfl, by simp [Host.init], by simp [Host.init], by simp [Host.init], rfl⟩

theorem Sys.Phase.crash {s : Nat} {w : FSys R} (h : w.toSys.Phase s) (d : Nat) : (w.crash d).toSys.Phase s := by
  have hblank : ∀ x, (w.host x).Blank s → ((w.crash d).host x).Blank s := by
    intro x hx
    by_cases e : x = d
    · subst e
      show (w.setHost x _ x).Blank s
      rw [Sys.setHost_self]; exact Host.init_blank s x
    · show (w.setHost d _ x).Blank s
      rw [Sys.setHost_other _ _ e]; exact hx
  have hd : ((w.crash d).host d).Blank s := by
    show (w.setHost d _ d).Blank s
    rw [Sys.setHost_self]; exact Host.init_blank s d
  have hx : ∀ x, x ≠ d → (w.crash d).host x = w.host x := fun x e => Sys.setHost_other _ _ e
  have hnet : ∀ m ∈ (w.crash d).net, m ∈ w.net := fun m hm => (List.mem_filter.1 hm).1
  have hna : w.toSys.noAlloc s → (w.crash d).toSys.noAlloc s := fun hn m hm => hn m (hnet m hm)
  have hst : (w.crash d).toSys.nStop s ≤ w.toSys.nStop s := List.filter_sublist.countP_le
  have hak : (w.crash d).toSys.nAck s ≤ w.toSys.nAck s := List.filter_sublist.countP_le
  refine ⟨Sys.moved_self h.self rfl, h.inv, ?_⟩
  rcases h.phase with hg | ⟨A, a, hg⟩ | ⟨A, hg⟩
  · exact .inl ⟨hg.un, fun x => hblank x (hg.blank x), hna hg.noAlloc, by have := hg.count; omega⟩
  · by_cases e : A = d
    · subst e
      refine .inl ⟨hg.un, ?_, hna hg.noAlloc, ?_⟩
      · intro x
        by_cases e : x = A
        · subst e; exact hd
        · exact hblank x (hg.blank x e)
      · have := hg.count
        have := hg.acks
        omega
    · refine .inr (.inl ⟨A, a, hg.un, fun x hx => hblank x (hg.blank x hx), ?_, hna hg.noAlloc, ?_, ?_⟩)
      · rw [hx A e]; exact hg.held
      · rw [hx A e]
        have := hg.count
        omega
      · have := hg.acks
        omega
  · refine .inr (.inr ⟨A, hg.as, fun x hx => hblank x (hg.blank x hx), ?_, ?_, ?_, ?_⟩)
    · by_cases e : A = d
      · subst e; exact .inl hd
      · rw [hx A e]; exact hg.own
    · have := hg.stops; omega
    · have := hg.acks; omega
    · intro x n hm
      exact hg.alloc x n (hnet _ hm)

end Verif.Sharding
