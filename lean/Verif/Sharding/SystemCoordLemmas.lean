import Verif.Sharding.SystemModel
import Verif.Sharding.CoordinatorLemmas

/-! # What the coordinator sends about one shard -/

namespace Verif.Sharding

/-- a message announcing where `s` is. -/
def isAlloc (s : Nat) : Nat × HMsg → Bool
  | (_, .allocated s' _) => s' = s
  | _ => false

/-- a request to stop `s`. -/
def isStop (s : Nat) : Nat × HMsg → Bool
  | (_, .stop s' _) => s' = s
  | _ => false

/-- outputs of the coordinator that neither announce nor stop `s`. -/
def CoordOut.neutral (s : Nat) : CoordOut → Prop
  | .shardAllocated s' _ _ => s' ≠ s
  | .stopShard s' _ => s' ≠ s
  | _ => True

/-- the step leaves the assignment of `s` and says nothing of interest about it. -/
def Coord.Leaves (s : Nat) (c c' : Coord) : Prop :=
  c'.shards.get s = c.shards.get s ∧ ∃ new, c'.out = c.out ++ new ∧ ∀ o ∈ new, o.neutral s

/-- the step takes `s` from its node, and asks that node to stop it. -/
def Coord.Takes (s : Nat) (c c' : Coord) : Prop :=
  ∃ n, c.shards.get s = some n ∧ c'.shards.get s = none ∧
    ∃ l₁ l₂, c'.out = c.out ++ (l₁ ++ CoordOut.stopShard s n :: l₂) ∧
      (∀ o ∈ l₁, o.neutral s) ∧ ∀ o ∈ l₂, o.neutral s

/-- the step assigns `s` and announces it. -/
def Coord.Gives (s : Nat) (c c' : Coord) : Prop :=
  ∃ n to, c.shards.get s = none ∧ c'.shards.get s = some n ∧
    c'.out = c.out ++ [CoordOut.shardAllocated s n to]

theorem Coord.Leaves.refl (s : Nat) (c : Coord) : c.Leaves s c := ⟨rfl, [], by simp, by simp⟩

theorem Coord.Leaves.trans {s : Nat} {c c' c'' : Coord} (h : c.Leaves s c') (h' : c'.Leaves s c'') :
    c.Leaves s c'' := by
  obtain ⟨h1, n1, h2, h3⟩ := h
  obtain ⟨h1', n2, h2', h3'⟩ := h'
  refine ⟨h1'.trans h1, n1 ++ n2, by rw [h2', h2, List.append_assoc], ?_⟩
  intro o ho
  rcases List.mem_append.1 ho with ho | ho
  · exact h3 o ho
  · exact h3' o ho

theorem Coord.Leaves.takes {s : Nat} {c c' c'' : Coord} (h : c.Leaves s c') (h' : c'.Takes s c'') :
    c.Takes s c'' := by
  obtain ⟨h1, n1, h2, h3⟩ := h
  obtain ⟨n, h1', h2', l₁, l₂, h3', h4', h5'⟩ := h'
  refine ⟨n, h1 ▸ h1', h2', n1 ++ l₁, l₂, by rw [h3', h2]; simp, ?_, h5'⟩
  intro o ho
  rcases List.mem_append.1 ho with ho | ho
  · exact h3 o ho
  · exact h4' o ho

theorem Coord.Takes.leaves {s : Nat} {c c' c'' : Coord} (h : c.Takes s c') (h' : c'.Leaves s c'') :
    c.Takes s c'' := by
  obtain ⟨n, h1', h2', l₁, l₂, h3', h4', h5'⟩ := h
  obtain ⟨h1, n1, h2, h3⟩ := h'
  refine ⟨n, h1', h1.trans h2', l₁, l₂ ++ n1, by rw [h2, h3']; simp, h4', ?_⟩
  intro o ho
  rcases List.mem_append.1 ho with ho | ho
  · exact h5' o ho
  · exact h3 o ho

theorem allocateShard_other {σ : Coord} {p : Nat} {l : List Nat} (hi : InvP σ p l) {s s' : Nat} (h : s' ≠ s) :
    σ.Leaves s (σ.allocateShard s').1 := by
  have h2 : s ≠ s' := fun e => h e.symm
  rcases Option.eq_none_or_eq_some (σ.shards.get s') with hg | ⟨n, hg⟩
  · rcases hc : σ.choice with _ | ⟨n, hn⟩
    · rw [allocateShard_none hg hc]; exact .refl _ _
    · rw [allocateShard_placed hi hg hc]
      refine ⟨by rw [placed_shards_get, if_neg h2], [_], rfl, ?_⟩
      simp [CoordOut.neutral, h]
  · rw [allocateShard_already hg]; exact .refl _ _

theorem allocateShard_self {σ : Coord} {p : Nat} {l : List Nat} (hi : InvP σ p l) (s : Nat) :
    σ.Leaves s (σ.allocateShard s).1 ∨ σ.Gives s (σ.allocateShard s).1 := by
  rcases Option.eq_none_or_eq_some (σ.shards.get s) with hg | ⟨n, hg⟩
  · rcases hc : σ.choice with _ | ⟨n, hn⟩
    · rw [allocateShard_none hg hc]; exact .inl (.refl _ _)
    · rw [allocateShard_placed hi hg hc]
      exact .inr ⟨n, _, hg, by rw [placed_shards_get, if_pos rfl], rfl⟩
  · rw [allocateShard_already hg]; exact .inl (.refl _ _)

theorem Coord.Leaves.of_eq {s : Nat} {c c' c'' : Coord} (h : c.Leaves s c'') (h1 : c'.shards = c.shards)
    (h2 : c'.out = c.out) : c'.Leaves s c'' := by
  unfold Coord.Leaves; rw [h1, h2]; exact h

theorem Coord.Gives.of_eq {s : Nat} {c c' c'' : Coord} (h : c.Gives s c'') (h1 : c'.shards = c.shards)
    (h2 : c'.out = c.out) : c'.Gives s c'' := by
  unfold Coord.Gives; rw [h1, h2]; exact h

theorem handleAllocate_rel {σ : Coord} (hi : Inv σ) (s s' : Nat) (r ok : Bool) :
    σ.Leaves s (σ.handleAllocate s' r ok).1 ∨ (s' = s ∧ σ.Gives s (σ.handleAllocate s' r ok).1) := by
  have key : ∀ τ : Coord, Inv τ →
      τ.Leaves s (τ.allocateShard s').1 ∨ (s' = s ∧ τ.Gives s (τ.allocateShard s').1) := by
    intro τ hτ
    by_cases h : s' = s
    · subst h
      rcases allocateShard_self hτ s' with h | h
      · exact .inl h
      · exact .inr ⟨rfl, h⟩
    · exact .inl (allocateShard_other hτ h)
  unfold Coord.handleAllocate
  rcases Option.eq_none_or_eq_some (σ.shards.get s') with hg | ⟨n, hg⟩
  · simp only [hg]
    cases r with
    | true => exact key σ hi
    | false =>
      cases ok with
      | true =>
        have := key { σ with journal := σ.journal ++ [s'] } (hi.congr rfl rfl rfl rfl)
        rcases this with h | ⟨e, h⟩
        · exact .inl (h.of_eq rfl rfl)
        · exact .inr ⟨e, h.of_eq rfl rfl⟩
      | false => exact .inl (.refl _ _)
  · simp only [hg]; exact .inl (.refl _ _)

theorem takeShard_rel {σ : Coord} (hi : Inv σ) (s s' : Nat) :
    σ.Leaves s (σ.takeShard s') ∨ σ.Takes s (σ.takeShard s') := by
  rw [takeShard_eq hi]
  rcases Option.eq_none_or_eq_some (σ.shards.get s') with hg | ⟨n, hg⟩
  · rw [detach_none (σ := σ.announce s') hg]
    exact .inl ⟨rfl, [_], rfl, by simp [CoordOut.neutral]⟩
  · rw [detach_hosts (hi.announce s') hg]
    by_cases h : s' = s
    · subst h
      refine .inr ⟨n, hg, by simp [Assoc.get_erase], [CoordOut.shardReallocating s' (σ.hosts.map (·.1))], [],
        by simp [Coord.announce], by simp [CoordOut.neutral], by simp⟩
    · refine .inl ⟨?_, [CoordOut.shardReallocating s' (σ.hosts.map (·.1)), CoordOut.stopShard s' n],
        by simp [Coord.announce], by simp [CoordOut.neutral, h]⟩
      show (σ.shards.erase s').get s = _
      rw [Assoc.get_erase, if_neg (fun e => h e.symm)]

theorem rebalanceShards_rel {σ : Coord} (hi : Inv σ) (s : Nat) (l : List Nat) :
    σ.Leaves s (σ.rebalanceShards l) ∨ σ.Takes s (σ.rebalanceShards l) := by
  unfold Coord.rebalanceShards
  induction l generalizing σ with
  | nil => exact .inl (.refl _ _)
  | cons x l ih =>
    simp only [List.foldl_cons]
    rcases takeShard_rel hi s x with h | h
    · rcases ih (hi.takeShard x) with h' | h'
      · exact .inl (h.trans h')
      · exact .inr (h.takes h')
    · rcases ih (hi.takeShard x) with h' | ⟨n, h', _⟩
      · exact .inr (h.leaves h')
      · obtain ⟨_, _, h3, _⟩ := h
        simp [h3] at h'

theorem moveAll_leaves {σ : Coord} {p : Nat} {l : List Nat} (hi : InvP σ p l) {s : Nat} (h : s ∉ l) :
    σ.Leaves s (l.foldl Coord.moveShard σ) := by
  induction l generalizing σ with
  | nil => exact .refl _ _
  | cons x l ih =>
    simp only [List.mem_cons, not_or] at h
    have h1 : σ.Leaves s (σ.moveShard x) := by
      have hx : x ≠ s := fun e => h.1 e.symm
      have := allocateShard_other hi.drop.1 hx
      obtain ⟨e1, new, e2, e3⟩ := this
      refine ⟨e1.trans ?_, new, e2, e3⟩
      show (σ.shards.erase x).get s = _
      rw [Assoc.get_erase, if_neg h.1]
    exact h1.trans (ih hi.moveShard h.2)

theorem nodeUnavailable_leaves {σ : Coord} (hi : Inv σ) {s n : Nat} (h : σ.shards.get s ≠ some n) :
    σ.Leaves s (σ.nodeUnavailable n) := by
  rcases Option.eq_none_or_eq_some (σ.hosts.get n) with hn | ⟨hh, hg⟩
  · rw [nodeUnavailable_none hn]; exact .refl _ _
  · rw [nodeUnavailable_some hg]
    have : s ∉ hh.shards := fun hs => h ((hi.agree' s n).2 ⟨hh, hg, hs⟩)
    have := moveAll_leaves (hi.marked hg) this
    exact this

/-- operations that take `s` away from a lost node. -/
def CoordOp.loses (n : Nat) : CoordOp → Bool
  | .nodeUnavailable m => m = n
  | .nodeRemoved m => m = n
  | _ => false

theorem coordLocal_rel {σ : Coord} (hi : Inv σ) (s : Nat) (op : CoordOp) (hl : op.isLocal = true)
    (hn : ∀ n, σ.shards.get s = some n → op.loses n = false) :
    σ.Leaves s (σ.next op) ∨ σ.Takes s (σ.next op) := by
  unfold Coord.next
  cases op with
  | allocate s ok => simp [CoordOp.isLocal] at hl
  | stopAcked s n => simp [CoordOp.isLocal] at hl
  | restart a b => simp [CoordOp.isLocal] at hl
  | rebalanceAll =>
    simp only [Coord.step, Coord.rebalanceAll, if_neg (hosts_ne_nil hi)]
    exact rebalanceShards_rel hi s _
  | rebalanceShards l => exact rebalanceShards_rel hi s l
  | nodeUnavailable n =>
    refine .inl (nodeUnavailable_leaves hi fun h => ?_)
    have := hn n h
    simp [CoordOp.loses] at this
  | nodeRemoved n =>
    simp only [Coord.step, nodeRemoved_eq]
    refine .inl (nodeUnavailable_leaves hi fun h => ?_)
    have := hn n h
    simp [CoordOp.loses] at this
  | nodeAdded n =>
    simp only [Coord.step, Coord.nodeAdded]
    split
    · split
      · exact .inl (.refl _ _)
      · exact .inl ⟨rfl, [_], rfl, by simp [CoordOut.neutral]⟩
    · exact .inl ⟨rfl, [_], rfl, by simp [CoordOut.neutral]⟩
  | stopFailed s' n => exact .inl ⟨rfl, [], by simp [Coord.step], by simp⟩
  | shuffle hosts =>
    simp only [Coord.step, Coord.shuffle]
    split
    · exact .inl ⟨rfl, [], by simp, by simp⟩
    · exact .inl (.refl _ _)
  | shuffleSet n l => exact .inl ⟨rfl, [], by simp [Coord.step, Coord.shuffleSet], by simp⟩

theorem stopAcked_rel {σ : Coord} (hi : Inv σ) (s s' n : Nat) :
    σ.Leaves s (σ.next (.stopAcked s' n)) ∨ (s' = s ∧ σ.Gives s (σ.next (.stopAcked s' n))) := by
  simp only [Coord.next, Coord.step]
  split
  · rcases handleAllocate_rel (σ := { σ with moving := σ.moving.erase (s', n) }) (hi.congr rfl rfl rfl rfl)
      s s' true true with h | ⟨e, h⟩
    · exact .inl (h.of_eq rfl rfl)
    · exact .inr ⟨e, h.of_eq rfl rfl⟩
  · exact .inl (.refl _ _)

/-! ### as messages -/

theorem neutral_msgs {s self : Nat} {l : List CoordOut} (h : ∀ o ∈ l, o.neutral s) :
    (∀ m ∈ l.flatMap (CoordOut.msgs self), isAlloc s m = false) ∧
      (l.flatMap (CoordOut.msgs self)).countP (isStop s) = 0 := by
  have key : ∀ m ∈ l.flatMap (CoordOut.msgs self), isAlloc s m = false ∧ isStop s m = false := by
    intro m hm
    obtain ⟨o, ho, hm⟩ := List.mem_flatMap.1 hm
    have hn := h o ho
    cases o with
    | shardAllocated s' n to =>
      simp only [CoordOut.msgs, List.mem_map] at hm
      obtain ⟨d, _, rfl⟩ := hm
      simpa [isAlloc, isStop, CoordOut.neutral] using hn
    | shardReallocating s' to =>
      simp only [CoordOut.msgs, List.mem_map] at hm
      obtain ⟨d, _, rfl⟩ := hm
      simp [isAlloc, isStop]
    | stopShard s' n =>
      simp only [CoordOut.msgs, List.mem_singleton] at hm
      subst hm
      simpa [isAlloc, isStop, CoordOut.neutral] using hn
    | scheduleRebalance => simp [CoordOut.msgs] at hm
  refine ⟨fun m hm => (key m hm).1, ?_⟩
  rw [List.countP_eq_zero]
  intro m hm
  rw [(key m hm).2]; simp

theorem sentSince_append {c : Coord} {old new : List CoordOut} (h : c.out = old ++ new) :
    c.sentSince old.length = new.flatMap (CoordOut.msgs c.self) := by
  simp [Coord.sentSince, h]

theorem Coord.Leaves.sent {s : Nat} {c c' : Coord} (h : c.Leaves s c') :
    (∀ m ∈ c'.sentSince c.out.length, isAlloc s m = false) ∧
      (c'.sentSince c.out.length).countP (isStop s) = 0 := by
  obtain ⟨_, new, h2, h3⟩ := h
  rw [sentSince_append h2]
  exact neutral_msgs h3

theorem Coord.Takes.sent {s : Nat} {c c' : Coord} (h : c.Takes s c') :
    (∀ m ∈ c'.sentSince c.out.length, isAlloc s m = false) ∧
      (c'.sentSince c.out.length).countP (isStop s) = 1 := by
  obtain ⟨n, _, _, l₁, l₂, h2, h3, h4⟩ := h
  rw [sentSince_append h2]
  obtain ⟨a1, b1⟩ := neutral_msgs (self := c'.self) h3
  obtain ⟨a2, b2⟩ := neutral_msgs (self := c'.self) h4
  rw [List.flatMap_append, List.flatMap_cons]
  refine ⟨?_, ?_⟩
  · intro m hm
    rcases List.mem_append.1 hm with hm | hm
    · exact a1 m hm
    · rcases List.mem_append.1 hm with hm | hm
      · simp only [CoordOut.msgs, List.mem_singleton] at hm
        subst hm; rfl
      · exact a2 m hm
  · rw [List.countP_append, List.countP_append, b1, b2]
    simp [CoordOut.msgs, isStop]

theorem Coord.Gives.sent {s : Nat} {c c' : Coord} (h : c.Gives s c') :
    ∃ n, c'.shards.get s = some n ∧
      (∀ m ∈ c'.sentSince c.out.length, ∃ d, m = (d, HMsg.allocated s n)) ∧
      (c'.sentSince c.out.length).countP (isStop s) = 0 := by
  obtain ⟨n, to, _, h2, h3⟩ := h
  refine ⟨n, h2, ?_⟩
  rw [sentSince_append h3]
  have key : ∀ m ∈ [CoordOut.shardAllocated s n to].flatMap (CoordOut.msgs c'.self), ∃ d, m = (d, HMsg.allocated s n) := by
    intro m hm
    simp only [List.flatMap_cons, List.flatMap_nil, List.append_nil, CoordOut.msgs, List.mem_map] at hm
    obtain ⟨d, _, rfl⟩ := hm
    exact ⟨d, rfl⟩
  refine ⟨key, ?_⟩
  rw [List.countP_eq_zero]
  intro m hm
  obtain ⟨d, rfl⟩ := key m hm
  simp [isStop]

end Verif.Sharding
