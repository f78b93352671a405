import Verif.Sharding.SystemHostLemmas
import Verif.Sharding.SystemCoordLemmas

/-! # One shard in the whole system -/

namespace Verif.Sharding

variable {R : Type}

/-! ### the coordinator's start and answers -/

/-- everything said so far about `s` is what is the case now. -/
def Coord.Says (s : Nat) (c : Coord) : Prop :=
  (∀ n to, CoordOut.shardAllocated s n to ∈ c.out → c.shards.get s = some n) ∧
    ∀ n, CoordOut.stopShard s n ∉ c.out

theorem Coord.Leaves.says {s : Nat} {c c' : Coord} (h : c.Leaves s c') (hc : c.Says s) : c'.Says s := by
  obtain ⟨h1, new, h2, h3⟩ := h
  refine ⟨?_, ?_⟩
  · intro n to hm
    rw [h2] at hm
    rcases List.mem_append.1 hm with hm | hm
    · rw [h1]; exact hc.1 n to hm
    · exact absurd rfl (h3 _ hm)
  · intro n hm
    rw [h2] at hm
    rcases List.mem_append.1 hm with hm | hm
    · exact hc.2 n hm
    · exact absurd rfl (h3 _ hm)

theorem Coord.Gives.says {s : Nat} {c c' : Coord} (h : c.Gives s c') (hc : c.Says s) : c'.Says s := by
  obtain ⟨n, to, h1, h2, h3⟩ := h
  refine ⟨?_, ?_⟩
  · intro n' to' hm
    rw [h3] at hm
    rcases List.mem_append.1 hm with hm | hm
    · exact absurd (hc.1 n' to' hm) (by rw [h1]; simp)
    · simp only [List.mem_singleton, CoordOut.shardAllocated.injEq] at hm
      rw [h2, hm.2.1]
  · intro n' hm
    rw [h3] at hm
    rcases List.mem_append.1 hm with hm | hm
    · exact hc.2 n' hm
    · simp at hm

theorem Coord.recoverAll_says {σ : Coord} (hi : Inv σ) (s : Nat) (l : List Nat) (h : σ.Says s) :
    (σ.recoverAll l).Says s := by
  unfold Coord.recoverAll
  induction l generalizing σ with
  | nil => exact h
  | cons x l ih =>
    refine ih (hi.allocateShard x) ?_
    by_cases hx : x = s
    · subst hx
      rcases allocateShard_self hi x with h' | h'
      · exact h'.says h
      · exact h'.says h
    · exact (allocateShard_other hi hx).says h

theorem Coord.start_says (s self : Nat) (nodes : List (Nat × Bool)) (j : List Nat) :
    (Coord.start self nodes j).Says s := by
  rw [start_eq]
  exact Coord.recoverAll_says (.fresh self nodes j) s j ⟨by simp [Coord.fresh], by simp [Coord.fresh]⟩

theorem Coord.Says.sent {s : Nat} {c : Coord} (h : c.Says s) :
    (∀ d n, (d, HMsg.allocated s n) ∈ c.sentSince 0 → c.shards.get s = some n) ∧
      (c.sentSince 0).countP (isStop s) = 0 := by
  unfold Coord.sentSince
  refine ⟨?_, ?_⟩
  · intro d n hm
    obtain ⟨o, ho, hm⟩ := List.mem_flatMap.1 hm
    simp only [List.drop_zero] at ho
    cases o with
    | shardAllocated s' n' to =>
      simp only [CoordOut.msgs, List.mem_map, Prod.mk.injEq, HMsg.allocated.injEq] at hm
      obtain ⟨_, _, _, rfl, rfl⟩ := hm
      exact h.1 _ _ ho
    | shardReallocating s' to => simp [CoordOut.msgs] at hm
    | stopShard s' n' => simp [CoordOut.msgs] at hm
    | scheduleRebalance => simp [CoordOut.msgs] at hm
  · rw [List.countP_eq_zero]
    intro m hm
    obtain ⟨o, ho, hm⟩ := List.mem_flatMap.1 hm
    simp only [List.drop_zero] at ho
    cases o with
    | shardAllocated s' n' to =>
      simp only [CoordOut.msgs, List.mem_map] at hm
      obtain ⟨d, _, rfl⟩ := hm
      simp [isStop]
    | shardReallocating s' to =>
      simp only [CoordOut.msgs, List.mem_map] at hm
      obtain ⟨d, _, rfl⟩ := hm
      simp [isStop]
    | stopShard s' n' =>
      simp only [CoordOut.msgs, List.mem_singleton] at hm
      subst hm
      simp only [isStop, decide_eq_true_eq]
      rintro rfl
      exact h.2 _ ho
    | scheduleRebalance => simp [CoordOut.msgs] at hm

theorem allocateShard_answer {σ : Coord} {p : Nat} {l : List Nat} (hi : InvP σ p l) (s m : Nat) :
    ∀ x ∈ (σ.allocateShard s).2.notice m, ∃ n, x = (m, HMsg.allocated s n) ∧ (σ.allocateShard s).1.shards.get s = some n := by
  rcases Option.eq_none_or_eq_some (σ.shards.get s) with hg | ⟨n, hg⟩
  · rcases hc : σ.choice with _ | ⟨n, hn⟩
    · rw [allocateShard_none hg hc]; simp [AllocResult.notice]
    · rw [allocateShard_placed hi hg hc]
      intro x hx
      simp only [AllocResult.notice, List.mem_singleton] at hx
      exact ⟨n, hx, by rw [placed_shards_get, if_pos rfl]⟩
  · rw [allocateShard_already hg]
    intro x hx
    simp only [AllocResult.notice, List.mem_singleton] at hx
    exact ⟨n, hx, hg⟩

theorem handleAllocate_answer {σ : Coord} (hi : Inv σ) (s m : Nat) (r ok : Bool) :
    ∀ x ∈ (σ.handleAllocate s r ok).2.notice m,
      ∃ n, x = (m, HMsg.allocated s n) ∧ (σ.handleAllocate s r ok).1.shards.get s = some n := by
  unfold Coord.handleAllocate
  rcases Option.eq_none_or_eq_some (σ.shards.get s) with hg | ⟨n, hg⟩
  · simp only [hg]
    cases r with
    | true => exact allocateShard_answer hi s m
    | false =>
      cases ok with
      | true =>
        exact allocateShard_answer (σ := { σ with journal := σ.journal ++ [s] }) (hi.congr rfl rfl rfl rfl) s m
      | false => simp [AllocResult.notice]
  · simp only [hg]
    intro x hx
    simp only [AllocResult.notice, List.mem_singleton] at hx
    exact ⟨n, hx, rfl⟩

/-! ### the phases of a shard -/

/-- no announcement about `s` is under way. -/
def Sys.noAlloc (s : Nat) (w : Sys R) : Prop := ∀ m ∈ w.net, isAlloc s m = false

/-- number of requests to stop `s` under way. -/
def Sys.nStop (s : Nat) (w : Sys R) : Nat := w.net.countP (isStop s)

/-- number of answers that `s` has stopped under way. -/
def Sys.nAck (s : Nat) (w : Sys R) : Nat := w.acks.countP fun p => p.1 = s

/-- nobody has `s`. -/
structure Sys.Gone (s : Nat) (w : Sys R) : Prop where
  un : w.coord.shards.get s = none
  blank : ∀ d, (w.host d).Blank s
  noAlloc : w.noAlloc s
  count : w.nStop s + w.nAck s ≤ 1

/-- node `A` is about to stop its instance `a` of `s`. -/
structure Sys.Leaving (s A a : Nat) (w : Sys R) : Prop where
  un : w.coord.shards.get s = none
  blank : ∀ d, d ≠ A → (w.host d).Blank s
  held : (w.host A).Held s a
  noAlloc : w.noAlloc s
  count : w.nStop s + ((w.host A).stopsOf s).length ≤ 1
  acks : w.nAck s = 0

/-- `s` is assigned to `A`. -/
structure Sys.Owned (s A : Nat) (w : Sys R) : Prop where
  as : w.coord.shards.get s = some A
  blank : ∀ d, d ≠ A → (w.host d).Blank s
  own : (w.host A).Blank s ∨ ∃ a, (w.host A).Held s a ∧ (w.host A).stopsOf s = []
  stops : w.nStop s = 0
  acks : w.nAck s = 0
  alloc : ∀ d n, (d, HMsg.allocated s n) ∈ w.net → n = A

structure Sys.Phase (s : Nat) (w : Sys R) : Prop where
  self : ∀ d, (w.host d).self = d
  inv : Inv w.coord
  phase : w.Gone s ∨ (∃ A a, w.Leaving s A a) ∨ ∃ A, w.Owned s A

theorem isAlloc_false_iff {s : Nat} {m : Nat × HMsg} : isAlloc s m = false ↔ ∀ n, m.2 ≠ .allocated s n := by
  obtain ⟨d, m⟩ := m
  cases m <;> simp [isAlloc]

theorem noAlloc_iff {s : Nat} {w : Sys R} : w.noAlloc s ↔ ∀ d n, (d, HMsg.allocated s n) ∉ w.net := by
  unfold Sys.noAlloc
  refine ⟨fun h d n hm => by have := h _ hm; simp [isAlloc] at this, fun h m hm => ?_⟩
  rw [isAlloc_false_iff]
  intro n e
  obtain ⟨d, m⟩ := m
  simp only at e
  subst e
  exact h _ _ hm

theorem Sys.phase_start (s self : Nat) (nodes : List (Nat × Bool)) (j : List Nat) :
    (Sys.start self nodes j : Sys R).Phase s := by
  have hs := (Coord.start_says s self nodes j).sent
  have hb : ∀ d, (Host.init d : Host R).Blank s := fun d =>
    ⟨rfl, by simp [Host.init], by simp [Host.init], by simp [Host.init], rfl⟩
  refine ⟨fun _ => rfl, .start self nodes j, ?_⟩
  rcases hg : (Coord.start self nodes j).shards.get s with _ | A
  · refine .inl ⟨hg, hb, ?_, ?_⟩
    · rw [noAlloc_iff]; intro d n hm
      have := hs.1 d n hm
      rw [hg] at this; simp at this
    · show (Coord.sentSince _ 0).countP _ + 0 ≤ 1
      rw [hs.2]; simp
  · refine .inr (.inr ⟨A, hg, fun d _ => hb d, .inl (hb A), hs.2, rfl, ?_⟩)
    intro d n hm
    have := hs.1 d n hm
    rw [hg] at this
    simpa using this.symm

/-! ### steps of the coordinator -/

/-- The network with messages added and the coordinator changed. -/
def Sys.heard (w : Sys R) (c : Coord) (extra : List (Nat × HMsg)) (asks acks : List (Nat × Nat)) : Sys R :=
  { w with coord := c, net := w.net ++ extra, asks := asks, acks := acks }

theorem Sys.heard_nStop (w : Sys R) (c : Coord) (e : List (Nat × HMsg)) (as ak : List (Nat × Nat)) (s : Nat) :
    (w.heard c e as ak).nStop s = w.nStop s + e.countP (isStop s) := by
  simp [Sys.nStop, Sys.heard]

theorem Sys.heard_noAlloc {w : Sys R} {c : Coord} {e : List (Nat × HMsg)} {as ak : List (Nat × Nat)} {s : Nat}
    (h : w.noAlloc s) (he : ∀ m ∈ e, isAlloc s m = false) : (w.heard c e as ak).noAlloc s := by
  intro m hm
  rcases List.mem_append.1 hm with hm | hm
  · exact h m hm
  · exact he m hm

/-- the coordinator leaves `s` alone, but may repeat where it is. -/
theorem Sys.Phase.leaves {s : Nat} {w : Sys R} (h : w.Phase s) {c : Coord} (hi : Inv c)
    {e : List (Nat × HMsg)} {as ak : List (Nat × Nat)} (hc : c.shards.get s = w.coord.shards.get s)
    (he : e.countP (isStop s) = 0) (hea : ∀ m ∈ e, ∀ n, m.2 = .allocated s n → w.coord.shards.get s = some n)
    (hak : (ak.countP fun p => p.1 = s) ≤ w.nAck s) : (w.heard c e as ak).Phase s := by
  have hun : w.coord.shards.get s = none → ∀ m ∈ e, isAlloc s m = false := by
    intro hu m hm
    rw [isAlloc_false_iff]
    intro n e'
    have := hea m hm n e'
    rw [hu] at this; simp at this
  have hak' : (w.heard c e as ak).nAck s ≤ w.nAck s := hak
  refine ⟨h.self, hi, ?_⟩
  rcases h.phase with h | ⟨A, a, h⟩ | ⟨A, h⟩
  · refine .inl ⟨hc.trans h.un, h.blank, Sys.heard_noAlloc h.noAlloc (hun h.un), ?_⟩
    rw [Sys.heard_nStop, he]
    have := h.count; omega
  · refine .inr (.inl ⟨A, a, hc.trans h.un, h.blank, h.held, Sys.heard_noAlloc h.noAlloc (hun h.un), ?_, ?_⟩)
    · rw [Sys.heard_nStop, he]
      exact h.count
    · have := h.acks; omega
  · refine .inr (.inr ⟨A, hc.trans h.as, h.blank, h.own, ?_, ?_, ?_⟩)
    · rw [Sys.heard_nStop, he, h.stops]
    · have := h.acks; omega
    · intro d n hm
      rcases List.mem_append.1 hm with hm | hm
      · exact h.alloc d n hm
      · have := hea _ hm n rfl
        rw [h.as] at this
        simpa using this.symm

/-- the coordinator assigns `s`, which nobody has. -/
theorem Sys.Phase.gives {s : Nat} {w : Sys R} (h : w.Phase s) (hg : w.Gone s) {c : Coord} (hi : Inv c)
    {e : List (Nat × HMsg)} {as ak : List (Nat × Nat)} {n : Nat} (hc : c.shards.get s = some n)
    (he : e.countP (isStop s) = 0) (hea : ∀ m ∈ e, ∀ n', m.2 = .allocated s n' → n' = n)
    (hst : w.nStop s = 0) (hak : (ak.countP fun p => p.1 = s) = 0) : (w.heard c e as ak).Phase s := by
  refine ⟨h.self, hi, .inr (.inr ⟨n, hc, fun d _ => hg.blank d, .inl (hg.blank n), ?_, hak, ?_⟩)⟩
  · rw [Sys.heard_nStop, he, hst]
  · intro d n' hm
    rcases List.mem_append.1 hm with hm | hm
    · exact absurd hm (noAlloc_iff.1 hg.noAlloc d n')
    · exact hea _ hm n' rfl

/-- the coordinator takes `s` from its node, while no announcement about it is under way. -/
theorem Sys.Phase.takes {s : Nat} {w : Sys R} (h : w.Phase s) {c : Coord} (hi : Inv c)
    (ht : w.coord.Takes s c) (hn : w.noAlloc s) :
    (w.heard c (c.sentSince w.coord.out.length) w.asks w.acks).Phase s := by
  refine ⟨h.self, hi, ?_⟩
  obtain ⟨he, hs⟩ := ht.sent
  obtain ⟨n, h1, h2, _⟩ := ht
  rcases h.phase with h | ⟨A, a, h⟩ | ⟨A, h⟩
  · rw [h.un] at h1; simp at h1
  · rw [h.un] at h1; simp at h1
  · rcases h.own with hb | ⟨a, hb, h0⟩
    · refine .inl ⟨h2, ?_, Sys.heard_noAlloc hn he, ?_⟩
      · intro d
        by_cases hd : d = A
        · subst hd; exact hb
        · exact h.blank d hd
      · rw [Sys.heard_nStop, hs, h.stops]
        have : (w.heard c (c.sentSince w.coord.out.length) w.asks w.acks).nAck s = w.nAck s := rfl
        rw [this, h.acks]
        exact Nat.le_refl _
    · refine .inr (.inl ⟨A, a, h2, h.blank, hb, Sys.heard_noAlloc hn he, ?_, h.acks⟩)
      rw [Sys.heard_nStop, hs, h.stops]
      show 0 + 1 + ((w.host A).stopsOf s).length ≤ 1
      rw [h0]; exact Nat.le_refl _

/-! ### steps of the hosts -/

theorem Sys.setHost_self (w : Sys R) (d : Nat) (h : Host R) : w.setHost d h d = h := by simp [Sys.setHost]

theorem Sys.setHost_other (w : Sys R) {d d' : Nat} (h : Host R) (hd : d' ≠ d) : w.setHost d h d' = w.host d' := by
  simp [Sys.setHost, hd]

/-- one host changes, messages are consumed, acks are added. -/
def Sys.moved (w : Sys R) (d : Nat) (h : Host R) (net : List (Nat × HMsg)) (asks acks : List (Nat × Nat)) : Sys R :=
  { w with host := w.setHost d h, net := net, asks := asks, acks := w.acks ++ acks }

theorem Sys.moved_nAck (w : Sys R) (d : Nat) (h : Host R) (net : List (Nat × HMsg)) (asks acks : List (Nat × Nat))
    (s : Nat) : (w.moved d h net asks acks).nAck s = w.nAck s + acks.countP fun p => p.1 = s := by
  simp [Sys.nAck, Sys.moved]

theorem Sys.moved_self {w : Sys R} {d : Nat} {h : Host R} (hs : ∀ d, (w.host d).self = d) (hh : h.self = d) :
    ∀ d', (w.setHost d h d').self = d' := by
  intro d'
  by_cases e : d' = d
  · subst e; rw [Sys.setHost_self]; exact hh
  · rw [Sys.setHost_other _ _ e]; exact hs d'

/-- a step of a host without consequences for `s`. -/
theorem Sys.Phase.same {s : Nat} {w : Sys R} (h : w.Phase s) {d : Nat} {h' : Host R} {net : List (Nat × HMsg)}
    {asks acks : List (Nat × Nat)} (hself : h'.self = d) (hh : (w.host d).SameFor s h')
    (hnet : ∀ m ∈ net, m ∈ w.net) (hst : net.countP (isStop s) ≤ w.nStop s)
    (hak : (acks.countP fun p => p.1 = s) = 0) : (w.moved d h' net asks acks).Phase s := by
  refine ⟨Sys.moved_self h.self hself, h.inv, ?_⟩
  have hna : w.noAlloc s → (w.moved d h' net asks acks).noAlloc s := fun hn m hm => hn m (hnet m hm)
  have hbl : ∀ x, (w.host x).Blank s → (w.setHost d h' x).Blank s := by
    intro x hx
    by_cases e : x = d
    · subst e; rw [Sys.setHost_self]; exact hx.same hh
    · rw [Sys.setHost_other _ _ e]; exact hx
  have hhe : ∀ x a, (w.host x).Held s a → (w.setHost d h' x).Held s a := by
    intro x a hx
    by_cases e : x = d
    · subst e; rw [Sys.setHost_self]; exact hx.same hh
    · rw [Sys.setHost_other _ _ e]; exact hx
  have hso : ∀ x, (w.setHost d h' x).stopsOf s = (w.host x).stopsOf s := by
    intro x
    by_cases e : x = d
    · subst e; rw [Sys.setHost_self]; exact hh.stops
    · rw [Sys.setHost_other _ _ e]
  rcases h.phase with h | ⟨A, a, h⟩ | ⟨A, h⟩
  · refine .inl ⟨h.un, fun x => hbl x (h.blank x), hna h.noAlloc, ?_⟩
    rw [Sys.moved_nAck, hak]
    show net.countP _ + _ ≤ 1
    have := h.count; omega
  · refine .inr (.inl ⟨A, a, h.un, fun x hx => hbl x (h.blank x hx), hhe A a h.held, hna h.noAlloc, ?_, ?_⟩)
    · show net.countP _ + ((w.setHost d h' A).stopsOf s).length ≤ 1
      rw [hso]
      have := h.count; omega
    · rw [Sys.moved_nAck, hak, h.acks]
  · refine .inr (.inr ⟨A, h.as, fun x hx => hbl x (h.blank x hx), ?_, ?_, ?_, ?_⟩)
    · rcases h.own with hb | ⟨a, hb, h0⟩
      · exact .inl (hbl A hb)
      · exact .inr ⟨a, hhe A a hb, (hso A).trans h0⟩
    · show net.countP _ = 0
      have := h.stops; omega
    · rw [Sys.moved_nAck, hak, h.acks]
    · intro x n hm
      exact h.alloc x n (hnet _ hm)

/-- an announcement arrives. -/
theorem Sys.Phase.alloc {s : Nat} {w : Sys R} (h : w.Phase s) {d n : Nat} {asks acks : List (Nat × Nat)}
    (hm : (d, HMsg.allocated s n) ∈ w.net) (hak : (acks.countP fun p => p.1 = s) = 0) :
    (w.moved d ((w.host d).shardAllocated s n).1 (w.net.erase (d, .allocated s n)) asks acks).Phase s := by
  have hself : ((w.host d).shardAllocated s n).1.self = d := by
    have := (w.host d).next_self (fun _ : R => 0) (.shardAllocated s n)
    exact this.trans (h.self d)
  have hnet : ∀ m ∈ w.net.erase (d, HMsg.allocated s n), m ∈ w.net := fun m hm => List.mem_of_mem_erase hm
  have hst : (w.net.erase (d, HMsg.allocated s n)).countP (isStop s) ≤ w.nStop s :=
    (List.erase_sublist).countP_le
  rcases h.phase with hg | ⟨A, a, hg⟩ | ⟨A, hg⟩
  · exact absurd hm (noAlloc_iff.1 hg.noAlloc d n)
  · exact absurd hm (noAlloc_iff.1 hg.noAlloc d n)
  · have hn : n = A := hg.alloc d n hm
    subst hn
    by_cases hd : d = n
    · subst hd
      rcases hg.own with hb | ⟨a, hb, h0⟩
      · refine ⟨Sys.moved_self h.self hself, h.inv, .inr (.inr ⟨d, hg.as, ?_, ?_, ?_, ?_, ?_⟩)⟩
        · intro x hx
          show (w.setHost d _ x).Blank s
          rw [Sys.setHost_other _ _ hx]; exact hg.blank x hx
        · obtain ⟨a, h1, h2⟩ := hb.allocSelf (h.self d).symm
          refine .inr ⟨a, ?_, ?_⟩
          · show (w.setHost d _ d).Held s a
            rw [Sys.setHost_self]; exact h1
          · show (w.setHost d _ d).stopsOf s = []
            rw [Sys.setHost_self]; exact h2
        · have := hg.stops
          show (w.net.erase (d, HMsg.allocated s d)).countP (isStop s) = 0
          omega
        · rw [Sys.moved_nAck, hak, hg.acks]
        · intro x m hx
          exact hg.alloc x m (hnet _ hx)
      · exact h.same hself (hb.allocSelf (h.self d).symm) hnet hst hak
    · refine h.same hself ((hg.blank d hd).allocOther ?_) hnet hst hak
      rw [h.self d]; exact fun e => hd e.symm

/-- a request to stop `s` arrives. -/
theorem Sys.Phase.stop {s : Nat} {w : Sys R} (h : w.Phase s) {d o : Nat} {q : StopReq} {asks acks : List (Nat × Nat)}
    (hm : (d, HMsg.stop s o) ∈ w.net) (hak : (acks.countP fun p => p.1 = s) = 0) :
    (w.moved d ((w.host d).stopShard s q) (w.net.erase (d, .stop s o)) asks acks).Phase s := by
  have hself : ((w.host d).stopShard s q).self = d := by
    have := (w.host d).next_self (fun _ : R => 0) (.stopShard s q)
    exact this.trans (h.self d)
  have hnet : ∀ m ∈ w.net.erase (d, HMsg.stop s o), m ∈ w.net := fun m hm => List.mem_of_mem_erase hm
  have hst : (w.net.erase (d, HMsg.stop s o)).countP (isStop s) + 1 = w.nStop s := by
    have := (List.perm_cons_erase hm).countP_eq (isStop s)
    rw [List.countP_cons_of_pos (by simp [isStop])] at this
    exact this.symm
  have blank : (w.host d).Blank s →
      (w.moved d ((w.host d).stopShard s q) (w.net.erase (d, .stop s o)) asks acks).Phase s := by
    intro hb
    refine h.same hself ?_ hnet (by omega) hak
    rw [hb.stop]; exact .refl _ _
  rcases h.phase with hg | ⟨A, a, hg⟩ | ⟨A, hg⟩
  · exact blank (hg.blank d)
  · by_cases hd : d = A
    · subst hd
      obtain ⟨h1, h2⟩ := hg.held.stop q
      refine ⟨Sys.moved_self h.self hself, h.inv, .inr (.inl ⟨d, a, hg.un, ?_, ?_, ?_, ?_, ?_⟩)⟩
      · intro x hx
        show (w.setHost d _ x).Blank s
        rw [Sys.setHost_other _ _ hx]; exact hg.blank x hx
      · show (w.setHost d _ d).Held s a
        rw [Sys.setHost_self]; exact h1
      · exact fun m hm => hg.noAlloc m (hnet m hm)
      · show (w.net.erase (d, .stop s o)).countP (isStop s) + ((w.setHost d _ d).stopsOf s).length ≤ 1
        rw [Sys.setHost_self]
        have := hg.count; omega
      · rw [Sys.moved_nAck, hak, hg.acks]
    · exact blank (hg.blank d hd)
  · exact absurd hg.stops (by omega)

/-- a host does something by itself. -/
theorem Sys.Phase.local (f : R → Nat) {s : Nat} {w : Sys R} (h : w.Phase s) {d : Nat} {op : HostOp R}
    (hl : op.isLocal = true) : (w.hostStep f d op).Phase s := by
  have hself : ((w.host d).next f op).self = d := ((w.host d).next_self f op).trans (h.self d)
  have hmoved : w.hostStep f d op = w.moved d ((w.host d).next f op) w.net
      (w.asks ++ ((w.host d).step f op).2.filterMap (HostOut.ask? d))
      (((w.host d).step f op).2.filterMap (HostOut.ack? d)) := rfl
  rw [hmoved]
  by_cases ht : ∃ t ∈ (w.host d).stops, t.s = s ∧ op = .stopDone t
  · obtain ⟨t, ht, hts, rfl⟩ := ht
    have htm : t ∈ (w.host d).stopsOf s := by simp [Host.stopsOf, ht, hts]
    have hnb : ¬ (w.host d).Blank s := by
      intro hb
      rw [hb.stops] at htm; simp at htm
    rw [Host.stopDone_acks f _ d t ht]
    rcases h.phase with hg | ⟨A, a, hg⟩ | ⟨A, hg⟩
    · exact absurd (hg.blank d) hnb
    · by_cases hd : d = A
      · subst hd
        have hlen : 1 ≤ ((w.host d).stopsOf s).length := List.length_pos_of_mem htm
        have hcount := hg.count
        have hb := hg.held.stopDone f ht hts (by omega)
        refine ⟨Sys.moved_self h.self hself, h.inv, .inl ⟨hg.un, ?_, hg.noAlloc, ?_⟩⟩
        · intro x
          show (w.setHost d _ x).Blank s
          by_cases hx : x = d
          · subst hx; rw [Sys.setHost_self]; exact hb
          · rw [Sys.setHost_other _ _ hx]; exact hg.blank x hx
        · rw [Sys.moved_nAck, hg.acks]
          show w.nStop s + _ ≤ 1
          have : (t.req.toList.map fun _ => (t.s, d)).countP (fun p => decide (p.1 = s)) ≤ 1 := by
            cases t.req with
            | none => simp
            | some q => exact List.countP_le_length
          omega
      · exact absurd (hg.blank d hd) hnb
    · by_cases hd : d = A
      · subst hd
        rcases hg.own with hb | ⟨a, hb, h0⟩
        · exact absurd hb hnb
        · rw [h0] at htm; simp at htm
      · exact absurd (hg.blank d hd) hnb
  · have hd : ∀ t ∈ (w.host d).stops, t.s = s → op ≠ .stopDone t :=
      fun t h1 h2 e => ht ⟨t, h1, h2, e⟩
    have hak : (((w.host d).step f op).2.filterMap (HostOut.ack? d)).countP (fun p => decide (p.1 = s)) = 0 := by
      by_cases hx : ∃ t ∈ (w.host d).stops, op = .stopDone t
      · obtain ⟨t, h1, rfl⟩ := hx
        rw [Host.stopDone_acks f _ d t h1]
        have : t.s ≠ s := fun e => hd t h1 e rfl
        cases t.req <;> simp [this]
      · rw [Host.step_acks f _ d op fun t h1 e => hx ⟨t, h1, e⟩]; rfl
    have blank : (w.host d).Blank s → (w.host d).SameFor s ((w.host d).next f op) := fun hb => hb.isLocal f op hl
    have hst : w.net.countP (isStop s) ≤ w.nStop s := Nat.le_refl _
    rcases h.phase with hg | ⟨A, a, hg⟩ | ⟨A, hg⟩
    · exact h.same hself (blank (hg.blank d)) (fun _ hm => hm) hst hak
    · by_cases hdA : d = A
      · subst hdA
        obtain ⟨h1, h2⟩ := hg.held.isLocal f op hl hd
        refine ⟨Sys.moved_self h.self hself, h.inv, .inr (.inl ⟨d, a, hg.un, ?_, ?_, hg.noAlloc, ?_, ?_⟩)⟩
        · intro x hx
          show (w.setHost d _ x).Blank s
          rw [Sys.setHost_other _ _ hx]; exact hg.blank x hx
        · show (w.setHost d _ d).Held s a
          rw [Sys.setHost_self]; exact h1
        · show w.nStop s + ((w.setHost d _ d).stopsOf s).length ≤ 1
          rw [Sys.setHost_self, h2]; exact hg.count
        · rw [Sys.moved_nAck, hak, hg.acks]
      · exact h.same hself (blank (hg.blank d hdA)) (fun _ hm => hm) hst hak
    · by_cases hdA : d = A
      · subst hdA
        rcases hg.own with hb | ⟨a, hb, h0⟩
        · exact h.same hself (blank hb) (fun _ hm => hm) hst hak
        · obtain ⟨h1, h2⟩ := hb.isLocal f op hl hd
          refine ⟨Sys.moved_self h.self hself, h.inv, .inr (.inr ⟨d, hg.as, ?_, .inr ⟨a, ?_, ?_⟩, hg.stops, ?_, hg.alloc⟩)⟩
          · intro x hx
            show (w.setHost d _ x).Blank s
            rw [Sys.setHost_other _ _ hx]; exact hg.blank x hx
          · show (w.setHost d _ d).Held s a
            rw [Sys.setHost_self]; exact h1
          · show (w.setHost d _ d).stopsOf s = []
            rw [Sys.setHost_self, h2]; exact h0
          · rw [Sys.moved_nAck, hak, hg.acks]
      · exact h.same hself (blank (hg.blank d hdA)) (fun _ hm => hm) hst hak

/-- a message is handled. -/
theorem Sys.Phase.deliver (f : R → Nat) {s : Nat} {w : Sys R} (h : w.Phase s) {d : Nat} {m : HMsg}
    (hm : (d, m) ∈ w.net) : ((w.take d m).hostStep f d m.op).Phase s := by
  have hself : ((w.host d).next f m.op).self = d := ((w.host d).next_self f m.op).trans (h.self d)
  have hmoved : (w.take d m).hostStep f d m.op = w.moved d ((w.host d).next f m.op) (w.net.erase (d, m))
      (w.asks ++ ((w.host d).step f m.op).2.filterMap (HostOut.ask? d))
      (((w.host d).step f m.op).2.filterMap (HostOut.ack? d)) := rfl
  rw [hmoved]
  have hak : (((w.host d).step f m.op).2.filterMap (HostOut.ack? d)).countP (fun p => decide (p.1 = s)) = 0 := by
    rw [Host.step_acks f _ d _ fun t h1 e => by cases m <;> simp [HMsg.op] at e]; rfl
  have hnet : ∀ x ∈ w.net.erase (d, m), x ∈ w.net := fun x hx => List.mem_of_mem_erase hx
  have hst : (w.net.erase (d, m)).countP (isStop s) ≤ w.nStop s := (List.erase_sublist).countP_le
  by_cases hs : (m.op : HostOp R).shard f = s
  · cases m with
    | allocated s' n =>
      have : s' = s := hs
      subst this
      exact h.alloc hm hak
    | reallocating s' =>
      exact h.same hself ⟨rfl, fun _ => .rfl, fun _ => .rfl, fun _ => .rfl, rfl⟩ hnet hst hak
    | stop s' o =>
      have : s' = s := hs
      subst this
      exact h.stop hm hak
  · exact h.same hself ((w.host d).next_same_other f _ hs) hnet hst hak

end Verif.Sharding
