import Verif.Sharding.RequestSteps

/-! The invariant of the end-to-end model. -/

namespace Verif.Sharding

theorem same_id {l : List EReq} (hn : (l.map (·.id)).Nodup) {x y : EReq} (hx : x ∈ l) (hy : y ∈ l) (h : x.id = y.id) : x = y := by
  induction l with
  | nil => cases hx
  | cons z l ih =>
    simp only [List.map_cons, List.nodup_cons] at hn
    rcases List.mem_cons.1 hx with rfl | hx <;> rcases List.mem_cons.1 hy with rfl | hy
    · rfl
    · exact absurd (List.mem_map.2 ⟨y, hy, h.symm⟩ : x.id ∈ l.map (·.id)) hn.1
    · exact absurd (List.mem_map.2 ⟨x, ‹x ∈ l›, h⟩ : y.id ∈ l.map (·.id)) hn.1
    · exact ih hn.2 hx hy

theorem count_ids {l L : List EReq} (hn : (l.map (·.id)).Nodup) (hL : ∀ r ∈ L, r ∈ l) {x : EReq} (hx : x ∈ l) :
    (L.map (·.id)).count x.id = L.count x := by
  induction L with
  | nil => rfl
  | cons r L ih =>
    have h1 := ih fun r' h => hL r' (List.mem_cons_of_mem _ h)
    simp only [List.map_cons, List.count_cons, h1, beq_iff_eq]
    by_cases e : r.id = x.id
    · rw [same_id hn (hL r (List.mem_cons_self ..)) hx e]; simp
    · have : r ≠ x := fun h => e (by rw [h])
      simp [e, this]

/-- the answers that say that the entity did nothing. -/
def Ans.undone : Ans → Bool
  | .err _ => true
  | .closed => true
  | _ => false

/-- What holds in every reachable state. -/
structure Net.Good (f : Nat → Nat) (σ : Net) : Prop where
  wf : σ.Wf f
  nodup : (σ.sent.map (·.id)).Nodup
  none : ∀ x, x ∉ σ.sent → σ.tok f x = 0
  one : ∀ x ∈ σ.sent, σ.tok f x + σ.idc x.id = 1
  ids : ∀ k, 0 < σ.idc k → k ∈ σ.sent.map (·.id)
  rel : ∀ k ∈ σ.relayed, k ∈ σ.table ∨ k ∈ σ.answers.map (·.1) ∨ k ∈ σ.lost
  rep : ∀ p ∈ σ.replies, p.1 ∈ σ.relayed
  ex1 : ∀ y ∈ σ.executed, 0 < σ.idc y.2.1
  ex2 : ∀ y ∈ σ.executed, ∃ r ∈ σ.sent, r.id = y.2.1 ∧ r.entity = y.1
  ex3 : (σ.executed.map (·.2.1)).Nodup
  ok : ∀ k v, (k, Ans.ok v) ∈ σ.replies ++ σ.answers → ∃ e, (e, k, v) ∈ σ.executed
  er : ∀ k a, (k, a) ∈ σ.replies ++ σ.answers → a.undone = true →
    k ∉ σ.executed.map (·.2.1) ∧ ∃ r ∈ σ.sent, r.id = k ∧ ∀ x, a = .err x → refusal r x

/-- one operation: requests `A` are new, the result channels in `L` used, the effects `X` new. -/
structure Moved (f : Nat → Nat) (σ σ' : Net) (A : List EReq) (L : List (EReq × Ans)) (X : List (Nat × Nat × Nat)) : Prop where
  tok : ∀ x, σ'.tok f x + (L.map (·.1)).count x = σ.tok f x + A.count x
  idc : ∀ k, σ'.idc k = σ.idc k + (L.map (·.1.id)).count k
  res : ∀ p ∈ σ'.replies ++ σ'.answers, p ∈ σ.replies ++ σ.answers ∨ ∃ q ∈ L, p = (q.1.id, q.2)
  sent : σ'.sent = σ.sent ++ A
  exe : σ'.executed = σ.executed ++ X
  new : ((σ.sent ++ A).map (·.id)).Nodup
  okL : ∀ q ∈ L, ∀ v, q.2 = .ok v → ∃ e, (e, q.1.id, v) ∈ X
  erL : ∀ q ∈ L, q.2.undone = true → X = [] ∧ ∀ x, q.2 = .err x → refusal q.1 x
  eff : ∀ y ∈ X, ∃ q ∈ L, q.1.id = y.2.1 ∧ q.1.entity = y.1
  few : (X.map (·.2.1)).Nodup
  wf : σ'.Wf f
  rel : ∀ k ∈ σ'.relayed, k ∈ σ'.table ∨ k ∈ σ'.answers.map (·.1) ∨ k ∈ σ'.lost
  rep : ∀ p ∈ σ'.replies, p.1 ∈ σ'.relayed

theorem Moved.good {f : Nat → Nat} {σ σ' : Net} {A L X} (hg : σ.Good f) (h : Moved f σ σ' A L X) : σ'.Good f := by
  -- resolved requests were on their way, or new
  have hA : ∀ x ∈ A, x ∉ σ.sent ∧ x.id ∉ σ.sent.map (·.id) := by
    intro x hx
    have h1 := h.new
    rw [List.map_append, List.nodup_append] at h1
    have h2 : x.id ∉ σ.sent.map (·.id) := fun hm => h1.2.2 x.id hm x.id (List.mem_map.2 ⟨x, hx, rfl⟩) rfl
    exact ⟨fun hm => h2 (List.mem_map.2 ⟨x, hm, rfl⟩), h2⟩
  have hAn : A.Nodup := by
    have h1 := h.new
    rw [List.map_append, List.nodup_append] at h1
    exact (List.pairwise_map.1 h1.2.1).imp fun hne e => hne (by rw [e])
  have hL : ∀ r ∈ L.map (·.1), r ∈ σ.sent ++ A := by
    intro r hr
    have h1 := h.tok r
    have h2 := List.count_pos_iff.2 hr
    by_cases hs : r ∈ σ.sent
    · exact List.mem_append.2 (Or.inl hs)
    · have h3 := hg.none r hs
      have : 0 < A.count r := by omega
      exact List.mem_append.2 (Or.inr (List.count_pos_iff.1 this))
  have hLid : ∀ x ∈ σ.sent ++ A, (L.map (·.1.id)).count x.id = (L.map (·.1)).count x := by
    intro x hx
    have := count_ids h.new hL hx
    rwa [List.map_map] at this
  have hfresh : ∀ x ∈ L.map (·.1), σ.idc x.id = 0 := by
    intro x hx
    have h2 := List.count_pos_iff.2 hx
    have h1 := h.tok x
    rcases List.mem_append.1 (hL x hx) with hs | hs
    · have h3 := hg.one x hs
      have : A.count x = 0 := List.count_eq_zero.2 fun ha => (hA x ha).1 hs
      omega
    · rcases Nat.eq_zero_or_pos (σ.idc x.id) with h4 | h4
      · exact h4
      · exact absurd (hg.ids _ h4) (hA x hs).2
  have hmono : ∀ k, σ.idc k ≤ σ'.idc k := fun k => by rw [h.idc]; omega
  have hnotex : ∀ x ∈ L.map (·.1), x.id ∉ σ.executed.map (·.2.1) := by
    intro x hx hm
    obtain ⟨y, hy, e⟩ := List.mem_map.1 hm
    have := hg.ex1 y hy
    rw [e, hfresh x hx] at this
    omega
  refine ⟨h.wf, by rw [h.sent]; exact h.new, ?_, ?_, ?_, h.rel, h.rep, ?_, ?_, ?_, ?_, ?_⟩
  · intro x hx
    rw [h.sent, List.mem_append, not_or] at hx
    have h1 := h.tok x
    have h2 := hg.none x hx.1
    have h3 : A.count x = 0 := List.count_eq_zero.2 hx.2
    omega
  · intro x hx
    rw [h.sent] at hx
    have h1 := h.tok x
    have h2 := h.idc x.id
    have h3 := hLid x hx
    rcases List.mem_append.1 hx with hs | hs
    · have h4 := hg.one x hs
      have h5 : A.count x = 0 := List.count_eq_zero.2 fun ha => (hA x ha).1 hs
      omega
    · have h4 := hg.none x (hA x hs).1
      have h5 : A.count x = 1 := by
        have a1 := List.nodup_iff_count.1 hAn x
        have a2 := List.count_pos_iff.2 hs
        omega
      have h6 : σ.idc x.id = 0 := by
        rcases Nat.eq_zero_or_pos (σ.idc x.id) with h7 | h7
        · exact h7
        · exact absurd (hg.ids _ h7) (hA x hs).2
      omega
  · intro k hk
    rw [h.idc] at hk
    rw [h.sent]
    rcases Nat.eq_zero_or_pos (σ.idc k) with h7 | h7
    · have : 0 < (L.map (·.1.id)).count k := by omega
      obtain ⟨q, hq, e⟩ := List.mem_map.1 (List.count_pos_iff.1 this)
      exact List.mem_map.2 ⟨q.1, hL q.1 (List.mem_map.2 ⟨q, hq, rfl⟩), e⟩
    · rw [List.map_append]
      exact List.mem_append.2 (Or.inl (hg.ids k h7))
  · intro y hy
    rw [h.exe] at hy
    rcases List.mem_append.1 hy with hy | hy
    · exact Nat.lt_of_lt_of_le (hg.ex1 y hy) (hmono _)
    · obtain ⟨q, hq, e, _⟩ := h.eff y hy
      rw [h.idc, ← e]
      have : 0 < (L.map (·.1.id)).count q.1.id := List.count_pos_iff.2 (List.mem_map.2 ⟨q, hq, rfl⟩)
      omega
  · intro y hy
    rw [h.exe] at hy
    rw [h.sent]
    rcases List.mem_append.1 hy with hy | hy
    · obtain ⟨r, hr, e⟩ := hg.ex2 y hy
      exact ⟨r, List.mem_append.2 (Or.inl hr), e⟩
    · obtain ⟨q, hq, e⟩ := h.eff y hy
      exact ⟨q.1, hL q.1 (List.mem_map.2 ⟨q, hq, rfl⟩), e⟩
  · rw [h.exe, List.map_append, List.nodup_append]
    refine ⟨hg.ex3, h.few, ?_⟩
    intro a ha b hb e
    subst e
    obtain ⟨y, hy, rfl⟩ := List.mem_map.1 hb
    obtain ⟨q, hq, e, _⟩ := h.eff y hy
    exact hnotex q.1 (List.mem_map.2 ⟨q, hq, rfl⟩) (by rw [e]; exact ha)
  · intro k v hk
    rw [h.exe]
    rcases h.res _ hk with hk | ⟨q, hq, e⟩
    · obtain ⟨e, he⟩ := hg.ok k v hk
      exact ⟨e, List.mem_append.2 (Or.inl he)⟩
    · injection e with e1 e2
      obtain ⟨e, he⟩ := h.okL q hq v e2.symm
      exact ⟨e, List.mem_append.2 (Or.inr (by rw [e1]; exact he))⟩
  · intro k x hk hu
    rw [h.exe, h.sent]
    rcases h.res _ hk with hk | ⟨q, hq, e⟩
    · obtain ⟨h1, r, hr, h2⟩ := hg.er k x hk hu
      refine ⟨?_, r, List.mem_append.2 (Or.inl hr), h2⟩
      rw [List.map_append, List.mem_append, not_or]
      refine ⟨h1, fun hm => ?_⟩
      obtain ⟨y, hy, e⟩ := List.mem_map.1 hm
      obtain ⟨q, hq, e', _⟩ := h.eff y hy
      have h3 := hfresh q.1 (List.mem_map.2 ⟨q, hq, rfl⟩)
      have h4 : 0 < σ.idc q.1.id := by
        rw [e', e]
        have : 0 < ((σ.replies ++ σ.answers).map (·.1)).count k := List.count_pos_iff.2 (List.mem_map.2 ⟨_, hk, rfl⟩)
        rw [List.map_append, List.count_append] at this
        simp only [Net.idc]
        omega
      omega
    · injection e with e1 e2
      obtain ⟨hX, hr⟩ := h.erL q hq (by rw [← e2]; exact hu)
      subst hX
      refine ⟨?_, q.1, hL q.1 (List.mem_map.2 ⟨q, hq, rfl⟩), e1.symm, by rw [e2]; exact hr⟩
      rw [List.append_nil, e1]
      exact hnotex q.1 (List.mem_map.2 ⟨q, hq, rfl⟩)

/-- the relaying tables are consistent. -/
def Net.Relay (σ : Net) : Prop :=
  (∀ k ∈ σ.relayed, k ∈ σ.table ∨ k ∈ σ.answers.map (·.1) ∨ k ∈ σ.lost) ∧ ∀ p ∈ σ.replies, p.1 ∈ σ.relayed

theorem Net.Relay.resolve {σ : Net} (h : σ.Relay) (l : List (EReq × Ans)) : (σ.resolve l).Relay := by
  constructor
  · intro k hk
    rcases h.1 k hk with h1 | h1 | h1
    · exact Or.inl h1
    · exact Or.inr (Or.inl (by simp only [Net.resolve, List.map_append]; exact List.mem_append.2 (Or.inl h1)))
    · exact Or.inr (Or.inr h1)
  · intro p hp
    simp only [Net.resolve, List.mem_append, List.mem_map, List.mem_filter] at hp
    rcases hp with hp | ⟨q, ⟨_, hq⟩, rfl⟩
    · exact h.2 p hp
    · have : q.1.id ∈ σ.relayed := by simpa using hq
      exact this

theorem Net.Relay.emit {σ : Net} (h : σ.Relay) (n : Nat) (outs : List (HostOut EReq)) : (σ.emit n outs).Relay := by
  constructor
  · intro k hk
    simp only [Net.emit, List.mem_append] at hk ⊢
    rcases hk with hk | hk
    · rcases h.1 k hk with h1 | h1 | h1
      · exact Or.inl (Or.inl h1)
      · exact Or.inr (Or.inl h1)
      · exact Or.inr (Or.inr h1)
    · exact Or.inl (Or.inr hk)
  · intro p hp
    simp only [Net.emit, List.mem_append]
    exact Or.inl (h.2 p hp)

theorem Net.Relay.hostStep {σ : Net} (h : σ.Relay) (f : Nat → Nat) (n : Nat) (op : HostOp EReq) : (σ.hostStep f n op).Relay := by
  unfold Net.hostStep
  cases hg : σ.hosts.get n with
  | none => exact h
  | some x =>
    apply Net.Relay.resolve
    apply Net.Relay.emit
    exact h

theorem Net.Relay.endShard {σ : Net} (h : σ.Relay) (k : Nat × Nat × Nat) : (σ.endShard k).Relay := by
  unfold Net.endShard
  cases hg : σ.shards.get k with
  | none => exact h
  | some x =>
    apply Net.Relay.resolve
    exact h

theorem Net.Relay.shardStep {σ : Net} (h : σ.Relay) (k : Nat × Nat × Nat) (op : ShardOp) : (σ.shardStep k op).Relay := by
  unfold Net.shardStep
  cases hg : σ.shards.get k with
  | none => exact h
  | some x =>
    apply Net.Relay.resolve
    exact h

/-- from a raw step without new requests to a move. -/
theorem Raw.moved {f : Nat → Nat} {σ σ' : Net} {L} (hg : σ.Good f) (h : Raw f σ σ' [] L) (hr : σ'.Relay) : Moved f σ σ' [] L [] := by
  refine ⟨h.tok, h.idc, h.res, by rw [h.sent, List.append_nil], by rw [h.exe, List.append_nil], by rw [List.append_nil]; exact hg.nodup,
    ?_, ?_, by simp, by simp, h.wf, hr.1, hr.2⟩
  · intro q hq v e
    rcases h.calm q hq with h1 | ⟨x, h1, _⟩ <;> rw [h1] at e <;> cases e
  · intro q hq _
    refine ⟨rfl, fun x e => ?_⟩
    rcases h.calm q hq with h1 | ⟨x', h1, h2⟩
    · rw [h1] at e; cases e
    · rw [h1] at e; cases e; exact h2

theorem Net.Good.relay {f : Nat → Nat} {σ : Net} (h : σ.Good f) : σ.Relay := ⟨h.rel, h.rep⟩

/-- the frame of a step that only takes one request out of a list before. -/
theorem Raw.after {f : Nat → Nat} {σ σ0 σ' : Net} {L} {r : EReq} (h : Raw f σ0 σ' [r] L)
    (ht : ∀ x, σ0.tok f x + [r].count x = σ.tok f x) (hi : ∀ k, σ0.idc k = σ.idc k)
    (hr : σ0.replies = σ.replies) (ha : σ0.answers = σ.answers) (hs : σ0.sent = σ.sent) (he : σ0.executed = σ.executed) :
    Raw f σ σ' [] L := by
  refine ⟨?_, ?_, ?_, by rw [h.sent, hs], by rw [h.exe, he], h.calm, h.wf⟩
  · intro x
    have h1 := h.tok x
    have h2 := ht x
    rw [List.count_nil]
    omega
  · intro k; rw [h.idc, hi]
  · intro p hp
    have := h.res p hp
    rwa [hr, ha] at this

theorem nonRequest_arrives {op : HostOp EReq} (h : op.isRequest = false) : op.arrives = [] := by
  cases op <;> first | rfl | cases h

theorem nonRequest_arrives' {op : ShardOp} (h : op.isRequest = false) : op.arrives = [] := by
  cases op <;> first | rfl | cases h

theorem Net.Wf.tasks {f : Nat → Nat} {σ : Net} (h : σ.Wf f) (t : ShardTask) : ({ σ with tasks := σ.tasks.erase t } : Net).Wf f :=
  ⟨h.hu, h.su, h.hs, h.st, fun x hx => h.tk x (List.mem_of_mem_erase hx), h.fr, h.rn⟩

theorem Net.Wf.frames {f : Nat → Nat} {σ : Net} (h : σ.Wf f) (t : EFrame) : ({ σ with frames := σ.frames.erase t } : Net).Wf f :=
  ⟨h.hu, h.su, h.hs, h.st, h.tk, fun x hx => h.fr x (List.mem_of_mem_erase hx), h.rn⟩

theorem tok_task {f : Nat → Nat} {σ : Net} {t : ShardTask} (ht : t ∈ σ.tasks) (x : EReq) :
    ({ σ with tasks := σ.tasks.erase t } : Net).tok f x + [t.r].count x = σ.tok f x := by
  have := count_map_erase (fun t : ShardTask => t.r) ht x
  simp only [Net.tok]
  simp only [List.count_cons, List.count_nil] at this ⊢
  omega

theorem tok_frame {f : Nat → Nat} {σ : Net} {t : EFrame} (ht : t ∈ σ.frames) (x : EReq) :
    ({ σ with frames := σ.frames.erase t } : Net).tok f x + [t.r].count x = σ.tok f x := by
  have := count_map_erase (fun t : EFrame => t.r) ht x
  simp only [Net.tok]
  simp only [List.count_cons, List.count_nil] at this ⊢
  omega

theorem tok_run {f : Nat → Nat} {σ : Net} {t : ERun} (ht : t ∈ σ.running) (x : EReq) :
    ({ σ with running := σ.running.erase t } : Net).tok f x + [t.r].count x = σ.tok f x := by
  have := count_map_erase (fun t : ERun => t.r) ht x
  simp only [Net.tok]
  simp only [List.count_cons, List.count_nil] at this ⊢
  omega

theorem Good.host {f : Nat → Nat} {σ : Net} (hg : σ.Good f) (n : Nat) (op : HostOp EReq) (ho : op.isRequest = false) :
    (σ.hostStep f n op).Good f := by
  cases h : σ.hosts.get n with
  | none => unfold Net.hostStep; rw [h]; exact hg
  | some x =>
    obtain ⟨L, hL⟩ := hostStep_raw hg.wf n op h
    rw [nonRequest_arrives ho] at hL
    exact (hL.moved hg (hg.relay.hostStep f n op)).good hg

theorem Good.end {f : Nat → Nat} {σ : Net} (hg : σ.Good f) (k : Nat × Nat × Nat) : (σ.endShard k).Good f := by
  obtain ⟨L, hL⟩ := endShard_raw hg.wf k
  exact (hL.moved hg (hg.relay.endShard k)).good hg

theorem total_insert_none {κ α : Type} [DecidableEq κ] (w : α → Nat) {m : Assoc κ α} (hu : m.Uniq) {k : κ} (h : m.get k = none) (v : α)
    (hv : w v = 0) : total w (m.insert k v) = total w m := by
  have := total_insert w hu k v
  rw [h] at this
  simpa [hv] using this

theorem boot_buffer (j : List JEntry) (e : Nat) : (Shard.boot j).buffer e = [] := by
  exact (boot_calm j e).2

theorem Good.step {f : Nat → Nat} {σ : Net} (hg : σ.Good f) (op : NetOp) : (σ.step f op).Good f := by
  cases op with
  | send n r =>
    simp only [Net.step]
    split
    · rename_i h
      obtain ⟨x, hx⟩ := Option.isSome_iff_exists.1 h.1
      have hw : ({ σ with sent := σ.sent ++ [r] } : Net).Wf f := ⟨hg.wf.hu, hg.wf.su, hg.wf.hs, hg.wf.st, hg.wf.tk, hg.wf.fr, hg.wf.rn⟩
      obtain ⟨L, hL⟩ := hostStep_raw hw n (.request r) (h := x) hx
      have hr : (({ σ with sent := σ.sent ++ [r] } : Net).hostStep f n (.request r)).Relay :=
        Net.Relay.hostStep (σ := { σ with sent := σ.sent ++ [r] }) hg.relay f n _
      refine Moved.good hg (A := [r]) (L := L) (X := []) ⟨hL.tok, hL.idc, hL.res, hL.sent, by rw [hL.exe, List.append_nil], ?_, ?_, ?_, by simp, by simp, hL.wf, hr.1, hr.2⟩
      · rw [List.map_append, List.nodup_append]
        refine ⟨hg.nodup, by simp, ?_⟩
        intro a ha b hb e
        simp only [List.map_cons, List.map_nil, List.mem_singleton] at hb
        subst hb; subst e
        exact h.2 ha
      · intro q hq v e
        rcases hL.calm q hq with h1 | ⟨x, h1, _⟩ <;> rw [h1] at e <;> cases e
      · intro q hq _
        refine ⟨rfl, fun x e => ?_⟩
        rcases hL.calm q hq with h1 | ⟨x', h1, h2⟩
        · rw [h1] at e; cases e
        · rw [h1] at e; cases e; exact h2
    · exact hg
  | host n op =>
    simp only [Net.step]
    split
    · exact hg
    · rename_i ho
      split
      · exact Good.end (Good.host hg n op (by simpa using ho)) _
      · exact Good.host hg n op (by simpa using ho)
  | boot n s a j =>
    simp only [Net.step]
    split
    · exact hg
    · rename_i h
      have hb : ∀ e, (Shard.boot j).buffer e = [] := boot_buffer j
      have hwf : ({ σ with shards := σ.shards.insert (n, s, a) (Shard.boot j) } : Net).Wf f := by
        refine ⟨hg.wf.hu, hg.wf.su.insert _ _, hg.wf.hs, ?_, hg.wf.tk, hg.wf.fr, hg.wf.rn⟩
        intro k sh hk
        rcases get_insert_cases hk with ⟨_, rfl⟩ | hk
        · exact ⟨Shard.Tidy.boot j, fun e r hr => by rw [hb] at hr; cases hr⟩
        · exact hg.wf.st k sh hk
      refine Moved.good hg (A := []) (L := []) (X := []) ⟨?_, by simp [Net.idc], fun p hp => Or.inl hp, by simp, by simp,
        by simpa using hg.nodup, by simp, by simp, by simp, by simp, hwf, hg.rel, hg.rep⟩
      intro x
      have := total_insert_none (fun sh : Shard => (sh.buffer x.entity).count x) hg.wf.su h (Shard.boot j) (by rw [hb]; rfl)
      simp only [Net.tok, List.map_nil, List.count_nil]
      omega
  | shard k op =>
    simp only [Net.step]
    split
    · exact hg
    · rename_i ho
      have ho : op.isRequest = false := by simpa using ho
      cases h : σ.shards.get k with
      | none => unfold Net.shardStep; rw [h]; exact hg
      | some sh =>
        obtain ⟨L, hL⟩ := shardStep_raw hg.wf k op h (by rw [nonRequest_arrives' ho]; simp)
        rw [nonRequest_arrives' ho] at hL
        exact (hL.moved hg (hg.relay.shardStep k op)).good hg
  | take t ok =>
    simp only [Net.step]
    split
    · rename_i ht
      split
      · rename_i sh h
        obtain ⟨L, hL⟩ := shardStep_raw (hg.wf.tasks t) (t.n, t.s, t.a) (.request t.r ok) h
          (by intro r hr; simp [ShardOp.arrives] at hr; subst hr; exact hg.wf.tk t ht)
        have hL' := Raw.after (r := t.r) hL (tok_task ht) (fun _ => rfl) rfl rfl rfl rfl
        exact (hL'.moved hg (Net.Relay.shardStep (σ := { σ with tasks := σ.tasks.erase t }) hg.relay _ _)).good hg
      · have hraw : Raw f σ (({ σ with tasks := σ.tasks.erase t } : Net).resolve [(t.r, .closed)]) [] [(t.r, .closed)] := by
          refine ⟨?_, ?_, fun p hp => (by have h := resolve_res _ _ p hp; exact h), rfl, rfl, by simp, (hg.wf.tasks t).resolve _⟩
          · intro x
            rw [resolve_tok]
            have := tok_task (f := f) ht x
            simpa using this
          · intro k; rw [resolve_idc]; rfl
        exact (hraw.moved hg (Net.Relay.resolve (σ := { σ with tasks := σ.tasks.erase t }) hg.relay _)).good hg
    · exact hg
  | arrive x a ok =>
    simp only [Net.step]
    split
    · rename_i h
      obtain ⟨sh, hs⟩ := Option.isSome_iff_exists.1 h.2
      obtain ⟨L, hL⟩ := shardStep_raw (hg.wf.frames x) (x.n, x.s, a) (.request x.r ok) hs
        (by intro r hr; simp [ShardOp.arrives] at hr; subst hr; exact hg.wf.fr x h.1)
      have hL' := Raw.after (r := x.r) hL (tok_frame h.1) (fun _ => rfl) rfl rfl rfl rfl
      exact (hL'.moved hg (Net.Relay.shardStep (σ := { σ with frames := σ.frames.erase x }) hg.relay _ _)).good hg
    · exact hg
  | lose x =>
    simp only [Net.step]
    split
    · rename_i h
      have hr : ({ σ with frames := σ.frames.erase x, lost := σ.lost ++ [x.r.id] } : Net).Relay := by
        refine ⟨fun k hk => ?_, hg.rep⟩
        rcases hg.rel k hk with h1 | h1 | h1
        · exact Or.inl h1
        · exact Or.inr (Or.inl h1)
        · exact Or.inr (Or.inr (List.mem_append.2 (Or.inl h1)))
      have hraw : Raw f σ { σ with frames := σ.frames.erase x, lost := σ.lost ++ [x.r.id] } [] [(x.r, .closed)] := by
        refine ⟨?_, ?_, fun p hp => Or.inl hp, rfl, rfl, by simp, ?_⟩
        · intro y
          have := tok_frame (f := f) h y
          simpa [Net.tok] using this
        · intro k
          simp only [Net.idc, List.count_append, List.map_cons, List.map_nil]
          omega
        · exact ⟨hg.wf.hu, hg.wf.su, hg.wf.hs, hg.wf.st, hg.wf.tk, (hg.wf.frames x).fr, hg.wf.rn⟩
      exact (hraw.moved hg hr).good hg
    · exact hg
  | run x o =>
    simp only [Net.step]
    split
    · rename_i h
      have hr : (({ σ with running := σ.running.erase x, executed := σ.executed ++ o.effect x.e x.r.id } : Net).resolve [(x.r, o.ans)]).Relay :=
        Net.Relay.resolve (σ := { σ with running := σ.running.erase x, executed := σ.executed ++ o.effect x.e x.r.id }) hg.relay _
      refine Moved.good hg (A := []) (L := [(x.r, o.ans)]) (X := o.effect x.e x.r.id) ⟨?_, ?_, fun p hp => (by have h := resolve_res _ _ p hp; exact h), by simp [Net.resolve], rfl,
        by simpa using hg.nodup, ?_, ?_, ?_, ?_, ?_, hr.1, hr.2⟩
      · intro y
        rw [resolve_tok]
        have := tok_run (f := f) h y
        simpa [Net.tok] using this
      · intro k; rw [resolve_idc]; rfl
      · intro q hq v e
        simp only [List.mem_singleton] at hq
        subst hq
        cases o <;> simp [Outcome.ans, Outcome.effect] at e ⊢
        exact e.symm
      · intro q hq e
        simp only [List.mem_singleton] at hq
        subst hq
        cases o <;> cases e
      · intro y hy
        refine ⟨(x.r, o.ans), by simp, ?_⟩
        have := (hg.wf.rn x h).1
        cases o <;> simp [Outcome.effect] at hy <;> subst hy <;> exact ⟨rfl, this⟩
      · cases o <;> simp [Outcome.effect]
      · refine Net.Wf.resolve (σ := { σ with running := σ.running.erase x, executed := σ.executed ++ o.effect x.e x.r.id }) ?_ _
        exact ⟨hg.wf.hu, hg.wf.su, hg.wf.hs, hg.wf.st, hg.wf.tk, hg.wf.fr, fun y hy => hg.wf.rn y (List.mem_of_mem_erase hy)⟩
    · exact hg
  | reply p =>
    simp only [Net.step]
    split
    · rename_i h
      have hc := fun k => count_map_erase (fun p : Nat × Ans => p.1) h k
      have hc : ∀ k, ((σ.replies.erase p).map (·.1)).count k + [p.1].count k = (σ.replies.map (·.1)).count k := hc
      have h0 : 0 < (σ.replies.map (·.1)).count p.1 := List.count_pos_iff.2 (List.mem_map.2 ⟨p, h, rfl⟩)
      have h1 : σ.idc p.1 = 1 := by
        have h2 : 0 < σ.idc p.1 := by simp only [Net.idc]; omega
        obtain ⟨r, hr, e⟩ := List.mem_map.1 (hg.ids _ h2)
        have h3 := hg.one r hr
        rw [e] at h3
        omega
      split
      · rename_i ht
        have hr : ({ σ with replies := σ.replies.erase p, table := σ.table.erase p.1, answers := σ.answers ++ [p] } : Net).Relay := by
          refine ⟨fun k hk => ?_, fun q hq => hg.rep q (List.mem_of_mem_erase hq)⟩
          simp only [List.map_append, List.mem_append, List.map_cons, List.map_nil, List.mem_singleton]
          rcases hg.rel k hk with h1 | h1 | h1
          · by_cases e : k = p.1
            · exact Or.inr (Or.inl (Or.inr e))
            · exact Or.inl ((List.mem_erase_of_ne e).2 h1)
          · exact Or.inr (Or.inl (Or.inl h1))
          · exact Or.inr (Or.inr h1)
        have hraw : Raw f σ { σ with replies := σ.replies.erase p, table := σ.table.erase p.1, answers := σ.answers ++ [p] } [] [] := by
          refine ⟨by simp [Net.tok], ?_, ?_, rfl, rfl, by simp, ⟨hg.wf.hu, hg.wf.su, hg.wf.hs, hg.wf.st, hg.wf.tk, hg.wf.fr, hg.wf.rn⟩⟩
          · intro k
            have := hc k
            simp only [Net.idc, List.map_append, List.count_append, List.map_cons, List.map_nil, List.count_nil]
            simp only [List.count_cons, List.count_nil] at this ⊢
            omega
          · intro q hq
            refine Or.inl ?_
            simp only [List.mem_append, List.mem_singleton] at hq ⊢
            rcases hq with hq | hq | rfl
            · exact Or.inl (List.mem_of_mem_erase hq)
            · exact Or.inr hq
            · exact Or.inl h
        exact (hraw.moved hg hr).good hg
      · rename_i ht
        exfalso
        rcases hg.rel p.1 (hg.rep p h) with h2 | h2 | h2
        · exact ht h2
        · have := List.count_pos_iff.2 h2
          simp only [Net.idc] at h1; omega
        · have := List.count_pos_iff.2 h2
          simp only [Net.idc] at h1; omega
    · exact hg
  | loseReply p =>
    simp only [Net.step]
    split
    · rename_i h
      have hc := fun k => count_map_erase (fun p : Nat × Ans => p.1) h k
      have hc : ∀ k, ((σ.replies.erase p).map (·.1)).count k + [p.1].count k = (σ.replies.map (·.1)).count k := hc
      have hr : ({ σ with replies := σ.replies.erase p, lost := σ.lost ++ [p.1] } : Net).Relay := by
        refine ⟨fun k hk => ?_, fun q hq => hg.rep q (List.mem_of_mem_erase hq)⟩
        rcases hg.rel k hk with h1 | h1 | h1
        · exact Or.inl h1
        · exact Or.inr (Or.inl h1)
        · exact Or.inr (Or.inr (List.mem_append.2 (Or.inl h1)))
      have hraw : Raw f σ { σ with replies := σ.replies.erase p, lost := σ.lost ++ [p.1] } [] [] := by
        refine ⟨by simp [Net.tok], ?_, ?_, rfl, rfl, by simp, ⟨hg.wf.hu, hg.wf.su, hg.wf.hs, hg.wf.st, hg.wf.tk, hg.wf.fr, hg.wf.rn⟩⟩
        · intro k
          have := hc k
          simp only [Net.idc, List.count_append, List.map_nil, List.count_nil]
          simp only [List.count_cons, List.count_nil] at this ⊢
          omega
        · intro q hq
          refine Or.inl ?_
          simp only [List.mem_append] at hq ⊢
          exact hq.imp List.mem_of_mem_erase id
      exact (hraw.moved hg hr).good hg
    · exact hg

theorem init_hosts (ns : List Nat) (m : Assoc Nat (Host EReq)) (hu : m.Uniq) (hm : ∀ n h, m.get n = some h → h = Host.init n) :
    (ns.foldl (fun m n => m.insert n (Host.init n)) m).Uniq ∧
    (∀ n h, (ns.foldl (fun m n => m.insert n (Host.init n)) m).get n = some h → h = Host.init n) := by
  induction ns generalizing m with
  | nil => exact ⟨hu, hm⟩
  | cons k ns ih =>
    refine ih _ (hu.insert _ _) ?_
    intro n h hn
    rcases get_insert_cases hn with ⟨rfl, rfl⟩ | hn
    · rfl
    · exact hm n h hn

theorem total_zero {κ α : Type} [DecidableEq κ] (w : α → Nat) (m : Assoc κ α) (hu : m.Uniq) (h : ∀ k v, m.get k = some v → w v = 0) : total w m = 0 := by
  have : ∀ p ∈ m, w p.2 = 0 := fun p hp => h p.1 p.2 (Assoc.get_of_mem hu hp)
  clear h hu
  induction m with
  | nil => rfl
  | cons p m ih =>
    have h1 := ih fun q hq => this q (List.mem_cons_of_mem _ hq)
    have h2 := this p (List.mem_cons_self ..)
    simp only [total, List.map_cons, List.sum_cons] at h1 ⊢
    omega

theorem Good.init (f : Nat → Nat) (ns : List Nat) : (Net.init ns).Good f := by
  obtain ⟨hu, hh⟩ := init_hosts ns [] Assoc.Uniq.nil (by intro n h hn; cases hn)
  refine ⟨⟨hu, Assoc.Uniq.nil, ?_, ?_, ?_, ?_, ?_⟩, ?_, ?_, ?_, ?_, ?_, ?_, ?_, ?_, ?_, ?_, ?_⟩
  · intro n h hn
    rw [hh n h hn]; exact Host.Sorted.init _ n
  · intro k sh hk; cases hk
  all_goals first | (intro x hx; cases hx; done) | skip
  · exact List.nodup_nil
  · intro x _
    have : total (fun h : Host EReq => (h.kept (f x.entity)).count x) (Net.init ns).hosts = 0 := by
      apply total_zero _ _ hu
      intro n h hn
      rw [hh n h hn]; rfl
    simp only [Net.tok, this]
    rfl
  · exact List.nodup_nil
  · intro k v h; cases h
  · intro k x h; cases h

theorem Good.run (f : Nat → Nat) (ns : List Nat) (ops : List NetOp) : (Net.run f ns ops).Good f := by
  unfold Net.run
  generalize hi : Net.init ns = σ
  have hg : σ.Good f := hi ▸ Good.init f ns
  clear hi
  induction ops generalizing σ with
  | nil => exact hg
  | cons op ops ih => exact ih _ (Good.step hg op)

end Verif.Sharding
