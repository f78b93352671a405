import Verif.Sharding.RequestInv

/-! Where a request is, and how it can be answered. -/

namespace Verif.Sharding

theorem total_ge {κ α : Type} [DecidableEq κ] (w : α → Nat) {m : Assoc κ α} (hu : m.Uniq) {k : κ} {v : α} (h : m.get k = some v) :
    w v ≤ total w m := by
  have := total_erase w hu k
  rw [h] at this
  simp only [Option.map_some, Option.getD_some] at this
  omega

theorem total_ge2 {κ α : Type} [DecidableEq κ] (w : α → Nat) {m : Assoc κ α} (hu : m.Uniq) {k k' : κ} {v v' : α} (h : m.get k = some v)
    (h' : m.get k' = some v') (hk : k ≠ k') : w v + w v' ≤ total w m := by
  have h1 := total_erase w hu k
  rw [h] at h1
  simp only [Option.map_some, Option.getD_some] at h1
  have h2 : (Assoc.erase m k).get k' = some v' := by
    rw [Assoc.get_erase, if_neg (fun e => hk e.symm)]; exact h'
  have h3 := total_ge w (hu.erase k) h2
  omega

theorem total_pos {κ α : Type} [DecidableEq κ] (w : α → Nat) {m : Assoc κ α} (hu : m.Uniq) (h : 0 < total w m) :
    ∃ k v, m.get k = some v ∧ 0 < w v := by
  apply Classical.byContradiction
  intro hn
  have : total w m = 0 := by
    apply total_zero w m hu
    intro k v hk
    rcases Nat.eq_zero_or_pos (w v) with h1 | h1
    · exact h1
    · exact absurd ⟨k, v, hk, h1⟩ hn
  omega

theorem count_map_two {α β : Type} [BEq α] [LawfulBEq α] [DecidableEq β] (g : α → β) {l : List α} {a b : α} (ha : a ∈ l) (hb : b ∈ l)
    (hne : a ≠ b) (e : g a = g b) : 2 ≤ (l.map g).count (g a) := by
  have h1 := count_map_erase g ha (g a)
  have h2 : b ∈ l.erase a := (List.mem_erase_of_ne (fun h => hne h.symm)).2 hb
  have h3 : 0 < ((l.erase a).map g).count (g a) := List.count_pos_iff.2 (List.mem_map.2 ⟨b, h2, e.symm⟩)
  simp only [List.count_cons, List.count_nil, beq_self_eq_true, if_true] at h1
  omega

/-- every entity that is being started has its task. -/
def Shard.Fed (σ : Shard) : Prop := ∀ e c buf, σ.entities.get e = some ⟨c, .starting buf⟩ → ∃ t ∈ σ.starting, t.e = e

theorem Shard.Fed.boot (j : List JEntry) : (Shard.boot j).Fed := by
  intro e c buf h
  rw [boot_entities] at h
  have h1 := boot_starting j
  have h2 : (e, c) ∈ (Shard.boot j).starting.map (fun t => (t.e, t.c)) := by
    rw [h1]
    refine List.mem_map.2 ⟨(e, ⟨c, .starting buf⟩), List.mem_filter.2 ⟨Assoc.mem_of_get h, rfl⟩, rfl⟩
  obtain ⟨t, ht, e'⟩ := List.mem_map.1 h2
  exact ⟨t, ht, congrArg Prod.fst e'⟩

theorem Shard.Fed.startEntity {σ : Shard} {e c : Nat} (h : ∀ e' c' buf, e' ≠ e → σ.entities.get e' = some ⟨c', .starting buf⟩ → ∃ t ∈ σ.starting, t.e = e')
    (p ok : Bool) : (σ.startEntity e c p ok).Fed := by
  intro e' c' buf hg
  by_cases he : e' = e
  · exact ⟨⟨e, c, σ.fresh⟩, List.mem_append.2 (Or.inr (List.mem_singleton.2 rfl)), he.symm⟩
  · obtain ⟨t, ht, h1⟩ := h e' c' buf he hg
    exact ⟨t, List.mem_append.2 (Or.inl ht), h1⟩

theorem Shard.Fed.next {σ : Shard} (h : σ.Fed) (op : ShardOp) (hop : ∀ t, op ≠ .startFailed t) : (σ.next op).Fed := by
  cases op with
  | request r ok =>
    simp only [Shard.next, Shard.step, Shard.request]
    split
    · split
      · rename_i x hx
        intro e c buf hg
        rcases get_insert_cases hg with ⟨rfl, h1⟩ | hg
        · obtain ⟨xc, xst⟩ := x
          cases xst with
          | starting b => exact h _ _ _ hx
          | idle => simp [EState.request] at h1
          | passivated => simp [EState.request] at h1
          | active i => simp [EState.request] at h1
        · exact h e c buf hg
      · split
        · apply Shard.Fed.startEntity
          intro e' c' buf he hg
          rcases get_insert_cases hg with ⟨h1, _⟩ | hg
          · exact absurd h1 he
          · exact h e' c' buf hg
        · exact h
    · exact h
  | startEntity e c ok =>
    simp only [Shard.next, Shard.step, Shard.handleStart]
    apply Shard.Fed.startEntity
    intro e' c' buf he hg
    rcases get_insert_cases hg with ⟨h1, _⟩ | hg
    · exact absurd h1 he
    · exact h e' c' buf hg
  | started t =>
    simp only [Shard.next, Shard.step]
    split
    · simp only [Shard.started]
      have keep : ∀ e c buf, e ≠ t.e → σ.entities.get e = some ⟨c, .starting buf⟩ → ∃ t' ∈ σ.starting.erase t, t'.e = e := by
        intro e c buf he hg
        obtain ⟨t', ht', h1⟩ := h e c buf hg
        refine ⟨t', (List.mem_erase_of_ne ?_).2 ht', h1⟩
        rintro rfl
        exact he h1.symm
      split
      · intro e c buf hg
        rcases get_insert_cases hg with ⟨_, h1⟩ | hg'
        · cases h1
        · refine keep e c buf ?_ hg'
          rintro rfl
          change (σ.entities.insert t.e _).get t.e = _ at hg
          rw [Assoc.get_insert, if_pos rfl] at hg
          cases hg
      · rename_i hn
        intro e c buf hg
        refine keep e c buf ?_ hg
        rintro rfl
        rw [hn] at hg; cases hg
    · exact h
  | startFailed t => exact absurd rfl (hop t)
  | snapshot => exact h
  | childStopped e i => simp only [Shard.next, Shard.step]; split <;> exact h

def Net.Fed (σ : Net) : Prop := ∀ k sh, σ.shards.get k = some sh → sh.Fed

theorem Net.Fed.hostStep {σ : Net} (h : σ.Fed) (f : Nat → Nat) (n : Nat) (op : HostOp EReq) : (σ.hostStep f n op).Fed := by
  unfold Net.hostStep
  split <;> exact h

theorem Net.Fed.endShard {σ : Net} (h : σ.Fed) (k : Nat × Nat × Nat) : (σ.endShard k).Fed := by
  unfold Net.endShard
  split
  · exact h
  · intro k' sh hk
    change (Assoc.erase σ.shards k).get k' = _ at hk
    rw [Assoc.get_erase] at hk
    split at hk
    · cases hk
    · exact h k' sh hk

theorem Net.Fed.shardStep {σ : Net} (h : σ.Fed) (k : Nat × Nat × Nat) (op : ShardOp) (hop : ∀ t, op ≠ .startFailed t) : (σ.shardStep k op).Fed := by
  unfold Net.shardStep
  split
  · exact h
  · rename_i sh hs
    intro k' sh' hk
    rcases get_insert_cases hk with ⟨rfl, rfl⟩ | hk
    · exact (h _ sh hs).next op hop
    · exact h k' sh' hk

/-- an operation that is not the failure of a start. -/
def NetOp.calm : NetOp → Prop
  | .shard _ (.startFailed _) => False
  | _ => True

theorem Net.Fed.step {σ : Net} (h : σ.Fed) (f : Nat → Nat) (op : NetOp) (hop : op.calm) : (σ.step f op).Fed := by
  cases op with
  | send n r => simp only [Net.step]; split <;> first | exact Net.Fed.hostStep (σ := { σ with sent := σ.sent ++ [r] }) h f n _ | exact h
  | host n op =>
    simp only [Net.step]
    split
    · exact h
    · split
      · exact (h.hostStep f n op).endShard _
      · exact h.hostStep f n op
  | boot n s a j =>
    simp only [Net.step]
    split
    · exact h
    · intro k sh hk
      rcases get_insert_cases hk with ⟨_, rfl⟩ | hk
      · exact Shard.Fed.boot j
      · exact h k sh hk
  | shard k op =>
    simp only [Net.step]
    split
    · exact h
    · refine h.shardStep k op ?_
      rintro t rfl
      exact hop
  | take t ok =>
    simp only [Net.step]
    split
    · split
      · exact Net.Fed.shardStep (σ := { σ with tasks := σ.tasks.erase t }) h _ _ (by simp)
      · exact h
    · exact h
  | arrive x a ok =>
    simp only [Net.step]
    split
    · exact Net.Fed.shardStep (σ := { σ with frames := σ.frames.erase x }) h _ _ (by simp)
    · exact h
  | lose x => simp only [Net.step]; split <;> exact h
  | run x o => simp only [Net.step]; split <;> exact h
  | reply p =>
    simp only [Net.step]
    split
    · split <;> exact h
    · exact h
  | loseReply p => simp only [Net.step]; split <;> exact h

/-! ### one step nearer to the answer -/

def Net.runFrom (f : Nat → Nat) (σ : Net) (ops : List NetOp) : Net := ops.foldl (Net.step f) σ

theorem runFrom_good {f : Nat → Nat} {σ : Net} (h : σ.Good f) (ops : List NetOp) : (σ.runFrom f ops).Good f := by
  induction ops generalizing σ with
  | nil => exact h
  | cons op ops ih => exact ih (Good.step h op)

theorem runFrom_fed {f : Nat → Nat} {σ : Net} (h : σ.Fed) (ops : List NetOp) (ho : ∀ op ∈ ops, op.calm) : (σ.runFrom f ops).Fed := by
  induction ops generalizing σ with
  | nil => exact h
  | cons op ops ih => exact ih (h.step f op (ho op (List.mem_cons_self ..))) fun o h' => ho o (List.mem_cons_of_mem _ h')

def Net.answered (σ : Net) (k : Nat) : Prop := ∃ a, (k, a) ∈ σ.answers

/-- an answer can come. -/
def Net.hopeful (f : Nat → Nat) (σ : Net) (k : Nat) : Prop := ∃ ops, (∀ op ∈ ops, op.calm) ∧ (σ.runFrom f ops).answered k

theorem hopeful_step {f : Nat → Nat} {σ : Net} {k : Nat} (op : NetOp) (hc : op.calm) (h : (σ.step f op).hopeful f k) : σ.hopeful f k := by
  obtain ⟨ops, h1, h2⟩ := h
  refine ⟨op :: ops, ?_, h2⟩
  intro o ho
  rcases List.mem_cons.1 ho with rfl | ho
  · exact hc
  · exact h1 o ho

theorem hope_answered {f : Nat → Nat} {σ : Net} {k : Nat} (h : σ.answered k) : σ.hopeful f k := ⟨[], by simp, h⟩

theorem hope_reply {f : Nat → Nat} {σ : Net} (hg : σ.Good f) {p : Nat × Ans} (h : p ∈ σ.replies) : σ.hopeful f p.1 := by
  apply hopeful_step (.reply p) trivial
  apply hope_answered
  have h0 : 0 < (σ.replies.map (·.1)).count p.1 := List.count_pos_iff.2 (List.mem_map.2 ⟨p, h, rfl⟩)
  have h1 : σ.idc p.1 = 1 := by
    have h2 : 0 < σ.idc p.1 := by simp only [Net.idc]; omega
    obtain ⟨r, hr, e⟩ := List.mem_map.1 (hg.ids _ h2)
    have h3 := hg.one r hr
    rw [e] at h3
    omega
  have ht : p.1 ∈ σ.table := by
    rcases hg.rel p.1 (hg.rep p h) with h2 | h2 | h2
    · exact h2
    · have := List.count_pos_iff.2 h2
      simp only [Net.idc] at h1; omega
    · have := List.count_pos_iff.2 h2
      simp only [Net.idc] at h1; omega
  simp only [Net.step, if_pos h, if_pos ht, Net.answered]
  exact ⟨p.2, List.mem_append.2 (Or.inr (List.mem_singleton.2 rfl))⟩

/-- a used result channel. -/
theorem resolve_done {σ : Net} {l : List (EReq × Ans)} {q : EReq × Ans} (h : q ∈ l) :
    (q.1.id, q.2) ∈ (σ.resolve l).replies ∨ (q.1.id, q.2) ∈ (σ.resolve l).answers := by
  simp only [Net.resolve, List.mem_append, List.mem_map, List.mem_filter]
  cases hc : σ.relayed.contains q.1.id
  · exact Or.inr (Or.inr ⟨q, ⟨h, by rw [hc]; rfl⟩, rfl⟩)
  · exact Or.inl (Or.inr ⟨q, ⟨h, hc⟩, rfl⟩)

theorem hope_done {f : Nat → Nat} {σ : Net} (hg : σ.Good f) {k : Nat} {a : Ans} (h : (k, a) ∈ σ.replies ∨ (k, a) ∈ σ.answers) : σ.hopeful f k := by
  rcases h with h | h
  · exact hope_reply hg (p := (k, a)) h
  · exact hope_answered ⟨a, h⟩

theorem hope_running {f : Nat → Nat} {σ : Net} (hg : σ.Good f) {x : ERun} (h : x ∈ σ.running) : σ.hopeful f x.r.id := by
  have hg' := Good.step hg (.run x (.handled 0))
  apply hopeful_step (.run x (.handled 0)) trivial
  apply hope_done hg' (a := .ok 0)
  simp only [Net.step, if_pos h]
  exact resolve_done (q := (x.r, .ok 0)) (List.mem_singleton.2 rfl)

theorem buffer_state {σ : Shard} {e : Nat} {r : EReq} (h : r ∈ σ.buffer e) : ∃ c buf, σ.entities.get e = some ⟨c, .starting buf⟩ ∧ r ∈ buf := by
  unfold Shard.buffer at h
  cases hg : σ.entities.get e with
  | none => rw [hg] at h; cases h
  | some x =>
    rw [hg] at h
    obtain ⟨c, st⟩ := x
    cases st with
    | starting b => exact ⟨c, b, rfl, h⟩
    | idle => cases h
    | passivated => cases h
    | active i => cases h

theorem hope_buffer {f : Nat → Nat} {σ : Net} (hg : σ.Good f) (hf : σ.Fed) {k : Nat × Nat × Nat} {sh : Shard} (hs : σ.shards.get k = some sh)
    {r : EReq} (h : r ∈ sh.buffer r.entity) : σ.hopeful f r.id := by
  obtain ⟨c, buf, he, hr⟩ := buffer_state h
  obtain ⟨t, ht, e⟩ := hf k sh hs r.entity c buf he
  have hg' := Good.step hg (.shard k (.started t))
  apply hopeful_step (.shard k (.started t)) trivial
  have : (⟨k.2.1, t.e, t.i, r⟩ : ERun) ∈ (σ.step f (.shard k (.started t))).running := by
    rw [← e] at he
    simp only [Net.step, ShardOp.isRequest, Net.shardStep, hs, Net.resolve, Shard.step, if_pos ht, Shard.started, he]
    refine List.mem_append.2 (Or.inr (List.mem_filterMap.2 ⟨.deliver t.e t.i r, ?_, rfl⟩))
    exact List.mem_map.2 ⟨r, hr, rfl⟩
  exact hope_running hg' this

/-- a request handled by a shard is waiting, given to the entity or refused. -/
theorem shard_request (sh : Shard) (ht : sh.Tidy) (r : EReq) (ok : Bool) :
    r ∈ (sh.next (.request r ok)).buffer r.entity ∨ r ∈ (sh.step (.request r ok)).2.map ShardOut.req := by
  have h1 := sh.conserve ht (.request r ok) r
  have h2 : (ShardOp.request r ok).arrives.count r = 1 := by simp [ShardOp.arrives]
  have h3 : (sh.drops (.request r ok)).count r = 0 := rfl
  by_cases h4 : 0 < ((sh.next (.request r ok)).buffer r.entity).count r
  · exact Or.inl (List.count_pos_iff.1 h4)
  · refine Or.inr (List.count_pos_iff.1 ?_)
    omega

theorem hope_shard {f : Nat → Nat} {σ : Net} (hw : σ.Wf f) {k : Nat × Nat × Nat} {sh : Shard} (hs : σ.shards.get k = some sh) (r : EReq) (ok : Bool)
    (hg : (σ.shardStep k (.request r ok)).Good f) (hf : (σ.shardStep k (.request r ok)).Fed) :
    (σ.shardStep k (.request r ok)).hopeful f r.id := by
  rcases shard_request sh (hw.st k sh hs).1 r ok with h | h
  · have h1 : (σ.shardStep k (.request r ok)).shards.get k = some (sh.next (.request r ok)) := by
      simp only [Net.shardStep, hs, Net.resolve]
      rw [Assoc.get_insert, if_pos rfl]
    exact hope_buffer hg hf h1 h
  · obtain ⟨o, ho, e⟩ := List.mem_map.1 h
    cases o with
    | deliver e' i r' =>
      change r' = r at e
      subst e
      have : (⟨k.2.1, e', i, r'⟩ : ERun) ∈ (σ.shardStep k (.request r' ok)).running := by
        simp only [Net.shardStep, hs, Net.resolve]
        exact List.mem_append.2 (Or.inr (List.mem_filterMap.2 ⟨_, ho, rfl⟩))
      exact hope_running hg this
    | error e' r' x =>
      change r' = r at e
      subst e
      apply hope_done hg (a := .err x)
      simp only [Net.shardStep, hs]
      exact resolve_done (q := (r', .err x)) (List.mem_append.2 (Or.inl (List.mem_filterMap.2 ⟨_, ho, rfl⟩)))

theorem hope_task {f : Nat → Nat} {σ : Net} (hg : σ.Good f) (hf : σ.Fed) {t : ShardTask} (h : t ∈ σ.tasks) : σ.hopeful f t.r.id := by
  have hg' := Good.step hg (.take t true)
  have hf' := hf.step f (.take t true) trivial
  apply hopeful_step (.take t true) trivial
  simp only [Net.step, if_pos h] at hg' hf' ⊢
  cases hs : σ.shards.get (t.n, t.s, t.a) with
  | none =>
    simp only [hs] at hg' hf' ⊢
    exact hope_done hg' (resolve_done (q := (t.r, .closed)) (List.mem_singleton.2 rfl))
  | some sh =>
    simp only [hs] at hg' hf' ⊢
    exact hope_shard (hg.wf.tasks t) hs t.r true hg' hf'

theorem hope_frame {f : Nat → Nat} {σ : Net} (hg : σ.Good f) (hf : σ.Fed) {x : EFrame} (h : x ∈ σ.frames) : σ.hopeful f x.r.id := by
  apply hopeful_step (.boot x.n x.s 0 []) trivial
  have hg1 := Good.step hg (.boot x.n x.s 0 [])
  have hf1 := hf.step f (.boot x.n x.s 0 []) trivial
  have hs : ∃ sh, (σ.step f (.boot x.n x.s 0 [])).shards.get (x.n, x.s, 0) = some sh := by
    simp only [Net.step]
    cases hs : σ.shards.get (x.n, x.s, 0) with
    | none => exact ⟨Shard.boot [], by simp only; rw [Assoc.get_insert, if_pos rfl]⟩
    | some sh => exact ⟨sh, hs⟩
  have hx : x ∈ (σ.step f (.boot x.n x.s 0 [])).frames := by
    simp only [Net.step]
    split <;> exact h
  generalize σ.step f (.boot x.n x.s 0 []) = τ at hg1 hf1 hs hx
  obtain ⟨sh, hs⟩ := hs
  have hg2 := Good.step hg1 (.arrive x 0 true)
  have hf2 := hf1.step f (.arrive x 0 true) trivial
  apply hopeful_step (.arrive x 0 true) trivial
  have hc : x ∈ τ.frames ∧ (τ.shards.get (x.n, x.s, 0)).isSome = true := ⟨hx, by rw [hs]; rfl⟩
  simp only [Net.step, if_pos hc] at hg2 hf2 ⊢
  exact hope_shard (hg1.wf.frames x) hs x.r true hg2 hf2

/-- a host told that the shard is on another node keeps nothing for it. -/
theorem requests_remote {R : Type} (σ : Host R) (s n : Nat) (h1 : σ.hosted.get s = none) (h2 : σ.remote.get s = some n) (rs : List R) :
    (σ.requests s rs).1 = σ := by
  induction rs with
  | nil => rfl
  | cons r rs ih =>
    have : (σ.request s r).1 = σ := by simp only [Host.request, h1, h2]
    simp only [Host.requests, this, ih]

theorem moved_kept {h : Host EReq} {f : EReq → Nat} (s : Nat) : (h.next f (.shardAllocated s (h.self + 1))).kept s = [] := by
  have h1 : (h.allocated s (h.self + 1)).hosted.get s = none := by
    simp [Host.allocated, Assoc.get_erase]
  have h2 : (h.allocated s (h.self + 1)).remote.get s = some (h.self + 1) := by
    simp [Host.allocated, Assoc.get_insert]
  simp only [Host.next, Host.step, Host.shardAllocated]
  cases hp : (h.allocated s (h.self + 1)).pending.get s with
  | none => simp [Host.kept, hp, h1]
  | some rs =>
    simp only
    rw [requests_remote ((h.allocated s (h.self + 1)).dropPending s) s (h.self + 1) h1 h2]
    simp [Host.kept, Host.dropPending, h1, Assoc.get_erase]

theorem hope_host {f : Nat → Nat} {σ : Net} (hg : σ.Good f) (hf : σ.Fed) {n : Nat} {h : Host EReq} (hh : σ.hosts.get n = some h) {r : EReq}
    (hr : r ∈ h.kept (f r.entity)) : σ.hopeful f r.id := by
  have hg' := Good.step hg (.host n (.shardAllocated (f r.entity) (h.self + 1)))
  have hf' := hf.step f (.host n (.shardAllocated (f r.entity) (h.self + 1))) trivial
  apply hopeful_step (.host n (.shardAllocated (f r.entity) (h.self + 1))) trivial
  have e : σ.step f (.host n (.shardAllocated (f r.entity) (h.self + 1))) = σ.hostStep f n (.shardAllocated (f r.entity) (h.self + 1)) := by
    simp only [Net.step, HostOp.isRequest, hh, Option.bind_some, HostOp.ends]
    rfl
  rw [e] at hg' hf' ⊢
  have h1 := Host.conserve (hg.wf.hs n h hh) (.shardAllocated (f r.entity) (h.self + 1)) r
  have h2 := req_count n (h.step (fun r => f r.entity) (.shardAllocated (f r.entity) (h.self + 1))).2 r
  have h3 := List.count_pos_iff.2 hr
  simp only [moved_kept, List.count_nil] at h1
  have e' : σ.hostStep f n (.shardAllocated (f r.entity) (h.self + 1)) =
      ((({ σ with hosts := σ.hosts.insert n (h.next (fun r => f r.entity) (.shardAllocated (f r.entity) (h.self + 1))) } : Net).emit n
      (h.step (fun r => f r.entity) (.shardAllocated (f r.entity) (h.self + 1))).2).resolve
        ((h.drops (fun r => f r.entity) (.shardAllocated (f r.entity) (h.self + 1))).map fun r => (r, .closed))) := by
    unfold Net.hostStep; rw [hh]; rfl
  by_cases c1 : 0 < (h.drops (fun r => f r.entity) (.shardAllocated (f r.entity) (h.self + 1))).count r
  · refine hope_done hg' (a := .closed) ?_
    rw [e']
    exact resolve_done (q := (r, .closed)) (List.mem_map.2 ⟨r, List.count_pos_iff.1 c1, rfl⟩)
  · by_cases c2 : 0 < (((h.step (fun r => f r.entity) (.shardAllocated (f r.entity) (h.self + 1))).2.filterMap (HostOut.task n)).map (·.r)).count r
    · obtain ⟨t, ht, er⟩ := List.mem_map.1 (List.count_pos_iff.1 c2)
      have : (σ.hostStep f n (.shardAllocated (f r.entity) (h.self + 1))).hopeful f t.r.id := hope_task hg' hf' ?_
      · rw [er] at this; exact this
      rw [e']
      exact List.mem_append.2 (Or.inr ht)
    · have c3 : 0 < (((h.step (fun r => f r.entity) (.shardAllocated (f r.entity) (h.self + 1))).2.filterMap HostOut.frame).map (·.r)).count r := by
        omega
      obtain ⟨t, ht, er⟩ := List.mem_map.1 (List.count_pos_iff.1 c3)
      have : (σ.hostStep f n (.shardAllocated (f r.entity) (h.self + 1))).hopeful f t.r.id := hope_frame hg' hf' ?_
      · rw [er] at this; exact this
      rw [e']
      exact List.mem_append.2 (Or.inr ht)

end Verif.Sharding
