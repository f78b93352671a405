import Verif.Sharding.RequestLive
import Verif.Sharding.HostProps
import Verif.Sharding.ShardProps

/-!
# C75, C76: requests to sharded entities, end to end
-/

namespace Verif.Sharding

/-! ### C75 -/

/-- where a request can be. -/
inductive Place where
  | host (n : Nat)
  | task (t : ShardTask)
  | frame (x : EFrame)
  | shard (k : Nat × Nat × Nat)
  | entity (x : ERun)
  | reply (a : Ans)
  | answered (a : Ans)
  | lost
deriving DecidableEq, Repr

/-- `r` is at place `p`: buffered by a shard host or shard, in a task, frame or reply, being handled by its
entity, answered, or lost. -/
def Net.At (σ : Net) (r : EReq) : Place → Prop
  | .host n => ∃ h, σ.hosts.get n = some h ∧ ∃ s, r ∈ h.waiting s
  | .task t => t ∈ σ.tasks ∧ t.r = r
  | .frame x => x ∈ σ.frames ∧ x.r = r
  | .shard k => ∃ sh, σ.shards.get k = some sh ∧ ∃ e, r ∈ sh.waitingFor e
  | .entity x => x ∈ σ.running ∧ x.r = r
  | .reply a => (r.id, a) ∈ σ.replies
  | .answered a => (r.id, a) ∈ σ.answers
  | .lost => r.id ∈ σ.lost

theorem one_place {f : Nat → Nat} {σ : Net} (hg : σ.Good f) {r : EReq} (hr : r ∈ σ.sent) :
    (∃ p, σ.At r p) ∧ ∀ p q, σ.At r p → σ.At r q → p = q := by
  have h1 := hg.one r hr
  have hh : ∀ n h, σ.hosts.get n = some h → ∀ s, r ∈ h.waiting s → 0 < (h.kept (f r.entity)).count r := by
    intro n h hn s hw
    rw [Host.waiting_eq] at hw
    have e : f r.entity = s := hg.wf.hs n h hn s r hw
    rw [e]
    exact List.count_pos_iff.2 hw
  have hs : ∀ k sh, σ.shards.get k = some sh → ∀ e, r ∈ sh.waitingFor e → 0 < (sh.buffer r.entity).count r := by
    intro k sh hk e hw
    rw [waitingFor_eq] at hw
    rw [(hg.wf.st k sh hk).1.own e r hw]
    exact List.count_pos_iff.2 hw
  simp only [Net.tok, Net.idc] at h1
  -- how many
  have kind : ∀ p, σ.At r p → match p with
      | .host _ => 0 < total (fun h : Host EReq => (h.kept (f r.entity)).count r) σ.hosts
      | .task _ => 0 < (σ.tasks.map (·.r)).count r
      | .frame _ => 0 < (σ.frames.map (·.r)).count r
      | .shard _ => 0 < total (fun sh : Shard => (sh.buffer r.entity).count r) σ.shards
      | .entity _ => 0 < (σ.running.map (·.r)).count r
      | .reply _ => 0 < (σ.replies.map (·.1)).count r.id
      | .answered _ => 0 < (σ.answers.map (·.1)).count r.id
      | .lost => 0 < σ.lost.count r.id := by
    intro p hp
    cases p with
    | host n =>
      obtain ⟨h, hn, s, hw⟩ := hp
      exact Nat.lt_of_lt_of_le (hh n h hn s hw) (total_ge (fun h : Host EReq => (h.kept (f r.entity)).count r) hg.wf.hu hn)
    | task t => exact List.count_pos_iff.2 (List.mem_map.2 ⟨t, hp.1, hp.2⟩)
    | frame t => exact List.count_pos_iff.2 (List.mem_map.2 ⟨t, hp.1, hp.2⟩)
    | shard k =>
      obtain ⟨sh, hk, e, hw⟩ := hp
      exact Nat.lt_of_lt_of_le (hs k sh hk e hw) (total_ge (fun sh : Shard => (sh.buffer r.entity).count r) hg.wf.su hk)
    | entity t => exact List.count_pos_iff.2 (List.mem_map.2 ⟨t, hp.1, hp.2⟩)
    | reply a => exact List.count_pos_iff.2 (List.mem_map.2 ⟨_, hp, rfl⟩)
    | answered a => exact List.count_pos_iff.2 (List.mem_map.2 ⟨_, hp, rfl⟩)
    | lost => exact List.count_pos_iff.2 hp
  constructor
  · by_cases c1 : 0 < total (fun h : Host EReq => (h.kept (f r.entity)).count r) σ.hosts
    · obtain ⟨n, h, hn, hc⟩ := total_pos _ hg.wf.hu c1
      refine ⟨.host n, h, hn, f r.entity, ?_⟩
      rw [Host.waiting_eq]
      exact List.count_pos_iff.1 hc
    by_cases c2 : 0 < (σ.tasks.map (·.r)).count r
    · obtain ⟨t, ht, e⟩ := List.mem_map.1 (List.count_pos_iff.1 c2)
      exact ⟨.task t, ht, e⟩
    by_cases c3 : 0 < (σ.frames.map (·.r)).count r
    · obtain ⟨t, ht, e⟩ := List.mem_map.1 (List.count_pos_iff.1 c3)
      exact ⟨.frame t, ht, e⟩
    by_cases c4 : 0 < total (fun sh : Shard => (sh.buffer r.entity).count r) σ.shards
    · obtain ⟨k, sh, hk, hc⟩ := total_pos _ hg.wf.su c4
      refine ⟨.shard k, sh, hk, r.entity, ?_⟩
      rw [waitingFor_eq]
      exact List.count_pos_iff.1 hc
    by_cases c5 : 0 < (σ.running.map (·.r)).count r
    · obtain ⟨t, ht, e⟩ := List.mem_map.1 (List.count_pos_iff.1 c5)
      exact ⟨.entity t, ht, e⟩
    by_cases c6 : 0 < (σ.replies.map (·.1)).count r.id
    · obtain ⟨t, ht, e⟩ := List.mem_map.1 (List.count_pos_iff.1 c6)
      exact ⟨.reply t.2, show (r.id, t.2) ∈ σ.replies by rw [← e]; exact ht⟩
    by_cases c7 : 0 < (σ.answers.map (·.1)).count r.id
    · obtain ⟨t, ht, e⟩ := List.mem_map.1 (List.count_pos_iff.1 c7)
      exact ⟨.answered t.2, show (r.id, t.2) ∈ σ.answers by rw [← e]; exact ht⟩
    · exact ⟨.lost, List.count_pos_iff.1 (by omega)⟩
  · intro p q hp hq
    have k1 := kind p hp
    have k2 := kind q hq
    cases p <;> cases q <;> simp only at k1 k2
    all_goals first | (exfalso; omega) | skip
    · rename_i n n'
      obtain ⟨h, hn, s, hw⟩ := hp
      obtain ⟨h', hn', s', hw'⟩ := hq
      by_cases e : n = n'
      · rw [e]
      · have a1 := hh n h hn s hw
        have a2 := hh n' h' hn' s' hw'
        have a3 := total_ge2 (fun h : Host EReq => (h.kept (f r.entity)).count r) hg.wf.hu hn hn' e
        omega
    · rename_i t t'
      by_cases e : t = t'
      · rw [e]
      · have := count_map_two (fun t : ShardTask => t.r) hp.1 hq.1 e (by rw [hp.2, hq.2])
        rw [hp.2] at this
        omega
    · rename_i t t'
      by_cases e : t = t'
      · rw [e]
      · have := count_map_two (fun t : EFrame => t.r) hp.1 hq.1 e (by rw [hp.2, hq.2])
        rw [hp.2] at this
        omega
    · rename_i n n'
      obtain ⟨h, hn, s, hw⟩ := hp
      obtain ⟨h', hn', s', hw'⟩ := hq
      by_cases e : n = n'
      · rw [e]
      · have a1 := hs n h hn s hw
        have a2 := hs n' h' hn' s' hw'
        have a3 := total_ge2 (fun sh : Shard => (sh.buffer r.entity).count r) hg.wf.su hn hn' e
        omega
    · rename_i t t'
      by_cases e : t = t'
      · rw [e]
      · have := count_map_two (fun t : ERun => t.r) hp.1 hq.1 e (by rw [hp.2, hq.2])
        rw [hp.2] at this
        omega
    · rename_i a a'
      by_cases e : a = a'
      · rw [e]
      · have := count_map_two (fun t : Nat × Ans => t.1) (a := (r.id, a)) (b := (r.id, a')) hp hq (by simpa using e) rfl
        have h2 : (σ.replies.map fun t : Nat × Ans => t.1).count r.id = (σ.replies.map (·.1)).count r.id := rfl
        simp only at this
        omega
    · rename_i a a'
      by_cases e : a = a'
      · rw [e]
      · have := count_map_two (fun t : Nat × Ans => t.1) (a := (r.id, a)) (b := (r.id, a')) hp hq (by simpa using e) rfl
        simp only at this
        omega
    · rfl

/-- **C75.** Whatever the nodes, the coordinator and the network do, every request made is in exactly one
place at any time. -/
theorem C75_one_place (f : Nat → Nat) (ns : List Nat) (ops : List NetOp) (r : EReq) (hr : r ∈ (Net.run f ns ops).sent) :
    (∃ p, (Net.run f ns ops).At r p) ∧ ∀ p q, (Net.run f ns ops).At r p → (Net.run f ns ops).At r q → p = q :=
  one_place (Good.run f ns ops) hr

/-- what a run has been asked: the requests of `send` at existing nodes, with new numbers. -/
theorem sent_mono (f : Nat → Nat) (σ : Net) (op : NetOp) : ∀ r ∈ σ.sent, r ∈ (σ.step f op).sent := by
  intro r hr
  have host : ∀ (σ : Net) n o, r ∈ σ.sent → r ∈ (σ.hostStep f n o).sent := by
    intro σ n o h; unfold Net.hostStep; split <;> exact h
  have «end» : ∀ (σ : Net) k, r ∈ σ.sent → r ∈ (σ.endShard k).sent := by
    intro σ k h; unfold Net.endShard; split <;> exact h
  have shard : ∀ (σ : Net) k o, r ∈ σ.sent → r ∈ (σ.shardStep k o).sent := by
    intro σ k o h; unfold Net.shardStep; split <;> exact h
  cases op with
  | send n r' =>
    simp only [Net.step]
    split
    · exact host _ _ _ (List.mem_append.2 (Or.inl hr))
    · exact hr
  | host n op =>
    simp only [Net.step]
    split
    · exact hr
    · split
      · exact «end» _ _ (host _ _ _ hr)
      · exact host _ _ _ hr
  | boot n s a j => simp only [Net.step]; split <;> exact hr
  | shard k op => simp only [Net.step]; split; exact hr; exact shard _ _ _ hr
  | take t ok =>
    simp only [Net.step]
    split
    · split
      · exact shard _ _ _ hr
      · exact hr
    · exact hr
  | arrive x a ok => simp only [Net.step]; split; exact shard _ _ _ hr; exact hr
  | lose x => simp only [Net.step]; split <;> exact hr
  | run x o => simp only [Net.step]; split <;> exact hr
  | reply p =>
    simp only [Net.step]
    split
    · split <;> exact hr
    · exact hr
  | loseReply p => simp only [Net.step]; split <;> exact hr

/-- **C75.** A request made on a node is one of those made from then on. -/
theorem C75_made (f : Nat → Nat) (ns : List Nat) (pre post : List NetOp) (n : Nat) (r : EReq)
    (hn : ((Net.run f ns pre).hosts.get n).isSome) (hi : r.id ∉ (Net.run f ns pre).sent.map (·.id)) :
    r ∈ (Net.run f ns (pre ++ .send n r :: post)).sent := by
  unfold Net.run at *
  rw [List.foldl_append, List.foldl_cons]
  generalize pre.foldl (Net.step f) (Net.init ns) = σ at hn hi
  have h1 : r ∈ (σ.step f (.send n r)).sent := by
    simp only [Net.step]
    rw [if_pos ⟨hn, hi⟩]
    unfold Net.hostStep
    split <;> exact List.mem_append.2 (Or.inr (List.mem_singleton.2 rfl))
  generalize σ.step f (.send n r) = τ at h1
  induction post generalizing τ with
  | nil => exact h1
  | cons op post ih => exact ih _ (sent_mono f τ op r h1)

/-- **C75.** No caller gets two answers, and answers only go to callers. -/
theorem C75_one_answer (f : Nat → Nat) (ns : List Nat) (ops : List NetOp) :
    ((Net.run f ns ops).answers.map (·.1)).Nodup ∧
    ∀ p ∈ (Net.run f ns ops).answers, ∃ r ∈ (Net.run f ns ops).sent, r.id = p.1 := by
  have hg := Good.run f ns ops
  generalize Net.run f ns ops = σ at hg
  have key : ∀ k, 0 < (σ.answers.map (·.1)).count k → ∃ r ∈ σ.sent, r.id = k ∧ (σ.answers.map (·.1)).count k ≤ 1 := by
    intro k hk
    obtain ⟨r, hr, e⟩ := List.mem_map.1 (hg.ids k (by simp only [Net.idc]; omega))
    have h1 := hg.one r hr
    rw [e] at h1
    simp only [Net.idc] at h1
    exact ⟨r, hr, e, by omega⟩
  constructor
  · rw [List.nodup_iff_count]
    intro k
    rcases Nat.eq_zero_or_pos ((σ.answers.map (·.1)).count k) with h | h
    · omega
    · obtain ⟨_, _, _, h1⟩ := key k h
      exact h1
  · intro p hp
    obtain ⟨r, hr, e, _⟩ := key p.1 (List.count_pos_iff.2 (List.mem_map.2 ⟨p, hp, rfl⟩))
    exact ⟨r, hr, e⟩

/-- **C75.** No request is executed twice, and only by the entity it is for. -/
theorem C75_executed_once (f : Nat → Nat) (ns : List Nat) (ops : List NetOp) :
    ((Net.run f ns ops).executed.map (·.2.1)).Nodup ∧
    ∀ e k v, (e, k, v) ∈ (Net.run f ns ops).executed → ∃ r ∈ (Net.run f ns ops).sent, r.id = k ∧ r.entity = e :=
  ⟨(Good.run f ns ops).ex3, fun _ _ _ h => (Good.run f ns ops).ex2 _ h⟩

/-- **C75.** A result given to a caller is what its entity returned for its request. -/
theorem C75_truthful (f : Nat → Nat) (ns : List Nat) (ops : List NetOp) (r : EReq) (hr : r ∈ (Net.run f ns ops).sent) (v : Nat)
    (ha : (r.id, Ans.ok v) ∈ (Net.run f ns ops).answers) : (r.entity, r.id, v) ∈ (Net.run f ns ops).executed := by
  have hg := Good.run f ns ops
  obtain ⟨e, he⟩ := hg.ok r.id v (List.mem_append.2 (Or.inr ha))
  obtain ⟨r', hr', h1, h2⟩ := hg.ex2 _ he
  have := same_id hg.nodup hr' hr h1
  subst this
  rw [h2]; exact he

/-- **C75.** A caller told that its request was refused, or that its result channel closed, can rely on
it: the request has not been executed. A type not supported or an entity not found are the fault of the
request. -/
theorem C75_refused (f : Nat → Nat) (ns : List Nat) (ops : List NetOp) (r : EReq) (hr : r ∈ (Net.run f ns ops).sent) (a : Ans)
    (ha : (r.id, a) ∈ (Net.run f ns ops).answers) (hu : a = .closed ∨ ∃ x, a = .err x) :
    (∀ e v, (e, r.id, v) ∉ (Net.run f ns ops).executed) ∧
    (a = .err .notSupported → r.known = false) ∧ (a = .err .notFound → r.recipe = none) := by
  have hg := Good.run f ns ops
  have hu' : a.undone = true := by rcases hu with rfl | ⟨x, rfl⟩ <;> rfl
  obtain ⟨h1, r', hr', h2, h3⟩ := hg.er r.id a (List.mem_append.2 (Or.inr ha)) hu'
  have := same_id hg.nodup hr' hr h2
  subst this
  refine ⟨fun e v h => h1 (List.mem_map.2 ⟨_, h, rfl⟩), ?_, ?_⟩
  · intro e; exact (h3 _ e).1 rfl
  · intro e; exact (h3 _ e).2 rfl

/-- **C75.** An entity handles a request only for itself and only in the shard that the allocator names. -/
theorem C75_in_shard (f : Nat → Nat) (ns : List Nat) (ops : List NetOp) (x : ERun) (hx : x ∈ (Net.run f ns ops).running) :
    x.r.entity = x.e ∧ f x.r.entity = x.s := by
  obtain ⟨h1, h2⟩ := (Good.run f ns ops).wf.rn x hx
  exact ⟨h1, by rw [h1]; exact h2⟩

/-- a request from node 1 to entity 5, whose shard 2 is allocated on node 2 and started there. -/
def sampleReq : EReq := { id := 7, entity := 5, recipe := some 9 }

def sampleOps : List NetOp :=
  [.send 1 sampleReq, .host 2 (.shardAllocated 2 2), .boot 2 2 0 [], .host 2 (.ready 2 0), .host 1 (.shardAllocated 2 2),
    .arrive ⟨2, 2, sampleReq⟩ 0 true, .shard (2, 2, 0) (.started ⟨5, 9, 0⟩), .run ⟨2, 5, 0, sampleReq⟩ (.handled 42), .reply (7, .ok 42)]

example : (Net.run (· % 3) [1, 2] sampleOps).answers = [(7, .ok 42)] ∧
    (Net.run (· % 3) [1, 2] sampleOps).executed = [(5, 7, 42)] ∧ (Net.run (· % 3) [1, 2] sampleOps).sent = [sampleReq] := by decide +kernel

-- on its way it waits at node 1, is in a frame, waits in the shard, and runs
example : (Net.run (· % 3) [1, 2] (sampleOps.take 5)).frames = [⟨2, 2, sampleReq⟩] ∧
    (Net.run (· % 3) [1, 2] (sampleOps.take 7)).running = [⟨2, 5, 0, sampleReq⟩] ∧
    (Net.run (· % 3) [1, 2] (sampleOps.take 8)).replies = [(7, .ok 42)] := by decide +kernel

-- a request for an entity that does not exist and has no recipe
example : (7, Ans.err .notFound) ∈ (Net.run (· % 3) [1] [.send 1 { id := 7, entity := 5 }, .host 1 (.shardAllocated 2 1), .boot 1 2 0 [],
    .host 1 (.ready 2 0), .take ⟨1, 2, 0, { id := 7, entity := 5 }⟩ true]).answers := by decide +kernel

theorem hostStep_shards (f : Nat → Nat) (σ : Net) (n : Nat) (op : HostOp EReq) : (σ.hostStep f n op).shards = σ.shards := by
  unfold Net.hostStep
  cases σ.hosts.get n <;> rfl

theorem endShard_shards (σ : Net) (k : Nat × Nat × Nat) : (σ.endShard k).shards.get k = none ∧
    ∀ k', k' ≠ k → (σ.endShard k).shards.get k' = σ.shards.get k' := by
  unfold Net.endShard
  cases h : σ.shards.get k with
  | none => exact ⟨h, fun _ _ => rfl⟩
  | some sh =>
    simp only [Net.resolve]
    exact ⟨by simp [Assoc.get_erase], fun k' hk => by simp [Assoc.get_erase, hk]⟩

theorem shardStep_shards (σ : Net) (k k' : Nat × Nat × Nat) (op : ShardOp) (h : (σ.shards.get k').isSome = true) :
    ((σ.shardStep k op).shards.get k').isSome = true := by
  unfold Net.shardStep
  cases hk : σ.shards.get k with
  | none => exact h
  | some sh =>
    simp only [Net.resolve, Assoc.get_insert]
    split
    · rfl
    · exact h

/-- **C75.** The actor of a shard ends exactly when its host has finished stopping it, or when it was told to stop
by a notification of the host and has done so; nothing else a node, a shard or the network does ends it. -/
theorem C75_shard_ends (f : Nat → Nat) (σ : Net) (op : NetOp) (n s a : Nat) (hs : (σ.shards.get (n, s, a)).isSome = true) :
    (σ.step f op).shards.get (n, s, a) = none ↔
      ∃ h, σ.hosts.get n = some h ∧ ((∃ t, t ∈ h.stops ∧ t.s = s ∧ t.a = a ∧ op = .host n (.stopDone t)) ∨
        ((s, a) ∈ h.closing ∧ op = .host n (.closed s a))) := by
  constructor
  · intro hn
    have key : ∀ τ : Net, (τ.shards.get (n, s, a)).isSome = true → τ.shards.get (n, s, a) = none → False := by
      intro τ h1 h2; rw [h2] at h1; cases h1
    cases op with
    | send m r =>
      simp only [Net.step] at hn
      split at hn
      · rw [hostStep_shards] at hn; exact (key _ hs hn).elim
      · exact (key _ hs hn).elim
    | host m op =>
      simp only [Net.step] at hn
      split at hn
      · exact (key _ hs hn).elim
      · split at hn
        · rename_i s' a' he
          by_cases hk : (n, s, a) = (m, s', a')
          · cases hk
            obtain ⟨h, hh, he⟩ := Option.bind_eq_some_iff.1 he
            refine ⟨h, hh, ?_⟩
            cases op with
            | stopDone t =>
              simp only [HostOp.ends] at he
              split at he
              · rename_i ht
                cases he
                exact .inl ⟨t, ht, rfl, rfl, rfl⟩
              · cases he
            | closed s' a' =>
              simp only [HostOp.ends] at he
              split at he
              · rename_i ht
                cases he
                exact .inr ⟨ht, rfl⟩
              · cases he
            | _ => cases he
          · rw [(endShard_shards _ _).2 _ hk, hostStep_shards] at hn
            exact (key _ hs hn).elim
        · rw [hostStep_shards] at hn; exact (key _ hs hn).elim
    | boot m s' a' j =>
      simp only [Net.step] at hn
      split at hn
      · exact (key _ hs hn).elim
      · simp only [Assoc.get_insert] at hn
        split at hn
        · cases hn
        · exact (key _ hs hn).elim
    | shard k op =>
      simp only [Net.step] at hn
      split at hn
      · exact (key _ hs hn).elim
      · exact (key _ (shardStep_shards σ k _ op hs) hn).elim
    | take t ok =>
      simp only [Net.step] at hn
      split at hn
      · split at hn
        · exact (key _ (shardStep_shards _ _ _ _ (by exact hs)) hn).elim
        · exact (key _ hs hn).elim
      · exact (key _ hs hn).elim
    | arrive x b ok =>
      simp only [Net.step] at hn
      split at hn
      · exact (key _ (shardStep_shards _ _ _ _ (by exact hs)) hn).elim
      · exact (key _ hs hn).elim
    | lose x => simp only [Net.step] at hn; split at hn <;> exact (key _ hs hn).elim
    | run x o => simp only [Net.step] at hn; split at hn <;> exact (key _ hs hn).elim
    | reply p =>
      simp only [Net.step] at hn
      split at hn
      · split at hn <;> exact (key _ hs hn).elim
      · exact (key _ hs hn).elim
    | loseReply p => simp only [Net.step] at hn; split at hn <;> exact (key _ hs hn).elim
  · rintro ⟨h, hh, ⟨t, ht, rfl, rfl, rfl⟩ | ⟨ht, rfl⟩⟩
    · simp only [Net.step, HostOp.isRequest, hh, Option.bind_some, HostOp.ends, if_pos ht]
      exact (endShard_shards _ _).1
    · simp only [Net.step, HostOp.isRequest, hh, Option.bind_some, HostOp.ends, if_pos ht]
      exact (endShard_shards _ _).1

-- the shard of the sample ends once its host has stopped it
example : ((Net.run (· % 3) [1, 2] (sampleOps.take 5)).shards.get (2, 2, 0)).isSome = true := by decide +kernel

/-! ### C76 -/

/-- **C76** (refuted in general): a request whose frame found no shard actor, or whose frame or reply was
lost with the connection, is never answered, whatever happens. -/
theorem C76_lost_refuted (f : Nat → Nat) (ns : List Nat) (ops : List NetOp) (k : Nat) (h : k ∈ (Net.run f ns ops).lost)
    (later : List NetOp) (a : Ans) : (k, a) ∉ (Net.run f ns (ops ++ later)).answers := by
  have mono : ∀ (σ : Net) op, k ∈ σ.lost → k ∈ (σ.step f op).lost := by
    intro σ op hr
    have host : ∀ (σ : Net) n o, k ∈ σ.lost → k ∈ (σ.hostStep f n o).lost := by
      intro σ n o h; unfold Net.hostStep; split <;> exact h
    have «end» : ∀ (σ : Net) x, k ∈ σ.lost → k ∈ (σ.endShard x).lost := by
      intro σ x h; unfold Net.endShard; split <;> exact h
    have shard : ∀ (σ : Net) x o, k ∈ σ.lost → k ∈ (σ.shardStep x o).lost := by
      intro σ x o h; unfold Net.shardStep; split <;> exact h
    cases op with
    | send n r' => simp only [Net.step]; split; exact host _ _ _ hr; exact hr
    | host n op =>
      simp only [Net.step]
      split
      · exact hr
      · split
        · exact «end» _ _ (host _ _ _ hr)
        · exact host _ _ _ hr
    | boot n s a j => simp only [Net.step]; split <;> exact hr
    | shard k op => simp only [Net.step]; split; exact hr; exact shard _ _ _ hr
    | take t ok =>
      simp only [Net.step]
      split
      · split
        · exact shard _ _ _ hr
        · exact hr
      · exact hr
    | arrive x a ok => simp only [Net.step]; split; exact shard _ _ _ hr; exact hr
    | lose x => simp only [Net.step]; split; exact List.mem_append.2 (Or.inl hr); exact hr
    | run x o => simp only [Net.step]; split <;> exact hr
    | reply p =>
      simp only [Net.step]
      split
      · split <;> exact hr
      · exact hr
    | loseReply p => simp only [Net.step]; split; exact List.mem_append.2 (Or.inl hr); exact hr
  have h1 : k ∈ (Net.run f ns (ops ++ later)).lost := by
    unfold Net.run at h ⊢
    rw [List.foldl_append]
    generalize ops.foldl (Net.step f) (Net.init ns) = σ at h
    induction later generalizing σ with
    | nil => exact h
    | cons op later ih => exact ih _ (mono σ op h)
  intro ha
  have hg := Good.run f ns (ops ++ later)
  generalize Net.run f ns (ops ++ later) = σ at h1 ha hg
  have c1 := List.count_pos_iff.2 h1
  have c2 : 0 < (σ.answers.map (·.1)).count k := List.count_pos_iff.2 (List.mem_map.2 ⟨_, ha, rfl⟩)
  obtain ⟨r, hr, e⟩ := List.mem_map.1 (hg.ids k (by simp only [Net.idc]; omega))
  have h2 := hg.one r hr
  rw [e] at h2
  simp only [Net.idc] at h2
  omega

-- a frame that finds no shard actor
example : (Net.run (· % 3) [1, 2] [.send 1 sampleReq, .host 1 (.shardAllocated 2 2), .lose ⟨2, 2, sampleReq⟩]).lost = [7] := by decide +kernel

/-- **C76** (refuted in general): a request waiting for an entity whose start failed is not lost, but
waits in the shard although nothing is left to do. -/
theorem C76_failed_start_refuted :
    ∃ ops : List NetOp, (Net.run (· % 3) [1] ops).lost = [] ∧ (Net.run (· % 3) [1] ops).answers = [] ∧
      (Net.run (· % 3) [1] ops).sent = [sampleReq] ∧ (Net.run (· % 3) [1] ops).tasks = [] ∧ (Net.run (· % 3) [1] ops).frames = [] ∧
      (Net.run (· % 3) [1] ops).running = [] ∧ (Net.run (· % 3) [1] ops).replies = [] ∧
      ((Net.run (· % 3) [1] ops).shards.get (1, 2, 0)).map (fun sh => (sh.starting, sh.waitingFor 5)) = some ([], [sampleReq]) :=
  ⟨[.send 1 sampleReq, .host 1 (.shardAllocated 2 1), .boot 1 2 0 [], .host 1 (.ready 2 0), .take ⟨1, 2, 0, sampleReq⟩ true,
    .shard (1, 2, 0) (.startFailed ⟨5, 9, 0⟩)], by decide +kernel⟩

/-- no start of an entity has failed. -/
def noFailedStart (ops : List NetOp) : Prop := ∀ op ∈ ops, ∀ k t, op ≠ .shard k (.startFailed t)

/-- **C76** (partial: as long as no start of an entity fails and the request is not lost). No request gets
stuck: from every reachable state there is a way on that ends with its answer. -/
theorem C76_never_stuck_partial (f : Nat → Nat) (ns : List Nat) (ops : List NetOp) (hf : noFailedStart ops) (r : EReq)
    (hr : r ∈ (Net.run f ns ops).sent) (hl : r.id ∉ (Net.run f ns ops).lost) :
    ∃ later, noFailedStart later ∧ ∃ a, (r.id, a) ∈ (Net.run f ns (ops ++ later)).answers := by
  have calm : ∀ op : NetOp, (∀ k t, op ≠ .shard k (.startFailed t)) ↔ op.calm := by
    intro op
    constructor
    · intro h
      cases op with
      | shard k o => cases o <;> first | exact trivial | exact absurd rfl (h k _)
      | _ => exact trivial
    · rintro h k t rfl; exact h
  have hg := Good.run f ns ops
  have hfed : (Net.run f ns ops).Fed := by
    refine runFrom_fed (σ := Net.init ns) ?_ ops fun op ho => (calm op).1 (hf op ho)
    intro k sh hk; cases hk
  suffices (Net.run f ns ops).hopeful f r.id by
    obtain ⟨later, h1, a, h2⟩ := this
    refine ⟨later, fun op ho => (calm op).2 (h1 op ho), a, ?_⟩
    unfold Net.run at h2 ⊢
    rw [List.foldl_append]
    exact h2
  generalize Net.run f ns ops = σ at hg hfed hr hl
  obtain ⟨⟨p, hp⟩, _⟩ := one_place hg hr
  cases p with
  | host n =>
    obtain ⟨h, hn, s, hw⟩ := hp
    rw [Host.waiting_eq] at hw
    have hs : f r.entity = s := hg.wf.hs n h hn s r hw
    exact hope_host hg hfed hn (by rw [hs]; exact hw)
  | task t => rw [← hp.2]; exact hope_task hg hfed hp.1
  | frame x => rw [← hp.2]; exact hope_frame hg hfed hp.1
  | shard k =>
    obtain ⟨sh, hk, e, hw⟩ := hp
    rw [waitingFor_eq] at hw
    have he := (hg.wf.st k sh hk).1.own e r hw
    exact hope_buffer hg hfed hk (by rw [he]; exact hw)
  | entity x => rw [← hp.2]; exact hope_running hg hp.1
  | reply a => exact hope_reply hg (p := (r.id, a)) hp
  | answered a => exact hope_answered ⟨a, hp⟩
  | lost => exact absurd hp hl

/-- **C76** (partial: the same, for a state in which nothing is left to do). When all tasks, frames and
replies have been dealt with, the hosts keep nothing and no entity is being started, every request made and
not lost is answered. -/
theorem C76_quiet_partial (f : Nat → Nat) (ns : List Nat) (ops : List NetOp) (hf : noFailedStart ops)
    (ht : (Net.run f ns ops).tasks = []) (hx : (Net.run f ns ops).frames = []) (hq : (Net.run f ns ops).running = [])
    (hp : (Net.run f ns ops).replies = []) (hh : ∀ n h, (Net.run f ns ops).hosts.get n = some h → ∀ s, h.waiting s = [])
    (hs : ∀ k sh, (Net.run f ns ops).shards.get k = some sh → sh.starting = []) (r : EReq)
    (hr : r ∈ (Net.run f ns ops).sent) (hl : r.id ∉ (Net.run f ns ops).lost) : ∃ a, (r.id, a) ∈ (Net.run f ns ops).answers := by
  have hg := Good.run f ns ops
  have hfed : (Net.run f ns ops).Fed := by
    refine runFrom_fed (σ := Net.init ns) ?_ ops fun op ho => ?_
    · intro k sh hk; cases hk
    · have h := hf op ho
      cases op with
      | shard k o => cases o <;> first | exact trivial | exact absurd rfl (h k _)
      | _ => exact trivial
  generalize Net.run f ns ops = σ at *
  obtain ⟨⟨p, hat⟩, _⟩ := one_place hg hr
  cases p with
  | host n =>
    obtain ⟨h, hn, s, hw⟩ := hat
    rw [hh n h hn s] at hw; cases hw
  | task t => have := hat.1; rw [ht] at this; cases this
  | frame x => have := hat.1; rw [hx] at this; cases this
  | shard k =>
    obtain ⟨sh, hk, e, hw⟩ := hat
    rw [waitingFor_eq] at hw
    obtain ⟨c, buf, h1, _⟩ := buffer_state hw
    obtain ⟨t, h2, _⟩ := hfed k sh hk e c buf h1
    rw [hs k sh hk] at h2; cases h2
  | entity x => have := hat.1; rw [hq] at this; cases this
  | reply a => have h : (r.id, a) ∈ σ.replies := hat; rw [hp] at h; cases h
  | answered a => exact ⟨a, hat⟩
  | lost => exact absurd hat hl

example : noFailedStart sampleOps ∧ sampleReq ∈ (Net.run (· % 3) [1, 2] (sampleOps.take 6)).sent ∧
    (7 : Nat) ∉ (Net.run (· % 3) [1, 2] (sampleOps.take 6)).lost := by
  refine ⟨?_, by decide +kernel, by decide +kernel⟩
  intro op ho k t e
  subst e
  simp [sampleOps] at ho

example : (Net.run (· % 3) [1, 2] sampleOps).tasks = [] ∧ (Net.run (· % 3) [1, 2] sampleOps).frames = [] ∧
    (Net.run (· % 3) [1, 2] sampleOps).running = [] ∧ (Net.run (· % 3) [1, 2] sampleOps).replies = [] ∧
    (Net.run (· % 3) [1, 2] sampleOps).hosts.all (fun p => p.2.waiting 2 == []) ∧
    (Net.run (· % 3) [1, 2] sampleOps).shards.all (fun p => p.2.starting == []) := by decide +kernel

end Verif.Sharding
