import Verif.Sharding.RequestLemmas

/-! What one operation does to the places of the requests. -/

namespace Verif.Sharding

/-- how often request `x` is somewhere on its way. -/
def Net.tok (f : Nat → Nat) (σ : Net) (x : EReq) : Nat :=
  total (fun h : Host EReq => (h.kept (f x.entity)).count x) σ.hosts + (σ.tasks.map (·.r)).count x +
    (σ.frames.map (·.r)).count x + total (fun sh : Shard => (sh.buffer x.entity).count x) σ.shards +
    (σ.running.map (·.r)).count x

/-- how often a result channel number is among the replies, answers and losses. -/
def Net.idc (σ : Net) (k : Nat) : Nat :=
  (σ.replies.map (·.1)).count k + (σ.answers.map (·.1)).count k + σ.lost.count k

/-- everything in its place. -/
structure Net.Wf (f : Nat → Nat) (σ : Net) : Prop where
  hu : σ.hosts.Uniq
  su : σ.shards.Uniq
  hs : ∀ n h, σ.hosts.get n = some h → h.Sorted fun r => f r.entity
  st : ∀ k sh, σ.shards.get k = some sh → sh.Tidy ∧ ∀ e, ∀ r ∈ sh.buffer e, f e = k.2.1
  tk : ∀ t ∈ σ.tasks, f t.r.entity = t.s
  fr : ∀ x ∈ σ.frames, f x.r.entity = x.s
  rn : ∀ x ∈ σ.running, x.r.entity = x.e ∧ f x.e = x.s

/-- why a shard may refuse a request. -/
def refusal (r : EReq) (x : EErr) : Prop :=
  (x = .notSupported → r.known = false) ∧ (x = .notFound → r.recipe = none)

/-- `σ'` is `σ` with requests `A` added and the result channels in `L` used. -/
structure Raw (f : Nat → Nat) (σ σ' : Net) (A : List EReq) (L : List (EReq × Ans)) : Prop where
  tok : ∀ x, σ'.tok f x + (L.map (·.1)).count x = σ.tok f x + A.count x
  idc : ∀ k, σ'.idc k = σ.idc k + (L.map (·.1.id)).count k
  res : ∀ p ∈ σ'.replies ++ σ'.answers, p ∈ σ.replies ++ σ.answers ∨ ∃ q ∈ L, p = (q.1.id, q.2)
  sent : σ'.sent = σ.sent
  exe : σ'.executed = σ.executed
  calm : ∀ q ∈ L, q.2 = .closed ∨ ∃ x, q.2 = .err x ∧ refusal q.1 x
  wf : σ'.Wf f

theorem resolve_tok (f : Nat → Nat) (σ : Net) (l : List (EReq × Ans)) (x : EReq) : (σ.resolve l).tok f x = σ.tok f x := rfl

theorem count_split (p : EReq × Ans → Bool) (l : List (EReq × Ans)) (k : Nat) :
    (((l.filter p).map fun q => (q.1.id, q.2)).map fun x => x.1).count k +
      (((l.filter fun q => !p q).map fun q => (q.1.id, q.2)).map fun x => x.1).count k = (l.map (·.1.id)).count k := by
  induction l with
  | nil => rfl
  | cons q l ih =>
    cases h : p q <;> simp [List.filter_cons, h, List.count_cons] at * <;> omega

theorem resolve_idc (σ : Net) (l : List (EReq × Ans)) (k : Nat) :
    (σ.resolve l).idc k = σ.idc k + (l.map (·.1.id)).count k := by
  have := count_split (fun p => σ.relayed.contains p.1.id) l k
  simp only [Net.idc, Net.resolve, List.map_append, List.count_append]
  omega

theorem resolve_res (σ : Net) (l : List (EReq × Ans)) (p : Nat × Ans) (h : p ∈ (σ.resolve l).replies ++ (σ.resolve l).answers) :
    p ∈ σ.replies ++ σ.answers ∨ ∃ q ∈ l, p = (q.1.id, q.2) := by
  simp only [Net.resolve, List.mem_append, List.mem_map, List.mem_filter] at h
  rcases h with (h | ⟨q, h, rfl⟩) | (h | ⟨q, h, rfl⟩)
  · exact Or.inl (List.mem_append.2 (Or.inl h))
  · exact Or.inr ⟨q, h.1, rfl⟩
  · exact Or.inl (List.mem_append.2 (Or.inr h))
  · exact Or.inr ⟨q, h.1, rfl⟩

theorem Net.Wf.resolve {f : Nat → Nat} {σ : Net} (h : σ.Wf f) (l : List (EReq × Ans)) : (σ.resolve l).Wf f :=
  ⟨h.hu, h.su, h.hs, h.st, h.tk, h.fr, h.rn⟩

theorem get_insert_cases {κ α : Type} [DecidableEq κ] {m : Assoc κ α} {k k' : κ} {v v' : α}
    (h : (m.insert k v).get k' = some v') : (k' = k ∧ v' = v) ∨ m.get k' = some v' := by
  rw [Assoc.get_insert] at h
  split at h
  · rename_i e; exact Or.inl ⟨e, (Option.some.inj h).symm⟩
  · exact Or.inr h

theorem hostStep_raw {f : Nat → Nat} {σ : Net} (hw : σ.Wf f) (n : Nat) (op : HostOp EReq) {h : Host EReq}
    (hg : σ.hosts.get n = some h) : ∃ L, Raw f σ (σ.hostStep f n op) op.arrives L := by
  have hs := hw.hs n h hg
  refine ⟨(h.drops (fun r => f r.entity) op).map fun r => (r, .closed), ?_⟩
  have e : σ.hostStep f n op = ((({ σ with hosts := σ.hosts.insert n (h.next (fun r => f r.entity) op) } : Net).emit n
      (h.step (fun r => f r.entity) op).2).resolve ((h.drops (fun r => f r.entity) op).map fun r => (r, .closed))) := by
    unfold Net.hostStep; rw [hg]; rfl
  have hwf : ((({ σ with hosts := σ.hosts.insert n (h.next (fun r => f r.entity) op) } : Net).emit n
      (h.step (fun r => f r.entity) op).2)).Wf f := by
    have ho := out_shard (fun r => f r.entity) h op
    refine ⟨hw.hu.insert _ _, hw.su, ?_, hw.st, ?_, ?_, hw.rn⟩
    · intro m h' hm
      rcases get_insert_cases hm with ⟨_, rfl⟩ | hm
      · exact hs.next op
      · exact hw.hs m h' hm
    · intro t ht
      simp only [Net.emit, List.mem_append, List.mem_filterMap] at ht
      rcases ht with ht | ⟨o, ho', ht⟩
      · exact hw.tk t ht
      · cases o <;> simp [HostOut.task] at ht
        subst ht
        rename_i s a r
        rw [ho.1 s a r ho']
        exact hs.outs op r (List.mem_filterMap.2 ⟨_, ho', rfl⟩)
    · intro t ht
      simp only [Net.emit, List.mem_append, List.mem_filterMap] at ht
      rcases ht with ht | ⟨o, ho', ht⟩
      · exact hw.fr t ht
      · cases o <;> simp [HostOut.frame] at ht
        subst ht
        rename_i m s r
        rw [ho.2 m s r ho']
        exact hs.outs op r (List.mem_filterMap.2 ⟨_, ho', rfl⟩)
  rw [e]
  refine ⟨?_, ?_, fun p hp => (by have h := resolve_res _ _ p hp; exact h), rfl, rfl, ?_, hwf.resolve _⟩
  · intro x
    rw [resolve_tok]
    have h1 := total_insert (fun h : Host EReq => (h.kept (f x.entity)).count x) hw.hu n (h.next (fun r => f r.entity) op)
    rw [hg] at h1
    have h2 := Host.conserve hs op x
    have h3 := req_count n (h.step (fun r => f r.entity) op).2 x
    simp only [Option.map_some, Option.getD_some] at h1
    simp only [Net.tok, Net.emit, List.map_append, List.count_append, List.map_map]
    have e1 : ((fun q : EReq × Ans => q.1) ∘ fun r => (r, Ans.closed)) = id := rfl
    rw [e1, List.map_id]
    omega
  · intro k
    rw [resolve_idc]; rfl
  · intro q hq
    simp only [List.mem_map] at hq
    obtain ⟨r, _, rfl⟩ := hq
    exact Or.inl rfl

theorem endShard_raw {f : Nat → Nat} {σ : Net} (hw : σ.Wf f) (k : Nat × Nat × Nat) : ∃ L, Raw f σ (σ.endShard k) [] L := by
  unfold Net.endShard
  cases hg : σ.shards.get k with
  | none => exact ⟨[], by simp, by simp, fun p hp => Or.inl hp, rfl, rfl, by simp, hw⟩
  | some sh =>
    have ht := (hw.st k sh hg).1
    refine ⟨sh.waitingAll.map fun r => (r, .closed), ?_, ?_, fun p hp => (by have h := resolve_res _ _ p hp; exact h), rfl, rfl, ?_, ?_⟩
    · intro x
      rw [resolve_tok]
      have h1 := total_erase (fun sh : Shard => (sh.buffer x.entity).count x) hw.su k
      rw [hg] at h1
      have h2 := ht.waitingAll x
      simp only [Option.map_some, Option.getD_some] at h1
      simp only [Net.tok, List.map_map]
      have e1 : ((fun q : EReq × Ans => q.1) ∘ fun r => (r, Ans.closed)) = id := rfl
      rw [e1, List.map_id, List.count_nil]
      omega
    · intro k'
      rw [resolve_idc]; rfl
    · intro q hq
      simp only [List.mem_map] at hq
      obtain ⟨r, _, rfl⟩ := hq
      exact Or.inl rfl
    · refine Net.Wf.resolve (σ := { σ with shards := σ.shards.erase k }) ⟨hw.hu, hw.su.erase _, hw.hs, ?_, hw.tk, hw.fr, hw.rn⟩ _
      intro k' sh' hk
      rw [Assoc.get_erase] at hk
      split at hk
      · cases hk
      · exact hw.st k' sh' hk

theorem out_count (s : Nat) (outs : List ShardOut) (x : EReq) :
    (outs.map ShardOut.req).count x = ((outs.filterMap (ShardOut.run s)).map (·.r)).count x +
      ((outs.filterMap ShardOut.refused).map (·.1)).count x := by
  induction outs with
  | nil => rfl
  | cons o outs ih =>
    cases o <;> simp [List.filterMap_cons, ShardOut.req, ShardOut.run, ShardOut.refused, List.count_cons] at * <;> omega

/-- what a shard keeps or gives out after an operation it had or got. -/
theorem buffer_from {σ : Shard} (ht : σ.Tidy) (op : ShardOp) {r : EReq} (h : r ∈ (σ.next op).buffer r.entity) :
    r ∈ σ.buffer r.entity ∨ r ∈ op.arrives := by
  have h1 := σ.conserve ht op r
  have h2 := List.count_pos_iff.2 h
  have h3 : 0 < (σ.buffer r.entity).count r ∨ 0 < op.arrives.count r := by omega
  exact h3.imp List.count_pos_iff.1 List.count_pos_iff.1

theorem out_from {σ : Shard} (ht : σ.Tidy) (op : ShardOp) {r : EReq} (h : r ∈ (σ.step op).2.map ShardOut.req) :
    r ∈ σ.buffer r.entity ∨ r ∈ op.arrives := by
  have h1 := σ.conserve ht op r
  have h2 := List.count_pos_iff.2 h
  have h3 : 0 < (σ.buffer r.entity).count r ∨ 0 < op.arrives.count r := by omega
  exact h3.imp List.count_pos_iff.1 List.count_pos_iff.1

theorem shardStep_raw {f : Nat → Nat} {σ : Net} (hw : σ.Wf f) (k : Nat × Nat × Nat) (op : ShardOp) {sh : Shard}
    (hg : σ.shards.get k = some sh) (ha : ∀ r ∈ op.arrives, f r.entity = k.2.1) :
    ∃ L, Raw f σ (σ.shardStep k op) op.arrives L := by
  obtain ⟨ht, hb⟩ := hw.st k sh hg
  refine ⟨(sh.step op).2.filterMap ShardOut.refused ++ (sh.drops op).map fun r => (r, .closed), ?_⟩
  have e : σ.shardStep k op = ({ σ with shards := σ.shards.insert k (sh.next op)
                                        running := σ.running ++ (sh.step op).2.filterMap (ShardOut.run k.2.1) } : Net).resolve
      ((sh.step op).2.filterMap ShardOut.refused ++ (sh.drops op).map fun r => (r, .closed)) := by
    unfold Net.shardStep; rw [hg]; cases op <;> rfl
  have here : ∀ r, (r ∈ sh.buffer r.entity ∨ r ∈ op.arrives) → f r.entity = k.2.1 := by
    rintro r (h | h)
    · exact hb _ r h
    · exact ha r h
  rw [e]
  refine ⟨?_, ?_, fun p hp => (by have h := resolve_res _ _ p hp; exact h), rfl, rfl, ?_, ?_⟩
  · intro x
    rw [resolve_tok]
    have h1 := total_insert (fun sh : Shard => (sh.buffer x.entity).count x) hw.su k (sh.next op)
    rw [hg] at h1
    simp only [Option.map_some, Option.getD_some] at h1
    have h2 := sh.conserve ht op x
    have h3 := out_count k.2.1 (sh.step op).2 x
    simp only [Net.tok, List.map_append, List.count_append, List.map_map]
    have e1 : ((fun q : EReq × Ans => q.1) ∘ fun r => (r, Ans.closed)) = id := rfl
    rw [e1, List.map_id]
    omega
  · intro k'
    rw [resolve_idc]; rfl
  · intro q hq
    rcases List.mem_append.1 hq with hq | hq
    · obtain ⟨o, ho, hq⟩ := List.mem_filterMap.1 hq
      cases o with
      | deliver e i r => cases hq
      | error e r x =>
        cases hq
        exact Or.inr ⟨x, rfl, (ht.outs op).2 e r x ho⟩
    · obtain ⟨r, _, rfl⟩ := List.mem_map.1 hq
      exact Or.inl rfl
  · refine Net.Wf.resolve (σ := { σ with shards := σ.shards.insert k (sh.next op)
                                         running := σ.running ++ (sh.step op).2.filterMap (ShardOut.run k.2.1) })
      ⟨hw.hu, hw.su.insert _ _, hw.hs, ?_, hw.tk, hw.fr, ?_⟩ _
    · intro k' sh' hk
      rcases get_insert_cases hk with ⟨rfl, rfl⟩ | hk
      · refine ⟨ht.next op, ?_⟩
        intro e r hr
        have he := (ht.next op).own e r hr
        subst he
        exact here r (buffer_from ht op hr)
      · exact hw.st k' sh' hk
    · intro x hx
      rcases List.mem_append.1 hx with hx | hx
      · exact hw.rn x hx
      · obtain ⟨o, ho, hx⟩ := List.mem_filterMap.1 hx
        cases o with
        | error e r y => cases hx
        | deliver e i r =>
          cases hx
          have he := (ht.outs op).1 e i r ho
          refine ⟨he, ?_⟩
          subst he
          exact here r (out_from ht op (List.mem_map.2 ⟨_, ho, rfl⟩))

end Verif.Sharding
