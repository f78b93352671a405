import Verif.Sharding.ShardLemmas

/-!
# Properties of shards and their entities (C43, C47, C48, C49)
-/

namespace Verif.Sharding

/-! ### C43 -/

/-- **C43.** With at least one shard, every entity has a shard, its number is below the number of shards,
and it is the hash of the id reduced by the number of shards without truncation: two nodes with the same
number of shards agree on every id. -/
theorem C43_placement {I : Type} (hash : I → UInt64) (n : UInt32) (hn : n ≠ 0) (id : I) :
    ∃ s, allocate hash n id = some s ∧ s < n ∧ s.toNat = (hash id).toNat % n.toNat := by
  have hpos : 0 < n.toNat := by
    rcases Nat.eq_zero_or_pos n.toNat with h | h
    · exact absurd (UInt32.toNat_inj.mp (by simpa using h)) hn
    · exact h
  have hlt : (hash id).toNat % n.toNat < n.toNat := Nat.mod_lt _ hpos
  have hsz : n.toNat < 2 ^ 32 := n.toNat_lt
  have e : (UInt32.ofNat ((hash id).toNat % n.toNat)).toNat = (hash id).toNat % n.toNat := by
    rw [UInt32.toNat_ofNat']
    exact Nat.mod_eq_of_lt (by omega)
  refine ⟨_, by rw [allocate, if_neg hn], ?_, e⟩
  rw [UInt32.lt_iff_toNat_lt, e]
  exact hlt

example : allocate (fun s : String => UInt64.ofNat (s.length * 5000000000)) 100 "entity-7" = some 0 := by decide
example : allocate (fun s : Nat => UInt64.ofNat (s * 5000000007)) 100 "entity-7".length = some 56 := by decide

/-- Entities with the same id, on nodes that use the same hash and number of shards, are in the same shard. -/
theorem C43_same {I : Type} (hash : I → UInt64) (n₁ n₂ : UInt32) (id₁ id₂ : I) (hn : n₁ = n₂) (hid : id₁ = id₂) :
    allocate hash n₁ id₁ = allocate hash n₂ id₂ := by rw [hn, hid]

/-- The number of shards must not be zero: the division panics. -/
theorem C43_zero_shards {I : Type} (hash : I → UInt64) (id : I) : allocate hash 0 id = none := rfl

/-! ### C47 -/

/-- the requests that arrived for entity `e` whose message type is known, in order. -/
def requestsFor (e : Nat) (ops : List ShardOp) : List EReq :=
  ops.filterMap fun op => match op with
    | .request r _ => if r.entity = e ∧ r.known = true then some r else none
    | _ => none

/-- the requests of `e` given to an instance or answered with an error, in order. -/
def dealtWith (e : Nat) (outs : List ShardOut) : List EReq :=
  outs.filterMap fun o => match o with
    | .deliver e' _ r => if e' = e then some r else none
    | .error e' r _ => if e' = e ∧ r.known = true then some r else none

/-- the requests waiting for entity `e` to start. -/
def Shard.waitingFor (σ : Shard) (e : Nat) : List EReq :=
  match σ.entities.get e with
  | some ⟨_, .starting buf⟩ => buf
  | _ => []

/-- the number of creations of `e` under way. -/
def Shard.startsUnderWay (σ : Shard) (e : Nat) : Nat := σ.starting.countP fun t => t.e = e

/-- the number of instances of `e` created so far. -/
def Shard.instances (σ : Shard) (e : Nat) : Nat := σ.created.countP fun p => p.1 = e

theorem requestsFor_eq (e : Nat) (ops : List ShardOp) : requestsFor e ops = ops.filterMap (ShardOp.brings e) := by
  unfold requestsFor; congr 1

theorem dealtWith_eq (e : Nat) (outs : List ShardOut) : dealtWith e outs = outs.filterMap (ShardOut.about e) := by
  unfold dealtWith; congr 1

theorem waitingFor_eq (σ : Shard) (e : Nat) : σ.waitingFor e = σ.buffer e := by
  unfold Shard.waitingFor Shard.buffer
  rcases σ.entities.get e with _ | ⟨c, st⟩
  · rfl
  · cases st <;> rfl

theorem startsUnderWay_eq (σ : Shard) (e : Nat) : σ.startsUnderWay e = (σ.tasks e).length := by
  unfold Shard.startsUnderWay Shard.tasks
  rw [List.countP_eq_length_filter]

/-- **C47.** From any recovered shard, as long as nobody sends an explicit `StartEntity` for `e`: at most
one creation of `e` is under way and at most one instance is ever created; none is under way once it is
active; and the requests that arrived are those dealt with, each once and in order, followed by those
waiting for the entity to start. -/
theorem C47_once_in_order_partial (j : List JEntry) (e : Nat) (ops : List ShardOp)
    (hop : ∀ c ok, ShardOp.startEntity e c ok ∉ ops) :
    let σ := (Shard.boot j).run ops
    requestsFor e ops = dealtWith e ((Shard.boot j).outs ops) ++ σ.waitingFor e ∧
    σ.startsUnderWay e ≤ 1 ∧ σ.instances e ≤ 1 ∧
    (∀ c i, σ.entities.get e = some ⟨c, .active i⟩ → σ.startsUnderWay e = 0) := by
  intro σ
  obtain ⟨hc, hb⟩ := boot_calm j e
  obtain ⟨h1, h2⟩ := Shard.run_calm hc ops hop
  rw [hb, List.nil_append] at h1
  refine ⟨?_, ?_, ?_, ?_⟩
  · rw [requestsFor_eq, dealtWith_eq, waitingFor_eq]; exact h1.symm
  · rw [startsUnderWay_eq]; exact h2.one
  · unfold Shard.instances
    rw [List.countP_eq_length_filter]; exact h2.created.2
  · intro c i hg
    rw [startsUnderWay_eq, h2.still (by
      rw [hg]
      rintro ⟨c', buf, h⟩
      simp at h)]
    rfl

/-- **C47.** When the entity is up, everything waiting is given to that instance, in order, and nothing is
waiting any more. -/
theorem C47_up (σ : Shard) (t : StartTask) (ht : t ∈ σ.starting) (hk : σ.entities.get t.e ≠ none) :
    (σ.step (.started t)).2 = (σ.waitingFor t.e).map (fun r => .deliver t.e t.i r) ∧
    (σ.next (.started t)).waitingFor t.e = [] ∧
    ∃ c, (σ.next (.started t)).entities.get t.e = some ⟨c, .active t.i⟩ := by
  obtain ⟨x, hx⟩ := Option.ne_none_iff_exists'.mp hk
  have e1 : x.st.buf = σ.waitingFor t.e := by
    rw [waitingFor_eq]; simp [Shard.buffer, hx]
  simp only [Shard.next, Shard.step, if_pos ht, Shard.started, hx, e1]
  refine ⟨trivial, ?_, x.recipe, ?_⟩
  · simp [Shard.waitingFor, Assoc.get_insert]
  · simp [Assoc.get_insert]

/-- three requests for a new entity: one creation, delivered in order. -/
example :
    let r (n : Nat) : EReq := ⟨n, 5, some 9, true⟩
    let ops := [ShardOp.request (r 1) true, .request (r 2) true, .started ⟨5, 9, 0⟩, .request (r 3) true]
    dealtWith 5 ((Shard.boot []).outs ops) = [r 1, r 2, r 3] ∧
      ((Shard.boot []).run (ops.take 2)).waitingFor 5 = [r 1, r 2] ∧
      ((Shard.boot []).run ops).instances 5 = 1 := by decide

/-- requests go to one instance only. -/
theorem C47_one_instance_partial (j : List JEntry) (e : Nat) (ops : List ShardOp)
    (hop : ∀ c ok, ShardOp.startEntity e c ok ∉ ops) (i i' : Nat) (r r' : EReq)
    (h : ShardOut.deliver e i r ∈ (Shard.boot j).outs ops) (h' : ShardOut.deliver e i' r' ∈ (Shard.boot j).outs ops) :
    i = i' := by
  -- every delivery is to an instance created, and active entities have a created instance
  have inv : ∀ ops : List ShardOp,
      (∀ e c i, ((Shard.boot j).run ops).entities.get e = some ⟨c, .active i⟩ → (e, i) ∈ ((Shard.boot j).run ops).created) ∧
      (∀ e i r, ShardOut.deliver e i r ∈ (Shard.boot j).outs ops → (e, i) ∈ ((Shard.boot j).run ops).created) := by
    intro ops
    induction ops using snoc_induction with
    | nil =>
      refine ⟨?_, ?_⟩
      · intro e c i hg
        have hg' : (recoverAll j).get e = some ⟨c, .active i⟩ := by rw [← boot_entities]; exact hg
        exact absurd rfl (recoverAll_inactive j e _ i hg')
      · intro e i r hm
        simp [Shard.outs] at hm
    | snoc ops op ih =>
      rw [Shard.run_append, Shard.outs_append]
      generalize (Shard.boot j).run ops = σ at ih
      generalize (Shard.boot j).outs ops = os at ih
      obtain ⟨ih1, ih2⟩ := ih
      show (∀ e c i, (σ.next op).entities.get e = some ⟨c, .active i⟩ → (e, i) ∈ (σ.next op).created) ∧ _
      have e2 : σ.outs [op] = (σ.step op).2 := by simp [Shard.outs]
      rw [e2]
      show _ ∧ ∀ e i r, ShardOut.deliver e i r ∈ os ++ (σ.step op).2 → (e, i) ∈ (σ.next op).created
      suffices H : (∀ p, p ∈ σ.created → p ∈ (σ.next op).created) ∧
          (∀ e c i, (σ.next op).entities.get e = some ⟨c, .active i⟩ → (e, i) ∈ (σ.next op).created) ∧
          (∀ e i r, ShardOut.deliver e i r ∈ (σ.step op).2 → (e, i) ∈ (σ.next op).created) by
        refine ⟨H.2.1, ?_⟩
        intro e i r hm
        rcases List.mem_append.mp hm with hm | hm
        · exact H.1 _ (ih2 e i r hm)
        · exact H.2.2 e i r hm
      cases op with
      | request q ok =>
        simp only [Shard.next, Shard.step, Shard.request]
        split
        · split
          · rename_i x hx
            refine ⟨fun p hp => hp, ?_, ?_⟩
            · intro e c i hg
              simp only [Assoc.get_insert] at hg
              split at hg
              · rename_i he
                subst he
                refine ih1 q.entity x.recipe i ?_
                rw [hx]
                obtain ⟨c', st⟩ := x
                cases st <;> simp [EState.request] at hg
                simp [hg.2]
              · exact ih1 e c i hg
            · intro e i r hm
              obtain ⟨c', st⟩ := x
              cases st with
              | active i' =>
                simp only [EState.request, List.mem_singleton, ShardOut.deliver.injEq] at hm
                rw [hm.1, hm.2.1]
                exact ih1 _ _ _ hx
              | idle => simp [EState.request] at hm
              | passivated => simp [EState.request] at hm
              | starting buf => simp [EState.request] at hm
          · split
            · refine ⟨fun p hp => hp, ?_, by simp⟩
              intro e c i hg
              simp only [Shard.startEntity, Assoc.get_insert] at hg
              split at hg
              · simp at hg
              · exact ih1 e c i hg
            · exact ⟨fun p hp => hp, ih1, by simp⟩
        · exact ⟨fun p hp => hp, ih1, by simp⟩
      | startEntity e' c' ok =>
        refine ⟨fun p hp => hp, ?_, by simp [Shard.step]⟩
        intro e c i hg
        simp only [Shard.next, Shard.step, Shard.handleStart, Shard.startEntity, Assoc.get_insert] at hg
        split at hg
        · simp at hg
        · exact ih1 e c i hg
      | started t =>
        simp only [Shard.next, Shard.step]
        split
        · simp only [Shard.started]
          split
          · refine ⟨fun p hp => List.mem_append_left _ hp, ?_, ?_⟩
            · intro e c i hg
              simp only [Assoc.get_insert] at hg
              split at hg
              · rename_i he
                simp only [Option.some.injEq, Entity.mk.injEq, EState.active.injEq] at hg
                rw [he, ← hg.2]; simp
              · exact List.mem_append_left _ (ih1 e c i hg)
            · intro e i r hm
              simp only [List.mem_map, ShardOut.deliver.injEq] at hm
              obtain ⟨_, _, h1, h2, _⟩ := hm
              rw [← h1, ← h2]; simp
          · exact ⟨fun p hp => List.mem_append_left _ hp, fun e c i hg => List.mem_append_left _ (ih1 e c i hg), by simp⟩
        · exact ⟨fun p hp => hp, ih1, by simp⟩
      | startFailed t =>
        simp only [Shard.next, Shard.step]
        split <;> exact ⟨fun p hp => hp, ih1, by simp⟩
      | snapshot => exact ⟨fun p hp => hp, ih1, by simp [Shard.step]⟩
      | childStopped e' i' =>
        simp only [Shard.next, Shard.step]
        split <;> exact ⟨fun p hp => hp, ih1, by simp⟩
  obtain ⟨hc, _⟩ := boot_calm j e
  have h2 := (Shard.run_calm hc ops hop).2
  obtain ⟨c, g⟩ := h2.created.1 i ((inv ops).2 e i r h)
  obtain ⟨c', g'⟩ := h2.created.1 i' ((inv ops).2 e i' r' h')
  rw [g] at g'
  simp only [Option.some.injEq, Entity.mk.injEq, EState.active.injEq] at g'
  exact g'.2

/-- **C47 fails** if the entity cannot be started: its requests are neither answered nor delivered, in no
continuation, and neither are later ones; the entity is never tried again. -/
theorem C47_failed_start_refuted (j : List JEntry) (e : Nat) (pre post : List ShardOp) (t : StartTask)
    (hte : t.e = e) (ht : t ∈ ((Shard.boot j).run pre).starting)
    (hpre : ∀ c ok, ShardOp.startEntity e c ok ∉ pre) (hpost : ∀ c ok, ShardOp.startEntity e c ok ∉ post) :
    let σ := ((Shard.boot j).run pre).next (.startFailed t)
    dealtWith e (σ.outs post) = [] ∧ (σ.run post).waitingFor e = σ.waitingFor e ++ requestsFor e post ∧
      (σ.run post).startsUnderWay e = 0 := by
  intro σ
  obtain ⟨hc, _⟩ := boot_calm j e
  have h2 := (Shard.run_calm hc pre hpre).2
  have hmem : t ∈ ((Shard.boot j).run pre).tasks e := List.mem_filter.mpr ⟨ht, by simpa using hte⟩
  obtain ⟨c, buf, hg⟩ : ∃ c buf, ((Shard.boot j).run pre).entities.get e = some ⟨c, .starting buf⟩ := by
    apply Classical.byContradiction
    intro hn
    rw [h2.still hn] at hmem; cases hmem
  have hcal : σ.Calm e := (Shard.step_calm h2 (.startFailed t) (by simp)).2
  have hgs : σ.entities.get e = some ⟨c, .starting buf⟩ := by
    show (((Shard.boot j).run pre).next (.startFailed t)).entities.get e = _
    simp only [Shard.next, Shard.step, if_pos ht]
    exact hg
  have hts : σ.tasks e = [] := by
    show (((Shard.boot j).run pre).next (.startFailed t)).tasks e = _
    simp only [Shard.next, Shard.step, if_pos ht]
    show (((Shard.boot j).run pre).starting.erase t).filter (fun u => decide (u.e = e)) = []
    rw [List.filter_erase']
    simp only [hte, decide_true, if_true]
    have h1' : (((Shard.boot j).run pre).starting.filter fun u => decide (u.e = e)).length ≤ 1 := h2.one
    have hm' : t ∈ ((Shard.boot j).run pre).starting.filter fun u => decide (u.e = e) := hmem
    apply List.length_eq_zero_iff.mp
    rw [List.length_erase_of_mem hm']
    omega
  -- stuck for ever
  have stuck : ∀ (ops : List ShardOp) (τ : Shard), (∀ c ok, ShardOp.startEntity e c ok ∉ ops) → τ.Calm e →
      (∃ c buf, τ.entities.get e = some ⟨c, .starting buf⟩) → τ.tasks e = [] →
      dealtWith e (τ.outs ops) = [] ∧ (τ.run ops).tasks e = [] := by
    intro ops
    induction ops with
    | nil => intro τ _ _ _ ht; exact ⟨rfl, ht⟩
    | cons op ops ih =>
      intro τ hop hcal hex htt
      obtain ⟨c, buf, hg⟩ := hex
      have hop1 : ∀ c ok, op ≠ .startEntity e c ok := fun c ok x => hop c ok (by rw [x]; exact List.mem_cons_self)
      have hcal' := (Shard.step_calm hcal op hop1).2
      have key : (τ.step op).2.filterMap (ShardOut.about e) = [] ∧
          (∃ c buf, (τ.next op).entities.get e = some ⟨c, .starting buf⟩) ∧ (τ.next op).tasks e = [] := by
        cases op with
        | request r ok =>
          by_cases he : r.entity = e
          · subst he
            simp only [Shard.next, Shard.step, Shard.request, hg]
            split
            · exact ⟨rfl, ⟨c, buf ++ [r], by simp [EState.request, Assoc.get_insert]⟩, htt⟩
            · rename_i hk
              exact ⟨by simp [ShardOut.about, hk], ⟨c, buf, hg⟩, htt⟩
          · have he' : e ≠ r.entity := fun x => he x.symm
            simp only [Shard.next, Shard.step, Shard.request]
            split
            · split
              · rename_i x _
                refine ⟨?_, ⟨c, buf, by simpa [Assoc.get_insert, he'] using hg⟩, htt⟩
                cases x.st <;> simp [EState.request, ShardOut.about, he]
              · split
                · refine ⟨rfl, ⟨c, buf, by simpa [Shard.startEntity, Assoc.get_insert, he'] using hg⟩, ?_⟩
                  rw [Shard.tasks_startEntity _ he]; exact htt
                · exact ⟨by simp [ShardOut.about, he], ⟨c, buf, hg⟩, htt⟩
            · exact ⟨by simp [ShardOut.about, he], ⟨c, buf, hg⟩, htt⟩
        | startEntity e' c' ok =>
          have he : e' ≠ e := fun x => hop1 c' ok (by rw [x])
          have he' : e ≠ e' := fun x => he x.symm
          refine ⟨rfl, ⟨c, buf, by simpa [Shard.next, Shard.step, Shard.handleStart, Shard.startEntity, Assoc.get_insert, he'] using hg⟩, ?_⟩
          simp only [Shard.next, Shard.step, Shard.handleStart]
          rw [Shard.tasks_startEntity _ he]; exact htt
        | started u =>
          simp only [Shard.next, Shard.step]
          split
          · rename_i hu
            by_cases he : u.e = e
            · have : u ∈ τ.tasks e := List.mem_filter.mpr ⟨hu, by simpa using he⟩
              rw [htt] at this; cases this
            · have he' : e ≠ u.e := fun x => he x.symm
              have hte : ∀ l : List StartTask, l.filter (fun v => decide (v.e = e)) = [] → (l.erase u).filter (fun v => decide (v.e = e)) = [] := by
                intro l hl
                rw [List.filter_erase']
                simp [he, hl]
              simp only [Shard.started]
              split
              · exact ⟨by simp [ShardOut.about, he], ⟨c, buf, by simpa [Assoc.get_insert, he'] using hg⟩, hte _ htt⟩
              · exact ⟨rfl, ⟨c, buf, hg⟩, hte _ htt⟩
          · exact ⟨rfl, ⟨c, buf, hg⟩, htt⟩
        | startFailed u =>
          simp only [Shard.next, Shard.step]
          split
          · refine ⟨rfl, ⟨c, buf, hg⟩, ?_⟩
            show (τ.starting.erase u).filter (fun v => decide (v.e = e)) = []
            have htt' : τ.starting.filter (fun v => decide (v.e = e)) = [] := htt
            rw [List.filter_erase', htt']
            split <;> rfl
          · exact ⟨rfl, ⟨c, buf, hg⟩, htt⟩
        | snapshot => exact ⟨rfl, ⟨c, buf, hg⟩, htt⟩
        | childStopped e' i' =>
          simp only [Shard.next, Shard.step]
          split <;> exact ⟨rfl, ⟨c, buf, hg⟩, htt⟩
      obtain ⟨k1, k2, k3⟩ := key
      obtain ⟨i1, i2⟩ := ih (τ.next op) (fun c ok x => hop c ok (List.mem_cons_of_mem _ x)) hcal' k2 k3
      refine ⟨?_, i2⟩
      rw [dealtWith_eq] at *
      simp only [Shard.outs, List.filterMap_append, k1, i1, List.append_nil]
  obtain ⟨s1, s2⟩ := stuck post σ hpost hcal ⟨c, buf, hgs⟩ hts
  have h3 := (Shard.run_calm hcal post hpost).1
  refine ⟨s1, ?_, ?_⟩
  · rw [waitingFor_eq, waitingFor_eq, requestsFor_eq, ← h3, ← dealtWith_eq, s1, List.nil_append]
  · rw [startsUnderWay_eq, s2]; rfl

example :
    let r (n : Nat) : EReq := ⟨n, 5, some 9, true⟩
    let σ := (Shard.boot []).run [.request (r 1) true, .startFailed ⟨5, 9, 0⟩, .request (r 2) true]
    σ.waitingFor 5 = [r 1, r 2] ∧ σ.starting = [] := by decide

/-- **C47 fails** if `StartEntity` is sent for an entity that is starting: a second instance is created and
the requests waiting are dropped. -/
theorem C47_second_start_refuted :
    let r : EReq := ⟨1, 5, some 9, true⟩
    let ops := [ShardOp.request r true, .startEntity 5 9 true, .started ⟨5, 9, 0⟩, .started ⟨5, 9, 1⟩]
    ((Shard.boot []).run (ops.take 2)).startsUnderWay 5 = 2 ∧ ((Shard.boot []).run ops).instances 5 = 2 ∧
      (Shard.boot []).outs ops = [] ∧ ((Shard.boot []).run ops).waitingFor 5 = [] := by decide

/-! ### C48 -/

/-- **C48.** A request with a recipe for an entity the shard does not know starts it, and it is delivered
when it is up. -/
theorem C48_new_partial (σ : Shard) (r : EReq) (c : Nat) (ok : Bool) (hk : r.known = true)
    (hn : σ.entities.get r.entity = none) (hc : r.recipe = some c) :
    let τ := σ.next (.request r ok)
    ⟨r.entity, c, σ.fresh⟩ ∈ τ.starting ∧
      (τ.step (.started ⟨r.entity, c, σ.fresh⟩)).2 = [.deliver r.entity σ.fresh r] := by
  intro τ
  have hτ : τ = ({ σ with entities := σ.entities.insert r.entity ⟨c, .starting [r]⟩ } : Shard).startEntity r.entity c true ok := by
    show σ.next (.request r ok) = _
    simp [Shard.next, Shard.step, Shard.request, hk, hn, hc]
  have hm : (⟨r.entity, c, σ.fresh⟩ : StartTask) ∈ τ.starting := by rw [hτ]; simp [Shard.startEntity]
  refine ⟨hm, ?_⟩
  have := (C47_up τ ⟨r.entity, c, σ.fresh⟩ hm (by rw [hτ]; simp [Shard.startEntity, Assoc.get_insert])).1
  rw [this]
  simp [hτ, Shard.waitingFor, Shard.startEntity, Assoc.get_insert]

example : ((Shard.boot [.start 1 4]).next (.request ⟨7, 5, some 9, true⟩ true)).starting = [⟨1, 4, 0⟩, ⟨5, 9, 1⟩] := by decide

/-- **C48 fails** for every entity the shard knows that is idle or passivated: every request is refused,
nothing is started, and the state of the shard does not change, so it stays so. -/
theorem C48_refused_refuted (σ : Shard) (e c : Nat) (st : EState) (hg : σ.entities.get e = some ⟨c, st⟩)
    (hst : st = .idle ∨ st = .passivated) (r : EReq) (hr : r.entity = e) (hk : r.known = true) (ok : Bool) :
    (σ.step (.request r ok)).2 = [.error e r .unavailable] ∧
      (σ.next (.request r ok)).starting = σ.starting ∧
      (σ.next (.request r ok)).entities.get e = some ⟨c, st⟩ := by
  subst hr
  rcases hst with rfl | rfl <;>
    simp [Shard.next, Shard.step, Shard.request, hk, hg, EState.request, Assoc.get_insert]

/-- such entities exist after a passivation or a snapshot. -/
example : (Shard.boot [.start 1 4, .passivate 1]).entities.get 1 = some ⟨4, .passivated⟩ := by decide
example : (Shard.boot ((Shard.boot [.start 1 4]).next .snapshot).journal).entities.get 1 = some ⟨4, .idle⟩ := by decide

/-- **C48 fails** for an entity that has stopped: the shard keeps it as active, and requests are given to
the instance that has ended. -/
theorem C48_stopped_refuted :
    let r (n : Nat) : EReq := ⟨n, 5, some 9, true⟩
    let ops := [ShardOp.request (r 1) true, .started ⟨5, 9, 0⟩, .childStopped 5 0]
    let σ := (Shard.boot []).run ops
    (5, 0) ∈ σ.ended ∧ (σ.step (.request (r 2) true)).2 = [.deliver 5 0 (r 2)] ∧
      (σ.next (.request (r 2) true)).starting = [] := by decide

end Verif.Sharding
