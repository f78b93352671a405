import Verif.Sharding.RequestModel

/-! Lemmas about the way of a request: counting it in every place it can be. -/

namespace Verif.Sharding

/-! ### counting -/

/-- the sum of a weight over the values of a map. -/
def total {κ α : Type} (w : α → Nat) (m : Assoc κ α) : Nat := (m.map fun p => w p.2).sum

theorem total_erase {κ α : Type} [DecidableEq κ] (w : α → Nat) {m : Assoc κ α} (hu : m.Uniq) (k : κ) :
    total w (m.erase k) + ((m.get k).map w).getD 0 = total w m := by
  induction m with
  | nil => rfl
  | cons p m ih =>
    obtain ⟨k', v⟩ := p
    have h1 := (List.pairwise_cons.1 hu).1
    have h2 := ih (List.pairwise_cons.1 hu).2
    by_cases h : k' = k
    · subst h
      have he : Assoc.erase ((k', v) :: m) k' = m := by
        unfold Assoc.erase
        rw [List.filter_cons_of_neg (by simp)]
        exact List.filter_eq_self.2 fun q hq => by simpa using Ne.symm (h1 q hq)
      rw [he]
      simp [total, Assoc.get_cons]; omega
    · have he : Assoc.erase ((k', v) :: m) k = (k', v) :: Assoc.erase m k := by
        unfold Assoc.erase
        rw [List.filter_cons_of_pos (by simp [h])]
      rw [he]
      simp only [total, List.map_cons, List.sum_cons, Assoc.get_cons, if_neg h] at h2 ⊢
      omega

theorem total_insert {κ α : Type} [DecidableEq κ] (w : α → Nat) {m : Assoc κ α} (hu : m.Uniq) (k : κ) (v : α) :
    total w (m.insert k v) + ((m.get k).map w).getD 0 = total w m + w v := by
  have := total_erase w hu k
  unfold Assoc.insert
  simp only [total, List.map_cons, List.sum_cons] at this ⊢
  omega

theorem count_minus {α : Type} [DecidableEq α] (l m : List α) (x : α) :
    (minus l m).count x = l.count x - m.count x := by
  induction m generalizing l with
  | nil => simp [minus]
  | cons y m ih =>
    have := ih (l.erase y)
    unfold minus at this ⊢
    rw [List.foldl_cons, this, List.count_erase, List.count_cons]
    by_cases h : y = x
    · subst h; simp; omega
    · have h' : ¬ x = y := fun e => h e.symm
      simp [h, h']

theorem count_erase_add {α : Type} [DecidableEq α] {l : List α} {x : α} (h : x ∈ l) (y : α) :
    (l.erase x).count y + [x].count y = l.count y := by
  have h1 : 0 < l.count x := List.count_pos_iff.2 h
  rw [List.count_erase]
  by_cases e : x = y
  · subst e; simp; omega
  · have e' : ¬ y = x := fun h => e h.symm
    simp [e, e']

theorem count_map_erase {α β : Type} [BEq α] [LawfulBEq α] [DecidableEq β] (g : α → β) {l : List α} {x : α} (h : x ∈ l) (y : β) :
    ((l.erase x).map g).count y + [g x].count y = (l.map g).count y := by
  have hp : l.Perm (x :: l.erase x) := List.perm_cons_erase h
  rw [(hp.map g).count_eq y, List.map_cons]
  simp [List.count_cons]

theorem filterMap_congr' {α β : Type} (p q : α → Option β) (l : List α) (h : ∀ x ∈ l, p x = q x) :
    l.filterMap p = l.filterMap q := by
  induction l with
  | nil => rfl
  | cons x l ih =>
    rw [List.filterMap_cons, List.filterMap_cons, h x (by simp), ih fun y hy => h y (by simp [hy])]

/-! ### hosts -/

/-- the request an output of a host passes on. -/
def HostOut.req : HostOut EReq → Option EReq
  | .deliver _ _ r => some r
  | .forward _ _ r => some r
  | _ => none

theorem sent_eq_req (g : EReq → Nat) (h : Host EReq) (op : HostOp EReq) :
    (h.step g op).2.filterMap (HostOut.sent (op.shard g)) = (h.step g op).2.filterMap HostOut.req := by
  refine filterMap_congr' _ _ _ fun o ho => ?_
  have key : ∀ s r, HostOut.sent s o = some r → s = op.shard g := by
    intro s r hs
    refine Decidable.byContradiction fun hne => ?_
    have h2 := (h.step_other g op (s := s) (Ne.symm hne)).2.1
    have : r ∈ (h.step g op).2.filterMap (HostOut.sent s) := List.mem_filterMap.2 ⟨o, ho, hs⟩
    rw [h2] at this; cases this
  cases o with
  | ask s => rfl
  | reply q s => rfl
  | deliver s a r => have := key s r (by simp [HostOut.sent]); simp [HostOut.sent, HostOut.req, this]
  | forward n s r => have := key s r (by simp [HostOut.sent]); simp [HostOut.sent, HostOut.req, this]

theorem req_count (n : Nat) (outs : List (HostOut EReq)) (x : EReq) :
    (outs.filterMap HostOut.req).count x =
      ((outs.filterMap (HostOut.task n)).map (·.r)).count x + ((outs.filterMap HostOut.frame).map (·.r)).count x := by
  induction outs with
  | nil => rfl
  | cons o outs ih =>
    cases o <;> simp [List.filterMap_cons, HostOut.req, HostOut.task, HostOut.frame, List.count_cons] at * <;> omega

/-- the shard of an output is the shard of the operation. -/
theorem out_shard (g : EReq → Nat) (h : Host EReq) (op : HostOp EReq) :
    (∀ s a r, .deliver s a r ∈ (h.step g op).2 → s = op.shard g) ∧
    (∀ n s r, .forward n s r ∈ (h.step g op).2 → s = op.shard g) := by
  have key : ∀ o ∈ (h.step g op).2, ∀ s r, HostOut.sent s o = some r → s = op.shard g := by
    intro o ho s r hs
    refine Decidable.byContradiction fun hne => ?_
    have h2 := (h.step_other g op (s := s) (Ne.symm hne)).2.1
    have : r ∈ (h.step g op).2.filterMap (HostOut.sent s) := List.mem_filterMap.2 ⟨o, ho, hs⟩
    rw [h2] at this; cases this
  exact ⟨fun s a r ho => key _ ho s r (by simp [HostOut.sent]), fun n s r ho => key _ ho s r (by simp [HostOut.sent])⟩

/-- all that is kept for a shard belongs to it. -/
def Host.Sorted (g : EReq → Nat) (h : Host EReq) : Prop := ∀ s, ∀ r ∈ h.kept s, g r = s

theorem brings_shard (g : EReq → Nat) (op : HostOp EReq) (s : Nat) (r : EReq) (h : op.brings g s = some r) :
    op = .request r ∧ g r = s := by
  cases op <;> simp [HostOp.brings] at h
  obtain ⟨h1, h2⟩ := h
  subst h2; exact ⟨rfl, h1⟩

theorem Host.Sorted.next {g : EReq → Nat} {h : Host EReq} (hs : h.Sorted g) (op : HostOp EReq) : (h.next g op).Sorted g := by
  intro s r hr
  have h1 := h.step_count g op s r
  have h2 : 0 < ((h.next g op).kept s).count r := List.count_pos_iff.2 hr
  have h3 : 0 < (h.kept s).count r ∨ 0 < (op.brings g s).toList.count r := by omega
  rcases h3 with h3 | h3
  · exact hs s r (List.count_pos_iff.1 h3)
  · have := List.count_pos_iff.1 h3
    cases hb : op.brings g s with
    | none => simp [hb] at this
    | some r' =>
      simp [hb] at this; subst this
      exact (brings_shard g op s r hb).2

/-- the requests passed on belong to the shard of the operation. -/
theorem Host.Sorted.outs {g : EReq → Nat} {h : Host EReq} (hs : h.Sorted g) (op : HostOp EReq) (r : EReq)
    (hr : r ∈ (h.step g op).2.filterMap HostOut.req) : g r = op.shard g := by
  rw [← sent_eq_req] at hr
  have h1 := h.step_count g op (op.shard g) r
  have h2 := List.count_pos_iff.2 hr
  have h3 : 0 < (h.kept (op.shard g)).count r ∨ 0 < (op.brings g (op.shard g)).toList.count r := by omega
  rcases h3 with h3 | h3
  · exact hs _ r (List.count_pos_iff.1 h3)
  · have := List.count_pos_iff.1 h3
    cases hb : op.brings g (op.shard g) with
    | none => simp [hb] at this
    | some r' =>
      simp [hb] at this; subst this
      exact (brings_shard g op _ r hb).2

/-- what an operation brings. -/
def HostOp.arrives : HostOp EReq → List EReq
  | .request r => [r]
  | _ => []

/-- the requests an operation drops. -/
def Host.drops (g : EReq → Nat) (h : Host EReq) (op : HostOp EReq) : List EReq :=
  minus (h.kept (op.shard g) ++ (op.brings g (op.shard g)).toList)
    ((h.next g op).kept (op.shard g) ++ (h.step g op).2.filterMap (HostOut.sent (op.shard g)))

/-- Nothing is created: what a host has of a request after an operation, with what it passed on and
dropped, is what it had and got. -/
theorem Host.conserve {g : EReq → Nat} {h : Host EReq} (hs : h.Sorted g) (op : HostOp EReq) (x : EReq) :
    ((h.next g op).kept (g x)).count x + ((h.step g op).2.filterMap HostOut.req).count x + (h.drops g op).count x =
      (h.kept (g x)).count x + op.arrives.count x := by
  by_cases hx : g x = op.shard g
  · have h1 := h.step_count g op (op.shard g) x
    have hb : op.arrives = (op.brings g (op.shard g)).toList := by
      cases op <;> simp [HostOp.arrives, HostOp.brings, HostOp.shard]
    rw [hx, ← sent_eq_req, hb, Host.drops, count_minus, List.count_append, List.count_append]
    omega
  · have h1 := (h.step_other g op (s := g x) (Ne.symm hx)).1
    have e1 : (h.next g op).kept (g x) = h.kept (g x) := h1
    have e2 : ((h.step g op).2.filterMap HostOut.req).count x = 0 :=
      List.count_eq_zero.2 fun hm => hx (hs.outs op x hm)
    have e3 : (h.drops g op).count x = 0 := by
      rw [Host.drops, count_minus, List.count_append]
      have : (h.kept (op.shard g)).count x = 0 := List.count_eq_zero.2 fun hm => hx (hs _ x hm)
      have : (op.brings g (op.shard g)).toList.count x = 0 := by
        refine List.count_eq_zero.2 fun hm => ?_
        cases hb : op.brings g (op.shard g) with
        | none => simp [hb] at hm
        | some r' => simp [hb] at hm; subst hm; exact hx (brings_shard g op _ x hb).2
      omega
    have e4 : op.arrives.count x = 0 := by
      refine List.count_eq_zero.2 fun hm => ?_
      cases op <;> simp [HostOp.arrives] at hm
      subst hm; exact hx rfl
    rw [e1, e2, e3, e4]

theorem Host.Sorted.init (g : EReq → Nat) (n : Nat) : (Host.init n).Sorted g := by
  intro s r hr
  simp [Host.init, Host.kept] at hr

/-! ### shards -/

/-- each entity is known once and has only its own requests waiting. -/
structure Shard.Tidy (σ : Shard) : Prop where
  uniq : σ.entities.Uniq
  own : ∀ e, ∀ r ∈ σ.buffer e, r.entity = e

def ShardOut.req : ShardOut → EReq
  | .deliver _ _ r => r
  | .error _ r _ => r

def ShardOp.arrives : ShardOp → List EReq
  | .request r _ => [r]
  | _ => []

/-- the requests an operation drops. -/
def Shard.drops (σ : Shard) : ShardOp → List EReq
  | .startEntity e _ _ => σ.buffer e
  | _ => []

theorem buffer_insert (σ : Shard) (e e' : Nat) (x : Entity) :
    ({ σ with entities := σ.entities.insert e x } : Shard).buffer e' = if e' = e then x.st.buf else σ.buffer e' := by
  unfold Shard.buffer
  simp only [Assoc.get_insert]
  split <;> simp

theorem buffer_ins {σ τ : Shard} {e : Nat} {x : Entity} (h : τ.entities = σ.entities.insert e x) (e' : Nat) :
    τ.buffer e' = if e' = e then x.st.buf else σ.buffer e' := by
  unfold Shard.buffer
  rw [h, Assoc.get_insert]
  split <;> simp

theorem buffer_congr {σ τ : Shard} (h : σ.entities = τ.entities) (e : Nat) : σ.buffer e = τ.buffer e := by
  unfold Shard.buffer; rw [h]

theorem Shard.conserve {σ : Shard} (ht : σ.Tidy) (op : ShardOp) (x : EReq) :
    ((σ.next op).buffer x.entity).count x + ((σ.step op).2.map ShardOut.req).count x + (σ.drops op).count x =
      (σ.buffer x.entity).count x + op.arrives.count x := by
  cases op with
  | request r ok =>
    simp only [Shard.next, Shard.step, Shard.request, Shard.drops, ShardOp.arrives]
    by_cases hk : r.known = true
    · simp only [hk, if_true]
      cases hg : σ.entities.get r.entity with
      | some y =>
        obtain ⟨c, st⟩ := y
        simp only [buffer_insert]
        by_cases he : x.entity = r.entity
        · have hb : σ.buffer x.entity = st.buf := by unfold Shard.buffer; rw [he, hg]; rfl
          rw [hb]
          cases st <;> simp [EState.request, EState.buf, he, ShardOut.req, List.count_append]
        · have hne : ¬ r = x := fun e => he (by rw [e])
          cases st <;> simp [EState.request, he, ShardOut.req, hne]
      | none =>
        cases hc : r.recipe with
        | none => simp [ShardOut.req]
        | some c =>
          simp only [List.map_nil, List.count_nil]
          have hb : (({ σ with entities := σ.entities.insert r.entity ⟨c, .starting [r]⟩ } : Shard).startEntity r.entity c true ok).buffer x.entity =
              if x.entity = r.entity then [r] else σ.buffer x.entity := by
            exact buffer_ins (σ := σ) (x := ⟨c, .starting [r]⟩) rfl _
          rw [hb]
          by_cases he : x.entity = r.entity
          · have h0 : σ.buffer x.entity = [] := by unfold Shard.buffer; rw [he, hg]; rfl
            simp [he, h0]
            rw [← he, h0]; simp
          · have hne : ¬ r = x := fun e => he (by rw [e])
            simp [he, hne]
    · simp [hk, ShardOut.req]
  | startEntity e c ok =>
    simp only [Shard.next, Shard.step, Shard.handleStart, Shard.drops, ShardOp.arrives, List.map_nil, List.count_nil, Nat.add_zero]
    have hb : (({ σ with entities := σ.entities.insert e ⟨c, .starting []⟩ } : Shard).startEntity e c true ok).buffer x.entity =
        if x.entity = e then [] else σ.buffer x.entity := by
      exact buffer_ins (σ := σ) (x := ⟨c, .starting []⟩) rfl _
    rw [hb]
    by_cases he : x.entity = e
    · simp [he]
    · have : (σ.buffer e).count x = 0 := List.count_eq_zero.2 fun hm => he (ht.own e x hm)
      simp [he, this]
  | started t =>
    simp only [Shard.next, Shard.step, Shard.drops, ShardOp.arrives, List.count_nil, Nat.add_zero]
    split
    · simp only [Shard.started]
      cases hg : σ.entities.get t.e with
      | none => simp only [List.map_nil, List.count_nil, Nat.add_zero]; rw [buffer_congr rfl]; rfl
      | some y =>
        simp only [List.map_map]
        have e1 : (ShardOut.req ∘ fun r => ShardOut.deliver t.e t.i r) = id := by funext r; rfl
        rw [e1, List.map_id]
        have hb := buffer_ins (σ := σ) (τ := ⟨σ.entities.insert t.e ⟨y.recipe, .active t.i⟩, σ.journal, σ.fresh, σ.starting.erase t,
          σ.created ++ [(t.e, t.i)], σ.ended⟩) (e := t.e) (x := ⟨y.recipe, .active t.i⟩) rfl x.entity
        rw [hb]
        have hy : σ.buffer t.e = y.st.buf := by unfold Shard.buffer; rw [hg]; rfl
        by_cases he : x.entity = t.e
        · simp [he, hy, EState.buf]
        · have : y.st.buf.count x = 0 := List.count_eq_zero.2 fun hm => he (ht.own t.e x (by rw [hy]; exact hm))
          simp [he, this]
    · simp
  | startFailed t =>
    simp only [Shard.next, Shard.step, Shard.drops, ShardOp.arrives]
    split <;> simp [Shard.startFailed, Shard.buffer]
  | snapshot => simp [Shard.next, Shard.step, Shard.drops, ShardOp.arrives, Shard.buffer]
  | childStopped e i =>
    simp only [Shard.next, Shard.step, Shard.drops, ShardOp.arrives]
    split <;> simp [Shard.buffer]

theorem next_entities_uniq {σ : Shard} (h : σ.entities.Uniq) (op : ShardOp) : (σ.next op).entities.Uniq := by
  cases op with
  | request r ok =>
    simp only [Shard.next, Shard.step, Shard.request]
    split
    · split
      · exact h.insert _ _
      · split
        · exact h.insert _ _
        · exact h
    · exact h
  | startEntity e c ok => exact h.insert _ _
  | started t =>
    simp only [Shard.next, Shard.step]
    split
    · simp only [Shard.started]; split
      · exact h.insert _ _
      · exact h
    · exact h
  | startFailed t => simp only [Shard.next, Shard.step]; split <;> exact h
  | snapshot => exact h
  | childStopped e i => simp only [Shard.next, Shard.step]; split <;> exact h

theorem Shard.Tidy.next {σ : Shard} (ht : σ.Tidy) (op : ShardOp) : (σ.next op).Tidy := by
  refine ⟨next_entities_uniq ht.uniq op, ?_⟩
  intro e r hr
  cases op with
  | request r' ok =>
    simp only [Shard.next, Shard.step, Shard.request] at hr
    split at hr
    · split at hr
      · rename_i y hg
        rw [buffer_insert] at hr
        split at hr
        · rename_i he
          subst he
          cases hst : y.st with
          | starting buf =>
            rw [hst] at hr
            simp only [EState.request, EState.buf, List.mem_append, List.mem_singleton] at hr
            rcases hr with hr | hr
            · refine ht.own _ r ?_
              unfold Shard.buffer; rw [hg]; simp [hst, EState.buf, hr]
            · rw [hr]
          | idle => rw [hst] at hr; simp [EState.request, EState.buf] at hr
          | passivated => rw [hst] at hr; simp [EState.request, EState.buf] at hr
          | active i => rw [hst] at hr; simp [EState.request, EState.buf] at hr
        · exact ht.own e r hr
      · split at hr
        · rename_i c hc
          rw [buffer_ins (σ := σ) (e := r'.entity) (x := ⟨c, .starting [r']⟩) (by rfl)] at hr
          split at hr
          · rename_i he
            simp only [EState.buf, List.mem_singleton] at hr
            rw [he, hr]
          · exact ht.own e r hr
        · exact ht.own e r hr
    · exact ht.own e r hr
  | startEntity e' c ok =>
    simp only [Shard.next, Shard.step, Shard.handleStart] at hr
    rw [buffer_ins (σ := σ) (e := e') (x := ⟨c, .starting []⟩) (by rfl)] at hr
    split at hr
    · simp [EState.buf] at hr
    · exact ht.own e r hr
  | started t =>
    simp only [Shard.next, Shard.step] at hr
    split at hr
    · simp only [Shard.started] at hr
      split at hr
      · rename_i y hg
        rw [buffer_ins (σ := σ) (e := t.e) (x := ⟨y.recipe, .active t.i⟩) (by rfl)] at hr
        split at hr
        · simp [EState.buf] at hr
        · exact ht.own e r hr
      · exact ht.own e r hr
    · exact ht.own e r hr
  | startFailed t => simp only [Shard.next, Shard.step] at hr; split at hr <;> exact ht.own e r hr
  | snapshot => exact ht.own e r hr
  | childStopped e' i => simp only [Shard.next, Shard.step] at hr; split at hr <;> exact ht.own e r hr

theorem Shard.Tidy.boot (j : List JEntry) : (Shard.boot j).Tidy := by
  refine ⟨by rw [boot_entities]; exact recoverAll_uniq j, ?_⟩
  intro e r hr
  rw [(boot_calm j e).2] at hr; cases hr

theorem Shard.Tidy.waitingAll {σ : Shard} (ht : σ.Tidy) (x : EReq) :
    σ.waitingAll.count x = (σ.buffer x.entity).count x := by
  obtain ⟨hu, ho⟩ := ht
  unfold Shard.waitingAll Shard.buffer at *
  generalize σ.entities = m at *
  induction m with
  | nil => simp
  | cons p m ih =>
    obtain ⟨e, y⟩ := p
    have hu' := (List.pairwise_cons.1 hu)
    have hn : Assoc.get m e = none := by
      rw [Assoc.get_none_iff]; intro v hv; exact hu'.1 _ hv rfl
    have ih' := ih hu'.2 (by
      intro e' r hr
      refine ho e' r ?_
      rw [Assoc.get_cons]
      by_cases h : e = e'
      · subst h; rw [hn] at hr; simp at hr
      · rw [if_neg h]; exact hr)
    rw [List.flatMap_cons, List.count_append, ih', Assoc.get_cons]
    by_cases h : e = x.entity
    · rw [← h, hn]; simp
    · have : y.st.buf.count x = 0 := by
        refine List.count_eq_zero.2 fun hm => h ?_
        exact (ho e x (by rw [Assoc.get_cons]; simpa using hm)).symm
      simp [h, this]

/-- the outputs of a shard are about the entity of the request. -/
theorem Shard.Tidy.outs {σ : Shard} (ht : σ.Tidy) (op : ShardOp) :
    (∀ e i r, .deliver e i r ∈ (σ.step op).2 → r.entity = e) ∧
    (∀ e r x, .error e r x ∈ (σ.step op).2 → (x = .notSupported → r.known = false) ∧ (x = .notFound → r.recipe = none)) := by
  cases op with
  | request r ok =>
    simp only [Shard.step, Shard.request]
    by_cases hk : r.known = true
    · simp only [hk, if_true]
      cases hg : σ.entities.get r.entity with
      | some y =>
        obtain ⟨c, st⟩ := y
        cases st <;> simp [EState.request] <;> (try (intro e i r' h1 _ h2; subst h2; exact h1.symm)) <;>
          (try (intro e r' x _ _ h3; subst h3; simp))
      | none =>
        cases hc : r.recipe with
        | none => simp; intro e r' x _ h2 h3; subst h2 h3; simp [hc]
        | some c => simp
    · simp [hk]; intro e r' x _ h2 h3; subst h2 h3; simpa using hk
  | startEntity e c ok => simp [Shard.step]
  | started t =>
    simp only [Shard.step]
    split
    · simp only [Shard.started]
      cases hg : σ.entities.get t.e with
      | none => simp
      | some y =>
        refine ⟨?_, by simp⟩
        intro e i r hr
        simp only [List.mem_map] at hr
        obtain ⟨r', h1, h2⟩ := hr
        cases h2
        exact ht.own t.e r (by unfold Shard.buffer; rw [hg]; simpa using h1)
    · simp
  | startFailed t => simp only [Shard.step]; split <;> simp
  | snapshot => simp [Shard.step]
  | childStopped e i => simp only [Shard.step]; split <;> simp

end Verif.Sharding
