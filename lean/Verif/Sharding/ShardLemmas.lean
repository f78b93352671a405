import Verif.Sharding.ShardModel

/-! Lemmas about the shard. -/

namespace Verif.Sharding

theorem Shard.run_append (σ : Shard) (l₁ l₂ : List ShardOp) : σ.run (l₁ ++ l₂) = (σ.run l₁).run l₂ :=
  List.foldl_append

theorem Shard.run_cons (σ : Shard) (op : ShardOp) (ops : List ShardOp) : σ.run (op :: ops) = (σ.next op).run ops := rfl

theorem Shard.outs_append (σ : Shard) (l₁ l₂ : List ShardOp) :
    σ.outs (l₁ ++ l₂) = σ.outs l₁ ++ (σ.run l₁).outs l₂ := by
  induction l₁ generalizing σ with
  | nil => rfl
  | cons op l₁ ih => simp only [List.cons_append, outs, ih, List.append_assoc]; rfl

/-! ### recovery -/

theorem restoreSnapshot_uniq (l : List (Nat × Nat × Bool)) : (restoreSnapshot l).Uniq := by
  suffices H : ∀ (m : Assoc Nat Entity), m.Uniq →
      (l.foldl (fun m p => m.insert p.1 ⟨p.2.1, if p.2.2 then .passivated else .idle⟩) m).Uniq from H [] Assoc.Uniq.nil
  induction l with
  | nil => intro m h; exact h
  | cons p l ih => intro m h; exact ih _ (h.insert _ _)

theorem recoverEntry_uniq {m : Assoc Nat Entity} (h : m.Uniq) (j : JEntry) : (recoverEntry m j).Uniq := by
  cases j with
  | start e c => exact h.insert _ _
  | passivate e =>
    simp only [recoverEntry]
    split
    · exact h.insert _ _
    · exact h
  | remove e => exact h.erase _
  | snapshot l => exact restoreSnapshot_uniq l

theorem foldl_recover_uniq {m : Assoc Nat Entity} (h : m.Uniq) (l : List JEntry) : (l.foldl recoverEntry m).Uniq := by
  induction l generalizing m with
  | nil => exact h
  | cons j l ih => exact ih (recoverEntry_uniq h j)

theorem recoverAll_uniq (j : List JEntry) : (recoverAll j).Uniq := foldl_recover_uniq Assoc.Uniq.nil _

theorem recoverEntry_buf {m : Assoc Nat Entity} (h : ∀ e x, m.get e = some x → x.st.buf = [])
    (j : JEntry) : ∀ e x, (recoverEntry m j).get e = some x → x.st.buf = [] := by
  intro e x hx
  cases j with
  | start e' c =>
    simp only [recoverEntry, Assoc.get_insert] at hx
    split at hx
    · simp only [Option.some.injEq] at hx; subst hx; rfl
    · exact h e x hx
  | passivate e' =>
    simp only [recoverEntry] at hx
    split at hx
    · simp only [Assoc.get_insert] at hx
      split at hx
      · simp only [Option.some.injEq] at hx; subst hx; rfl
      · exact h e x hx
    · exact h e x hx
  | remove e' =>
    simp only [recoverEntry, Assoc.get_erase] at hx
    split at hx
    · cases hx
    · exact h e x hx
  | snapshot l =>
    have : ∀ (l : List (Nat × Nat × Bool)) (m : Assoc Nat Entity), (∀ e x, m.get e = some x → x.st.buf = []) →
        ∀ e x, (l.foldl (fun m p => m.insert p.1 ⟨p.2.1, if p.2.2 then EState.passivated else EState.idle⟩) m).get e = some x →
          x.st.buf = [] := by
      intro l
      induction l with
      | nil => intro m hm; exact hm
      | cons p l ih =>
        intro m hm
        refine ih _ ?_
        intro e x hx
        simp only [Assoc.get_insert] at hx
        split at hx
        · simp only [Option.some.injEq] at hx
          subst hx
          show EState.buf (if p.2.2 then .passivated else .idle) = []
          split <;> rfl
        · exact hm e x hx
    exact this l [] (by simp [Assoc.get_nil]) e x hx

theorem recoverAll_buf (j : List JEntry) (e : Nat) (x : Entity) (h : (recoverAll j).get e = some x) : x.st.buf = [] := by
  have : ∀ (l : List JEntry) (m : Assoc Nat Entity), (∀ e x, m.get e = some x → x.st.buf = []) →
      ∀ e x, (l.foldl recoverEntry m).get e = some x → x.st.buf = [] := by
    intro l
    induction l with
    | nil => intro m hm; exact hm
    | cons j l ih => intro m hm; exact ih _ (recoverEntry_buf hm j)
  exact this _ [] (by simp [Assoc.get_nil]) e x h

theorem recoverEntry_inactive {m : Assoc Nat Entity} (h : ∀ e x i, m.get e = some x → x.st ≠ .active i)
    (j : JEntry) : ∀ e x i, (recoverEntry m j).get e = some x → x.st ≠ .active i := by
  intro e x i hx
  cases j with
  | start e' c =>
    simp only [recoverEntry, Assoc.get_insert] at hx
    split at hx
    · simp only [Option.some.injEq] at hx; subst hx; simp
    · exact h e x i hx
  | passivate e' =>
    simp only [recoverEntry] at hx
    split at hx
    · simp only [Assoc.get_insert] at hx
      split at hx
      · simp only [Option.some.injEq] at hx; subst hx; simp
      · exact h e x i hx
    · exact h e x i hx
  | remove e' =>
    simp only [recoverEntry, Assoc.get_erase] at hx
    split at hx
    · cases hx
    · exact h e x i hx
  | snapshot l =>
    have : ∀ (l : List (Nat × Nat × Bool)) (m : Assoc Nat Entity), (∀ e x i, m.get e = some x → x.st ≠ .active i) →
        ∀ e x i, (l.foldl (fun m p => m.insert p.1 ⟨p.2.1, if p.2.2 then EState.passivated else EState.idle⟩) m).get e = some x →
          x.st ≠ .active i := by
      intro l
      induction l with
      | nil => intro m hm; exact hm
      | cons p l ih =>
        intro m hm
        refine ih _ ?_
        intro e x i hx
        simp only [Assoc.get_insert] at hx
        split at hx
        · simp only [Option.some.injEq] at hx
          subst hx
          show (if p.2.2 then EState.passivated else EState.idle) ≠ .active i
          split <;> simp
        · exact hm e x i hx
    exact this l [] (by simp [Assoc.get_nil]) e x i hx

theorem recoverAll_inactive (j : List JEntry) (e : Nat) (x : Entity) (i : Nat) (h : (recoverAll j).get e = some x) :
    x.st ≠ .active i := by
  have : ∀ (l : List JEntry) (m : Assoc Nat Entity), (∀ e x i, m.get e = some x → x.st ≠ .active i) →
      ∀ e x i, (l.foldl recoverEntry m).get e = some x → x.st ≠ .active i := by
    intro l
    induction l with
    | nil => intro m hm; exact hm
    | cons j l ih => intro m hm; exact ih _ (recoverEntry_inactive hm j)
  exact this _ [] (by simp [Assoc.get_nil]) e x i h

/-! ### boot -/

theorem boot_fold (l : List (Nat × Entity)) (σ : Shard) :
    (l.foldl (fun σ p => σ.startEntity p.1 p.2.recipe false true) σ).entities = σ.entities ∧
    (l.foldl (fun σ p => σ.startEntity p.1 p.2.recipe false true) σ).journal = σ.journal ∧
    (l.foldl (fun σ p => σ.startEntity p.1 p.2.recipe false true) σ).created = σ.created ∧
    (l.foldl (fun σ p => σ.startEntity p.1 p.2.recipe false true) σ).starting.map (fun t => (t.e, t.c))
      = σ.starting.map (fun t => (t.e, t.c)) ++ l.map (fun p => (p.1, p.2.recipe)) := by
  induction l generalizing σ with
  | nil => simp
  | cons p l ih =>
    obtain ⟨h1, h2, h3, h4⟩ := ih (σ.startEntity p.1 p.2.recipe false true)
    simp only [List.foldl_cons]
    refine ⟨h1, h2, h3, ?_⟩
    rw [h4]
    simp [Shard.startEntity]

theorem boot_entities (j : List JEntry) : (Shard.boot j).entities = recoverAll j := (boot_fold _ _).1

theorem boot_journal (j : List JEntry) : (Shard.boot j).journal = j := (boot_fold _ _).2.1

theorem boot_starting (j : List JEntry) :
    (Shard.boot j).starting.map (fun t => (t.e, t.c))
      = ((recoverAll j).filter fun p => p.2.st.isStarting).map fun p => (p.1, p.2.recipe) := by
  have := (boot_fold ((recoverAll j).filter fun p => p.2.st.isStarting)
    { entities := recoverAll j, journal := j }).2.2.2
  simp only [List.map_nil, List.nil_append] at this
  exact this

/-- the creations under way of entity `e`. -/
def Shard.tasks (σ : Shard) (e : Nat) : List StartTask := σ.starting.filter fun t => t.e = e

theorem filter_key_length {α : Type} (m : Assoc Nat α) (h : m.Uniq) (p : Nat × α → Bool) (e : Nat) :
    ((m.filter p).filter fun q => q.1 = e).length ≤ 1 ∧
      (∀ x, m.get e = some x → p (e, x) = false → (m.filter p).filter (fun q => q.1 = e) = []) ∧
      (m.get e = none → (m.filter p).filter (fun q => q.1 = e) = []) := by
  have key : m.filter (fun q => q.1 = e) = (m.get e).toList.map (fun x => (e, x)) := by
    clear p
    induction m with
    | nil => rfl
    | cons q m ih =>
      obtain ⟨k, x⟩ := q
      have hu : Assoc.Uniq m := by
        rw [Assoc.uniq_iff] at h ⊢
        simp only [List.map_cons, List.nodup_cons] at h
        exact h.2
      rw [List.filter_cons, ih hu, Assoc.get_cons]
      by_cases hk : k = e
      · subst hk
        have hn : Assoc.get m k = none := by
          rw [Assoc.get_none_iff]
          rw [Assoc.uniq_iff] at h
          simp only [List.map_cons, List.nodup_cons] at h
          exact fun v hv => h.1 (List.mem_map.mpr ⟨(k, v), hv, rfl⟩)
        simp [hn]
      · simp [hk]
  have e1 : (m.filter p).filter (fun q => q.1 = e) = ((m.get e).toList.map fun x => (e, x)).filter p := by
    rw [← key, List.filter_filter, List.filter_filter]
    congr 1
    funext q
    exact Bool.and_comm _ _
  rw [e1]
  refine ⟨?_, ?_, ?_⟩
  · refine Nat.le_trans (List.length_filter_le _ _) ?_
    cases m.get e <;> simp
  · intro x hx hp
    simp [hx, hp]
  · intro hx
    simp [hx]

theorem tasks_length (σ : Shard) (e : Nat) :
    (σ.tasks e).length = ((σ.starting.map fun t => (t.e, t.c)).filter fun q => q.1 = e).length := by
  unfold Shard.tasks
  generalize σ.starting = l
  induction l with
  | nil => rfl
  | cons t l ih =>
    simp only [List.filter_cons, List.map_cons]
    by_cases h : t.e = e <;> simp [h, ih]

/-! ### requests of one entity -/

/-- what is known of entity `e` as long as nobody asks explicitly to start it. -/
structure Shard.Calm (σ : Shard) (e : Nat) : Prop where
  one : (σ.tasks e).length ≤ 1
  still : ¬ (∃ c buf, σ.entities.get e = some ⟨c, .starting buf⟩) → σ.tasks e = []
  created : (∀ i, (e, i) ∈ σ.created → ∃ c, σ.entities.get e = some ⟨c, .active i⟩) ∧
    ((σ.created.filter fun p => p.1 = e).length ≤ 1)

/-- the requests of `e` waiting. -/
def Shard.buffer (σ : Shard) (e : Nat) : List EReq := ((σ.entities.get e).map fun x => x.st.buf).getD []

/-- the request of `e` an output deals with. -/
def ShardOut.about (e : Nat) : ShardOut → Option EReq
  | .deliver e' _ r => if e' = e then some r else none
  | .error e' r _ => if e' = e ∧ r.known = true then some r else none

/-- the request an operation brings. -/
def ShardOp.brings (e : Nat) : ShardOp → Option EReq
  | .request r _ => if r.entity = e ∧ r.known = true then some r else none
  | _ => none

theorem boot_calm (j : List JEntry) (e : Nat) : (Shard.boot j).Calm e ∧ (Shard.boot j).buffer e = [] := by
  have hl := tasks_length (Shard.boot j) e
  rw [boot_starting] at hl
  have hm : (((recoverAll j).filter fun p => p.2.st.isStarting).map fun p => (p.1, p.2.recipe)).filter
      (fun q => decide (q.1 = e)) =
      (((recoverAll j).filter fun p => p.2.st.isStarting).filter fun q => decide (q.1 = e)).map
        fun p => (p.1, p.2.recipe) := by
    rw [List.filter_map]; rfl
  rw [hm, List.length_map] at hl
  obtain ⟨k1, k2, k3⟩ := filter_key_length (recoverAll j) (recoverAll_uniq j) (fun p => p.2.st.isStarting) e
  have hc : (Shard.boot j).created = [] := (boot_fold _ _).2.2.1
  refine ⟨⟨by rw [hl]; exact k1, ?_, ?_⟩, ?_⟩
  · intro hn
    rw [boot_entities] at hn
    apply List.length_eq_zero_iff.mp
    rw [hl, List.length_eq_zero_iff]
    rcases hg : (recoverAll j).get e with _ | x
    · exact k3 hg
    · refine k2 x hg ?_
      obtain ⟨c, st⟩ := x
      cases st with
      | starting buf => exact absurd ⟨c, buf, hg⟩ hn
      | _ => rfl
  · rw [hc]; simp
  · unfold Shard.buffer
    rw [boot_entities]
    rcases hg : (recoverAll j).get e with _ | x
    · rfl
    · simpa using recoverAll_buf j e x hg

theorem Shard.tasks_append (σ : Shard) (e : Nat) (t : StartTask) :
    ({ σ with starting := σ.starting ++ [t] } : Shard).tasks e = σ.tasks e ++ if t.e = e then [t] else [] := by
  unfold Shard.tasks
  simp only [List.filter_append]
  congr 1
  by_cases h : t.e = e <;> simp [h]

theorem Shard.tasks_startEntity (σ : Shard) {e e' : Nat} (h : e' ≠ e) (c : Nat) (p ok : Bool) :
    (σ.startEntity e' c p ok).tasks e = σ.tasks e := by
  have := Shard.tasks_append σ e ⟨e', c, σ.fresh⟩
  rw [if_neg h, List.append_nil] at this
  exact this

theorem List.filter_erase' {α : Type} [DecidableEq α] (p : α → Bool) (l : List α) (t : α) :
    (l.erase t).filter p = if p t then (l.filter p).erase t else l.filter p := by
  induction l with
  | nil => simp
  | cons x l ih =>
    rw [List.erase_cons]
    by_cases hx : x = t
    · subst hx
      by_cases hp : p x <;> simp [hp]
    · have hb : (x == t) = false := by simpa using hx
      rw [hb]
      simp only [Bool.false_eq_true, if_false, List.filter_cons, ih]
      by_cases hp : p t
      · simp only [hp, if_true]
        split
        · rw [List.erase_cons, hb]; simp
        · rfl
      · simp only [hp, Bool.false_eq_true, if_false]

theorem Shard.step_calm {σ : Shard} {e : Nat} (h : σ.Calm e) (op : ShardOp) (hop : ∀ c ok, op ≠ .startEntity e c ok) :
    (σ.step op).2.filterMap (ShardOut.about e) ++ (σ.next op).buffer e
      = σ.buffer e ++ (op.brings e).toList ∧ (σ.next op).Calm e := by
  obtain ⟨h1, h2, h3, h4⟩ := h
  cases op with
  | request r ok =>
    by_cases he : r.entity = e
    · subst he
      by_cases hk : r.known = true
      · simp only [Shard.next, Shard.step, Shard.request, if_pos hk, ShardOp.brings]
        rcases hg : σ.entities.get r.entity with _ | x
        · have ht : σ.tasks r.entity = [] := h2 (by rw [hg]; simp)
          rcases hc : r.recipe with _ | c
          · refine ⟨by simp [ShardOut.about, hk, Shard.buffer, hg], h1, h2, h3, h4⟩
          · refine ⟨?_, ?_, ?_, ?_, h4⟩
            · simp [Shard.buffer, hg, Shard.startEntity, Assoc.get_insert, EState.buf, hk]
            · show (Shard.tasks { σ with starting := σ.starting ++ [⟨r.entity, c, σ.fresh⟩] } r.entity).length ≤ 1
              rw [Shard.tasks_append, ht]; simp
            · intro hn
              exact absurd ⟨c, [r], by simp [Shard.startEntity, Assoc.get_insert]⟩ hn
            · intro i hi
              obtain ⟨c', hc'⟩ := h3 i hi
              rw [hg] at hc'; cases hc'
        · obtain ⟨c, st⟩ := x
          cases st with
          | idle =>
            refine ⟨?_, h1, ?_, ?_, h4⟩
            · simp [EState.request, ShardOut.about, hk, Shard.buffer, hg, Assoc.get_insert, EState.buf]
            · intro _
              exact h2 (by rw [hg]; simp)
            · intro i hi
              obtain ⟨c', hc'⟩ := h3 i hi
              rw [hg] at hc'; simp at hc'
          | passivated =>
            refine ⟨?_, h1, ?_, ?_, h4⟩
            · simp [EState.request, ShardOut.about, hk, Shard.buffer, hg, Assoc.get_insert, EState.buf]
            · intro _
              exact h2 (by rw [hg]; simp)
            · intro i hi
              obtain ⟨c', hc'⟩ := h3 i hi
              rw [hg] at hc'; simp at hc'
          | starting buf =>
            refine ⟨?_, h1, ?_, ?_, h4⟩
            · simp [EState.request, hk, Shard.buffer, hg, Assoc.get_insert, EState.buf]
            · intro hn
              exact absurd ⟨c, buf ++ [r], by simp [EState.request, Assoc.get_insert]⟩ hn
            · intro i hi
              obtain ⟨c', hc'⟩ := h3 i hi
              rw [hg] at hc'; simp at hc'
          | active i =>
            refine ⟨?_, h1, ?_, ?_, h4⟩
            · simp [EState.request, ShardOut.about, hk, Shard.buffer, hg, Assoc.get_insert, EState.buf]
            · intro _
              exact h2 (by rw [hg]; simp)
            · intro i' hi'
              obtain ⟨c', hc'⟩ := h3 i' hi'
              rw [hg] at hc'
              exact ⟨c', by simpa [EState.request, Assoc.get_insert] using hc'⟩
      · simp only [Shard.next, Shard.step, Shard.request, if_neg hk, ShardOp.brings]
        exact ⟨by simp [ShardOut.about, hk], h1, h2, h3, h4⟩
    · have he' : e ≠ r.entity := fun x => he x.symm
      have hb : (ShardOp.request r ok).brings e = none := by simp [ShardOp.brings, he]
      rw [hb]
      simp only [Shard.next, Shard.step, Shard.request]
      split
      · split
        · rename_i x hg
          refine ⟨?_, h1, ?_, ?_, h4⟩
          · have : (x.st.request r.entity r).2.filterMap (ShardOut.about e) = [] := by
              cases x.st <;> simp [EState.request, ShardOut.about, he]
            rw [this]
            simp [Shard.buffer, Assoc.get_insert, he']
          · intro hn
            refine h2 ?_
            simpa [Assoc.get_insert, he'] using hn
          · intro i hi
            obtain ⟨c', hc'⟩ := h3 i hi
            exact ⟨c', by simpa [Assoc.get_insert, he'] using hc'⟩
        · split
          · rename_i c _
            refine ⟨?_, ?_, ?_, ?_, h4⟩
            · simp [Shard.buffer, Shard.startEntity, Assoc.get_insert, he']
            · rw [Shard.tasks_startEntity _ he]; exact h1
            · intro hn
              rw [Shard.tasks_startEntity _ he]
              refine h2 ?_
              simpa [Shard.startEntity, Assoc.get_insert, he'] using hn
            · intro i hi
              obtain ⟨c', hc'⟩ := h3 i hi
              exact ⟨c', by simpa [Shard.startEntity, Assoc.get_insert, he'] using hc'⟩
          · exact ⟨by simp [ShardOut.about, he], h1, h2, h3, h4⟩
      · exact ⟨by simp [ShardOut.about, he], h1, h2, h3, h4⟩
  | startEntity e' c ok =>
    have he : e' ≠ e := fun x => hop c ok (by rw [x])
    have he' : e ≠ e' := fun x => he x.symm
    simp only [Shard.next, Shard.step, Shard.handleStart, ShardOp.brings]
    refine ⟨?_, ?_, ?_, ?_, h4⟩
    · simp [Shard.buffer, Shard.startEntity, Assoc.get_insert, he']
    · rw [Shard.tasks_startEntity _ he]; exact h1
    · intro hn
      rw [Shard.tasks_startEntity _ he]
      refine h2 ?_
      simpa [Shard.startEntity, Assoc.get_insert, he'] using hn
    · intro i hi
      obtain ⟨c', hc'⟩ := h3 i hi
      exact ⟨c', by simpa [Shard.startEntity, Assoc.get_insert, he'] using hc'⟩
  | started t =>
    simp only [Shard.next, Shard.step, ShardOp.brings]
    split
    · rename_i hm
      by_cases he : t.e = e
      · subst he
        have hmem : t ∈ σ.tasks t.e := List.mem_filter.mpr ⟨hm, by simp⟩
        have hst : ∃ c buf, σ.entities.get t.e = some ⟨c, .starting buf⟩ := by
          apply Classical.byContradiction
          intro hn
          rw [h2 hn] at hmem; cases hmem
        obtain ⟨c, buf, hg⟩ := hst
        have hte : (σ.starting.erase t).filter (fun u => decide (u.e = t.e)) = [] := by
          rw [List.filter_erase']
          simp only [decide_true, if_true]
          have h1' : (σ.starting.filter fun u => decide (u.e = t.e)).length ≤ 1 := h1
          have hm' : t ∈ σ.starting.filter fun u => decide (u.e = t.e) := hmem
          apply List.length_eq_zero_iff.mp
          rw [List.length_erase_of_mem hm']
          omega
        have hcr : σ.created.filter (fun p => decide (p.1 = t.e)) = [] := by
          apply List.filter_eq_nil_iff.mpr
          intro p hp hpe
          obtain ⟨c', hc'⟩ := h3 p.2 (by
            have : p.1 = t.e := by simpa using hpe
            rw [← this]; exact hp)
          rw [hg] at hc'; simp at hc'
        simp only [Shard.started, hg]
        refine ⟨?_, ?_, ?_, ?_, ?_⟩
        · simp only [List.filterMap_map, EState.buf]
          rw [show (ShardOut.about t.e ∘ fun r => ShardOut.deliver t.e t.i r) = (some : EReq → Option EReq) from by
            funext r; simp [ShardOut.about]]
          simp [Shard.buffer, hg, Assoc.get_insert, EState.buf]
        · show ((σ.starting.erase t).filter fun u => decide (u.e = t.e)).length ≤ 1
          rw [hte]; simp
        · intro _; exact hte
        · intro i hi
          simp only [List.mem_append, List.mem_singleton, Prod.mk.injEq, true_and] at hi
          rcases hi with hi | hi
          · obtain ⟨c', hc'⟩ := h3 i hi
            rw [hg] at hc'; simp at hc'
          · exact ⟨c, by simp [Assoc.get_insert, hi]⟩
        · show ((σ.created ++ [(t.e, t.i)]).filter fun p => decide (p.1 = t.e)).length ≤ 1
          rw [List.filter_append, hcr]; simp
      · have he' : e ≠ t.e := fun x => he x.symm
        have ht : (σ.starting.erase t).filter (fun u => decide (u.e = e)) = σ.tasks e := by
          rw [List.filter_erase']
          simp [he]; rfl
        have hc : (σ.created ++ [(t.e, t.i)]).filter (fun p => decide (p.1 = e)) = σ.created.filter (fun p => decide (p.1 = e)) := by
          rw [List.filter_append]; simp [he]
        simp only [Shard.started]
        split
        · rename_i x hg
          refine ⟨?_, ?_, ?_, ?_, ?_⟩
          · have : (x.st.buf.map fun r => ShardOut.deliver t.e t.i r).filterMap (ShardOut.about e) = [] := by
              simp [ShardOut.about, he]
            rw [this]
            simp [Shard.buffer, Assoc.get_insert, he']
          · show ((σ.starting.erase t).filter (fun u => decide (u.e = e))).length ≤ 1
            rw [ht]; exact h1
          · intro hn
            show (σ.starting.erase t).filter (fun u => decide (u.e = e)) = []
            rw [ht]
            refine h2 ?_
            simpa [Assoc.get_insert, he'] using hn
          · intro i hi
            have hi' : (e, i) ∈ σ.created := by
              simp only [List.mem_append, List.mem_singleton, Prod.mk.injEq] at hi
              rcases hi with hi | hi
              · exact hi
              · exact absurd hi.1 he'
            obtain ⟨c', hc'⟩ := h3 i hi'
            exact ⟨c', by simpa [Assoc.get_insert, he'] using hc'⟩
          · show ((σ.created ++ [(t.e, t.i)]).filter fun p => decide (p.1 = e)).length ≤ 1
            rw [hc]; exact h4
        · refine ⟨?_, ?_, ?_, ?_, ?_⟩
          · simp [Shard.buffer]
          · show ((σ.starting.erase t).filter (fun u => decide (u.e = e))).length ≤ 1
            rw [ht]; exact h1
          · intro hn
            show (σ.starting.erase t).filter (fun u => decide (u.e = e)) = []
            rw [ht]
            exact h2 hn
          · intro i hi
            have hi' : (e, i) ∈ σ.created := by
              simp only [List.mem_append, List.mem_singleton, Prod.mk.injEq] at hi
              rcases hi with hi | hi
              · exact hi
              · exact absurd hi.1 he'
            exact h3 i hi'
          · show ((σ.created ++ [(t.e, t.i)]).filter fun p => decide (p.1 = e)).length ≤ 1
            rw [hc]; exact h4
    · exact ⟨by simp, h1, h2, h3, h4⟩
  | startFailed t =>
    simp only [Shard.next, Shard.step, ShardOp.brings]
    split
    · have ht : ∃ l, (σ.starting.erase t).filter (fun u => decide (u.e = e)) = l ∧ l.length ≤ (σ.tasks e).length := by
        refine ⟨_, rfl, ?_⟩
        rw [List.filter_erase']
        split
        · exact (List.erase_sublist).length_le
        · exact Nat.le_refl _
      obtain ⟨l, hl, hl'⟩ := ht
      refine ⟨by simp [Shard.startFailed, Shard.buffer], ?_, ?_, h3, h4⟩
      · show ((σ.starting.erase t).filter (fun u => decide (u.e = e))).length ≤ 1
        rw [hl]; omega
      · intro hn
        show (σ.starting.erase t).filter (fun u => decide (u.e = e)) = []
        rw [h2 hn] at hl'
        rw [hl]
        exact List.length_eq_zero_iff.mp (by simpa using hl')
    · exact ⟨by simp, h1, h2, h3, h4⟩
  | snapshot =>
    simp only [Shard.next, Shard.step, ShardOp.brings]
    exact ⟨by simp [Shard.buffer], h1, h2, h3, h4⟩
  | childStopped e' i =>
    simp only [Shard.next, Shard.step, ShardOp.brings]
    split
    · exact ⟨by simp [Shard.buffer], h1, h2, h3, h4⟩
    · exact ⟨by simp [Shard.buffer], h1, h2, h3, h4⟩

theorem Shard.run_calm {σ : Shard} {e : Nat} (h : σ.Calm e) (ops : List ShardOp)
    (hop : ∀ c ok, .startEntity e c ok ∉ ops) :
    (σ.outs ops).filterMap (ShardOut.about e) ++ (σ.run ops).buffer e
      = σ.buffer e ++ ops.filterMap (ShardOp.brings e) ∧ (σ.run ops).Calm e := by
  induction ops generalizing σ with
  | nil => exact ⟨by simp [Shard.outs, Shard.run], h⟩
  | cons op ops ih =>
    obtain ⟨h1, h2⟩ := Shard.step_calm h op (fun c ok x => hop c ok (by rw [x]; exact List.mem_cons_self))
    obtain ⟨h3, h4⟩ := ih h2 (fun c ok x => hop c ok (List.mem_cons_of_mem _ x))
    refine ⟨?_, h4⟩
    simp only [Shard.outs, List.filterMap_append, Shard.run_cons, List.append_assoc]
    rw [h3, ← List.append_assoc, h1, List.append_assoc]
    congr 1
    rw [List.filterMap_cons]
    cases op.brings e <;> rfl

end Verif.Sharding
