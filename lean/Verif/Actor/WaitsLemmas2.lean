import Verif.Actor.WaitsSpec

/-!
# Waiting: progress, its end, and knots
-/

namespace Verif.Actor.Waits

variable {α η : Type} [DecidableEq α] {H : Hooks η}

/-! ### Enabled steps -/

omit [DecidableEq α] in
theorem find_id {s : St α η} (h : Inv H s) {j : Job α η} (hj : j ∈ s.jobs) :
    s.jobs.find? (fun k => k.id == j.id) = some j := by
  cases hf : s.jobs.find? (fun k => k.id == j.id) with
  | none =>
    have := List.find?_eq_none.1 hf j hj
    simp at this
  | some k =>
    have e : k.id = j.id := by simpa using List.find?_some hf
    rw [h.eq (List.mem_of_find?_eq_some hf) hj e]

/-- a running job can go on. -/
theorem can_run {s : St α η} (h : Inv H s) {j : Job α η} (hj : j ∈ s.jobs) (hp : j.phase = .running) :
    ∃ op : Op α η, op.inner = true ∧ (step H s op).isSome = true := by
  cases hc : j.calls with
  | nil =>
    refine ⟨.finish j.id, rfl, ?_⟩
    simp [step, find_id h hj, hp, hc]
  | cons r rest =>
    refine ⟨.call j.id, rfl, ?_⟩
    simp [step, find_id h hj, hp, hc]

/-- the oldest job of an actor that has a job. -/
theorem exists_oldest {s : St α η} {c : Job α η} (hc : c ∈ s.jobs) :
    ∃ k ∈ s.jobs, k.to = c.to ∧ oldest s k = true := by
  cases hf : s.jobs.find? (fun k => decide (k.to = c.to)) with
  | none =>
    have := List.find?_eq_none.1 hf c hc
    simp at this
  | some k =>
    have e : k.to = c.to := by simpa using List.find?_some hf
    refine ⟨k, List.mem_of_find?_eq_some hf, e, ?_⟩
    simp [oldest, e, hf]

/-- an idle actor takes its oldest message. -/
theorem can_take {s : St α η} (h : Inv H s) {j : Job α η} (hj : j ∈ s.jobs) (hq : j.phase = .queued)
    (ho : oldest s j = true) : ∃ op : Op α η, op.inner = true ∧ (step H s op).isSome = true :=
  ⟨.take j.id, rfl, by simp [step, find_id h hj, hq, ho]⟩

/-! ### Fitting -/

/-- every job fits, and so does every wait. -/
structure Tidy (edge : α → η → α → η → Prop) (s : St α η) : Prop where
  calls : ∀ j ∈ s.jobs, ∀ c ∈ j.calls, edge j.to j.hook c.to c.hook ∧ Fits edge c
  kids : ∀ c ∈ s.jobs, ∀ j ∈ s.jobs, c.caller = .job j.id → edge j.to j.hook c.to c.hook

variable {edge : α → η → α → η → Prop}

omit [DecidableEq α] in
theorem Fits.calls {r : Req α η} (h : Fits edge r) :
    ∀ c ∈ r.calls, edge r.to r.hook c.to c.hook ∧ Fits edge c := by
  cases h with
  | mk h1 h2 => exact fun c hc => ⟨h1 c hc, h2 c hc⟩

theorem Tidy.step {s s' : St α η} {op : Op α η} (hi : Inv H s) (h : Tidy edge s)
    (hop : ∀ n r, op = .ask n r → Fits edge r) (hs : step H s op = some s') : Tidy edge s' := by
  cases step_sound hs with
  | ask n r =>
    unfold arrived
    split
    · refine ⟨?_, ?_⟩
      · intro j hj
        rcases List.mem_append.1 hj with hj | hj
        · exact h.calls j hj
        · rw [List.mem_singleton.1 hj]
          exact (hop n r rfl).calls
      · intro c hc j hj e
        rcases List.mem_append.1 hc with hc | hc
        · rcases List.mem_append.1 hj with hj | hj
          · exact h.kids c hc j hj e
          · rw [List.mem_singleton.1 hj] at e
            obtain ⟨k, hk, ek, _⟩ := hi.call c hc _ e
            have := hi.lt k hk
            simp only [jobOf] at ek
            omega
        · rw [List.mem_singleton.1 hc] at e
          cases e
    · exact ⟨h.calls, h.kids⟩
  | take j hj hq ho =>
    refine ⟨?_, ?_⟩
    · intro k hk
      obtain ⟨k', hk', rfl⟩ := mem_upd.1 hk
      split
      · exact h.calls k' hk'
      · exact h.calls k' hk'
    · intro c hc k hk e
      obtain ⟨c', hc', rfl⟩ := mem_upd.1 hc
      obtain ⟨k', hk', rfl⟩ := mem_upd.1 hk
      have := h.kids c' hc' k' hk' (by revert e; split <;> split <;> exact id)
      split <;> split <;> exact this
  | call j r rest hj hp hc =>
    have hr := h.calls j hj r (by rw [hc]; exact List.mem_cons_self ..)
    have hrest : ∀ c ∈ rest, edge j.to j.hook c.to c.hook ∧ Fits edge c :=
      fun c hcm => h.calls j hj c (by rw [hc]; exact List.mem_cons_of_mem _ hcm)
    have hupd : ∀ p, ∀ k ∈ upd j.id (Job.asked rest p) s.jobs, ∃ k' ∈ s.jobs, k.id = k'.id ∧ k.to = k'.to ∧
        k.hook = k'.hook ∧ k.caller = k'.caller ∧ ∀ c ∈ k.calls, edge k.to k.hook c.to c.hook ∧ Fits edge c := by
      intro p k hk
      obtain ⟨k', hk', rfl⟩ := mem_upd.1 hk
      refine ⟨k', hk', ?_⟩
      split
      · next e =>
        have := hi.eq hk' hj e
        subst this
        exact ⟨rfl, rfl, rfl, rfl, hrest⟩
      · exact ⟨rfl, rfl, rfl, rfl, h.calls k' hk'⟩
    unfold called
    split
    · refine ⟨?_, ?_⟩
      · intro k hk
        rcases List.mem_append.1 hk with hk | hk
        · obtain ⟨_, _, _, _, _, _, hh⟩ := hupd _ k hk
          exact hh
        · rw [List.mem_singleton.1 hk]
          exact hr.2.calls
      · intro c hcm k hk e
        rcases List.mem_append.1 hcm with hcm | hcm
        · obtain ⟨c', hc', c1, c2, c3, c4, _⟩ := hupd _ c hcm
          rcases List.mem_append.1 hk with hk | hk
          · obtain ⟨k', hk', k1, k2, k3, k4, _⟩ := hupd _ k hk
            rw [c2, c3, k2, k3]
            exact h.kids c' hc' k' hk' (by rw [← c4, ← k1, e])
          · rw [List.mem_singleton.1 hk] at e
            rw [c4] at e
            obtain ⟨x, hx, ex, _⟩ := hi.call c' hc' _ e
            have := hi.lt x hx
            simp only [jobOf] at ex
            omega
        · rw [List.mem_singleton.1 hcm] at e ⊢
          simp only [jobOf, Caller.job.injEq] at e ⊢
          rcases List.mem_append.1 hk with hk | hk
          · obtain ⟨k', hk', k1, k2, k3, k4, _⟩ := hupd _ k hk
            have : k' = j := hi.eq hk' hj (by rw [← k1, ← e])
            rw [k2, k3, this]
            exact hr.1
          · rw [List.mem_singleton.1 hk] at e
            have := hi.lt j hj
            simp only [jobOf] at e
            omega
    · refine ⟨?_, ?_⟩
      · intro k hk
        obtain ⟨_, _, _, _, _, _, hh⟩ := hupd _ k hk
        exact hh
      · intro c hcm k hk e
        obtain ⟨c', hc', c1, c2, c3, c4, _⟩ := hupd _ c hcm
        obtain ⟨k', hk', k1, k2, k3, k4, _⟩ := hupd _ k hk
        rw [c2, c3, k2, k3]
        exact h.kids c' hc' k' hk' (by rw [← c4, ← k1, e])
  | finish j hj hp hc =>
    refine ⟨?_, ?_⟩
    · intro k hk
      obtain ⟨k', hk', rfl⟩ := List.mem_map.1 hk
      rw [release_calls, release_to, release_hook]
      exact h.calls k' (List.mem_filter.1 hk').1
    · intro c hcm k hk e
      obtain ⟨c', hc', rfl⟩ := List.mem_map.1 hcm
      obtain ⟨k', hk', rfl⟩ := List.mem_map.1 hk
      rw [release_caller, release_id] at e
      rw [release_to, release_hook, release_to, release_hook]
      exact h.kids c' (List.mem_filter.1 hc').1 k' (List.mem_filter.1 hk').1 e

omit [DecidableEq α] in
theorem Tidy.init (actors : List α) : Tidy edge (init actors : St α η) := by
  constructor <;> simp [Waits.init]

theorem tidy_run {s s' : St α η} {ops : List (Op α η)} (hi : Inv H s) (h : Tidy edge s) (hf : AllFit edge ops)
    (hr : run H s ops = some s') : Inv H s' ∧ Tidy edge s' :=
  run_induct (P := fun s => Inv H s ∧ Tidy edge s) (Q := fun op => ∀ n r, op = .ask n r → Fits edge r)
    (fun _ _ _ hp hq hs => ⟨hp.1.step hs, hp.2.step hp.1 hq hs⟩) ⟨hi, h⟩
    (fun op ho n r e => hf n r (by rw [← e]; exact ho)) hr

/-- an active job of rank below `n` leads to something that can happen. -/
theorem can_active {s : St α η} (h : Inv H s) (ht : Tidy edge s) {rank : α → η → Nat}
    (hrank : ∀ a h b g, edge a h b g →
      (H.first g = true → rank b g < rank a h) ∧ (H.first g = false → ∀ g', rank b g' < rank a h)) :
    ∀ (n : Nat) (j : Job α η), j ∈ s.jobs → j.phase ≠ .queued → rank j.to j.hook < n →
      ∃ op : Op α η, op.inner = true ∧ (step H s op).isSome = true := by
  intro n
  induction n with
  | zero => intro j _ _ hn; omega
  | succ n ih =>
    intro j hj hp hn
    cases hph : j.phase with
    | queued => exact absurd hph hp
    | running => exact can_run h hj hph
    | waiting =>
      obtain ⟨c, hc, e⟩ := h.wait j hj hph
      have hr := hrank _ _ _ _ (ht.kids c hc j hj e)
      cases hcp : c.phase with
      | running => exact can_run h hc hcp
      | waiting =>
        refine ih c hc (by rw [hcp]; intro h'; cases h') ?_
        cases hf : H.first c.hook with
        | true => have := hr.1 hf; omega
        | false => have := hr.2 hf c.hook; omega
      | queued =>
        obtain ⟨k, hk, ek, ho⟩ := exists_oldest (c := c) hc
        cases hkp : k.phase with
        | queued => exact can_take h hk hkp ho
        | running => exact can_run h hk hkp
        | waiting =>
          have hne : k ≠ c := by
            intro e'
            rw [e', hcp] at hkp
            cases hkp
          refine ih k hk (by rw [hkp]; intro h'; cases h') ?_
          cases hf : H.first c.hook with
          | true =>
            have := h.fresh hc hk hf ek hne
            rw [this] at hkp
            cases hkp
          | false =>
            have := hr.2 hf k.hook
            rw [ek]
            omega

theorem can_any {s : St α η} (h : Inv H s) (ht : Tidy edge s) (hd : GoesDown H edge) (hne : s.jobs ≠ []) :
    ∃ op : Op α η, op.inner = true ∧ (step H s op).isSome = true := by
  obtain ⟨rank, hrank⟩ := hd
  obtain ⟨c, hc⟩ := List.exists_mem_of_ne_nil _ hne
  obtain ⟨k, hk, ek, ho⟩ := exists_oldest (c := c) hc
  cases hkp : k.phase with
  | queued => exact can_take h hk hkp ho
  | running => exact can_run h hk hkp
  | waiting =>
    exact can_active h ht hrank _ k hk (by rw [hkp]; intro h'; cases h') (Nat.lt_succ_self _)

/-! ### The work that is left -/

mutual
/-- how much work a request is. -/
def Req.size : Req α η → Nat
  | .mk _ _ cs => 3 + sizes cs
/-- … and several. -/
def sizes : List (Req α η) → Nat
  | [] => 0
  | c :: cs => c.size + sizes cs
end

/-- the work left in a job. -/
def Job.weight (j : Job α η) : Nat := (if j.phase = .queued then 2 else 1) + sizes j.calls

/-- the work left. -/
def weight (s : St α η) : Nat := (s.jobs.map Job.weight).sum

omit [DecidableEq α] in
theorem Req.size_eq (r : Req α η) : r.size = 3 + sizes r.calls := by
  cases r with
  | mk a h cs => simp only [Req.size, Req.calls]

omit [DecidableEq α] in
theorem jobOf_weight (i : Nat) (c : Caller) (r : Req α η) : (jobOf i c r).weight = 2 + sizes r.calls := rfl

omit [DecidableEq α] in
theorem weight_upd {l : List (Job α η)} (hu : (l.map Job.id).Nodup) {j : Job α η} (hj : j ∈ l)
    (f : Job α η → Job α η) :
    ((upd j.id f l).map Job.weight).sum + j.weight = (l.map Job.weight).sum + (f j).weight := by
  obtain ⟨as, bs, rfl⟩ := List.append_of_mem hj
  rw [map_split hu rfl]
  simp only [List.map_append, List.map_cons, List.sum_append, List.sum_cons]
  omega

omit [DecidableEq α] in
theorem sum_filter_lt {p : Job α η → Bool} {w w' : Job α η → Nat} : ∀ {l : List (Job α η)} {j : Job α η},
    (∀ k ∈ l, w' k ≤ w k) → j ∈ l → p j = false → 0 < w j →
    ((l.filter p).map w').sum < (l.map w).sum := by
  have hle : ∀ {l : List (Job α η)}, (∀ k ∈ l, w' k ≤ w k) → ((l.filter p).map w').sum ≤ (l.map w).sum := by
    intro l
    induction l with
    | nil => intro _; simp
    | cons x l ih =>
      intro h
      have h1 := ih fun k hk => h k (List.mem_cons_of_mem _ hk)
      have h2 := h x (List.mem_cons_self ..)
      cases hp : p x <;> simp [hp] <;> omega
  intro l
  induction l with
  | nil => intro j _ hj; simp at hj
  | cons x l ih =>
    intro j h hj hp hw
    have h2 := h x (List.mem_cons_self ..)
    have hl := fun k hk => h k (List.mem_cons_of_mem _ hk)
    rcases List.mem_cons.1 hj with e | hj
    · subst e
      have := hle hl
      simp [hp]
      omega
    · have := ih hl hj hp hw
      cases hpx : p x <;> simp [hpx] <;> omega

omit [DecidableEq α] in
theorem release_weight (l : List (Job α η)) (j : Job α η) : (release l j).weight ≤ j.weight := by
  unfold release
  split
  · by_cases hq : j.phase = .queued <;> simp [Job.weight, Job.run, hq]
  · exact Nat.le_refl _

theorem weight_step {s s' : St α η} {op : Op α η} (hi : Inv H s) (hop : op.inner = true)
    (hs : step H s op = some s') : weight s' < weight s := by
  cases step_sound hs with
  | ask n r => cases hop
  | take j hj hq ho =>
    have := weight_upd hi.uniq hj Job.run
    have h1 : j.weight = 2 + sizes j.calls := by simp [Job.weight, hq]
    have h2 : j.run.weight = 1 + sizes j.calls := by simp [Job.weight, Job.run]
    simp only [weight]
    omega
  | call j r rest hj hp hc =>
    have h1 : j.weight = 1 + (r.size + sizes rest) := by simp [Job.weight, hp, hc, sizes]
    have h3 := Req.size_eq r
    unfold called
    split
    · have := weight_upd hi.uniq hj (Job.asked rest .waiting)
      have h2 : (Job.asked rest .waiting j).weight = 1 + sizes rest := by simp [Job.weight, Job.asked]
      simp only [weight, List.map_append, List.sum_append, List.map_cons, List.map_nil, List.sum_cons,
        List.sum_nil, jobOf_weight]
      omega
    · have := weight_upd hi.uniq hj (Job.asked rest .running)
      have h2 : (Job.asked rest .running j).weight = 1 + sizes rest := by simp [Job.weight, Job.asked]
      simp only [weight]
      omega
  | finish j hj hp hc =>
    simp only [weight, finished, List.map_map]
    refine sum_filter_lt (w := Job.weight) (j := j) (fun k _ => release_weight _ k) hj ?_ ?_
    · simp [gone]
    · simp only [Job.weight]
      split <;> omega

theorem weight_run {s : St α η} : ∀ {ops : List (Op α η)} {s' : St α η}, Inv H s → (∀ op ∈ ops, op.inner = true) →
    run H s ops = some s' → ops.length + weight s' ≤ weight s := by
  intro ops
  induction ops generalizing s with
  | nil =>
    intro s' _ _ h
    cases (Option.some.inj h)
    simp
  | cons op ops ih =>
    intro s' hi hop h
    simp only [run] at h
    cases hs : step H s op with
    | none => simp [hs] at h
    | some s1 =>
      rw [hs] at h
      have h1 := weight_step hi (hop op (List.mem_cons_self ..)) hs
      have h2 := ih (hi.step hs) (fun o ho => hop o (List.mem_cons_of_mem _ ho)) h
      simp only [List.length_cons]
      omega

/-! ### Every outside request is answered at most once -/

/-- the outside requests still to be answered. -/
def St.open (s : St α η) : List Nat := s.jobs.filterMap Job.tag?

omit [DecidableEq α] in
theorem tags_map {l : List (Job α η)} {g : Job α η → Job α η} (hg : ∀ j, (g j).caller = j.caller) :
    (l.map g).filterMap Job.tag? = l.filterMap Job.tag? := by
  rw [List.filterMap_map]
  refine congrArg (fun f => l.filterMap f) (funext fun j => ?_)
  simp only [Function.comp, Job.tag?, hg]

omit [DecidableEq α] in
theorem tags_upd {l : List (Job α η)} {i : Nat} {f : Job α η → Job α η} (hf : ∀ j, (f j).caller = j.caller) :
    (upd i f l).filterMap Job.tag? = l.filterMap Job.tag? := by
  refine tags_map ?_
  intro j
  split
  · exact hf j
  · rfl

theorem tags_step {s s' : St α η} {op : Op α η} (hs : step H s op = some s') :
    (s'.answered ++ s'.open).Perm (s.answered ++ s.open ++ tags [op]) := by
  cases step_sound hs with
  | ask n r =>
    unfold arrived
    split
    · have : tags [Op.ask n r] = [n] := rfl
      rw [this]
      simp only [St.open, List.filterMap_append]
      have : [jobOf s.next (Caller.outside n) r].filterMap Job.tag? = [n] := rfl
      rw [this, List.append_assoc]
    · have : tags [Op.ask n r] = [n] := rfl
      rw [this]
      simp only [St.open, List.append_assoc]
      exact List.Perm.append_left _ List.perm_append_comm
  | take j hj hq ho =>
    have : tags [(Op.take j.id : Op α η)] = [] := rfl
    rw [this, List.append_nil]
    simp only [St.open]
    rw [tags_upd (f := Job.run) (fun _ => rfl)]
  | call j r rest hj hp hc =>
    have : tags [(Op.call j.id : Op α η)] = [] := rfl
    rw [this, List.append_nil]
    unfold called
    split
    · simp only [St.open, List.filterMap_append]
      rw [tags_upd (f := Job.asked rest .waiting) (fun _ => rfl)]
      have : [jobOf s.next (Caller.job j.id) r].filterMap Job.tag? = [] := rfl
      rw [this, List.append_nil]
    · simp only [St.open]
      rw [tags_upd (f := Job.asked rest .running) (fun _ => rfl)]
  | finish j hj hp hc =>
    have : tags [(Op.finish j.id : Op α η)] = [] := rfl
    rw [this, List.append_nil]
    simp only [St.open, finished]
    rw [tags_map (release_caller _), List.append_assoc, ← List.filterMap_append]
    exact List.Perm.append_left _ ((List.filter_append_perm _ _).filterMap _)

theorem tags_run {s : St α η} : ∀ {ops : List (Op α η)} {s' : St α η}, run H s ops = some s' →
    (s'.answered ++ s'.open).Perm (s.answered ++ s.open ++ tags ops) := by
  intro ops
  induction ops generalizing s with
  | nil =>
    intro s' h
    cases (Option.some.inj h)
    have : tags ([] : List (Op α η)) = [] := rfl
    rw [this, List.append_nil]
  | cons op ops ih =>
    intro s' h
    simp only [run] at h
    cases hs : step H s op with
    | none => simp [hs] at h
    | some s1 =>
      rw [hs] at h
      have h1 := ih h
      have h2 := (tags_step hs).append_right (tags ops)
      have : tags (op :: ops) = tags [op] ++ tags ops := by
        rw [tags, tags, tags, ← List.filterMap_append]
        rfl
      rw [this, ← List.append_assoc]
      exact h1.trans h2

/-! ### Knots -/

omit [DecidableEq α] in
/-- no job of a knot is running. -/
theorem Knot.phase {s : St α η} {D : List Nat} (h : Inv H s) (hk : Knot s D) {j : Job α η} (hj : j ∈ s.jobs)
    (hd : j.id ∈ D) : j.phase ≠ .running := by
  obtain ⟨k, hks, e, hh⟩ := hk _ hd
  rw [← h.eq hks hj e]
  rcases hh with ⟨p, _⟩ | ⟨p, _⟩ <;> rw [p] <;> intro h' <;> cases h'

omit [DecidableEq α] in
/-- an active job of a knot waits. -/
theorem Knot.waiting {s : St α η} {D : List Nat} (h : Inv H s) (hk : Knot s D) {j : Job α η} (hj : j ∈ s.jobs)
    (hd : j.id ∈ D) (hq : j.phase ≠ .queued) : j.phase = .waiting := by
  have := hk.phase h hj hd
  cases hp : j.phase with
  | queued => exact absurd hp hq
  | running => exact absurd hp this
  | waiting => rfl

omit [DecidableEq α] in
/-- a knot stays one when its jobs keep what matters. -/
theorem Knot.keep {s s' : St α η} {D : List Nat} (hk : Knot s D) (g : Job α η → Job α η)
    (hg : ∀ j ∈ s.jobs, j.id ∈ D → g j ∈ s'.jobs ∧ (g j).id = j.id ∧ (g j).to = j.to ∧
      (g j).caller = j.caller ∧ (g j).phase = j.phase) : Knot s' D := by
  intro i hi
  obtain ⟨j, hj, e, hh⟩ := hk i hi
  obtain ⟨g1, g2, g3, g4, g5⟩ := hg j hj (by rw [e]; exact hi)
  refine ⟨g j, g1, by rw [g2, e], ?_⟩
  rcases hh with ⟨p, c, hcm, ec, hcd⟩ | ⟨p, k, hkm, ek, pk, hkd⟩
  · obtain ⟨c1, c2, c3, c4, c5⟩ := hg c hcm hcd
    exact .inl ⟨by rw [g5, p], g c, c1, by rw [c4, ec], by rw [c2]; exact hcd⟩
  · obtain ⟨k1, k2, k3, k4, k5⟩ := hg k hkm hkd
    exact .inr ⟨by rw [g5, p], g k, k1, by rw [k3, g3, ek], by rw [k5]; exact pk, by rw [k2]; exact hkd⟩

/-- the jobs of a knot are not the ones a step changes. -/
theorem knot_step {s s' : St α η} {op : Op α η} {D : List Nat} (hi : Inv H s) (hk : Knot s D)
    (hs : step H s op = some s') :
    ∀ j ∈ s.jobs, j.id ∈ D → j ∈ s'.jobs := by
  intro j hj hd
  cases step_sound hs with
  | ask n r =>
    unfold arrived
    split
    · exact List.mem_append_left _ hj
    · exact hj
  | take x hx hq ho =>
    refine mem_upd.2 ⟨j, hj, ?_⟩
    rw [if_neg]
    intro e
    have e' := hi.eq hj hx e
    subst e'
    obtain ⟨y, hy, ey, hh⟩ := hk _ hd
    rw [hi.eq hy hj ey] at hh
    rcases hh with ⟨p, _⟩ | ⟨_, k, hkm, ek, pk, _⟩
    · rw [hq] at p
      cases p
    · obtain ⟨as, bs, e, ha⟩ := oldest_split hi hj ho
      have hkm' := hkm
      rw [e] at hkm'
      rcases List.mem_append.1 hkm' with hm | hm
      · exact ha k hm ek
      · rcases List.mem_cons.1 hm with hm | hm
        · rw [hm] at pk
          exact pk hq
        · have := hi.order
          rw [e, List.pairwise_append, List.pairwise_cons] at this
          exact pk (this.2.1.1 k hm ek.symm).1
  | call x r rest hx hp hc =>
    have hne : j.id ≠ x.id := fun e => hk.phase hi hj hd (by rw [hi.eq hj hx e]; exact hp)
    have hm : ∀ p, j ∈ upd x.id (Job.asked rest p) s.jobs := fun p =>
      mem_upd.2 ⟨j, hj, by rw [if_neg hne]⟩
    unfold called
    split
    · exact List.mem_append_left _ (hm _)
    · exact hm _
  | finish x hx hp hc =>
    have hne : ∀ y ∈ s.jobs, y.id ∈ D → y.id ≠ x.id := fun y hy hyd e =>
      hk.phase hi hy hyd (by rw [hi.eq hy hx e]; exact hp)
    have hg : ∀ y ∈ s.jobs, y.id ∈ D → gone H x y = false := by
      intro y hy hyd
      cases hh : gone H x y with
      | false => rfl
      | true =>
        exfalso
        simp only [gone, Bool.or_eq_true, beq_iff_eq, Bool.and_eq_true, decide_eq_true_eq] at hh
        rcases hh with hh | ⟨_, ht⟩
        · exact hne y hy hyd hh
        · have hyx : y ≠ x := fun e => hne y hy hyd (by rw [e])
          have hyq := (hi.alone hx hy (by rw [hp]; intro h'; cases h') ht hyx).1
          obtain ⟨z, hz, ez, hzz⟩ := hk _ hyd
          rw [hi.eq hz hy ez] at hzz
          rcases hzz with ⟨p, _⟩ | ⟨_, k, hkm, ek, pk, hkd⟩
          · rw [hyq] at p
            cases p
          · have hkx : k ≠ x := fun e => hne k hkm hkd (by rw [e])
            exact pk (hi.alone hx hkm (by rw [hp]; intro h'; cases h') (ek.trans ht) hkx).1
    simp only [finished]
    refine List.mem_map.2 ⟨j, List.mem_filter.2 ⟨hj, by rw [hg j hj hd]; rfl⟩, ?_⟩
    unfold release
    rw [if_neg]
    intro hany
    obtain ⟨c, hcm, e⟩ := List.any_eq_true.1 hany
    have hcm := List.mem_filter.1 hcm
    have ec : c.caller = .job j.id := by simpa using e
    obtain ⟨y, hy, ey, hh⟩ := hk _ hd
    rw [hi.eq hy hj ey] at hh
    rcases hh with ⟨_, c', hc', ec', hcd⟩ | ⟨p, _⟩
    · rw [hi.one c hcm.1 c' hc' _ ec ec', hg c' hc' hcd] at hcm
      cases hcm.2
    · obtain ⟨w, hw, ew, pw⟩ := hi.call c hcm.1 _ ec
      rw [hi.eq hw hj ew, p] at pw
      cases pw

theorem Knot.step {s s' : St α η} {op : Op α η} {D : List Nat} (hi : Inv H s) (hk : Knot s D)
    (hs : step H s op = some s') : Knot s' D :=
  hk.keep id (fun j hj hd => ⟨knot_step hi hk hs j hj hd, rfl, rfl, rfl, rfl⟩)

theorem knot_run {s : St α η} {D : List Nat} : ∀ {ops : List (Op α η)} {s' : St α η}, Inv H s → Knot s D →
    run H s ops = some s' → Knot s' D ∧ ∀ j ∈ s.jobs, j.id ∈ D → j ∈ s'.jobs := by
  intro ops
  induction ops generalizing s with
  | nil =>
    intro s' _ hk h
    cases (Option.some.inj h)
    exact ⟨hk, fun _ hj _ => hj⟩
  | cons op ops ih =>
    intro s' hi hk h
    simp only [run] at h
    cases hs : Waits.step H s op with
    | none => simp [hs] at h
    | some s1 =>
      rw [hs] at h
      obtain ⟨h1, h2⟩ := ih (hi.step hs) (hk.step hi hs) h
      exact ⟨h1, fun j hj hd => h2 j (knot_step hi hk hs j hj hd) hd⟩

/-- when nothing can happen, all jobs are a knot. -/
theorem still_knot {s : St α η} (hi : Inv H s) (hst : Still H s) : Knot s (s.jobs.map Job.id) := by
  have hno : ∀ {op : Op α η}, op.inner = true → ¬ (step H s op).isSome = true := by
    intro op ho h
    rw [hst op ho] at h
    cases h
  have hrun : ∀ j ∈ s.jobs, j.phase ≠ .running := by
    intro j hj hp
    obtain ⟨op, ho, h⟩ := can_run hi hj hp
    exact hno ho h
  intro i him
  obtain ⟨j, hj, rfl⟩ := List.mem_map.1 him
  refine ⟨j, hj, rfl, ?_⟩
  cases hp : j.phase with
  | running => exact absurd hp (hrun j hj)
  | waiting =>
    obtain ⟨c, hc, e⟩ := hi.wait j hj hp
    exact .inl ⟨rfl, c, hc, e, List.mem_map_of_mem hc⟩
  | queued =>
    obtain ⟨k, hk, ek, ho⟩ := exists_oldest (c := j) hj
    refine .inr ⟨rfl, k, hk, ek, ?_, List.mem_map_of_mem hk⟩
    intro hq
    obtain ⟨op, ho, h⟩ := can_take hi hk hq ho
    exact hno ho h

end Verif.Actor.Waits
