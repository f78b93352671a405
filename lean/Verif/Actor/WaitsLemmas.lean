import Verif.Actor.WaitsModel

/-!
# Waiting: the invariants of all histories
-/

namespace Verif.Actor.Waits

variable {α η : Type} [DecidableEq α] {H : Hooks η}

omit [DecidableEq α] in
theorem mem_upd {i : Nat} {f : Job α η → Job α η} {l : List (Job α η)} {k : Job α η} :
    k ∈ upd i f l ↔ ∃ j ∈ l, (if j.id = i then f j else j) = k := by
  simp [upd]

/-- a step, spelled out. -/
inductive Step (H : Hooks η) (s : St α η) : Op α η → St α η → Prop where
  | ask (n : Nat) (r : Req α η) : Step H s (.ask n r) (arrived H s n r)
  | take (j : Job α η) : j ∈ s.jobs → j.phase = .queued → oldest s j = true →
      Step H s (.take j.id) { s with jobs := upd j.id Job.run s.jobs }
  | call (j : Job α η) (r : Req α η) (rest : List (Req α η)) : j ∈ s.jobs → j.phase = .running →
      j.calls = r :: rest → Step H s (.call j.id) (called H s j r rest)
  | finish (j : Job α η) : j ∈ s.jobs → j.phase = .running → j.calls = [] →
      Step H s (.finish j.id) (finished H s j)

theorem step_sound {s s' : St α η} {op : Op α η} (h : step H s op = some s') : Step H s op s' := by
  cases op with
  | ask n r =>
    cases (Option.some.inj h)
    exact .ask n r
  | take i =>
    simp only [step] at h
    cases hj : s.jobs.find? (fun j => j.id == i) with
    | none => simp [hj] at h
    | some j =>
      have hm := List.mem_of_find?_eq_some hj
      have hi : j.id = i := by simpa using List.find?_some hj
      simp only [hj] at h
      split at h
      · next hc =>
        cases (Option.some.inj h)
        subst hi
        exact .take j hm hc.1 hc.2
      · cases h
  | call i =>
    simp only [step] at h
    cases hj : s.jobs.find? (fun j => j.id == i) with
    | none => simp [hj] at h
    | some j =>
      have hm := List.mem_of_find?_eq_some hj
      have hi : j.id = i := by simpa using List.find?_some hj
      simp only [hj] at h
      split at h
      · next hp hc =>
        cases (Option.some.inj h)
        subst hi
        exact .call j _ _ hm hp hc
      · cases h
  | finish i =>
    simp only [step] at h
    cases hj : s.jobs.find? (fun j => j.id == i) with
    | none => simp [hj] at h
    | some j =>
      have hm := List.mem_of_find?_eq_some hj
      have hi : j.id = i := by simpa using List.find?_some hj
      simp only [hj] at h
      split at h
      · next hp hc =>
        cases (Option.some.inj h)
        subst hi
        exact .finish j hm hp hc
      · cases h

/-- what holds in every history. -/
structure Inv (H : Hooks η) (s : St α η) : Prop where
  uniq : (s.jobs.map Job.id).Nodup
  lt : ∀ j ∈ s.jobs, j.id < s.next
  order : s.jobs.Pairwise fun a b => a.to = b.to → b.phase = .queued ∧ H.first b.hook = false
  call : ∀ c ∈ s.jobs, ∀ i, c.caller = .job i → ∃ j ∈ s.jobs, j.id = i ∧ j.phase = .waiting
  wait : ∀ j ∈ s.jobs, j.phase = .waiting → ∃ c ∈ s.jobs, c.caller = .job j.id
  one : ∀ c ∈ s.jobs, ∀ c' ∈ s.jobs, ∀ i, c.caller = .job i → c'.caller = .job i → c = c'
  live : ∀ j ∈ s.jobs, j.to ∈ s.born ∧ j.to ∉ s.dead
  dead : ∀ a ∈ s.dead, a ∈ s.born

omit [DecidableEq α] in
theorem eq_of_id : ∀ {l : List (Job α η)}, (l.map Job.id).Nodup → ∀ {j k : Job α η}, j ∈ l → k ∈ l →
    j.id = k.id → j = k
  | [], _, _, _, hj, _, _ => by simp at hj
  | x :: l, h, j, k, hj, hk, e => by
    simp only [List.map_cons, List.nodup_cons] at h
    rcases List.mem_cons.1 hj with hj1 | hj1 <;> rcases List.mem_cons.1 hk with hk1 | hk1
    · rw [hj1, hk1]
    · exact absurd (List.mem_map_of_mem (f := Job.id) hk1) (by rw [← e, hj1]; exact h.1)
    · exact absurd (List.mem_map_of_mem (f := Job.id) hj1) (by rw [e, hk1]; exact h.1)
    · exact eq_of_id h.2 hj1 hk1 e

omit [DecidableEq α] in
theorem Inv.eq {s : St α η} (h : Inv H s) {j k : Job α η} (hj : j ∈ s.jobs) (hk : k ∈ s.jobs)
    (e : j.id = k.id) : j = k := eq_of_id h.uniq hj hk e

omit [DecidableEq α] in
/-- two jobs in a list stand one after the other. -/
theorem pair_of_mem {R : Job α η → Job α η → Prop} : ∀ {l : List (Job α η)}, l.Pairwise R →
    ∀ {j k : Job α η}, j ∈ l → k ∈ l → j ≠ k → R j k ∨ R k j
  | [], _, _, _, hj, _, _ => by simp at hj
  | x :: l, h, j, k, hj, hk, e => by
    rw [List.pairwise_cons] at h
    rcases List.mem_cons.1 hj with hj1 | hj1 <;> rcases List.mem_cons.1 hk with hk1 | hk1
    · exact absurd (hj1.trans hk1.symm) e
    · rw [hj1]; exact .inl (h.1 _ hk1)
    · rw [hk1]; exact .inr (h.1 _ hj1)
    · exact pair_of_mem h.2 hj1 hk1 e

omit [DecidableEq α] in
/-- besides an active job all jobs of its actor are in the mailbox. -/
theorem Inv.alone {s : St α η} (h : Inv H s) {j k : Job α η} (hj : j ∈ s.jobs) (hk : k ∈ s.jobs)
    (hp : j.phase ≠ .queued) (ht : k.to = j.to) (e : k ≠ j) : k.phase = .queued ∧ H.first k.hook = false := by
  rcases pair_of_mem h.order hk hj e with hh | hh
  · exact absurd (hh ht).1 hp
  · exact hh ht.symm

omit [DecidableEq α] in
/-- when a `started` is in the mailbox its actor is idle. -/
theorem Inv.fresh {s : St α η} (h : Inv H s) {j k : Job α η} (hj : j ∈ s.jobs) (hk : k ∈ s.jobs)
    (hp : H.first j.hook = true) (ht : k.to = j.to) (e : k ≠ j) : k.phase = .queued := by
  rcases pair_of_mem h.order hk hj e with hh | hh
  · have := (hh ht).2
    simp [hp] at this
  · exact (hh ht.symm).1

/-! ### Preservation -/

theorem accepts_first {s : St α η} {r : Req α η} (h : accepts H s r = true) (hf : H.first r.hook = true) :
    r.to ∉ s.born := by
  simpa [accepts, hf] using h

theorem accepts_other {s : St α η} {r : Req α η} (h : accepts H s r = true) (hf : H.first r.hook = false) :
    r.to ∈ s.born ∧ r.to ∉ s.dead := by
  simpa [accepts, hf] using h

theorem bornWith_mem {s : St α η} {r : Req α η} (h : accepts H s r = true) : r.to ∈ bornWith H s r := by
  cases hf : H.first r.hook with
  | true => simp [bornWith, hf]
  | false => simpa [bornWith, hf] using (accepts_other h hf).1

omit [DecidableEq α] in
theorem bornWith_of {s : St α η} {r : Req α η} {a : α} (h : a ∈ s.born) : a ∈ bornWith H s r := by
  unfold bornWith
  split <;> simp [h]

theorem accepts_dead {s : St α η} (hs : ∀ a ∈ s.dead, a ∈ s.born) {r : Req α η}
    (h : accepts H s r = true) : r.to ∉ s.dead := by
  cases hf : H.first r.hook with
  | true => exact fun hd => accepts_first h hf (hs _ hd)
  | false => exact (accepts_other h hf).2

/-- a new job at the end keeps the order. -/
theorem order_append {s : St α η} (h : Inv H s) {r : Req α η} (ha : accepts H s r = true)
    {l : List (Job α η)} (hl : l.Pairwise fun a b => a.to = b.to → b.phase = .queued ∧ H.first b.hook = false)
    (hm : ∀ j ∈ l, j.to ∈ s.born) (i : Nat) (c : Caller) :
    (l ++ [jobOf i c r]).Pairwise fun a b => a.to = b.to → b.phase = .queued ∧ H.first b.hook = false := by
  rw [List.pairwise_append]
  refine ⟨hl, by simp, ?_⟩
  intro a hma b hb e
  simp only [List.mem_singleton] at hb
  subst hb
  refine ⟨rfl, ?_⟩
  cases hf : H.first r.hook with
  | false => exact hf
  | true =>
    have : a.to = r.to := e
    exact absurd (hm a hma) (by rw [this]; exact accepts_first ha hf)

omit [DecidableEq α] in
/-- a change of jobs that are not in the mailbox keeps the order. -/
theorem order_map {l : List (Job α η)} {g : Job α η → Job α η}
    (hl : l.Pairwise fun a b => a.to = b.to → b.phase = .queued ∧ H.first b.hook = false)
    (hto : ∀ j ∈ l, (g j).to = j.to) (hhook : ∀ j ∈ l, (g j).hook = j.hook)
    (hq : ∀ j ∈ l, j.phase = .queued → (g j).phase = .queued) :
    (l.map g).Pairwise fun a b => a.to = b.to → b.phase = .queued ∧ H.first b.hook = false := by
  rw [List.pairwise_map]
  refine hl.imp_of_mem ?_
  intro a b ha hb hab e
  rw [hto a ha, hto b hb] at e
  exact ⟨hq b hb (hab e).1, by rw [hhook b hb]; exact (hab e).2⟩

theorem Inv.arrived {s : St α η} (h : Inv H s) (n : Nat) (r : Req α η) : Inv H (arrived H s n r) := by
  unfold Waits.arrived
  split
  · next ha =>
    have hnew : ∀ j ∈ s.jobs, j.id ≠ s.next := fun j hj e => by have := h.lt j hj; omega
    refine ⟨?_, ?_, ?_, ?_, ?_, ?_, ?_, ?_⟩
    · simp only [List.map_append, List.map_cons, List.map_nil]
      rw [List.nodup_append]
      refine ⟨h.uniq, by simp, ?_⟩
      intro a hma b hb
      simp only [jobOf, List.mem_singleton] at hb
      obtain ⟨j, hj, rfl⟩ := List.mem_map.1 hma
      rw [hb]
      exact hnew j hj
    · intro j hj
      rcases List.mem_append.1 hj with hj | hj
      · exact Nat.lt_succ_of_lt (h.lt j hj)
      · simp only [List.mem_singleton] at hj
        subst hj
        exact Nat.lt_succ_self _
    · exact order_append h ha h.order (fun j hj => (h.live j hj).1) _ _
    · intro c hc i hi
      rcases List.mem_append.1 hc with hc | hc
      · obtain ⟨j, hj, e, p⟩ := h.call c hc i hi
        exact ⟨j, List.mem_append_left _ hj, e, p⟩
      · simp only [List.mem_singleton] at hc
        subst hc
        cases hi
    · intro j hj hp
      rcases List.mem_append.1 hj with hj | hj
      · obtain ⟨c, hc, e⟩ := h.wait j hj hp
        exact ⟨c, List.mem_append_left _ hc, e⟩
      · simp only [List.mem_singleton] at hj
        subst hj
        cases hp
    · intro c hc c' hc' i hi hi'
      rcases List.mem_append.1 hc with hc | hc
      · rcases List.mem_append.1 hc' with hc' | hc'
        · exact h.one c hc c' hc' i hi hi'
        · simp only [List.mem_singleton] at hc'
          subst hc'
          cases hi'
      · simp only [List.mem_singleton] at hc
        subst hc
        cases hi
    · intro j hj
      rcases List.mem_append.1 hj with hj | hj
      · exact ⟨bornWith_of (h.live j hj).1, (h.live j hj).2⟩
      · simp only [List.mem_singleton] at hj
        subst hj
        exact ⟨bornWith_mem ha, accepts_dead h.dead ha⟩
    · intro a had
      exact bornWith_of (h.dead a had)
  · exact ⟨h.uniq, h.lt, h.order, h.call, h.wait, h.one, h.live, h.dead⟩

/-- a change of the calls and of the phase of jobs that keeps who waits. -/
theorem Inv.map {s : St α η} (h : Inv H s) (g : Job α η → Job α η)
    (hid : ∀ j, (g j).id = j.id) (hto : ∀ j, (g j).to = j.to)
    (hcl : ∀ j, (g j).caller = j.caller)
    (hw : ∀ j ∈ s.jobs, (g j).phase = .waiting ↔ j.phase = .waiting)
    (ho : (s.jobs.map g).Pairwise fun a b => a.to = b.to → b.phase = .queued ∧ H.first b.hook = false) :
    Inv H { s with jobs := s.jobs.map g } := by
  refine ⟨?_, ?_, ho, ?_, ?_, ?_, ?_, h.dead⟩
  · have : (s.jobs.map g).map Job.id = s.jobs.map Job.id := by
      rw [List.map_map]
      exact List.map_congr_left fun j _ => hid j
    show ((s.jobs.map g).map Job.id).Nodup
    rw [this]
    exact h.uniq
  · intro j hj
    obtain ⟨k, hk, rfl⟩ := List.mem_map.1 hj
    rw [hid]
    exact h.lt k hk
  · intro c hc i hi
    obtain ⟨k, hk, rfl⟩ := List.mem_map.1 hc
    rw [hcl] at hi
    obtain ⟨j, hj, e, p⟩ := h.call k hk i hi
    exact ⟨g j, List.mem_map_of_mem hj, by rw [hid, e], (hw j hj).2 p⟩
  · intro j hj hp
    obtain ⟨k, hk, rfl⟩ := List.mem_map.1 hj
    obtain ⟨c, hc, e⟩ := h.wait k hk ((hw k hk).1 hp)
    exact ⟨g c, List.mem_map_of_mem hc, by rw [hcl, hid, e]⟩
  · intro c hc c' hc' i hi hi'
    obtain ⟨k, hk, rfl⟩ := List.mem_map.1 hc
    obtain ⟨k', hk', rfl⟩ := List.mem_map.1 hc'
    rw [hcl] at hi hi'
    rw [h.one k hk k' hk' i hi hi']
  · intro j hj
    obtain ⟨k, hk, rfl⟩ := List.mem_map.1 hj
    rw [hto]
    exact h.live k hk

omit [DecidableEq α] in
theorem map_split {l : List (Job α η)} {as bs : List (Job α η)} {j : Job α η} (hu : (l.map Job.id).Nodup)
    (hl : l = as ++ j :: bs) (f : Job α η → Job α η) : upd j.id f l = as ++ f j :: bs := by
  subst hl
  simp only [List.map_append, List.map_cons, List.nodup_append, List.nodup_cons, List.mem_cons,
    List.mem_map] at hu
  simp only [upd, List.map_append, List.map_cons, if_true]
  have h1 : as.map (fun k => if k.id = j.id then f k else k) = as := by
    conv => rhs; rw [← List.map_id as]
    refine List.map_congr_left fun k hk => ?_
    rw [if_neg]
    · rfl
    · exact hu.2.2 k.id ⟨k, hk, rfl⟩ j.id (.inl rfl)
  have h2 : bs.map (fun k => if k.id = j.id then f k else k) = bs := by
    conv => rhs; rw [← List.map_id bs]
    refine List.map_congr_left fun k hk => ?_
    rw [if_neg]
    · rfl
    · exact fun e => hu.2.1.1 ⟨k, hk, e⟩
  rw [h1, h2]

/-- the oldest job of an actor: no earlier one goes to the same actor. -/
theorem oldest_split {s : St α η} (h : Inv H s) {j : Job α η} (hj : j ∈ s.jobs) (ho : oldest s j = true) :
    ∃ as bs, s.jobs = as ++ j :: bs ∧ ∀ a ∈ as, a.to ≠ j.to := by
  unfold oldest at ho
  cases hf : s.jobs.find? (fun k => decide (k.to = j.to)) with
  | none => simp [hf] at ho
  | some k =>
    simp only [hf, beq_iff_eq] at ho
    have hk := List.mem_of_find?_eq_some hf
    have : k = j := h.eq hk hj ho
    subst this
    obtain ⟨_, as, bs, e, ha⟩ := List.find?_eq_some_iff_append.1 hf
    exact ⟨as, bs, e, fun a hma => by simpa using ha a hma⟩

theorem Inv.take {s : St α η} (h : Inv H s) {j : Job α η} (hj : j ∈ s.jobs) (hq : j.phase = .queued)
    (ho : oldest s j = true) : Inv H { s with jobs := upd j.id Job.run s.jobs } := by
  refine h.map (fun k => if k.id = j.id then k.run else k) ?_ ?_ ?_ ?_ ?_
  · intro k; split <;> rfl
  · intro k; split <;> rfl
  · intro k; split <;> rfl
  · intro k hk
    split
    · next e =>
      have := h.eq hk hj e
      subst this
      simp [Job.run, hq]
    · rfl
  · obtain ⟨as, bs, e, ha⟩ := oldest_split h hj ho
    show (upd j.id Job.run s.jobs).Pairwise _
    rw [map_split h.uniq e]
    have := h.order
    rw [e] at this
    simp only [List.pairwise_append, List.pairwise_cons, List.mem_cons] at this ⊢
    refine ⟨this.1, ⟨this.2.1.1, this.2.1.2⟩, ?_⟩
    rintro a hma b (rfl | hb) e'
    · exact absurd e' (ha a hma)
    · exact this.2.2 a hma b (.inr hb) e'

theorem Inv.called {s : St α η} (h : Inv H s) {j : Job α η} (hj : j ∈ s.jobs) (hp : j.phase = .running)
    (r : Req α η) (rest : List (Req α η)) : Inv H (called H s j r rest) := by
  have hkids : ∀ c ∈ s.jobs, c.caller ≠ .job j.id := by
    intro c hc e
    obtain ⟨k, hk, e1, p⟩ := h.call c hc _ e
    have := h.eq hk hj e1
    subst this
    rw [hp] at p
    cases p
  unfold Waits.called
  split
  · next ha =>
    let g : Job α η → Job α η := fun k => if k.id = j.id then k.asked rest .waiting else k
    have hid : ∀ k, (g k).id = k.id := by intro k; dsimp only [g]; split <;> rfl
    have hto : ∀ k, (g k).to = k.to := by intro k; dsimp only [g]; split <;> rfl
    have hhook : ∀ k, (g k).hook = k.hook := by intro k; dsimp only [g]; split <;> rfl
    have hcl : ∀ k, (g k).caller = k.caller := by intro k; dsimp only [g]; split <;> rfl
    have hq : ∀ k ∈ s.jobs, k.phase = .queued → (g k).phase = .queued := by
      intro k hk hkq
      dsimp only [g]
      split
      · next e =>
        have := h.eq hk hj e
        subst this
        rw [hp] at hkq
        cases hkq
      · exact hkq
    have hupd : upd j.id (Job.asked rest .waiting) s.jobs = s.jobs.map g := rfl
    have hids : (s.jobs.map g).map Job.id = s.jobs.map Job.id := by
      rw [List.map_map]
      exact List.map_congr_left fun j _ => hid j
    rw [hupd]
    have hnew : ∀ k ∈ s.jobs, k.id ≠ s.next := fun k hk e => by have := h.lt k hk; omega
    refine ⟨?_, ?_, ?_, ?_, ?_, ?_, ?_, ?_⟩
    · show ((s.jobs.map g ++ [_]).map Job.id).Nodup
      rw [List.map_append, hids, List.nodup_append]
      refine ⟨h.uniq, by simp, ?_⟩
      intro a hma b hb
      simp only [List.map_cons, List.map_nil, jobOf, List.mem_singleton] at hb
      obtain ⟨k, hk, rfl⟩ := List.mem_map.1 hma
      rw [hb]
      exact hnew k hk
    · intro k hk
      rcases List.mem_append.1 hk with hk | hk
      · obtain ⟨k', hk', rfl⟩ := List.mem_map.1 hk
        rw [hid]
        exact Nat.lt_succ_of_lt (h.lt k' hk')
      · simp only [List.mem_singleton] at hk
        subst hk
        exact Nat.lt_succ_self _
    · refine order_append h ha (order_map h.order (fun k _ => hto k) (fun k _ => hhook k) hq) ?_ _ _
      intro k hk
      obtain ⟨k', hk', rfl⟩ := List.mem_map.1 hk
      rw [hto]
      exact (h.live k' hk').1
    · intro c hc i hi
      rcases List.mem_append.1 hc with hc | hc
      · obtain ⟨c', hc', rfl⟩ := List.mem_map.1 hc
        rw [hcl] at hi
        obtain ⟨k, hk, e, p⟩ := h.call c' hc' i hi
        refine ⟨g k, List.mem_append_left _ (List.mem_map_of_mem hk), by rw [hid, e], ?_⟩
        dsimp only [g]
        split
        · rfl
        · exact p
      · simp only [List.mem_singleton] at hc
        subst hc
        simp only [jobOf, Caller.job.injEq] at hi
        refine ⟨g j, List.mem_append_left _ (List.mem_map_of_mem hj), by rw [hid, hi], ?_⟩
        simp [g, Job.asked]
    · intro k hk hkp
      rcases List.mem_append.1 hk with hk | hk
      · obtain ⟨k', hk', rfl⟩ := List.mem_map.1 hk
        by_cases e : k'.id = j.id
        · refine ⟨_, List.mem_append_right _ (List.mem_singleton.2 rfl), ?_⟩
          rw [hid, e]
          rfl
        · have hkp' : k'.phase = .waiting := by simpa [g, e] using hkp
          obtain ⟨c, hc, ec⟩ := h.wait k' hk' hkp'
          exact ⟨g c, List.mem_append_left _ (List.mem_map_of_mem hc), by rw [hcl, hid, ec]⟩
      · simp only [List.mem_singleton] at hk
        subst hk
        cases hkp
    · intro c hc c' hc' i hi hi'
      rcases List.mem_append.1 hc with hc | hc <;> rcases List.mem_append.1 hc' with hc' | hc'
      · obtain ⟨k, hk, rfl⟩ := List.mem_map.1 hc
        obtain ⟨k', hk', rfl⟩ := List.mem_map.1 hc'
        rw [hcl] at hi hi'
        rw [h.one k hk k' hk' i hi hi']
      · obtain ⟨k, hk, rfl⟩ := List.mem_map.1 hc
        simp only [List.mem_singleton] at hc'
        subst hc'
        simp only [jobOf, Caller.job.injEq] at hi'
        rw [hcl, ← hi'] at hi
        exact absurd hi (hkids k hk)
      · obtain ⟨k, hk, rfl⟩ := List.mem_map.1 hc'
        simp only [List.mem_singleton] at hc
        subst hc
        simp only [jobOf, Caller.job.injEq] at hi
        rw [hcl, ← hi] at hi'
        exact absurd hi' (hkids k hk)
      · simp only [List.mem_singleton] at hc hc'
        rw [hc, hc']
    · intro k hk
      rcases List.mem_append.1 hk with hk | hk
      · obtain ⟨k', hk', rfl⟩ := List.mem_map.1 hk
        rw [hto]
        exact ⟨bornWith_of (h.live k' hk').1, (h.live k' hk').2⟩
      · simp only [List.mem_singleton] at hk
        subst hk
        exact ⟨bornWith_mem ha, accepts_dead h.dead ha⟩
    · intro a had
      exact bornWith_of (h.dead a had)
  · refine h.map (fun k => if k.id = j.id then k.asked rest .running else k) ?_ ?_ ?_ ?_ ?_
    · intro k; split <;> rfl
    · intro k; split <;> rfl
    · intro k; split <;> rfl
    · intro k hk
      split
      · next e =>
        have := h.eq hk hj e
        subst this
        simp [Job.asked, hp]
      · rfl
    · refine order_map h.order ?_ ?_ ?_
      · intro k _; split <;> rfl
      · intro k _; split <;> rfl
      · intro k hk hkq
        split
        · next e =>
          have := h.eq hk hj e
          subst this
          rw [hp] at hkq
          cases hkq
        · exact hkq

/-- the jobs that end with a running job are that job and jobs in the mailbox. -/
theorem gone_phase {s : St α η} (h : Inv H s) {j k : Job α η} (hj : j ∈ s.jobs) (hp : j.phase = .running)
    (hk : k ∈ s.jobs) (hg : gone H j k = true) : k.phase ≠ .waiting := by
  by_cases e : k.id = j.id
  · rw [h.eq hk hj e, hp]
    intro h'
    cases h'
  · have ht : k.to = j.to := by
      simp only [gone, Bool.or_eq_true, beq_iff_eq, Bool.and_eq_true, decide_eq_true_eq] at hg
      rcases hg with hg | hg
      · exact absurd hg e
      · exact hg.2
    have := (h.alone hj hk (by rw [hp]; intro h'; cases h') ht (fun e' => e (by rw [e']))).1
    rw [this]
    intro h'
    cases h'

omit [DecidableEq α] in
theorem release_id (l : List (Job α η)) (j : Job α η) : (release l j).id = j.id := by
  unfold release; split <;> rfl
omit [DecidableEq α] in
theorem release_to (l : List (Job α η)) (j : Job α η) : (release l j).to = j.to := by
  unfold release; split <;> rfl
omit [DecidableEq α] in
theorem release_hook (l : List (Job α η)) (j : Job α η) : (release l j).hook = j.hook := by
  unfold release; split <;> rfl
omit [DecidableEq α] in
theorem release_caller (l : List (Job α η)) (j : Job α η) : (release l j).caller = j.caller := by
  unfold release; split <;> rfl
omit [DecidableEq α] in
theorem release_calls (l : List (Job α η)) (j : Job α η) : (release l j).calls = j.calls := by
  unfold release; split <;> rfl

omit [DecidableEq α] in
/-- who is waiting after the answers. -/
theorem release_phase (l : List (Job α η)) (j : Job α η) :
    (release l j).phase = .waiting ↔ j.phase = .waiting ∧ ∀ k ∈ l, k.caller ≠ .job j.id := by
  unfold release
  split
  · next hc =>
    obtain ⟨k, hk, e⟩ := List.any_eq_true.1 hc
    simp only [Job.run]
    constructor
    · intro h; cases h
    · intro h; exact absurd (by simpa using e) (h.2 k hk)
  · next hc =>
    constructor
    · intro h
      refine ⟨h, fun k hk e => hc (List.any_eq_true.2 ⟨k, hk, by simpa using e⟩)⟩
    · intro h; exact h.1

theorem Inv.finished {s : St α η} (h : Inv H s) {j : Job α η} (hj : j ∈ s.jobs) (hp : j.phase = .running) :
    Inv H (finished H s j) := by
  have hmem : ∀ k, k ∈ (Waits.finished H s j).jobs ↔
      ∃ k' ∈ s.jobs, gone H j k' = false ∧ release (s.jobs.filter (gone H j)) k' = k := by
    intro k
    simp only [Waits.finished, List.mem_map, List.mem_filter, Bool.not_eq_true']
    constructor
    · rintro ⟨k', ⟨h1, h2⟩, h3⟩
      exact ⟨k', h1, h2, h3⟩
    · rintro ⟨k', h1, h2, h3⟩
      exact ⟨k', ⟨h1, h2⟩, h3⟩
  have hrel : ∀ k ∈ s.jobs, k.phase = .queued → ∀ c ∈ s.jobs, c.caller ≠ .job k.id := by
    intro k hk hq c hc e
    obtain ⟨k', hk', e1, p⟩ := h.call c hc _ e
    rw [h.eq hk' hk e1, hq] at p
    cases p
  refine ⟨?_, ?_, ?_, ?_, ?_, ?_, ?_, ?_⟩
  · have hids : (Waits.finished H s j).jobs.map Job.id =
        (s.jobs.filter fun k => !gone H j k).map Job.id := by
      simp only [Waits.finished, List.map_map]
      exact List.map_congr_left fun k _ => release_id _ k
    rw [hids]
    exact (List.Nodup.sublist ((List.filter_sublist).map _) h.uniq)
  · intro k hk
    obtain ⟨k', hk', _, rfl⟩ := (hmem k).1 hk
    rw [release_id]
    exact h.lt k' hk'
  · refine order_map (h.order.sublist List.filter_sublist) (fun k _ => release_to _ k)
      (fun k _ => release_hook _ k) ?_
    intro k hk hq
    have hk' := (List.mem_filter.1 hk).1
    unfold release
    rw [if_neg]
    · exact hq
    · intro hc
      obtain ⟨c, hc1, e⟩ := List.any_eq_true.1 hc
      exact hrel k hk' hq c (List.mem_filter.1 hc1).1 (by simpa using e)
  · intro c hc i hi
    obtain ⟨c', hc', hg, rfl⟩ := (hmem c).1 hc
    rw [release_caller] at hi
    obtain ⟨k, hk, e, p⟩ := h.call c' hc' i hi
    have hkg : gone H j k = false := by
      cases hh : gone H j k with
      | false => rfl
      | true => exact absurd p (gone_phase h hj hp hk hh)
    refine ⟨_, (hmem _).2 ⟨k, hk, hkg, rfl⟩, by rw [release_id, e], ?_⟩
    refine (release_phase _ _).2 ⟨p, ?_⟩
    intro d hd ed
    have := List.mem_filter.1 hd
    rw [h.one c' hc' d this.1 i hi (by rw [ed, e])] at hg
    rw [this.2] at hg
    cases hg
  · intro k hk hkp
    obtain ⟨k', hk', hg, rfl⟩ := (hmem k).1 hk
    have hw := (release_phase _ _).1 hkp
    obtain ⟨c, hc, e⟩ := h.wait k' hk' hw.1
    have hcg : gone H j c = false := by
      cases hh : gone H j c with
      | false => rfl
      | true => exact absurd e (hw.2 c (List.mem_filter.2 ⟨hc, hh⟩))
    exact ⟨_, (hmem _).2 ⟨c, hc, hcg, rfl⟩, by rw [release_caller, release_id, e]⟩
  · intro c hc c' hc' i hi hi'
    obtain ⟨k, hk, _, rfl⟩ := (hmem c).1 hc
    obtain ⟨k', hk', _, rfl⟩ := (hmem c').1 hc'
    rw [release_caller] at hi hi'
    rw [h.one k hk k' hk' i hi hi']
  · intro k hk
    obtain ⟨k', hk', hg, rfl⟩ := (hmem k).1 hk
    rw [release_to]
    refine ⟨(h.live k' hk').1, ?_⟩
    simp only [Waits.finished]
    split
    · next hl =>
      intro hd
      rcases List.mem_append.1 hd with hd | hd
      · exact (h.live k' hk').2 hd
      · have : k'.to = j.to := List.mem_singleton.1 hd
        simp [gone, hl, this] at hg
    · exact (h.live k' hk').2
  · intro a had
    simp only [Waits.finished] at had
    split at had
    · rcases List.mem_append.1 had with hd | hd
      · exact h.dead a hd
      · rw [List.mem_singleton.1 hd]
        exact (h.live j hj).1
    · exact h.dead a had

theorem Inv.step {s s' : St α η} {op : Op α η} (h : Inv H s) (hs : step H s op = some s') : Inv H s' := by
  cases step_sound hs with
  | ask n r => exact h.arrived n r
  | take j hj hq ho => exact h.take hj hq ho
  | call j r rest hj hp _ => exact h.called hj hp r rest
  | finish j hj hp _ => exact h.finished hj hp

omit [DecidableEq α] in
theorem Inv.init (actors : List α) : Inv H (init actors : St α η) := by
  refine ⟨?_, ?_, ?_, ?_, ?_, ?_, ?_, ?_⟩ <;> simp [Waits.init]

theorem run_append {s : St α η} : ∀ {ops ops' : List (Op α η)},
    run H s (ops ++ ops') = (run H s ops).bind fun s' => run H s' ops' := by
  intro ops
  induction ops generalizing s with
  | nil => intro ops'; rfl
  | cons op ops ih =>
    intro ops'
    simp only [List.cons_append, run]
    cases Waits.step H s op with
    | none => rfl
    | some s1 => exact ih

/-- an invariant of the steps is one of the histories. -/
theorem run_induct {P : St α η → Prop} {Q : Op α η → Prop}
    (hstep : ∀ s op s', P s → Q op → Waits.step H s op = some s' → P s') :
    ∀ {ops : List (Op α η)} {s s' : St α η}, P s → (∀ op ∈ ops, Q op) → run H s ops = some s' → P s' := by
  intro ops
  induction ops with
  | nil =>
    intro s s' hp _ h
    cases (Option.some.inj h)
    exact hp
  | cons op ops ih =>
    intro s s' hp hq h
    simp only [run] at h
    cases hs : Waits.step H s op with
    | none => simp [hs] at h
    | some s1 =>
      rw [hs] at h
      exact ih (hstep s op s1 hp (hq op (List.mem_cons_self ..)) hs)
        (fun o ho => hq o (List.mem_cons_of_mem _ ho)) h

theorem Inv.run {s s' : St α η} {ops : List (Op α η)} (h : Inv H s) (hr : run H s ops = some s') : Inv H s' :=
  run_induct (P := Inv H) (Q := fun _ => True) (fun _ _ _ hp _ hs => hp.step hs) h (fun _ _ => trivial) hr

end Verif.Actor.Waits
