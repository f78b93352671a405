import Verif.Remote.HeartbeatModel

namespace Verif.Remote

variable {env : Chrono} {cfg : HbConfig} {self : Nat}

def started (env : Chrono) (n : HbNode) : Int := n.startedAt.getD env.minUtc

theorem hbLe_iff (a b : HbNode) : hbLe env a b = true ↔
    started env a < started env b ∨ (started env a = started env b ∧ a.id ≤ b.id) := by
  simp [hbLe, started]

theorem hbLe_total (a b : HbNode) : (hbLe env a b || hbLe env b a) = true := by
  rw [Bool.or_eq_true, hbLe_iff, hbLe_iff]; omega

theorem hbLe_trans (a b c : HbNode) (h1 : hbLe env a b = true) (h2 : hbLe env b c = true) :
    hbLe env a c = true := by
  rw [hbLe_iff] at *; omega

theorem sorted_hb (ns : List HbNode) : (isort (hbLe env) ns).Pairwise (fun a b => hbLe env a b = true) :=
  isort_sorted hbLe_trans (fun a b => by simpa using hbLe_total a b) ns

theorem mem_sort (ns : List HbNode) (n : HbNode) : n ∈ isort (hbLe env) ns ↔ n ∈ ns :=
  mem_isort

/-- `l` is the id of a healthy node which started first, ties broken by id. -/
def IsOldest (env : Chrono) (ns : List HbNode) (l : Nat) : Prop :=
  ∃ a ∈ ns, a.id = l ∧ a.status = .healthy ∧ ∀ b ∈ ns, b.status = .healthy →
    started env a < started env b ∨ (started env a = started env b ∧ a.id ≤ b.id)

theorem IsOldest.unique {ns : List HbNode} {l l' : Nat} (h : IsOldest env ns l) (h' : IsOldest env ns l') :
    l = l' := by
  obtain ⟨a, ha, rfl, hs, hm⟩ := h
  obtain ⟨b, hb, rfl, hs', hm'⟩ := h'
  have h1 := hm b hb hs'
  have h2 := hm' a ha hs
  omega

theorem oldest_some {ns : List HbNode} {l : Nat} (h : oldestHealthy env ns = some l) :
    IsOldest env ns l := by
  unfold oldestHealthy at h
  rw [Option.map_eq_some_iff] at h
  obtain ⟨a, ha, rfl⟩ := h
  obtain ⟨r, hr⟩ := List.head?_eq_some_iff.1 ha
  have hmem : ∀ x, x ∈ a :: r ↔ x ∈ ns ∧ x.status = .healthy := by
    intro x; rw [← hr, List.mem_filter, mem_sort]; simp
  have hsort : (a :: r).Pairwise (fun a b => hbLe env a b = true) := by
    rw [← hr]; exact (sorted_hb ns).filter _
  have ha' := (hmem a).1 (by simp)
  refine ⟨a, ha'.1, rfl, ha'.2, ?_⟩
  intro b hb hs
  have : b ∈ a :: r := (hmem b).2 ⟨hb, hs⟩
  rcases List.mem_cons.1 this with rfl | hbr
  · right; exact ⟨rfl, Nat.le_refl _⟩
  · exact (hbLe_iff _ _).1 ((List.pairwise_cons.1 hsort).1 b hbr)

theorem oldest_none {ns : List HbNode} (h : oldestHealthy env ns = none) :
    ∀ n ∈ ns, n.status ≠ .healthy := by
  unfold oldestHealthy at h
  rw [Option.map_eq_none_iff, List.head?_eq_none_iff, List.filter_eq_nil_iff] at h
  intro n hn hs
  exact h n ((mem_sort ns n).2 hn) (by simp [hs])

theorem oldest_iff (ns : List HbNode) (l : Nat) : oldestHealthy env ns = some l ↔ IsOldest env ns l := by
  constructor
  · exact oldest_some
  · intro h
    rcases Option.eq_none_or_eq_some (oldestHealthy env ns) with h' | ⟨l', h'⟩
    · obtain ⟨a, ha, _, hs, _⟩ := h
      exact absurd hs (oldest_none h' a ha)
    · rw [h', h.unique (oldest_some h')]

theorem IsOldest.congr {ns ns' : List HbNode} (h : ∀ n, n ∈ ns ↔ n ∈ ns') {l : Nat} :
    IsOldest env ns l ↔ IsOldest env ns' l := by
  unfold IsOldest
  simp only [h]

/-! ### The refreshed nodes -/

theorem refresh_id {now : Int} {pings : Assoc Nat Ping} {n u : HbNode}
    (h : refresh env cfg self now pings n = some u) : u.id = n.id ∧ u.startedAt = n.startedAt := by
  unfold refresh at h
  split at h
  · cases h; exact ⟨rfl, rfl⟩
  · unfold updateNode at h
    rw [Option.map_eq_some_iff] at h
    obtain ⟨s, _, rfl⟩ := h
    cases pings.get n.id with
    | none => exact ⟨rfl, rfl⟩
    | some p => cases p <;> exact ⟨rfl, rfl⟩

theorem refreshAll_spec {now : Nat → Int} {pings : Assoc Nat Ping} {ns us : List HbNode}
    (h : refreshAll env cfg self now pings ns = some us) :
    us.map (·.id) = ns.map (·.id) ∧
    (∀ u ∈ us, ∃ n ∈ ns, refresh env cfg self (now n.id) pings n = some u) ∧
    (∀ n ∈ ns, ∃ u ∈ us, refresh env cfg self (now n.id) pings n = some u) := by
  induction ns generalizing us with
  | nil => simp only [refreshAll, Option.some.injEq] at h; subst h; simp
  | cons n r ih =>
    simp only [refreshAll] at h
    split at h
    · rename_i a l ha hl
      simp only [Option.some.injEq] at h
      subst h
      obtain ⟨h1, h2, h3⟩ := ih hl
      refine ⟨by simp [h1, (refresh_id ha).1], ?_, ?_⟩
      · intro u hu
        rcases List.mem_cons.1 hu with rfl | hu
        · exact ⟨n, by simp, ha⟩
        · obtain ⟨m, hm, hr⟩ := h2 u hu
          exact ⟨m, by simp [hm], hr⟩
      · intro m hm
        rcases List.mem_cons.1 hm with rfl | hm
        · exact ⟨a, by simp, ha⟩
        · obtain ⟨u, hu, hr⟩ := h3 m hm
          exact ⟨u, by simp [hu], hr⟩
    · simp at h

theorem get_storeAll (m : Assoc Nat HbNode) (ns : List HbNode) (hnd : (ns.map (·.id)).Nodup) (k : Nat) :
    (∀ n ∈ ns, n.id = k → (storeAll m ns).get k = some n) ∧
    ((∀ n ∈ ns, n.id ≠ k) → (storeAll m ns).get k = m.get k) := by
  induction ns generalizing m with
  | nil => simp [storeAll]
  | cons n r ih =>
    have hnd' := (List.nodup_cons.1 hnd)
    obtain ⟨h1, h2⟩ := ih (m.insert n.id n) hnd'.2
    have hstep : storeAll m (n :: r) = storeAll (m.insert n.id n) r := rfl
    rw [hstep]
    constructor
    · intro x hx hk
      rcases List.mem_cons.1 hx with rfl | hx
      · rw [h2 ?_, Assoc.get_insert, if_pos hk.symm]
        intro y hy hyk
        exact hnd'.1 (List.mem_map.2 ⟨y, hy, hyk.trans hk.symm⟩)
      · exact h1 x hx hk
    · intro hall
      rw [h2 (fun y hy => hall y (by simp [hy])), Assoc.get_insert, if_neg]
      exact fun e => hall n (by simp) e.symm

theorem uniq_storeAll (m : Assoc Nat HbNode) (ns : List HbNode) (hu : Assoc.Uniq m) :
    Assoc.Uniq (storeAll m ns) := by
  induction ns generalizing m with
  | nil => exact hu
  | cons n r ih => exact ih _ (hu.insert _ _)

/-! ### Invariant of the stored nodes -/

structure NodesWF (σ : Hb) : Prop where
  uniq : Assoc.Uniq σ.nodes
  keyed : ∀ p ∈ σ.nodes, p.2.id = p.1

theorem ids_eq_keys {m : Assoc Nat HbNode} (h : ∀ p ∈ m, p.2.id = p.1) :
    (m.map (·.2)).map (·.id) = m.map (·.1) := by
  rw [List.map_map]
  exact List.map_congr_left (fun p hp => h p hp)

/-- after storing the refreshed nodes, the registry holds exactly those. -/
theorem mem_storeAll {m : Assoc Nat HbNode} (hu : Assoc.Uniq m) (hk : ∀ p ∈ m, p.2.id = p.1)
    {us : List HbNode} (hids : us.map (·.id) = (m.map (·.2)).map (·.id)) (n : HbNode) :
    n ∈ (storeAll m (isort (hbLe env) us)).map (·.2) ↔ n ∈ us := by
  have hnd : (us.map (·.id)).Nodup := by
    rw [hids, ids_eq_keys hk]; exact Assoc.uniq_iff.1 hu
  have hp := isort_perm (hbLe env) us
  have hnd' : ((isort (hbLe env) us).map (·.id)).Nodup := (hp.map _).nodup_iff.2 hnd
  have hu' := uniq_storeAll m (isort (hbLe env) us) hu
  constructor
  · intro h
    obtain ⟨⟨k, n'⟩, hm, rfl⟩ := List.mem_map.1 h
    have hget := Assoc.get_of_mem hu' hm
    obtain ⟨h1, h2⟩ := get_storeAll m (isort (hbLe env) us) hnd' k
    by_cases hex : ∃ x ∈ isort (hbLe env) us, x.id = k
    · obtain ⟨x, hx, hxk⟩ := hex
      have := h1 x hx hxk
      rw [hget] at this
      cases this
      exact hp.mem_iff.1 hx
    · have hno : ∀ x ∈ isort (hbLe env) us, x.id ≠ k := fun x hx e => hex ⟨x, hx, e⟩
      rw [h2 hno] at hget
      have : k ∈ us.map (·.id) := by
        rw [hids, ids_eq_keys hk]
        exact List.mem_map.2 ⟨(k, n'), Assoc.mem_of_get hget, rfl⟩
      obtain ⟨x, hx, hxk⟩ := List.mem_map.1 this
      exact absurd hxk (hno x (hp.mem_iff.2 hx))
  · intro h
    have := (get_storeAll m (isort (hbLe env) us) hnd' n.id).1 n (hp.mem_iff.2 h) rfl
    exact List.mem_map.2 ⟨(n.id, n), Assoc.mem_of_get this, rfl⟩

theorem keyed_storeAll {m : Assoc Nat HbNode} (hk : ∀ p ∈ m, p.2.id = p.1) (us : List HbNode) :
    ∀ p ∈ storeAll m us, p.2.id = p.1 := by
  induction us generalizing m with
  | nil => exact hk
  | cons n r ih =>
    apply ih
    intro p hp
    rcases Assoc.mem_insert.1 hp with rfl | ⟨hp, _⟩
    · rfl
    · exact hk p hp

/-- the effect of the end of a tick, field by field. -/
theorem elect_nodes (σ : Hb) (us : List HbNode) :
    (σ.elect env cfg us).nodes = storeAll σ.nodes (isort (hbLe env) us) := by
  unfold Hb.elect
  simp only
  split
  · rfl
  · split <;> rfl

theorem elect_crashed (σ : Hb) (us : List HbNode) : (σ.elect env cfg us).crashed = σ.crashed := by
  unfold Hb.elect
  simp only
  split
  · rfl
  · split <;> rfl

theorem NodesWF.step {σ : Hb} (h : NodesWF σ) (op : HbOp) : NodesWF (σ.step env cfg self op) := by
  have ht : ∀ (τ : Hb) (now : Nat → Int), NodesWF τ → NodesWF (τ.tick env cfg self now) := by
    intro τ now hτ
    unfold Hb.tick
    split
    · exact ⟨hτ.uniq, hτ.keyed⟩
    · constructor
      · rw [elect_nodes]; exact uniq_storeAll _ _ hτ.uniq
      · rw [elect_nodes]; exact keyed_storeAll hτ.keyed _
  cases op with
  | learn id s =>
    refine ⟨h.uniq.insert _ _, ?_⟩
    intro p hp
    rcases Assoc.mem_insert.1 hp with rfl | ⟨hp, _⟩
    · rfl
    · exact h.keyed p hp
  | ping id p => simp only [Hb.step]; split <;> exact ⟨h.uniq, h.keyed⟩
  | onLeader w => simp only [Hb.step]; split <;> exact ⟨h.uniq, h.keyed⟩
  | tick now =>
    simp only [Hb.step]
    split
    · exact h
    · exact ht _ _ h
  | nodeTerminated id now =>
    simp only [Hb.step]
    split
    · exact h
    · apply ht
      refine ⟨by simpa using h.uniq.update id _, ?_⟩
      intro p hp
      simp only [Assoc.update, List.mem_map] at hp
      obtain ⟨q, hq, rfl⟩ := hp
      split
      · exact h.keyed q hq
      · exact h.keyed q hq

theorem NodesWF.run (single : Bool) (ops : List HbOp) : NodesWF (Hb.run env cfg self single ops) := by
  induction ops using snoc_induction with
  | nil => exact ⟨Assoc.Uniq.nil, by simp [Hb.run, Hb.init]⟩
  | snoc ops op ih =>
    have : Hb.run env cfg self single (ops ++ [op]) =
        (Hb.run env cfg self single ops).step env cfg self op := by simp [Hb.run]
    rw [this]; exact ih.step op

theorem hbrun_snoc (single : Bool) (ops : List HbOp) (op : HbOp) :
    Hb.run env cfg self single (ops ++ [op]) =
      (Hb.run env cfg self single ops).step env cfg self op := by simp [Hb.run]

theorem pickNew_some {σ : Hb} {us : List HbNode} {l : Nat} (h : σ.pickNew env us = some l) :
    σ.ticked = true ∧ oldestHealthy env us = some l ∧ leaderOf σ.cell ≠ some l := by
  unfold Hb.pickNew newLeader at h
  cases ht : σ.ticked with
  | false => simp [ht] at h
  | true =>
    simp only [ht, if_true] at h
    split at h
    · simp at h
    · rename_i l' hl
      split at h
      · rename_i hne
        simp only [Option.some.injEq] at h
        subst h
        exact ⟨rfl, hl, fun e => hne e.symm⟩
      · simp at h

theorem asI64_small {n : Nat} (h : n < 2 ^ 63) : leaderOf (asI64 n) = some n := by
  unfold leaderOf asI64
  rw [if_pos h, if_pos (by omega)]
  simp

/-- the leader after the end of a tick, when ids fit in an `i64`. -/
theorem elect_leader (σ : Hb) (us : List HbNode) (ht : σ.ticked = true) (l : Nat)
    (hl : oldestHealthy env us = some l) (hsmall : l < 2 ^ 63) :
    leaderOf (σ.elect env cfg us).cell = some l := by
  unfold Hb.elect
  simp only [Hb.pickNew, ht, if_true, hl, newLeader]
  by_cases hc : some l ≠ leaderOf σ.cell
  · simp only [if_pos hc]
    exact asI64_small hsmall
  · simp only [if_neg hc]
    exact (Decidable.not_not.1 hc).symm

end Verif.Remote
