import Verif.Sharding.CoordinatorProps

/-!
# C41: full rebalance
-/

namespace Verif.Sharding

/-! ### Specification -/

/-- the number of shards an even distribution gives every node, `total` shards over `nodes` nodes. -/
def fairShare (total nodes : Nat) : Nat := total / nodes

/-- the number of shards with a node. -/
def Coord.total (σ : Coord) : Nat := σ.shards.length

/-- the number of available nodes. -/
def Coord.available (σ : Coord) : Nat := (σ.hosts.filter fun p => p.2.status = .ready).length

/-- operations by which shards taken in a rebalance are placed again, in any order and with any
iteration order of the tables. -/
def CoordOp.places : CoordOp → Bool
  | .stopAcked _ _ => true
  | .shuffle _ => true
  | .shuffleSet _ _ => true
  | _ => false

/-! ### Lemmas: sums -/

/-- the pairs (shard, node) listed by the hosts. -/
def hostPairs (hosts : Assoc Nat HostInfo) : List (Nat × Nat) :=
  hosts.flatMap fun p => p.2.shards.map fun s => (s, p.1)

theorem hostPairs_perm {σ : Coord} (hi : Inv σ) : (hostPairs σ.hosts).Perm σ.shards := by
  rw [List.perm_ext_iff_of_nodup]
  · rintro ⟨s, n⟩
    rw [← Assoc.get_iff hi.su, hi.agree']
    simp only [hostPairs, List.mem_flatMap, List.mem_map, Prod.mk.injEq, Prod.exists]
    constructor
    · rintro ⟨m, h, hm, s', hs', rfl, rfl⟩
      exact ⟨h, Assoc.get_of_mem hi.hu hm, hs'⟩
    · rintro ⟨h, hg, hs⟩
      exact ⟨n, h, Assoc.mem_of_get hg, s, hs, rfl, rfl⟩
  · unfold hostPairs List.Nodup
    rw [List.pairwise_flatMap]
    constructor
    · rintro ⟨n, h⟩ hm
      have := hi.nd n h (Assoc.get_of_mem hi.hu hm)
      rw [List.pairwise_map]
      exact List.Pairwise.imp (fun hab e => hab (by simpa using e)) this
    · refine List.Pairwise.imp ?_ hi.hu
      rintro ⟨n, h⟩ ⟨m, h'⟩ hnm x hx y hy
      simp only [List.mem_map] at hx hy
      obtain ⟨a, _, rfl⟩ := hx
      obtain ⟨b, _, rfl⟩ := hy
      exact fun e => hnm (by simpa using (Prod.mk.inj e).2)
  · have := hi.su
    rw [Assoc.uniq_iff] at this
    exact List.Pairwise.of_map (S := fun a b => a ≠ b) (fun a => a.1) (fun a b h e => h (by rw [e])) this

def loads (hosts : Assoc Nat HostInfo) : List Nat := hosts.map fun p => p.2.shards.length

theorem loads_sum {σ : Coord} (hi : Inv σ) : (loads σ.hosts).sum = σ.total := by
  have := (hostPairs_perm hi).length_eq
  rw [hostPairs, List.length_flatMap] at this
  simp only [List.length_map] at this
  exact this

theorem sum_filter_zero {α : Type} (l : List α) (f : α → Nat) (p : α → Bool) (h : ∀ a ∈ l, p a = false → f a = 0) :
    ((l.filter p).map f).sum = (l.map f).sum := by
  induction l with
  | nil => rfl
  | cons a l ih =>
    have ih := ih (fun b hb => h b (by simp [hb]))
    cases hp : p a with
    | true => simp [hp, ih]
    | false => simp [hp, ih, h a (by simp) hp]

theorem ready_sum {σ : Coord} (hi : Inv σ) : (loads σ.readyHosts).sum = σ.total := by
  rw [← loads_sum hi]
  apply sum_filter_zero
  rintro ⟨n, h⟩ hm hp
  by_cases he : h.shards = []
  · simp [he]
  · have := hi.onReady n h (Assoc.get_of_mem hi.hu hm) he
    simp [HostInfo.isReady, this] at hp

theorem sum_ge (l : List Nat) (k : Nat) (h : ∀ x ∈ l, k ≤ x) : l.length * k ≤ l.sum := by
  induction l with
  | nil => simp
  | cons a l ih =>
    have := ih (fun x hx => h x (by simp [hx]))
    have := h a (by simp)
    simp only [List.length_cons, List.sum_cons, Nat.succ_mul]
    omega

theorem sum_le (l : List Nat) (k : Nat) (h : ∀ x ∈ l, x ≤ k) : l.sum ≤ l.length * k := by
  induction l with
  | nil => simp
  | cons a l ih =>
    have := ih (fun x hx => h x (by simp [hx]))
    have := h a (by simp)
    simp only [List.length_cons, List.sum_cons, Nat.succ_mul]
    omega

theorem all_eq_of_sum (l : List Nat) (k : Nat) (h : ∀ x ∈ l, x ≤ k) (hs : l.length * k ≤ l.sum) :
    ∀ x ∈ l, k ≤ x := by
  induction l with
  | nil => simp
  | cons a l ih =>
    have h1 := sum_le l k (fun x hx => h x (by simp [hx]))
    have h2 := h a (by simp)
    simp only [List.length_cons, List.sum_cons, Nat.succ_mul] at hs
    intro x hx
    rcases List.mem_cons.1 hx with rfl | hx
    · omega
    · exact ih (fun x hx => h x (by simp [hx])) (by omega) x hx

theorem available_eq (σ : Coord) : σ.available = σ.readyHosts.length := rfl

/-! ### Lemmas: taking shards -/

theorem detach_get {σ : Coord} (hi : Inv σ) (s m : Nat) :
    (σ.detach s).hosts.get m = (σ.hosts.get m).map fun h => { h with shards := h.shards.filter (· ≠ s) } := by
  have hid : ∀ h : HostInfo, s ∉ h.shards → ({ h with shards := h.shards.filter (· ≠ s) } : HostInfo) = h := by
    intro h hs
    rw [List.filter_eq_self.2]
    intro a ha
    simp only [ne_eq, decide_not, Bool.not_eq_eq_eq_not, Bool.not_true, decide_eq_false_iff_not]
    exact fun e => hs (e ▸ ha)
  rcases Option.eq_none_or_eq_some (σ.shards.get s) with h | ⟨n, h⟩
  · rw [detach_none h]
    rcases Option.eq_none_or_eq_some (σ.hosts.get m) with h' | ⟨hm, h'⟩
    · rw [h']; rfl
    · rw [h', Option.map_some, hid hm (not_mem_of_get_none hi h h')]
  · rw [detach_hosts hi h]
    simp only [Assoc.get_update]
    by_cases hmn : m = n
    · rw [if_pos hmn]
    · rw [if_neg hmn]
      rcases Option.eq_none_or_eq_some (σ.hosts.get m) with h' | ⟨hm, h'⟩
      · rw [h']; rfl
      · rw [h', Option.map_some, hid hm]
        intro hs
        have := (hi.agree' s m).2 ⟨hm, h', hs⟩
        rw [h] at this
        exact hmn (Option.some.inj this).symm

theorem erase_length {κ α : Type} [DecidableEq κ] {m : Assoc κ α} (hu : Assoc.Uniq m) {k : κ} {v : α}
    (h : m.get k = some v) : (m.erase k).length + 1 = m.length := by
  have hm := Assoc.mem_of_get h
  induction m with
  | nil => simp at hm
  | cons p m ih =>
    have hu' := List.pairwise_cons.1 hu
    unfold Assoc.erase at ih ⊢
    by_cases hp : p.1 = k
    · rw [List.filter_cons_of_neg (by simp [hp]), List.filter_eq_self.2]
      · simp
      · intro a ha
        have := hu'.1 a ha
        simp only [ne_eq, decide_not, Bool.not_eq_eq_eq_not, Bool.not_true, decide_eq_false_iff_not]
        exact fun e => this (by rw [hp, e])
    · rw [List.filter_cons_of_pos (by simp [hp]), List.length_cons, List.length_cons]
      rw [Assoc.get_cons, if_neg hp] at h
      have hm' : (k, v) ∈ m := by
        rcases List.mem_cons.1 hm with e | hm
        · exact absurd (by rw [← e]) hp
        · exact hm
      rw [ih hu'.2 h hm']

/-- no shard being moved has a node, and none is moved twice. -/
def Coord.Apart (σ : Coord) : Prop :=
  (σ.moving.map (·.1)).Nodup ∧ ∀ s n, (s, n) ∈ σ.moving → σ.shards.get s = none

/-- what taking the shards in `l` does. -/
structure Took (σ τ : Coord) (l : List Nat) : Prop where
  inv : Inv τ
  shards : ∀ t, τ.shards.get t = if t ∈ l then none else σ.shards.get t
  hosts : ∀ m, τ.hosts.get m = (σ.hosts.get m).map fun h => { h with shards := h.shards.filter (· ∉ l) }
  moving : ∀ t m, (t, m) ∈ τ.moving ↔ (t, m) ∈ σ.moving ∨ (t ∈ l ∧ σ.shards.get t = some m)
  sent : ∀ t m, t ∈ l → σ.shards.get t = some m → CoordOut.stopShard t m ∈ τ.out
  outs : ∀ o ∈ σ.out, o ∈ τ.out
  count : τ.total + τ.moving.length = σ.total + σ.moving.length
  apart : σ.Apart → τ.Apart
  ready : τ.readyHosts.length = σ.readyHosts.length
  keys : τ.hosts.map (·.1) = σ.hosts.map (·.1)

theorem update_ready_length (hosts : Assoc Nat HostInfo) (n : Nat) (f : HostInfo → HostInfo)
    (hf : ∀ h, (f h).status = h.status) :
    ((hosts.update n f).filter fun p => p.2.isReady).length = (hosts.filter fun p => p.2.isReady).length := by
  unfold Assoc.update
  rw [List.filter_map, List.length_map]
  congr 1
  apply List.filter_congr
  intro p _
  simp only [Function.comp]
  by_cases h : p.1 = n
  · rw [if_pos h]; simp [HostInfo.isReady, hf]
  · rw [if_neg h]

theorem took_one {σ : Coord} (hi : Inv σ) (s : Nat) : Took σ (σ.takeShard s) [s] := by
  have hid : ∀ hs : List Nat, hs.filter (· ≠ s) = hs.filter (· ∉ [s]) := by
    intro hs; congr 1; funext x; simp
  rw [takeShard_eq hi]
  have hia := hi.announce s
  have hhosts : ∀ m, ((σ.announce s).detach s).hosts.get m =
      (σ.hosts.get m).map fun h => { h with shards := h.shards.filter (· ∉ [s]) } := by
    intro m
    rw [detach_get hia]
    simp only [hid]
    rfl
  rcases Option.eq_none_or_eq_some (σ.shards.get s) with h | ⟨n, h⟩
  · have h' : (σ.announce s).shards.get s = none := h
    have hd := detach_none h'
    refine ⟨hia.detach s, ?_, hhosts, ?_, ?_, ?_, ?_, ?_, ?_, ?_⟩
    · intro t
      rw [hd]
      show σ.shards.get t = _
      by_cases ht : t = s
      · simp [ht, h]
      · simp [ht]
    · intro t m
      rw [hd]
      show (t, m) ∈ σ.moving ↔ _
      simp only [List.mem_singleton]
      constructor
      · exact .inl
      · rintro (h1 | ⟨rfl, h1⟩)
        · exact h1
        · simp [h] at h1
    · intro t m ht hm
      simp only [List.mem_singleton] at ht
      subst ht
      simp [h] at hm
    · intro o ho; rw [hd]; simp [Coord.announce, ho]
    · rw [hd]; rfl
    · rw [hd]; exact id
    · rw [hd]; rfl
    · rw [hd]; rfl
  · have h' : (σ.announce s).shards.get s = some n := h
    have hd := detach_hosts hia h'
    refine ⟨hia.detach s, ?_, hhosts, ?_, ?_, ?_, ?_, ?_, ?_, ?_⟩
    · intro t
      rw [hd]
      show (σ.shards.erase s).get t = _
      rw [Assoc.get_erase]; simp
    · intro t m
      rw [hd]
      show (t, m) ∈ σ.moving ++ [(s, n)] ↔ _
      simp only [List.mem_append, List.mem_singleton, Prod.mk.injEq]
      constructor
      · rintro (h1 | ⟨rfl, rfl⟩)
        · exact .inl h1
        · exact .inr ⟨rfl, h⟩
      · rintro (h1 | ⟨rfl, h1⟩)
        · exact .inl h1
        · rw [h] at h1; exact .inr ⟨rfl, (Option.some.inj h1).symm⟩
    · intro t m ht hm
      simp only [List.mem_singleton] at ht
      subst ht
      rw [h] at hm
      cases hm
      rw [hd]; simp
    · intro o ho; rw [hd]; simp [Coord.announce, ho]
    · rw [hd]
      show (σ.shards.erase s).length + (σ.moving ++ [(s, n)]).length = σ.shards.length + σ.moving.length
      have := erase_length hi.su h
      simp only [List.length_append, List.length_singleton]
      omega
    · rintro ⟨a1, a2⟩
      rw [hd]
      constructor
      · show ((σ.moving ++ [(s, n)]).map (·.1)).Nodup
        rw [List.map_append, List.nodup_append]
        refine ⟨a1, by simp, ?_⟩
        intro a ha b hb
        simp only [List.map_cons, List.map_nil, List.mem_singleton] at hb
        subst hb
        rintro rfl
        obtain ⟨⟨a', m⟩, hm, rfl⟩ := List.mem_map.1 ha
        have := a2 a' m hm
        simp [h] at this
      · show ∀ t m, (t, m) ∈ σ.moving ++ [(s, n)] → (σ.shards.erase s).get t = none
        intro t m hm
        rw [Assoc.get_erase]
        by_cases ht : t = s
        · rw [if_pos ht]
        · rw [if_neg ht]
          simp only [List.mem_append, List.mem_singleton, Prod.mk.injEq, ht, false_and, or_false] at hm
          exact a2 t m hm
    · rw [hd]
      exact update_ready_length σ.hosts n (fun h => { h with shards := h.shards.filter (· ≠ s) }) (fun _ => rfl)
    · rw [hd]
      exact Assoc.keys_update σ.hosts n (fun h => { h with shards := h.shards.filter (· ≠ s) })

theorem Took.trans {σ τ υ : Coord} {l l' : List Nat} (h1 : Took σ τ l) (h2 : Took τ υ l') :
    Took σ υ (l ++ l') := by
  refine ⟨h2.inv, ?_, ?_, ?_, ?_, ?_, ?_, fun a => h2.apart (h1.apart a), h2.ready.trans h1.ready,
    h2.keys.trans h1.keys⟩
  · intro t
    rw [h2.shards, h1.shards]
    by_cases a : t ∈ l' <;> by_cases b : t ∈ l <;> simp [a, b]
  · intro m
    rw [h2.hosts, h1.hosts, Option.map_map]
    congr 1
    funext h
    simp only [Function.comp, List.filter_filter]
    congr 2
    funext x
    by_cases a : x ∈ l' <;> by_cases b : x ∈ l <;> simp [a, b]
  · intro t m
    rw [h2.moving, h1.moving, h1.shards]
    simp only [List.mem_append]
    by_cases a : t ∈ l' <;> by_cases b : t ∈ l <;> simp [a, b]
  · intro t m ht hm
    by_cases b : t ∈ l
    · exact h2.outs _ (h1.sent t m b hm)
    · refine h2.sent t m ?_ ?_
      · simpa [b] using ht
      · rw [h1.shards, if_neg b, hm]
  · intro o ho; exact h2.outs o (h1.outs o ho)
  · rw [h2.count, h1.count]

theorem Took.refl {σ : Coord} (hi : Inv σ) : Took σ σ [] := by
  refine ⟨hi, by simp, ?_, by simp, by simp, fun _ h => h, rfl, id, rfl, rfl⟩
  intro m
  cases σ.hosts.get m with
  | none => rfl
  | some h =>
    have : h.shards.filter (· ∉ ([] : List Nat)) = h.shards := by rw [List.filter_eq_self]; simp
    simp only [Option.map_some, this]

theorem took_all {σ : Coord} (hi : Inv σ) (l : List Nat) : Took σ (σ.rebalanceShards l) l := by
  unfold Coord.rebalanceShards
  induction l generalizing σ with
  | nil => exact .refl hi
  | cons s l ih =>
    have h1 := took_one hi s
    have := h1.trans (ih h1.inv)
    exact this

theorem filter_take_drop (l : List Nat) (hn : l.Nodup) (k : Nat) : l.filter (· ∉ l.take k) = l.drop k := by
  have hsplit : l = l.take k ++ l.drop k := (List.take_append_drop k l).symm
  have hnd : (l.take k ++ l.drop k).Nodup := by rw [← hsplit]; exact hn
  have hdisj := (List.nodup_append.1 hnd).2.2
  have h1 : (l.take k ++ l.drop k).filter (· ∉ l.take k) = l.drop k := by
    rw [List.filter_append, List.filter_eq_nil_iff.2, List.filter_eq_self.2]
    · simp
    · intro a ha
      simp only [decide_not, Bool.not_eq_eq_eq_not, Bool.not_true, decide_eq_false_iff_not]
      intro hb
      exact hdisj a hb a ha rfl
    · intro a ha; simp [ha]
  calc l.filter (· ∉ l.take k) = (l.take k ++ l.drop k).filter (· ∉ l.take k) := by rw [← hsplit]
    _ = l.drop k := h1

theorem mem_surplus {σ : Coord} (hi : Inv σ) {fair n s : Nat} {h : HostInfo} (hg : σ.hosts.get n = some h)
    (hs : s ∈ h.shards) : s ∈ surplus fair σ.hosts ↔ s ∈ h.shards.take (h.shards.length - fair) := by
  simp only [surplus, List.mem_flatMap, Prod.exists]
  constructor
  · rintro ⟨m, h', hm, hs'⟩
    have hg' := Assoc.get_of_mem hi.hu hm
    have e1 := (hi.agree' s n).2 ⟨h, hg, hs⟩
    have e2 := (hi.agree' s m).2 ⟨h', hg', List.mem_of_mem_take hs'⟩
    rw [e1] at e2
    obtain rfl := Option.some.inj e2
    rw [hg] at hg'
    obtain rfl := Option.some.inj hg'
    exact hs'
  · intro h'
    exact ⟨n, h, Assoc.mem_of_get hg, h'⟩

theorem surplus_filter {σ : Coord} (hi : Inv σ) {fair n : Nat} {h : HostInfo} (hg : σ.hosts.get n = some h) :
    h.shards.filter (· ∉ surplus fair σ.hosts) = h.shards.drop (h.shards.length - fair) := by
  rw [← filter_take_drop _ (hi.nd n h hg)]
  apply List.filter_congr
  intro s hs
  simp only [decide_eq_decide]
  rw [mem_surplus hi hg hs]

theorem rebalanceAll_took {σ : Coord} (hi : Inv σ) :
    Took σ σ.rebalanceAll (surplus σ.fairCount σ.hosts) := by
  unfold Coord.rebalanceAll
  rw [if_neg (hosts_ne_nil hi)]
  exact took_all hi _

/-! ### C41 -/

/-- C41, first half, where the fair share is the code's: all shards over all known nodes. A full
rebalance leaves every node with what it had, but no more than the fair share; the shards it takes are
exactly the ones that no longer have a node; for each of them the node that had it is asked to stop it. -/
theorem C41_takes (σ : Coord) (hr : σ.Reachable) :
    (∀ n h, σ.Knows n h → ∃ h', (σ.next .rebalanceAll).Knows n h' ∧ h'.status = h.status ∧
      h'.shards.Sublist h.shards ∧
      h'.shards.length = min h.shards.length (fairShare σ.total σ.hosts.length)) ∧
    (∀ s n, (σ.next .rebalanceAll).Assigned s n → σ.Assigned s n) ∧
    (∀ s n, (s, n) ∈ (σ.next .rebalanceAll).moving ↔
      (s, n) ∈ σ.moving ∨ (σ.Assigned s n ∧ ∀ m, ¬ (σ.next .rebalanceAll).Assigned s m)) ∧
    (∀ s n, σ.Assigned s n → (∀ m, ¬ (σ.next .rebalanceAll).Assigned s m) →
      CoordOut.stopShard s n ∈ (σ.next .rebalanceAll).out) := by
  have hi := hr.inv
  have ht : Took σ (σ.next .rebalanceAll) (surplus σ.fairCount σ.hosts) := rebalanceAll_took hi
  generalize σ.next .rebalanceAll = τ at ht ⊢
  have hgone : ∀ s n, σ.Assigned s n → ((∀ m, ¬ τ.Assigned s m) ↔ s ∈ surplus σ.fairCount σ.hosts) := by
    intro s n hs
    unfold Coord.Assigned at hs ⊢
    simp only [ht.shards]
    by_cases h : s ∈ surplus σ.fairCount σ.hosts
    · simp [h]
    · simp [h, hs]
  refine ⟨?_, ?_, ?_, ?_⟩
  · intro n h hg
    unfold Coord.Knows at hg ⊢
    rw [ht.hosts, hg]
    refine ⟨_, rfl, rfl, List.filter_sublist, ?_⟩
    simp only
    rw [surplus_filter hi hg, List.length_drop]
    show h.shards.length - (h.shards.length - fairShare σ.total σ.hosts.length) = _
    omega
  · intro s n hs
    unfold Coord.Assigned at hs ⊢
    rw [ht.shards] at hs
    by_cases h : s ∈ surplus σ.fairCount σ.hosts
    · simp [h] at hs
    · simpa [h] using hs
  · intro s n
    rw [ht.moving]
    constructor
    · rintro (h | ⟨h1, h2⟩)
      · exact .inl h
      · exact .inr ⟨h2, (hgone s n h2).2 h1⟩
    · rintro (h | ⟨h1, h2⟩)
      · exact .inl h
      · exact .inr ⟨(hgone s n h1).1 h2, h1⟩
  · intro s n h1 h2
    exact ht.sent s n ((hgone s n h1).1 h2) h1

/-- what stays true while the shards taken are placed again: `T` shards over `a` available nodes with
share `F`. -/
structure Placing (T a F : Nat) (σ : Coord) : Prop where
  inv : Inv σ
  apart : σ.Apart
  count : σ.total + σ.moving.length = T
  avail : σ.readyHosts.length = a
  le : ∀ n h, σ.hosts.get n = some h → h.status = .ready → h.shards.length ≤ F + 1
  side : (∀ n h, σ.hosts.get n = some h → h.status = .ready → h.shards.length ≤ F) ∨
    (∀ n h, σ.hosts.get n = some h → h.status = .ready → F ≤ h.shards.length)

theorem mem_ready_loads {σ : Coord} (hi : Inv σ) {x : Nat} :
    x ∈ loads σ.readyHosts ↔ ∃ n h, σ.hosts.get n = some h ∧ h.status = .ready ∧ h.shards.length = x := by
  simp only [loads, Coord.readyHosts, List.mem_map, List.mem_filter, Prod.exists, HostInfo.isReady,
    decide_eq_true_eq]
  constructor
  · rintro ⟨n, h, ⟨h1, h2⟩, h3⟩; exact ⟨n, h, Assoc.get_of_mem hi.hu h1, h2, h3⟩
  · rintro ⟨n, h, h1, h2, h3⟩; exact ⟨n, h, ⟨Assoc.mem_of_get h1, h2⟩, h3⟩

theorem loads_length (l : Assoc Nat HostInfo) : (loads l).length = l.length := by simp [loads]

theorem Placing.acked {T a F : Nat} {σ : Coord} (hp : Placing T a F σ) (hT : T < a * (F + 1)) {s n : Nat}
    (hm : (s, n) ∈ σ.moving) :
    Placing T a F (({ σ with moving := σ.moving.erase (s, n) } : Coord).handleAllocate s true true).1 := by
  have hnd : σ.moving.Nodup :=
    List.Pairwise.of_map (S := fun a b => a ≠ b) (fun a => a.1) (fun a b h e => h (by rw [e])) hp.apart.1
  have hmem : ∀ p, p ∈ σ.moving.erase (s, n) ↔ p ≠ (s, n) ∧ p ∈ σ.moving := by
    intro p; exact hnd.mem_erase_iff
  have h0 : σ.shards.get s = none := hp.apart.2 s n hm
  let τ : Coord := { σ with moving := σ.moving.erase (s, n) }
  have hiτ : Inv τ := hp.inv.congr rfl rfl rfl rfl
  have h0τ : τ.shards.get s = none := h0
  have hlen : τ.moving.length + 1 = σ.moving.length := by
    show (σ.moving.erase (s, n)).length + 1 = _
    rw [List.length_erase_of_mem hm]
    have := List.length_pos_of_mem hm
    omega
  have hnotmem : ∀ m, (s, m) ∉ τ.moving := by
    intro m hm'
    have hm' : (s, m) ∈ σ.moving.erase (s, n) := hm'
    rw [hmem] at hm'
    have h1 := hp.apart.1
    have := Assoc.get_of_mem (Assoc.uniq_iff.2 h1) hm
    rw [Assoc.get_of_mem (Assoc.uniq_iff.2 h1) hm'.2] at this
    exact hm'.1 (by rw [Option.some.inj this])
  have heq : τ.handleAllocate s true true = τ.allocateShard s := by
    simp [Coord.handleAllocate, h0τ]
  show Placing T a F (τ.handleAllocate s true true).1
  rw [heq]
  rcases hc : τ.choice with _ | ⟨m, hm'⟩
  · -- no node available: then there is no room at all
    have : τ.readyHosts = [] := by
      rw [List.eq_nil_iff_forall_not_mem]
      rintro ⟨x, h⟩ hx
      simp only [Coord.readyHosts, List.mem_filter, HostInfo.isReady, decide_eq_true_eq] at hx
      exact choice_none hc x h hx.1 hx.2
    have : σ.readyHosts = [] := this
    have h1 := hp.avail
    rw [this] at h1
    simp at h1
    subst h1
    simp at hT
  · rw [allocateShard_placed hiτ h0τ hc]
    obtain ⟨c1, c2, c3⟩ := choice_some hc
    have hg : τ.hosts.get m = some hm' := Assoc.get_of_mem hiτ.hu c1
    have hleast : ∀ x h', τ.hosts.get x = some h' → h'.status = .ready → hm'.shards.length ≤ h'.shards.length :=
      fun x h' hx hr => c3 x h' (Assoc.mem_of_get hx) hr
    have hroom : hm'.shards.length ≤ F := by
      refine Classical.byContradiction fun hgt => ?_
      have h1 := sum_ge (loads σ.readyHosts) (F + 1) (by
        intro x hx
        obtain ⟨y, h', h2, h3, rfl⟩ := (mem_ready_loads hp.inv).1 hx
        have := hleast y h' h2 h3
        omega)
      rw [loads_length, hp.avail, ready_sum hp.inv] at h1
      have := hp.count
      omega
    refine ⟨hiτ.placed h0τ hg c2, ?_, ?_, ?_, ?_, ?_⟩
    · constructor
      · show (τ.moving.map (·.1)).Nodup
        have : (τ.moving.map (·.1)).Sublist (σ.moving.map (·.1)) := (List.erase_sublist ..).map _
        exact this.nodup hp.apart.1
      · intro t x htx
        have htx : (t, x) ∈ τ.moving := htx
        have hts : t ≠ s := fun e => hnotmem x (e ▸ htx)
        rw [placed_shards_get, if_neg hts]
        exact hp.apart.2 t x ((hmem _).1 htx).2
    · have h1 : (τ.placed s m).total = σ.total + 1 := by
        show (σ.shards.insert s m).length = σ.shards.length + 1
        unfold Assoc.insert
        rw [List.length_cons]
        congr 1
        unfold Assoc.erase
        rw [List.filter_eq_self.2]
        rintro ⟨t, x⟩ ha
        simp only [ne_eq, decide_not, Bool.not_eq_eq_eq_not, Bool.not_true, decide_eq_false_iff_not]
        rintro rfl
        exact Assoc.get_none_iff.1 h0 x ha
      have h2 : (τ.placed s m).moving.length = τ.moving.length := rfl
      have := hp.count
      show (τ.placed s m).total + (τ.placed s m).moving.length = T
      omega
    · rw [← hp.avail]
      exact update_ready_length σ.hosts m (fun h => { h with shards := h.shards ++ [s] }) (fun _ => rfl)
    · intro x h hx hr
      rw [placed_hosts_get] at hx
      by_cases hxm : x = m
      · subst hxm
        rw [if_pos rfl, hg] at hx
        simp only [Option.map_some, Option.some.injEq] at hx
        subst hx
        simp only [List.length_append, List.length_singleton]
        omega
      · rw [if_neg hxm] at hx
        exact hp.le x h hx hr
    · by_cases hlt : hm'.shards.length < F
      · left
        have hside : ∀ n h, σ.hosts.get n = some h → h.status = .ready → h.shards.length ≤ F := by
          rcases hp.side with h | h
          · exact h
          · have := h m hm' hg c2; omega
        intro x h hx hr
        rw [placed_hosts_get] at hx
        by_cases hxm : x = m
        · subst hxm
          rw [if_pos rfl, hg] at hx
          simp only [Option.map_some, Option.some.injEq] at hx
          subst hx
          simp only [List.length_append, List.length_singleton]
          omega
        · rw [if_neg hxm] at hx
          exact hside x h hx hr
      · right
        intro x h hx hr
        rw [placed_hosts_get] at hx
        by_cases hxm : x = m
        · subst hxm
          rw [if_pos rfl, hg] at hx
          simp only [Option.map_some, Option.some.injEq] at hx
          subst hx
          simp only [List.length_append, List.length_singleton]
          omega
        · rw [if_neg hxm] at hx
          have := hleast x h hx hr
          omega

theorem Placing.next {T a F : Nat} {σ : Coord} (hp : Placing T a F σ) (hT : T < a * (F + 1)) (op : CoordOp)
    (ho : op.places = true) : Placing T a F (σ.next op) := by
  unfold Coord.next
  cases op with
  | stopAcked s n =>
    simp only [Coord.step]
    by_cases hm : (s, n) ∈ σ.moving
    · rw [if_pos hm]; exact hp.acked hT hm
    · rw [if_neg hm]; exact hp
  | shuffle hosts =>
    have hi' := hp.inv.shuffle hosts
    simp only [Coord.step]
    unfold Coord.shuffle at hi' ⊢
    by_cases h : hosts.isPerm σ.hosts = true
    · rw [if_pos h] at hi' ⊢
      have hpm := List.isPerm_iff.1 h
      have hg : ∀ x, hosts.get x = σ.hosts.get x := fun x => Assoc.get_perm hi'.hu hpm x
      refine ⟨hi', hp.apart, hp.count, ?_, ?_, ?_⟩
      · rw [← hp.avail]; exact (hpm.filter _).length_eq
      · simp only [hg]; exact hp.le
      · simp only [hg]; exact hp.side
    · rw [if_neg h]; exact hp
  | shuffleSet m l =>
    have hi' := hp.inv.shuffleSet m l
    simp only [Coord.step]
    have hback : ∀ x h', (σ.shuffleSet m l).hosts.get x = some h' →
        ∃ h, σ.hosts.get x = some h ∧ h.status = h'.status ∧ h.shards.length = h'.shards.length := by
      intro x h' hx
      simp only [Coord.shuffleSet, Assoc.get_update] at hx
      by_cases e : x = m
      · rw [if_pos e] at hx
        obtain ⟨h, h1, h2⟩ := Option.map_eq_some_iff.1 hx
        refine ⟨h, h1, ?_⟩
        by_cases hpm : l.isPerm h.shards = true
        · rw [if_pos hpm] at h2
          subst h2
          exact ⟨rfl, (List.isPerm_iff.1 hpm).length_eq.symm⟩
        · rw [if_neg hpm] at h2
          subst h2
          exact ⟨rfl, rfl⟩
      · rw [if_neg e] at hx
        exact ⟨h', hx, rfl, rfl⟩
    refine ⟨hi', hp.apart, hp.count, ?_, ?_, ?_⟩
    · rw [← hp.avail]
      refine update_ready_length σ.hosts m (fun h => if l.isPerm h.shards then { h with shards := l } else h)
        (fun h => ?_)
      by_cases hpm : l.isPerm h.shards = true
      · rw [if_pos hpm]
      · rw [if_neg hpm]
    · intro x h' hx hr
      obtain ⟨h, h1, h2, h3⟩ := hback x h' hx
      rw [← h3]; exact hp.le x h h1 (h2 ▸ hr)
    · rcases hp.side with hs | hs
      · left
        intro x h' hx hr
        obtain ⟨h, h1, h2, h3⟩ := hback x h' hx
        rw [← h3]; exact hs x h h1 (h2 ▸ hr)
      · right
        intro x h' hx hr
        obtain ⟨h, h1, h2, h3⟩ := hback x h' hx
        rw [← h3]; exact hs x h h1 (h2 ▸ hr)
  | _ => simp [CoordOp.places] at ho

theorem Placing.run {T a F : Nat} {σ : Coord} (hp : Placing T a F σ) (hT : T < a * (F + 1)) (ops : List CoordOp)
    (ho : ∀ op ∈ ops, op.places = true) : Placing T a F (σ.run ops) := by
  unfold Coord.run
  induction ops generalizing σ with
  | nil => exact hp
  | cons op ops ih => exact ih (hp.next hT op (ho op (by simp))) (fun op' h => ho op' (by simp [h]))

/-- C41, second half. If no earlier move is under way, then once all shards taken by a full rebalance
are placed again, in any order, every available node carries the fair share (all shards over the
available nodes) or one more, and the same shards have a node as before. -/
theorem C41_even (σ : Coord) (hr : σ.Reachable) (h0 : σ.moving = []) (hav : ∃ n k, σ.Avail n k)
    (ops : List CoordOp) (hops : ∀ op ∈ ops, op.places = true)
    (hdone : ((σ.next .rebalanceAll).run ops).moving = []) :
    ((σ.next .rebalanceAll).run ops).total = σ.total ∧
    ∀ n k, ((σ.next .rebalanceAll).run ops).Avail n k →
      fairShare σ.total σ.available ≤ k ∧ k ≤ fairShare σ.total σ.available + 1 := by
  have hi := hr.inv
  have ht : Took σ (σ.next .rebalanceAll) (surplus σ.fairCount σ.hosts) := rebalanceAll_took hi
  have hpos : 0 < σ.available := by
    obtain ⟨n, k, h, h1, h2, _⟩ := hav
    refine List.length_pos_of_mem (a := (n, h)) ?_
    simp [Assoc.mem_of_get (show σ.hosts.get n = some h from h1), h2]
  have hFlt : σ.total < σ.available * (fairShare σ.total σ.available + 1) := by
    have := Nat.lt_mul_div_succ σ.total hpos
    exact this
  have hFle : σ.available * fairShare σ.total σ.available ≤ σ.total := Nat.mul_div_le _ _
  have hcode : fairShare σ.total σ.hosts.length ≤ fairShare σ.total σ.available := by
    unfold fairShare Coord.available
    exact Nat.div_le_div_left (List.length_filter_le _ _) hpos
  have hload : ∀ n h, (σ.next .rebalanceAll).hosts.get n = some h → h.shards.length ≤ fairShare σ.total σ.available := by
    intro n h' hg'
    rw [ht.hosts] at hg'
    obtain ⟨h, hg, rfl⟩ := Option.map_eq_some_iff.1 hg'
    simp only
    rw [surplus_filter hi hg, List.length_drop]
    have : σ.fairCount = fairShare σ.total σ.hosts.length := rfl
    omega
  have hstart : Placing σ.total σ.available (fairShare σ.total σ.available) (σ.next .rebalanceAll) := by
    refine ⟨ht.inv, ht.apart ⟨by simp [h0], by simp [h0]⟩, ?_, ?_, ?_, ?_⟩
    · rw [ht.count, h0]; rfl
    · rw [ht.ready]; rfl
    · intro n h hg _
      exact Nat.le_succ_of_le (hload n h hg)
    · exact .inl fun n h hg _ => hload n h hg
  have hend := hstart.run hFlt ops hops
  have htot : ((σ.next .rebalanceAll).run ops).total = σ.total := by
    have := hend.count
    rw [hdone] at this
    simpa using this
  refine ⟨htot, ?_⟩
  have hge : ∀ n h, ((σ.next .rebalanceAll).run ops).hosts.get n = some h → h.status = .ready →
      fairShare σ.total σ.available ≤ h.shards.length := by
    rcases hend.side with hs | hs
    · intro n h hg hrd
      refine all_eq_of_sum (loads ((σ.next .rebalanceAll).run ops).readyHosts) _ ?_ ?_ _
        ((mem_ready_loads hend.inv).2 ⟨n, h, hg, hrd, rfl⟩)
      · intro x hx
        obtain ⟨m, h', h1, h2, rfl⟩ := (mem_ready_loads hend.inv).1 hx
        exact hs m h' h1 h2
      · rw [loads_length, hend.avail, ready_sum hend.inv, htot]
        exact hFle
    · exact hs
  rintro n k ⟨h, hg, hrd, rfl⟩
  exact ⟨hge n h hg hrd, hend.le n h hg hrd⟩

/-- C41, when all known nodes are available: the share used for taking is the fair share over available
nodes. -/
theorem C41_same_share_partial (σ : Coord) (hall : ∀ n h, σ.Knows n h → h.status = .ready) (hr : σ.Reachable) :
    fairShare σ.total σ.hosts.length = fairShare σ.total σ.available := by
  unfold Coord.available
  rw [List.filter_eq_self.2]
  rintro ⟨n, h⟩ hm
  simpa using hall n h (Assoc.get_of_mem hr.inv.hu hm)

/-- C41 fails if a known node is not available: such nodes count when the share is worked out, so more is
taken than what is above the fair share. Here nodes 1 and 2 carry one shard each, which is their fair
share, node 3 is lost, and both shards are taken. -/
theorem C41_unavailable_refuted : ∃ σ : Coord, σ.Reachable ∧ σ.Avail 1 1 ∧ σ.Avail 2 1 ∧
    fairShare σ.total σ.available = 1 ∧ (σ.next .rebalanceAll).Avail 1 0 ∧
    (σ.next .rebalanceAll).Avail 2 0 :=
  ⟨(Coord.start 1 [(2, true), (3, false)] []).run [.allocate 10 true, .allocate 11 true],
    ⟨1, [(2, true), (3, false)], [], _, rfl⟩, ⟨_, rfl, rfl, rfl⟩, ⟨_, rfl, rfl, rfl⟩, by decide,
    ⟨_, rfl, rfl, rfl⟩, ⟨_, rfl, rfl, rfl⟩⟩

-- five shards on node 1, nodes 2 and 3 join: four are taken from node 1 and spread again
example :
    let σ := (Coord.start 1 [] []).run
      [.allocate 10 true, .allocate 11 true, .allocate 12 true, .allocate 13 true, .allocate 14 true,
       .nodeAdded 2, .nodeAdded 3]
    let τ := (σ.next .rebalanceAll).run [.stopAcked 12 1, .stopAcked 10 1, .stopAcked 11 1, .stopAcked 13 1]
    σ.moving = [] ∧ fairShare σ.total σ.available = 1 ∧ τ.moving = [] ∧
    τ.hosts.map (fun p => (p.1, p.2.shards.length)) = [(3, 2), (2, 2), (1, 1)] := by
  decide

end Verif.Sharding
