/-!
# Association lists

A `HashMap<K, V>` (`std::collections`) is an association list with unique keys. The position of an
entry stands for the unspecified iteration order.
-/

namespace Verif

/-- `std::collections::HashMap`, as used all over `/repo/coerce/src` (each model cites its maps): a list of pairs, a
key once; the order of the list stands for the unknown order of iteration. -/
abbrev Assoc (κ α : Type) := List (κ × α)

namespace Assoc
variable {κ α β : Type} [DecidableEq κ]

/-- `HashMap::get` (`/repo/coerce/src`). -/
def get (m : Assoc κ α) (k : κ) : Option α := (m.find? (fun p => p.1 = k)).map (·.2)
/-- `HashMap::remove` (`/repo/coerce/src`). -/
def erase (m : Assoc κ α) (k : κ) : Assoc κ α := m.filter (fun p => p.1 ≠ k)
/-- `HashMap::insert` (`/repo/coerce/src`): an old value is replaced. -/
def insert (m : Assoc κ α) (k : κ) (v : α) : Assoc κ α := (k, v) :: m.erase k
/-- change the value under `k` in place (`get_mut`). (`/repo/coerce/src`.) -/
def update (m : Assoc κ α) (k : κ) (f : α → α) : Assoc κ α :=
  m.map fun p => if p.1 = k then (p.1, f p.2) else p
/-- `HashMap::keys` (`/repo/coerce/src`). -/
def keys (m : Assoc κ α) : List κ := m.map (·.1)
/-- `HashMap::values` (`/repo/coerce/src`). -/
def vals (m : Assoc κ α) : List α := m.map (·.2)
/-- no key twice: an invariant of `HashMap` (`/repo/coerce/src`). -/
def Uniq (m : Assoc κ α) : Prop := m.Pairwise (fun a b => a.1 ≠ b.1)

@[simp] theorem get_nil (k : κ) : get ([] : Assoc κ α) k = none := rfl

theorem get_cons (p : κ × α) (m : Assoc κ α) (k : κ) :
    get (p :: m) k = if p.1 = k then some p.2 else get m k := by
  unfold get
  by_cases h : p.1 = k <;> simp [h]

theorem get_erase (m : Assoc κ α) (k k' : κ) :
    (m.erase k).get k' = if k' = k then none else m.get k' := by
  induction m with
  | nil => simp [erase]
  | cons p m ih =>
    unfold erase at ih ⊢
    by_cases h : p.1 = k
    · rw [List.filter_cons_of_neg (by simp [h]), ih, get_cons]
      by_cases hk : k' = k
      · simp [hk]
      · simp [hk, h, show ¬ k = k' from fun e => hk e.symm]
    · rw [List.filter_cons_of_pos (by simp [h]), get_cons, get_cons, ih]
      by_cases hk : k' = k
      · subst hk; simp [h]
      · simp [hk]

theorem get_insert (m : Assoc κ α) (k k' : κ) (v : α) :
    (m.insert k v).get k' = if k' = k then some v else m.get k' := by
  unfold insert
  rw [get_cons, get_erase]
  by_cases hk : k' = k
  · simp [hk]
  · simp [hk, show ¬ k = k' from fun e => hk e.symm]

theorem get_update (m : Assoc κ α) (k k' : κ) (f : α → α) :
    (m.update k f).get k' = if k' = k then (m.get k').map f else m.get k' := by
  induction m with
  | nil => simp [update]
  | cons p m ih =>
    unfold update at ih ⊢
    rw [List.map_cons, get_cons, get_cons, ih]
    by_cases hk : k' = k
    · subst hk
      by_cases h : p.1 = k' <;> simp [h]
    · by_cases h : p.1 = k
      · simp [h, hk, show ¬ k = k' from fun e => hk e.symm]
      · simp [h, hk]

omit [DecidableEq κ] in
theorem Uniq.nil : Uniq ([] : Assoc κ α) := List.Pairwise.nil

theorem Uniq.erase {m : Assoc κ α} (h : Uniq m) (k : κ) : Uniq (m.erase k) :=
  List.Pairwise.filter _ h

theorem mem_erase {m : Assoc κ α} {k : κ} {p : κ × α} : p ∈ m.erase k ↔ p ∈ m ∧ p.1 ≠ k := by
  simp [Assoc.erase]

theorem mem_insert {m : Assoc κ α} {k : κ} {v : α} {p : κ × α} :
    p ∈ m.insert k v ↔ p = (k, v) ∨ (p ∈ m ∧ p.1 ≠ k) := by
  simp [Assoc.insert, mem_erase]

theorem Uniq.insert {m : Assoc κ α} (h : Uniq m) (k : κ) (v : α) : Uniq (m.insert k v) := by
  unfold Assoc.insert Uniq
  rw [List.pairwise_cons]
  refine ⟨?_, h.erase k⟩
  intro p hp
  exact fun e => (mem_erase.1 hp).2 e.symm

theorem keys_update (m : Assoc κ α) (k : κ) (f : α → α) : (m.update k f).map (·.1) = m.map (·.1) := by
  unfold update
  rw [List.map_map]
  apply List.map_congr_left
  intro p _
  by_cases h : p.1 = k <;> simp [h]

omit [DecidableEq κ] in
theorem uniq_iff {m : Assoc κ α} : Uniq m ↔ (m.map (·.1)).Nodup := by
  unfold Uniq List.Nodup
  rw [List.pairwise_map]

theorem Uniq.update {m : Assoc κ α} (h : Uniq m) (k : κ) (f : α → α) : Uniq (m.update k f) := by
  rw [uniq_iff] at h ⊢; rwa [keys_update]

theorem mem_of_get {m : Assoc κ α} {k : κ} {v : α} (h : m.get k = some v) : (k, v) ∈ m := by
  induction m with
  | nil => simp at h
  | cons p m ih =>
    rw [get_cons] at h
    by_cases hp : p.1 = k
    · rw [if_pos hp] at h
      have : p = (k, v) := by rw [← hp, ← Option.some.inj h]
      simp [this]
    · rw [if_neg hp] at h
      exact List.mem_cons_of_mem _ (ih h)

theorem get_of_mem {m : Assoc κ α} (hu : Uniq m) {k : κ} {v : α} (h : (k, v) ∈ m) :
    m.get k = some v := by
  induction m with
  | nil => simp at h
  | cons p m ih =>
    rw [get_cons]
    rcases List.mem_cons.1 h with h | h
    · subst h; simp
    · have := (List.pairwise_cons.1 hu).1 _ h
      rw [if_neg this]
      exact ih (List.pairwise_cons.1 hu).2 h

theorem get_iff {m : Assoc κ α} (hu : Uniq m) {k : κ} {v : α} : m.get k = some v ↔ (k, v) ∈ m :=
  ⟨mem_of_get, get_of_mem hu⟩

theorem get_none_iff {m : Assoc κ α} {k : κ} : m.get k = none ↔ ∀ v, (k, v) ∉ m := by
  constructor
  · intro h v hm
    induction m with
    | nil => simp at hm
    | cons p m ih =>
      rw [get_cons] at h
      by_cases hp : p.1 = k
      · simp [hp] at h
      · rw [if_neg hp] at h
        rcases List.mem_cons.1 hm with e | hm
        · exact hp (by rw [← e])
        · exact ih h hm
  · intro h
    rcases Option.eq_none_or_eq_some (m.get k) with h' | ⟨v, h'⟩
    · exact h'
    · exact absurd (mem_of_get h') (h v)

theorem get_isSome_iff {m : Assoc κ α} {k : κ} : (m.get k).isSome = true ↔ k ∈ m.map (·.1) := by
  constructor
  · intro h
    obtain ⟨v, hv⟩ := Option.isSome_iff_exists.1 h
    exact List.mem_map.2 ⟨(k, v), mem_of_get hv, rfl⟩
  · intro h
    obtain ⟨⟨k', v⟩, hm, rfl⟩ := List.mem_map.1 h
    rcases Option.eq_none_or_eq_some (m.get k') with h' | ⟨w, h'⟩
    · exact absurd hm (get_none_iff.1 h' v)
    · simp [h']

/-- with unique keys, what a map answers does not depend on the order of its entries. -/
theorem get_perm {m m' : Assoc κ α} (hu : Uniq m) (hp : m.Perm m') (k : κ) : m.get k = m'.get k := by
  have hu' : Uniq m' := by
    rw [uniq_iff] at hu ⊢
    exact (hp.map _).nodup_iff.1 hu
  rcases Option.eq_none_or_eq_some (m.get k) with h | ⟨v, h⟩
  · rw [h, eq_comm, get_none_iff]
    intro v hv
    exact get_none_iff.1 h v (hp.mem_iff.2 hv)
  · rw [h, eq_comm, get_iff hu']
    exact hp.mem_iff.1 (mem_of_get h)

end Assoc
end Verif
