/-!
# Stable sort

`slice::sort_by` and friends are stable sorts. The result of a stable sort is determined by the input
and the comparison, so an insertion sort stands for it.
-/

namespace Verif
variable {α : Type u}

/-- put `a` before the first element it is not after. (Part of `isort`; not code of `/repo`.) -/
def insertBy (le : α → α → Bool) (a : α) : List α → List α
  | [] => [a]
  | b :: l => if le a b then a :: b :: l else b :: insertBy le a l

/-- stable insertion sort: elements are inserted from the last to the first, each before its equals. Stands for
`sort_by` and `sort_by_key` of the standard library, as called at `/repo/coerce/src/remote/heartbeat/mod.rs` 254-262,
`/repo/coerce/src/remote/cluster/node.rs` 152 and `/repo/coerce/src/sharding/coordinator/allocation.rs` 108. -/
def isort (le : α → α → Bool) : List α → List α
  | [] => []
  | a :: l => insertBy le a (isort le l)

theorem insertBy_perm (le : α → α → Bool) (a : α) (l : List α) : (insertBy le a l).Perm (a :: l) := by
  induction l with
  | nil => exact .refl _
  | cons b l ih =>
    simp only [insertBy]
    split
    · exact .refl _
    · exact (ih.cons b).trans (.swap a b l)

theorem isort_perm (le : α → α → Bool) (l : List α) : (isort le l).Perm l := by
  induction l with
  | nil => exact .refl _
  | cons a l ih => exact (insertBy_perm le a _).trans (ih.cons a)

theorem mem_isort {le : α → α → Bool} {l : List α} {a : α} : a ∈ isort le l ↔ a ∈ l :=
  (isort_perm le l).mem_iff

theorem insertBy_sorted {le : α → α → Bool} (trans : ∀ a b c, le a b = true → le b c = true → le a c = true)
    (total : ∀ a b, le a b = true ∨ le b a = true) (a : α) (l : List α)
    (h : l.Pairwise (fun a b => le a b = true)) :
    (insertBy le a l).Pairwise (fun a b => le a b = true) := by
  induction l with
  | nil => simp [insertBy]
  | cons b l ih =>
    rw [List.pairwise_cons] at h
    simp only [insertBy]
    split
    · rename_i hab
      rw [List.pairwise_cons, List.pairwise_cons]
      refine ⟨?_, h⟩
      intro c hc
      rcases List.mem_cons.1 hc with rfl | hc
      · exact hab
      · exact trans _ _ _ hab (h.1 c hc)
    · rename_i hab
      rw [List.pairwise_cons]
      refine ⟨?_, ih h.2⟩
      intro c hc
      rcases List.mem_cons.1 ((insertBy_perm le a l).mem_iff.1 hc) with rfl | hc
      · exact (total c b).resolve_left hab
      · exact h.1 c hc

theorem isort_sorted {le : α → α → Bool} (trans : ∀ a b c, le a b = true → le b c = true → le a c = true)
    (total : ∀ a b, le a b = true ∨ le b a = true) (l : List α) :
    (isort le l).Pairwise (fun a b => le a b = true) := by
  induction l with
  | nil => exact .nil
  | cons a l ih => exact insertBy_sorted trans total a _ ih

/-- the first element is a least one. -/
theorem isort_head {le : α → α → Bool} (trans : ∀ a b c, le a b = true → le b c = true → le a c = true)
    (total : ∀ a b, le a b = true ∨ le b a = true) {l : List α} {a : α}
    (h : (isort le l).head? = some a) : a ∈ l ∧ ∀ b ∈ l, le a b = true := by
  obtain ⟨r, hr⟩ := List.head?_eq_some_iff.1 h
  have hs := isort_sorted trans total l
  rw [hr, List.pairwise_cons] at hs
  have hm : ∀ x, x ∈ l ↔ x ∈ a :: r := fun x => by rw [← hr, mem_isort]
  refine ⟨(hm a).2 (by simp), ?_⟩
  intro b hb
  rcases List.mem_cons.1 ((hm b).1 hb) with rfl | hb
  · exact (total b b).elim id id
  · exact hs.1 b hb

theorem isort_length (le : α → α → Bool) (l : List α) : (isort le l).length = l.length :=
  (isort_perm le l).length_eq

end Verif
