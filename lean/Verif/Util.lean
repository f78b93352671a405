/-!
# Small list facts used in several areas
-/

namespace Verif

/-- induction on a list extended at the end. -/
theorem snoc_induction {α : Type u} {P : List α → Prop} (nil : P [])
    (snoc : ∀ l a, P l → P (l ++ [a])) (l : List α) : P l := by
  suffices ∀ r : List α, P r.reverse by simpa using this l.reverse
  intro r
  induction r with
  | nil => exact nil
  | cons a r ih => rw [List.reverse_cons]; exact snoc _ _ ih

/-- a decomposition of `l ++ [a]` around an element is either at the end or inside `l`. -/
theorem snoc_eq_append_cons {α : Type u} {l pre post : List α} {a x : α}
    (h : l ++ [a] = pre ++ x :: post) :
    (post = [] ∧ l = pre ∧ a = x) ∨ ∃ post', post = post' ++ [a] ∧ l = pre ++ x :: post' := by
  rcases List.eq_nil_or_concat post with rfl | ⟨p, b, rfl⟩
  · left
    have := List.append_inj' (h.trans (by simp : pre ++ [x] = pre ++ [x])) rfl
    simp at this
    exact ⟨rfl, this.1, this.2⟩
  · right
    have h' : l ++ [a] = (pre ++ x :: p) ++ [b] := by simpa using h
    have := List.append_inj' h' rfl
    simp at this
    exact ⟨p, by simp [this.2], this.1⟩

end Verif
