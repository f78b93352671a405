import Verif.Remote.NodeStoreModel

/-!
# C29, C30: consistent hashing and the node directory
-/

namespace Verif.Remote

/-! ### What a ring answers -/

/-- `n` is responsible for hash `k` among `ms`: the first at or after `k`, or, if there is none, the
first of all. -/
def IsOwner (h : RNode → Nat) (ms : List RNode) (k : Nat) (n : RNode) : Prop :=
  n ∈ ms ∧ ((k ≤ h n ∧ ∀ m ∈ ms, k ≤ h m → h n ≤ h m) ∨
            ((∀ m ∈ ms, h m < k) ∧ ∀ m ∈ ms, h n ≤ h m))

/-- no two members have the same hash. -/
def NoClash (h : RNode → Nat) (ms : List RNode) : Prop := ∀ a ∈ ms, ∀ b ∈ ms, h a = h b → a = b

theorem IsOwner.unique {h : RNode → Nat} {ms : List RNode} {k : Nat} {n n' : RNode} (hc : NoClash h ms)
    (h1 : IsOwner h ms k n) (h2 : IsOwner h ms k n') : n = n' := by
  obtain ⟨m1, h1⟩ := h1
  obtain ⟨m2, h2⟩ := h2
  apply hc n m1 n' m2
  rcases h1 with ⟨a1, b1⟩ | ⟨a1, b1⟩
  · rcases h2 with ⟨a2, b2⟩ | ⟨a2, b2⟩
    · have := b1 n' m2 a2; have := b2 n m1 a1; omega
    · have := a2 n m1; omega
  · rcases h2 with ⟨a2, b2⟩ | ⟨a2, b2⟩
    · have := a1 n' m2; omega
    · have := b1 n' m2; have := b2 n m1; omega

/-- the ring holds `ms`, sorted by hash. -/
structure RingOf (h : RNode → Nat) (r : Ring) (ms : List RNode) : Prop where
  keyed : ∀ e ∈ r, e.1 = h e.2
  sorted : r.Pairwise (fun a b => a.1 ≤ b.1)
  perm : (r.map (·.2)).Perm ms

theorem find_sorted {r : Ring} (hs : r.Pairwise (fun a b => a.1 ≤ b.1)) {k : Nat} {e : Nat × RNode}
    (he : r.find? (fun e => decide (k ≤ e.1)) = some e) : ∀ e' ∈ r, k ≤ e'.1 → e.1 ≤ e'.1 := by
  induction r with
  | nil => simp at he
  | cons a r ih =>
    rw [List.pairwise_cons] at hs
    intro e' hm hk
    by_cases ha : k ≤ a.1
    · simp [ha] at he
      subst he
      rcases List.mem_cons.1 hm with rfl | hm
      · exact Nat.le_refl _
      · exact hs.1 e' hm
    · simp only [List.find?_cons, ha, decide_false] at he
      rcases List.mem_cons.1 hm with rfl | hm
      · exact absurd hk ha
      · exact ih hs.2 he e' hm hk

theorem ringGet_owner {h : RNode → Nat} {r : Ring} {ms : List RNode} (hr : RingOf h r ms) {k : Nat}
    {n : RNode} (hg : ringGet r k = some n) : IsOwner h ms k n := by
  unfold ringGet at hg
  rw [Option.map_eq_some_iff] at hg
  obtain ⟨e, he, rfl⟩ := hg
  have hmem : ∀ m ∈ ms, ∃ e ∈ r, e.2 = m := fun m hm => List.mem_map.1 (hr.perm.mem_iff.2 hm)
  rcases Option.eq_none_or_eq_some (r.find? fun e => decide (k ≤ e.1)) with hf | ⟨x, hf⟩
  · rw [hf, Option.none_or] at he
    obtain ⟨t, ht⟩ := List.head?_eq_some_iff.1 he
    have hall : ∀ e' ∈ r, e'.1 < k := by
      intro e' hm
      have := List.find?_eq_none.1 hf e' hm
      simpa using this
    have hmine : e ∈ r := by rw [ht]; simp
    refine ⟨hr.perm.mem_iff.1 (List.mem_map.2 ⟨e, hmine, rfl⟩), .inr ⟨?_, ?_⟩⟩
    · intro m hm
      obtain ⟨e', he', rfl⟩ := hmem m hm
      rw [← hr.keyed e' he']
      exact hall e' he'
    · intro m hm
      obtain ⟨e', he', rfl⟩ := hmem m hm
      rw [← hr.keyed e' he', ← hr.keyed e hmine]
      have hs := hr.sorted
      rw [ht, List.pairwise_cons] at hs
      rw [ht] at he'
      rcases List.mem_cons.1 he' with rfl | he'
      · exact Nat.le_refl _
      · exact hs.1 e' he'
  · rw [hf, Option.some_or, Option.some.injEq] at he
    subst he
    have hmine := List.mem_of_find?_eq_some hf
    have hk : k ≤ x.1 := by simpa using List.find?_some hf
    refine ⟨hr.perm.mem_iff.1 (List.mem_map.2 ⟨x, hmine, rfl⟩), .inl ⟨?_, ?_⟩⟩
    · rw [← hr.keyed x hmine]; exact hk
    · intro m hm hkm
      obtain ⟨e', he', rfl⟩ := hmem m hm
      rw [← hr.keyed e' he'] at hkm ⊢
      rw [← hr.keyed x hmine]
      exact find_sorted hr.sorted hf e' he' hkm

theorem ringGet_isSome {r : Ring} (k : Nat) (hne : r ≠ []) : (ringGet r k).isSome = true := by
  unfold ringGet
  cases r with
  | nil => exact absurd rfl hne
  | cons a t => simp

/-- a ring answers the owner, and nothing else. -/
theorem ringGet_iff {h : RNode → Nat} {r : Ring} {ms : List RNode} (hr : RingOf h r ms)
    (hc : NoClash h ms) (k : Nat) (n : RNode) : ringGet r k = some n ↔ IsOwner h ms k n := by
  constructor
  · exact ringGet_owner hr
  · intro ho
    have hne : r ≠ [] := by
      rintro rfl
      have := hr.perm.mem_iff.2 ho.1
      simp at this
    obtain ⟨n', hn'⟩ := Option.isSome_iff_exists.1 (ringGet_isSome k hne)
    rw [hn', (ringGet_owner hr hn').unique hc ho]

/-! ### Building the ring -/

theorem RingOf.add {h : RNode → Nat} {r : Ring} {ms : List RNode} (hr : RingOf h r ms) (n : RNode) :
    RingOf h (ringAdd h r n) (ms ++ [n]) := by
  have hp := isort_perm (fun a b : Nat × RNode => decide (a.1 ≤ b.1)) (r ++ [(h n, n)])
  refine ⟨?_, ?_, ?_⟩
  · intro e he
    have := hp.mem_iff.1 he
    rcases List.mem_append.1 this with he | he
    · exact hr.keyed e he
    · simp at he; subst he; rfl
  · have := isort_sorted (le := fun a b : Nat × RNode => decide (a.1 ≤ b.1))
      (by intro a b c; simp; omega) (by intro a b; simp; omega) (r ++ [(h n, n)])
    exact this.imp (by simp)
  · exact (hp.map _).trans (by simpa using hr.perm.append_right [n])

theorem RingOf.foldl {h : RNode → Nat} (l : List NState) {r : Ring} {ms : List RNode}
    (hr : RingOf h r ms) : RingOf h (l.foldl (fun r s => ringAdd h r s.node) r) (ms ++ l.map (·.node)) := by
  induction l generalizing r ms with
  | nil => simpa using hr
  | cons s l ih => simpa using ih (hr.add s.node)

theorem RingOf.nil (h : RNode → Nat) : RingOf h [] [] := ⟨by simp, .nil, by simp⟩

theorem ringRemove_sublist (h : RNode → Nat) (r : Ring) (n : RNode) : (ringRemove h r n).Sublist r := by
  induction r with
  | nil => exact .refl _
  | cons e r ih =>
    simp only [ringRemove]
    split
    · exact List.sublist_cons_self e r
    · exact ih.cons_cons e

theorem RingOf.remove {h : RNode → Nat} {r : Ring} {ms : List RNode} (hr : RingOf h r ms)
    (hc : NoClash h ms) {n : RNode} (hn : n ∈ ms) : RingOf h (ringRemove h r n) (ms.erase n) := by
  have hsub := ringRemove_sublist h r n
  refine ⟨fun e he => hr.keyed e (hsub.subset he), hr.sorted.sublist hsub, ?_⟩
  have key : ∀ (r : Ring), (∀ e ∈ r, e.1 = h e.2) → (∀ e ∈ r, e.2 ∈ ms) → n ∈ r.map (·.2) →
      ((ringRemove h r n).map (·.2)).Perm ((r.map (·.2)).erase n) := by
    intro r hk hin hmem
    induction r with
    | nil => simp at hmem
    | cons e r ih =>
      simp only [ringRemove]
      split
      · rename_i heq
        have : e.2 = n := by
          apply hc e.2 (hin e (by simp)) n hn
          rw [← hk e (by simp)]; exact heq
        rw [List.map_cons, this, List.erase_cons_head]
      · rename_i hne
        have hen : e.2 ≠ n := fun e' => hne (by rw [hk e (by simp), e'])
        rw [List.map_cons, List.map_cons, List.erase_cons_tail (by simpa using hen)]
        apply List.Perm.cons
        apply ih (fun x hx => hk x (by simp [hx])) (fun x hx => hin x (by simp [hx]))
        rw [List.map_cons, List.mem_cons] at hmem
        exact hmem.resolve_left (fun e' => hen e'.symm)
  refine (key r hr.keyed ?_ (hr.perm.mem_iff.2 hn)).trans (hr.perm.erase n)
  intro e he
  exact hr.perm.mem_iff.1 (List.mem_map.2 ⟨e, he, rfl⟩)

/-! ### The directory -/

theorem get_collect (l : List NState) (id : Nat) :
    (collectNodes l).get id = l.reverse.find? (fun s => decide (s.node.id = id)) := by
  unfold collectNodes
  suffices hgen : ∀ (m : Assoc Nat NState), (l.foldl (fun m s => m.insert s.node.id s) m).get id =
      (l.reverse.find? (fun s => decide (s.node.id = id))).or (m.get id) by
    rw [hgen]; simp
  induction l with
  | nil => intro m; simp
  | cons s l ih =>
    intro m
    rw [List.foldl_cons, ih, Assoc.get_insert, List.reverse_cons, List.find?_append]
    by_cases hs : s.node.id = id
    · simp [hs, Option.or_assoc]
    · have : ¬ id = s.node.id := fun e => hs e.symm
      simp [hs, this, Option.or_assoc]

structure NWF (σ : NStore) : Prop where
  uniq : Assoc.Uniq σ.nodes
  keyed : ∀ p ∈ σ.nodes, p.2.node.id = p.1

theorem collect_wf (l : List NState) : Assoc.Uniq (collectNodes l) ∧
    ∀ p ∈ collectNodes l, p.2.node.id = p.1 := by
  unfold collectNodes
  suffices hgen : ∀ m : Assoc Nat NState, Assoc.Uniq m → (∀ p ∈ m, p.2.node.id = p.1) →
      Assoc.Uniq (l.foldl (fun m s => m.insert s.node.id s) m) ∧
      ∀ p ∈ l.foldl (fun m s => m.insert s.node.id s) m, p.2.node.id = p.1 from
    hgen [] Assoc.Uniq.nil (by simp)
  induction l with
  | nil => intro m h1 h2; exact ⟨h1, h2⟩
  | cons s l ih =>
    intro m h1 h2
    apply ih _ (h1.insert _ _)
    intro p hp
    rcases Assoc.mem_insert.1 hp with rfl | ⟨hp, _⟩
    · rfl
    · exact h2 p hp

theorem NWF.step {h : RNode → Nat} {σ : NStore} (hw : NWF σ) (op : NStoreOp) : NWF (σ.step h op) := by
  cases op with
  | add n =>
    obtain ⟨a, b⟩ := collect_wf (isort (fun a b => decide (a.node.id ≤ b.node.id))
      (σ.nodes.map (·.2) ++ [⟨n, .joining⟩]))
    exact ⟨a, b⟩
  | update s =>
    refine ⟨hw.uniq.insert _ _, ?_⟩
    intro p hp
    rcases Assoc.mem_insert.1 hp with rfl | ⟨hp, _⟩
    · rfl
    · exact hw.keyed p hp
  | terminated id =>
    refine ⟨by simpa [NStore.step, NStore.terminated] using hw.uniq.update id _, ?_⟩
    intro p hp
    simp only [NStore.step, NStore.terminated, Assoc.update, List.mem_map] at hp
    obtain ⟨q, hq, rfl⟩ := hp
    split <;> exact hw.keyed q hq
  | remove id =>
    simp only [NStore.step, NStore.remove]
    split
    · exact hw
    · exact ⟨hw.uniq.erase _, fun p hp => hw.keyed p (Assoc.mem_erase.1 hp).1⟩

theorem nrun_snoc (h : RNode → Nat) (ops : List NStoreOp) (op : NStoreOp) :
    NStore.run h (ops ++ [op]) = (NStore.run h ops).step h op := by simp [NStore.run]

theorem NWF.run (h : RNode → Nat) (ops : List NStoreOp) : NWF (NStore.run h ops) := by
  induction ops using snoc_induction with
  | nil => exact ⟨Assoc.Uniq.nil, by simp [NStore.run]⟩
  | snoc ops op ih => rw [nrun_snoc]; exact ih.step op

/-- a stable sort by id keeps a later element with the same id later. -/
theorem find_last_isort (l : List NState) (s : NState) (id : Nat) :
    (isort (fun a b : NState => decide (a.node.id ≤ b.node.id)) (l ++ [s])).reverse.find?
        (fun s => decide (s.node.id = id)) =
      if s.node.id = id then some s else l.reverse.find? (fun s => decide (s.node.id = id)) := by
  -- the last element with that id is the same before and after a stable sort
  have hstable : ∀ l : List NState,
      (isort (fun a b : NState => decide (a.node.id ≤ b.node.id)) l).filter (fun s => decide (s.node.id = id)) =
        l.filter (fun s => decide (s.node.id = id)) := by
    intro l
    induction l with
    | nil => rfl
    | cons a l ih =>
      have hins : ∀ r : List NState, r.Pairwise (fun a b => a.node.id ≤ b.node.id) →
          (insertBy (fun a b : NState => decide (a.node.id ≤ b.node.id)) a r).filter
            (fun s => decide (s.node.id = id)) =
          (a :: r).filter (fun s => decide (s.node.id = id)) := by
        intro r hr
        induction r with
        | nil => rfl
        | cons b r ihr =>
          rw [List.pairwise_cons] at hr
          simp only [insertBy]
          split
          · rfl
          · rename_i hab
            simp only [decide_eq_true_eq, Nat.not_le] at hab
            rw [List.filter_cons, ihr hr.2, List.filter_cons, List.filter_cons, List.filter_cons]
            by_cases ha : a.node.id = id
            · have hb : ¬ b.node.id = id := by omega
              simp [ha, hb]
            · simp [ha]
      show (insertBy _ a (isort _ l)).filter _ = _
      rw [hins, List.filter_cons, List.filter_cons, ih]
      have := isort_sorted (le := fun a b : NState => decide (a.node.id ≤ b.node.id))
        (by intro a b c; simp; omega) (by intro a b; simp; omega) l
      exact this.imp (by simp)
  rw [← List.head?_filter, List.filter_reverse, hstable, ← List.filter_reverse, List.head?_filter,
    List.reverse_append]
  simp only [List.reverse_cons, List.reverse_nil, List.nil_append, List.singleton_append, List.find?_cons]
  by_cases hs : s.node.id = id <;> simp [hs]

theorem find_vals (m : Assoc Nat NState) (hu : Assoc.Uniq m) (hk : ∀ p ∈ m, p.2.node.id = p.1) (id : Nat) :
    (m.map (·.2)).reverse.find? (fun s => decide (s.node.id = id)) = m.get id := by
  rcases Option.eq_none_or_eq_some (m.get id) with hg | ⟨s, hg⟩
  · rw [hg, List.find?_eq_none]
    intro s hs
    obtain ⟨p, hp, rfl⟩ := List.mem_map.1 (List.mem_reverse.1 hs)
    simp only [decide_eq_true_eq]
    intro e
    rw [hk p hp] at e
    exact Assoc.get_none_iff.1 hg p.2 (by rw [← e]; exact hp)
  · rw [hg]
    have hm := Assoc.mem_of_get hg
    rcases Option.eq_none_or_eq_some
      ((m.map (·.2)).reverse.find? (fun s => decide (s.node.id = id))) with hf | ⟨x, hf⟩
    · have := List.find?_eq_none.1 hf s (List.mem_reverse.2 (List.mem_map.2 ⟨_, hm, rfl⟩))
      simp only [decide_eq_true_eq] at this
      exact absurd (hk _ hm) this
    · rw [hf]
      have hxm := List.mem_of_find?_eq_some hf
      have hxi : x.node.id = id := by simpa using List.find?_some hf
      obtain ⟨p, hp, rfl⟩ := List.mem_map.1 (List.mem_reverse.1 hxm)
      have : p.1 = id := by rw [← hk p hp]; exact hxi
      have h2 := Assoc.get_of_mem hu (k := p.1) (v := p.2) hp
      rw [this, hg] at h2
      exact h2.symm

/-- what one operation does to the entry of one id. -/
theorem get_step (h : RNode → Nat) (σ : NStore) (hw : NWF σ) (op : NStoreOp) (id : Nat) :
    (σ.step h op).nodes.get id =
      match op with
      | .add n => if n.id = id then some ⟨n, .joining⟩ else σ.nodes.get id
      | .update s => if s.node.id = id then some s else σ.nodes.get id
      | .terminated i => if i = id then (σ.nodes.get id).map fun s => { s with status := .terminated }
                         else σ.nodes.get id
      | .remove i => if i = id then none else σ.nodes.get id := by
  cases op with
  | add n =>
    simp only [NStore.step, NStore.add]
    rw [get_collect, find_last_isort]
    by_cases hn : n.id = id
    · simp [hn]
    · simp only [hn, if_false]
      exact find_vals _ hw.uniq hw.keyed id
  | update s =>
    simp only [NStore.step, NStore.update, Assoc.get_insert]
    by_cases hs : s.node.id = id <;> simp [hs, eq_comm]
    intro e; exact absurd e.symm hs
  | terminated i =>
    simp only [NStore.step, NStore.terminated, Assoc.get_update]
    by_cases hs : i = id <;> simp [hs, eq_comm]
    intro e; exact absurd e.symm hs
  | remove i =>
    simp only [NStore.step, NStore.remove]
    split
    · rename_i hn
      by_cases hs : i = id
      · subst hs; simp [hn]
      · simp [hs]
    · simp only [Assoc.get_erase]
      by_cases hs : i = id <;> simp [hs, eq_comm]
      intro e; exact absurd e.symm hs

/-- the id an operation is about. -/
def NStoreOp.about : NStoreOp → Nat
  | .add n => n.id
  | .update s => s.node.id
  | .terminated id => id
  | .remove id => id

theorem get_untouched (h : RNode → Nat) (pre post : List NStoreOp) (id : Nat)
    (hp : ∀ op ∈ post, op.about ≠ id) :
    (NStore.run h (pre ++ post)).nodes.get id = (NStore.run h pre).nodes.get id := by
  induction post using snoc_induction with
  | nil => simp
  | snoc post op ih =>
    rw [← List.append_assoc, nrun_snoc, get_step h _ (NWF.run h _) op id]
    have := hp op (by simp)
    have ih := ih (fun o ho => hp o (by simp [ho]))
    cases op <;> simp only [NStoreOp.about] at this <;> simp [this, ih]

/-- **C30.** The directory answers a node with the details last added, until something else happens to
that id - whatever happens to other ids. -/
theorem C30_added (h : RNode → Nat) (pre post : List NStoreOp) (n : RNode)
    (hp : ∀ op ∈ post, op.about ≠ n.id) :
    (NStore.run h (pre ++ .add n :: post)).nodes.get n.id = some ⟨n, .joining⟩ := by
  have := get_untouched h (pre ++ [.add n]) post n.id hp
  rw [List.append_assoc, List.singleton_append] at this
  rw [this, nrun_snoc, get_step h _ (NWF.run h _)]
  simp

/-- **C30.** Likewise with the details and status last updated. -/
theorem C30_updated (h : RNode → Nat) (pre post : List NStoreOp) (s : NState)
    (hp : ∀ op ∈ post, op.about ≠ s.node.id) :
    (NStore.run h (pre ++ .update s :: post)).nodes.get s.node.id = some s := by
  have := get_untouched h (pre ++ [.update s]) post s.node.id hp
  rw [List.append_assoc, List.singleton_append] at this
  rw [this, nrun_snoc, get_step h _ (NWF.run h _)]
  simp

/-- **C30.** A removed node is not answered, until it is added (or updated) again. -/
theorem C30_removed (h : RNode → Nat) (pre post : List NStoreOp) (id : Nat)
    (hp : ∀ op ∈ post, op.about ≠ id) :
    (NStore.run h (pre ++ .remove id :: post)).nodes.get id = none := by
  have := get_untouched h (pre ++ [.remove id]) post id hp
  rw [List.append_assoc, List.singleton_append] at this
  rw [this, nrun_snoc, get_step h _ (NWF.run h _)]
  simp

/-- **C30.** A node never mentioned is not answered. -/
theorem C30_unknown (h : RNode → Nat) (ops : List NStoreOp) (id : Nat) (hp : ∀ op ∈ ops, op.about ≠ id) :
    (NStore.run h ops).nodes.get id = none := by
  have := get_untouched h [] ops id hp
  simpa [NStore.run] using this

/-- **C30.** Marking a node terminated changes its status and nothing else. -/
theorem C30_terminated (h : RNode → Nat) (ops : List NStoreOp) (id : Nat) :
    (NStore.run h (ops ++ [.terminated id])).nodes.get id =
      ((NStore.run h ops).nodes.get id).map fun s => { s with status := .terminated } := by
  rw [nrun_snoc, get_step h _ (NWF.run h _)]
  simp

/-! ### Placement -/

/-- histories in which the ring follows the directory: no id is added while it is known, updates do not
change the details and are about known nodes, and no two nodes ever named have the same hash. -/
structure Orderly (h : RNode → Nat) (ops : List NStoreOp) : Prop where
  fresh : ∀ pre n post, ops = pre ++ .add n :: post → (NStore.run h pre).nodes.get n.id = none
  same : ∀ pre s post, ops = pre ++ .update s :: post →
    ∃ t, (NStore.run h pre).nodes.get s.node.id = some t ∧ t.node = s.node
  noClash : ∀ a b, .add a ∈ ops → .add b ∈ ops → h a = h b → a = b

theorem Orderly.init {h : RNode → Nat} {ops : List NStoreOp} {op : NStoreOp}
    (ho : Orderly h (ops ++ [op])) : Orderly h ops :=
  ⟨fun pre n post he => ho.fresh pre n (post ++ [op]) (by rw [he]; simp),
   fun pre s post he => ho.same pre s (post ++ [op]) (by rw [he]; simp),
   fun a b ha hb => ho.noClash a b (by simp [ha]) (by simp [hb])⟩

theorem Orderly.nil (h : RNode → Nat) : Orderly h [] :=
  ⟨by simp, by simp, by simp⟩

theorem Orderly.snoc_add {h : RNode → Nat} {ops : List NStoreOp} (ho : Orderly h ops) (n : RNode)
    (hf : (NStore.run h ops).nodes.get n.id = none) (hc : ∀ a, .add a ∈ ops → h a = h n → a = n) :
    Orderly h (ops ++ [.add n]) := by
  refine ⟨?_, ?_, ?_⟩
  · intro pre m post he
    rcases snoc_eq_append_cons he with ⟨rfl, rfl, h1⟩ | ⟨q, rfl, h1⟩
    · cases h1; exact hf
    · exact ho.fresh pre m q h1
  · intro pre m post he
    rcases snoc_eq_append_cons he with ⟨rfl, rfl, h1⟩ | ⟨q, rfl, h1⟩
    · cases h1
    · exact ho.same pre m q h1
  · intro a b ha hb e
    simp only [List.mem_append, List.mem_singleton, NStoreOp.add.injEq] at ha hb
    rcases ha with ha | rfl
    · rcases hb with hb | rfl
      · exact ho.noClash a b ha hb e
      · exact hc a ha e
    · rcases hb with hb | rfl
      · exact (hc b hb e.symm).symm
      · rfl

theorem Orderly.snoc_other {h : RNode → Nat} {ops : List NStoreOp} (ho : Orderly h ops) (op : NStoreOp)
    (h1 : ∀ n, op ≠ .add n) (h2 : ∀ s, op ≠ .update s) : Orderly h (ops ++ [op]) := by
  refine ⟨?_, ?_, ?_⟩
  · intro pre m post he
    rcases snoc_eq_append_cons he with ⟨rfl, rfl, h3⟩ | ⟨q, rfl, h3⟩
    · exact absurd h3 (h1 m)
    · exact ho.fresh pre m q h3
  · intro pre m post he
    rcases snoc_eq_append_cons he with ⟨rfl, rfl, h3⟩ | ⟨q, rfl, h3⟩
    · exact absurd h3 (h2 m)
    · exact ho.same pre m q h3
  · intro a b ha hb e
    simp only [List.mem_append, List.mem_singleton] at ha hb
    exact ho.noClash a b (ha.resolve_right fun e => h1 a e.symm) (hb.resolve_right fun e => h1 b e.symm) e

/-- the members: the nodes in the directory. -/
def NStore.members (σ : NStore) : List RNode := σ.nodes.map (·.2.node)

theorem mem_members {σ : NStore} (hw : NWF σ) (n : RNode) :
    n ∈ σ.members ↔ ∃ s, σ.nodes.get n.id = some s ∧ s.node = n := by
  unfold NStore.members
  constructor
  · intro hm
    obtain ⟨p, hp, rfl⟩ := List.mem_map.1 hm
    refine ⟨p.2, ?_, rfl⟩
    rw [hw.keyed p hp]
    exact Assoc.get_of_mem hw.uniq hp
  · rintro ⟨s, hs, rfl⟩
    exact List.mem_map.2 ⟨_, Assoc.mem_of_get hs, rfl⟩

theorem members_nodup {σ : NStore} (hw : NWF σ) : σ.members.Nodup := by
  have h1 : (σ.members.map (·.id)) = σ.nodes.map (·.1) := by
    unfold NStore.members
    rw [List.map_map]
    exact List.map_congr_left (fun p hp => hw.keyed p hp)
  have h2 : (σ.members.map (·.id)).Nodup := by rw [h1]; exact Assoc.uniq_iff.1 hw.uniq
  exact List.Pairwise.of_map (·.id) (fun a b hab e => hab (by rw [e])) h2

theorem added_members (h : RNode → Nat) (ops : List NStoreOp) (ho : Orderly h ops) :
    ∀ n ∈ (NStore.run h ops).members, .add n ∈ ops := by
  induction ops using snoc_induction with
  | nil => simp [NStore.run, NStore.members]
  | snoc ops op ih =>
    have ih := ih ho.init
    intro n hn
    have hw := NWF.run h ops
    rw [nrun_snoc, mem_members (hw.step op), get_step h _ hw] at hn
    obtain ⟨s, hs, hsn⟩ := hn
    have hback : ∀ t : NState, (NStore.run h ops).nodes.get n.id = some t → t.node = n →
        .add n ∈ ops ++ [op] := by
      intro t ht e
      have := ih n ((mem_members hw n).2 ⟨t, ht, e⟩)
      simp [this]
    cases op with
    | add m =>
      simp only at hs
      by_cases hm : m.id = n.id
      · simp only [hm, if_true, Option.some.injEq] at hs
        subst hs; simp only at hsn; subst hsn; simp
      · simp only [hm, if_false] at hs
        exact hback s hs hsn
    | update t =>
      simp only at hs
      by_cases hm : t.node.id = n.id
      · simp only [hm, if_true, Option.some.injEq] at hs
        obtain ⟨u, hu, hu'⟩ := ho.same ops t [] (by simp)
        rw [hm] at hu
        exact hback u hu (by rw [hu', hs, hsn])
      · simp only [hm, if_false] at hs
        exact hback s hs hsn
    | terminated i =>
      simp only at hs
      by_cases hm : i = n.id
      · simp only [hm, if_true] at hs
        rw [Option.map_eq_some_iff] at hs
        obtain ⟨u, hu, rfl⟩ := hs
        exact hback u hu hsn
      · simp only [hm, if_false] at hs
        exact hback s hs hsn
    | remove i =>
      simp only at hs
      by_cases hm : i = n.id
      · simp [hm] at hs
      · simp only [hm, if_false] at hs
        exact hback s hs hsn

theorem Orderly.clash {h : RNode → Nat} {ops : List NStoreOp} (ho : Orderly h ops) :
    NoClash h (NStore.run h ops).members := fun a ha b hb e =>
  ho.noClash a b (added_members h ops ho a ha) (added_members h ops ho b hb) e

/-- in orderly histories the ring holds exactly the members. -/
theorem ring_follows (h : RNode → Nat) (ops : List NStoreOp) (ho : Orderly h ops) :
    RingOf h (NStore.run h ops).ring (NStore.run h ops).members := by
  induction ops using snoc_induction with
  | nil => exact RingOf.nil h
  | snoc ops op ih =>
    have hr := ih ho.init
    have hw := NWF.run h ops
    have hcl := ho.init.clash
    have hmem' := mem_members (hw.step (h := h) op)
    have hnd' := members_nodup (hw.step (h := h) op)
    have hnd := members_nodup hw
    have hgs := get_step h _ hw op
    rw [nrun_snoc]
    have hfr := ho.fresh ops
    have hsm := ho.same ops
    generalize NStore.run h ops = σ at *
    have hsame : ∀ (σ' : NStore), σ'.ring = σ.ring → σ'.members.Nodup →
        (∀ n, n ∈ σ'.members ↔ n ∈ σ.members) → RingOf h σ'.ring σ'.members := by
      intro σ' h1 h2 h3
      rw [h1]
      refine ⟨hr.keyed, hr.sorted, hr.perm.trans ?_⟩
      exact (List.perm_ext_iff_of_nodup hnd h2).2 (fun n => (h3 n).symm)
    cases op with
    | add n =>
      have hn := hfr n [] (by simp)
      have hring := RingOf.foldl (h := h) (isort (fun a b => decide (a.node.id ≤ b.node.id))
        (σ.nodes.map (·.2) ++ [⟨n, .joining⟩])) (RingOf.nil h)
      simp only [List.nil_append] at hring
      refine ⟨hring.keyed, hring.sorted, hring.perm.trans ?_⟩
      refine ((isort_perm _ _).map _).trans ?_
      have e1 : List.map NState.node (List.map Prod.snd σ.nodes ++ [NState.mk n .joining]) =
          σ.members ++ [n] := by
        simp [NStore.members, Function.comp_def]
      rw [e1]
      have hnin : n ∉ σ.members := by
        intro hin
        obtain ⟨s, hs, _⟩ := (mem_members hw n).1 hin
        rw [hn] at hs; cases hs
      refine (List.perm_ext_iff_of_nodup ?_ hnd').2 ?_
      · rw [List.nodup_append]
        refine ⟨hnd, by simp, ?_⟩
        intro a ha b hb e
        simp at hb; subst hb; subst e; exact hnin ha
      · intro m
        rw [hmem', hgs]
        simp only [List.mem_append, List.mem_singleton]
        by_cases hid : n.id = m.id
        · simp only [hid, if_true, Option.some.injEq]
          constructor
          · rintro (hm | rfl)
            · obtain ⟨s, hs, _⟩ := (mem_members hw m).1 hm
              rw [← hid, hn] at hs; cases hs
            · exact ⟨_, rfl, rfl⟩
          · rintro ⟨s, rfl, rfl⟩; exact .inr rfl
        · simp only [hid, if_false]
          rw [← mem_members hw]
          constructor
          · rintro (hm | rfl)
            · exact hm
            · exact absurd rfl hid
          · exact .inl
    | update s =>
      obtain ⟨t, ht, hts⟩ := hsm s [] (by simp)
      refine hsame _ rfl hnd' ?_
      intro m
      rw [hmem', hgs]
      by_cases hid : s.node.id = m.id
      · simp only [hid, if_true, Option.some.injEq]
        rw [mem_members hw, ← hid, ht]
        constructor
        · rintro ⟨x, rfl, hx⟩; exact ⟨t, rfl, by rw [hts, hx]⟩
        · rintro ⟨x, hx, hxm⟩; cases hx; exact ⟨s, rfl, by rw [← hts, hxm]⟩
      · simp only [hid, if_false]
        rw [← mem_members hw]
    | terminated i =>
      refine hsame _ rfl hnd' ?_
      intro m
      rw [hmem', hgs, mem_members hw]
      by_cases hid : i = m.id
      · simp only [hid, if_true]
        constructor
        · rintro ⟨x, hx, rfl⟩
          rw [Option.map_eq_some_iff] at hx
          obtain ⟨y, hy, rfl⟩ := hx
          exact ⟨y, hy, rfl⟩
        · rintro ⟨x, hx, rfl⟩
          exact ⟨{ x with status := .terminated }, by rw [hx]; rfl, rfl⟩
      · simp only [hid, if_false]
    | remove i =>
      rcases Option.eq_none_or_eq_some (σ.nodes.get i) with hg | ⟨s, hg⟩
      · have : σ.step h (.remove i) = σ := by simp [NStore.step, NStore.remove, hg]
        rw [this]; exact hr
      · have hsid : s.node.id = i := hw.keyed _ (Assoc.mem_of_get hg)
        have hsm' : s.node ∈ σ.members := (mem_members hw _).2 ⟨s, by rw [hsid]; exact hg, rfl⟩
        have hrr := hr.remove hcl hsm'
        have e1 : (σ.step h (.remove i)).ring = ringRemove h σ.ring s.node := by
          simp [NStore.step, NStore.remove, hg]
        rw [e1]
        refine ⟨hrr.keyed, hrr.sorted, hrr.perm.trans ?_⟩
        refine (List.perm_ext_iff_of_nodup (hnd.erase _) hnd').2 ?_
        intro m
        rw [hnd.mem_erase_iff, hmem', hgs, mem_members hw]
        by_cases hid : i = m.id
        · simp only [hid, if_true]
          constructor
          · rintro ⟨hne, x, hx, hxm⟩
            rw [← hid, hg] at hx
            cases hx
            exact absurd hxm.symm hne
          · rintro ⟨x, hx, _⟩; cases hx
        · simp only [hid, if_false]
          constructor
          · rintro ⟨_, hx⟩; exact hx
          · intro hx
            refine ⟨?_, hx⟩
            rintro rfl
            exact hid hsid.symm

/-- **C29 (orderly histories).** The node answered for a key is the one whose hash comes first at or
after the key's, cyclically, among the members. -/
theorem C29_owner_partial (h : RNode → Nat) (ops : List NStoreOp) (ho : Orderly h ops) (k : Nat) (n : RNode) :
    (NStore.run h ops).byKey k = some n ↔ IsOwner h (NStore.run h ops).members k n :=
  ringGet_iff (ring_follows h ops ho) ho.clash k n

theorem byKey_none {h : RNode → Nat} {ops : List NStoreOp} (ho : Orderly h ops) (k : Nat)
    (hn : (NStore.run h ops).byKey k = none) : (NStore.run h ops).members = [] := by
  have hr := ring_follows h ops ho
  have : (NStore.run h ops).ring = [] := by
    false_or_by_contra
    rename_i hne
    have := ringGet_isSome k hne
    unfold NStore.byKey at hn
    simp [hn] at this
  have hp := hr.perm
  rw [this] at hp
  exact List.nil_perm.1 hp

/-- **C29 (orderly histories).** Placement depends on the set of members only: two histories leading to
the same members place every key alike. -/
theorem C29_order_partial (h : RNode → Nat) (ops ops' : List NStoreOp) (ho : Orderly h ops)
    (ho' : Orderly h ops') (hm : ∀ n, n ∈ (NStore.run h ops).members ↔ n ∈ (NStore.run h ops').members)
    (k : Nat) : (NStore.run h ops).byKey k = (NStore.run h ops').byKey k := by
  have hiff : ∀ n, IsOwner h (NStore.run h ops).members k n ↔ IsOwner h (NStore.run h ops').members k n := by
    intro n; unfold IsOwner; simp only [hm]
  rcases Option.eq_none_or_eq_some ((NStore.run h ops).byKey k) with hn | ⟨n, hn⟩
  · rcases Option.eq_none_or_eq_some ((NStore.run h ops').byKey k) with hn' | ⟨n', hn'⟩
    · rw [hn, hn']
    · have := ((C29_owner_partial h ops' ho' k n').1 hn').1
      rw [← hm, byKey_none ho k hn] at this
      cases this
  · rw [hn, eq_comm, C29_owner_partial h ops' ho' k n, ← hiff]
    exact (C29_owner_partial h ops ho k n).1 hn

/-- **C29 (orderly histories).** Adding a node moves keys to that node only. -/
theorem C29_add_partial (h : RNode → Nat) (ops : List NStoreOp) (n : RNode)
    (ho : Orderly h (ops ++ [.add n])) (k : Nat) :
    (NStore.run h (ops ++ [.add n])).byKey k = some n ∨
    (NStore.run h (ops ++ [.add n])).byKey k = (NStore.run h ops).byKey k := by
  have hw := NWF.run h ops
  have hm : ∀ m, m ∈ (NStore.run h (ops ++ [.add n])).members ↔ m = n ∨ m ∈ (NStore.run h ops).members := by
    intro m
    have hn := ho.fresh ops n [] rfl
    rw [nrun_snoc, mem_members (hw.step _), get_step h _ hw, mem_members hw]
    simp only
    by_cases hid : n.id = m.id
    · simp only [hid, if_true, Option.some.injEq]
      rw [← hid, hn]
      constructor
      · rintro ⟨s, rfl, rfl⟩; exact .inl rfl
      · rintro (rfl | ⟨s, hs, _⟩)
        · exact ⟨_, rfl, rfl⟩
        · cases hs
    · simp only [hid, if_false]
      constructor
      · exact .inr
      · rintro (rfl | hx)
        · exact absurd rfl hid
        · exact hx
  rcases Option.eq_none_or_eq_some ((NStore.run h (ops ++ [.add n])).byKey k) with hx | ⟨x, hx⟩
  · have := byKey_none ho k hx
    have hc := (hm n).2 (.inl rfl)
    rw [this] at hc; cases hc
  · by_cases hxn : x = n
    · left; rw [hx, hxn]
    · right
      rw [hx, eq_comm, C29_owner_partial h ops ho.init]
      obtain ⟨a, b⟩ := (C29_owner_partial h _ ho k x).1 hx
      refine ⟨((hm x).1 a).resolve_left hxn, ?_⟩
      rcases b with ⟨b1, b2⟩ | ⟨b1, b2⟩
      · exact .inl ⟨b1, fun m hm' => b2 m ((hm m).2 (.inr hm'))⟩
      · exact .inr ⟨fun m hm' => b1 m ((hm m).2 (.inr hm')), fun m hm' => b2 m ((hm m).2 (.inr hm'))⟩

/-- **C29 (orderly histories).** Removing a node moves only the keys that were on it. -/
theorem C29_remove_partial (h : RNode → Nat) (ops : List NStoreOp) (id : Nat)
    (ho : Orderly h (ops ++ [.remove id])) (k : Nat) (n : RNode)
    (hn : (NStore.run h ops).byKey k = some n) (hid : n.id ≠ id) :
    (NStore.run h (ops ++ [.remove id])).byKey k = some n := by
  have hw := NWF.run h ops
  have hm : ∀ m, m ∈ (NStore.run h (ops ++ [.remove id])).members ↔
      m.id ≠ id ∧ m ∈ (NStore.run h ops).members := by
    intro m
    rw [nrun_snoc, mem_members (hw.step _), get_step h _ hw, mem_members hw]
    simp only
    by_cases he : id = m.id
    · simp [he]
    · simp [he, Ne.symm he]
  rw [C29_owner_partial h _ ho]
  obtain ⟨a, b⟩ := (C29_owner_partial h _ ho.init k n).1 hn
  refine ⟨(hm n).2 ⟨hid, a⟩, ?_⟩
  rcases b with ⟨b1, b2⟩ | ⟨b1, b2⟩
  · exact .inl ⟨b1, fun m hm' => b2 m ((hm m).1 hm').2⟩
  · exact .inr ⟨fun m hm' => b1 m ((hm m).1 hm').2, fun m hm' => b2 m ((hm m).1 hm').2⟩

/-! ### What goes wrong -/

/-- **C30 refuted (terminated nodes).** Marking a node terminated never changes what is chosen. -/
theorem C30_terminated_still_chosen_refuted (h : RNode → Nat) (ops : List NStoreOp) (id k : Nat) :
    (NStore.run h (ops ++ [.terminated id])).byKey k = (NStore.run h ops).byKey k := by
  rw [nrun_snoc]; rfl

/-- **C30 refuted (terminated nodes, instance).** The terminated node is chosen although another node
is there. -/
theorem C30_terminated_refuted :
    let σ := NStore.run (fun n => n.id) [.add ⟨1, "a", "", none⟩, .add ⟨2, "b", "", none⟩, .terminated 1]
    σ.nodes.get 1 = some ⟨⟨1, "a", "", none⟩, .terminated⟩ ∧
    σ.nodes.get 2 = some ⟨⟨2, "b", "", none⟩, .joining⟩ ∧
    σ.byKey 0 = some ⟨1, "a", "", none⟩ := by decide

/-- The claim for all histories: whatever is chosen is a member. -/
def C29_full : Prop := ∀ (h : RNode → Nat) (ops : List NStoreOp) (k : Nat) (n : RNode),
  (∀ a b, .add a ∈ ops → .add b ∈ ops → h a = h b → a = b) →
  (NStore.run h ops).byKey k = some n → n ∈ (NStore.run h ops).members

/-- a hash function without collisions, for the counterexamples. -/
def demoHash : RNode → Nat := fun n => if n.addr = "a" then n.id else n.id + 100

/-- **C29/C30 refuted (added twice).** A node that comes back with a new address is on the ring twice;
after its removal the old entry is still chosen. -/
theorem C29_added_twice_refuted :
    let σ := NStore.run demoHash [.add ⟨1, "a", "", none⟩, .add ⟨1, "b", "", none⟩, .remove 1]
    σ.nodes = [] ∧ σ.byKey 0 = some ⟨1, "a", "", none⟩ := by decide

theorem C29_refuted : ¬ C29_full := by
  intro hf
  have h1 := hf demoHash [.add ⟨1, "a", "", none⟩, .add ⟨1, "b", "", none⟩, .remove 1] 0 ⟨1, "a", "", none⟩
    (by
      intro a b ha hb
      simp only [List.mem_cons, NStoreOp.add.injEq, List.not_mem_nil, reduceCtorEq, or_false] at ha hb
      rcases ha with rfl | rfl <;> rcases hb with rfl | rfl <;> decide)
    (by decide)
  revert h1
  decide

/-- **C29/C30 refuted (details updated).** A removed node whose details were updated stays on the ring. -/
theorem C29_updated_refuted :
    let σ := NStore.run demoHash [.add ⟨1, "a", "", none⟩, .update ⟨⟨1, "b", "", none⟩, .healthy⟩, .remove 1]
    σ.nodes = [] ∧ σ.byKey 0 = some ⟨1, "a", "", none⟩ := by decide

/-- **C30 refuted (stale heartbeat).** A heartbeat reads the nodes, a node is removed (or comes back with
a new address), and the heartbeat writes back what it read: the removed node is in the directory again,
respectively the old address replaces the new one. -/
theorem C30_stale_update_refuted :
    (NStore.run demoHash [.add ⟨1, "a", "", none⟩, .remove 1, .update ⟨⟨1, "a", "", none⟩, .healthy⟩]).nodes.get 1
      = some ⟨⟨1, "a", "", none⟩, .healthy⟩ ∧
    (NStore.run demoHash [.add ⟨1, "a", "", none⟩, .add ⟨1, "b", "", none⟩,
      .update ⟨⟨1, "a", "", none⟩, .healthy⟩]).nodes.get 1 = some ⟨⟨1, "a", "", none⟩, .healthy⟩ := by decide

/-! Concrete cases. -/
example : Orderly demoHash (([] ++ [.add ⟨1, "a", "", none⟩]) ++ [.add ⟨5, "a", "", none⟩] ++ [.remove 1]) :=
  (((Orderly.nil _).snoc_add _ (by decide) (by simp)).snoc_add _ (by decide)
    (by intro a ha; simp at ha; subst ha; decide)).snoc_other _ (by simp) (by simp)

example : let ops := [NStoreOp.add ⟨1, "a", "", none⟩, .add ⟨5, "a", "", none⟩, .add ⟨3, "a", "", none⟩]
    ((NStore.run demoHash ops).byKey 2).map (·.id) = some 3 ∧
    ((NStore.run demoHash ops).byKey 4).map (·.id) = some 5 ∧
    ((NStore.run demoHash ops).byKey 6).map (·.id) = some 1 ∧
    ((NStore.run demoHash (ops ++ [.remove 3])).byKey 2).map (·.id) = some 5 := by decide

end Verif.Remote
