import Verif.Remote.LookupSpec
import Verif.Remote.NodeStoreProps
import Verif.Remote.MeshEnd

namespace Verif.Remote.Lookup

variable {h : RNode → Nat} {key : Nat → Nat}

theorem run_snoc (ops : List Op) (o : Op) : run h key (ops ++ [o]) = (run h key ops).step h key o := by simp [run]

/-! ### Rings -/

theorem add_ring (σ : NStore) (n : RNode) : ∃ ms, RingOf h (σ.add h n).ring ms ∧
    ∀ m, m ∈ ms ↔ m ∈ σ.members ∨ m = n := by
  refine ⟨_, RingOf.foldl _ (RingOf.nil h), fun m => ?_⟩
  simp only [List.nil_append, List.mem_map, mem_isort, List.mem_append, List.mem_singleton, NStore.members]
  constructor
  · rintro ⟨s, ⟨p, hp, rfl⟩ | rfl, rfl⟩
    · exact .inl ⟨p, hp, rfl⟩
    · exact .inr rfl
  · rintro (⟨p, hp, rfl⟩ | rfl)
    · exact ⟨p.2, .inl ⟨p, hp, rfl⟩, rfl⟩
    · exact ⟨_, .inr rfl, rfl⟩

theorem add_members {σ : NStore} (hw : NWF σ) (n : RNode) (hn : ∀ m ∈ σ.members, m.id = n.id → m = n) (m : RNode) :
    m ∈ (σ.add h n).members ↔ m ∈ σ.members ∨ m = n := by
  have hw' : NWF (σ.add h n) := hw.step (h := h) (.add n)
  rw [mem_members hw', show σ.add h n = σ.step h (.add n) from rfl, get_step h σ hw (.add n)]
  simp only
  by_cases e : n.id = m.id
  · simp only [e, if_true]
    constructor
    · rintro ⟨s, hs⟩
      simp at hs
      exact .inr (by rw [← hs.2, ← hs.1])
    · rintro (h1 | rfl)
      · have := hn m h1 e.symm
        subst this
        exact ⟨_, rfl, rfl⟩
      · exact ⟨_, rfl, rfl⟩
  · simp only [e, if_false]
    rw [← mem_members hw]
    constructor
    · exact .inl
    · rintro (h1 | rfl)
      · exact h1
      · exact absurd rfl e

/-- the directory of a node and its ring hold what the node has learned. -/
structure Holds (h : RNode → Nat) (ops : List Op) (σ : St) : Prop where
  wf : ∀ x, NWF (σ.stores x)
  mem : ∀ x m, m ∈ (σ.stores x).members ↔ .learn x m ∈ ops
  ring : ∀ x, ∃ ms, RingOf h (σ.stores x).ring ms ∧ ∀ m, m ∈ ms ↔ .learn x m ∈ ops

theorem stores_step (σ : St) (o : Op) (ho : ∀ x n, o ≠ .learn x n) : (σ.step h key o).stores = σ.stores := by
  cases o with
  | learn x n => exact absurd rfl (ho x n)
  | start x a => simp only [St.step, St.start]; split <;> rfl
  | arrive i => simp only [St.step]; split <;> rfl
  | drop i => rfl
  | ask x a c => rfl
  | look i => simp only [St.step]; split <;> rfl
  | back i => simp only [St.step]; split <;> rfl
  | giveUp i k =>
    simp only [St.step]
    split
    · split <;> rfl
    · rfl
  | lost i => simp only [St.step]; split <;> rfl

theorem holds_run {ops : List Op} {D : Nat → RNode} (hD : ∀ x n, .learn x n ∈ ops → n = D n.id) :
    Holds h ops (run h key ops) := by
  induction ops using snoc_induction with
  | nil =>
    refine ⟨fun x => NWF.run h [], fun x m => ?_, fun x => ⟨[], RingOf.nil h, by simp⟩⟩
    simp [run, NStore.members]
  | snoc ops o ih =>
    have ih := ih fun x n hx => hD x n (List.mem_append_left _ hx)
    rw [run_snoc]
    by_cases ho : ∃ x n, o = .learn x n
    · obtain ⟨x, n, rfl⟩ := ho
      have hn : ∀ m ∈ ((run h key ops).stores x).members, m.id = n.id → m = n := by
        intro m hm e
        rw [hD x m (List.mem_append_left _ ((ih.mem x m).1 hm)), hD x n (by simp), e]
      simp only [St.step]
      refine ⟨fun y => ?_, fun y m => ?_, fun y => ?_⟩
      · show NWF (if y = x then _ else _)
        split
        · exact (ih.wf x).step (h := h) (.add n)
        · exact ih.wf y
      · show m ∈ (if y = x then ((run h key ops).stores x).add h n else (run h key ops).stores y).members ↔ _
        split
        · rename_i e
          subst e
          rw [add_members (ih.wf y) n hn, ih.mem]
          simp
        · rename_i e
          rw [ih.mem]
          simp [e]
      · show ∃ ms, RingOf h (if y = x then ((run h key ops).stores x).add h n else (run h key ops).stores y).ring ms ∧ _
        split
        · rename_i e
          subst e
          obtain ⟨ms, h1, h2⟩ := add_ring (h := h) ((run h key ops).stores y) n
          refine ⟨ms, h1, fun m => ?_⟩
          rw [h2, ih.mem]
          simp
        · rename_i e
          obtain ⟨ms, h1, h2⟩ := ih.ring y
          refine ⟨ms, h1, fun m => ?_⟩
          rw [h2]
          simp [e]
    · have ho : ∀ x n, o ≠ .learn x n := fun x n e => ho ⟨x, n, e⟩
      have hs := stores_step (h := h) (key := key) (run h key ops) o ho
      have hm : ∀ x m, .learn x m ∈ ops ++ [o] ↔ .learn x m ∈ ops := by
        intro x m
        simp only [List.mem_append, List.mem_singleton]
        exact ⟨fun h => h.resolve_right fun e => ho x m e.symm, .inl⟩
      refine ⟨fun x => by rw [hs]; exact ih.wf x, fun x m => by rw [hs, hm]; exact ih.mem x m, fun x => ?_⟩
      rw [hs]
      obtain ⟨ms, h1, h2⟩ := ih.ring x
      exact ⟨ms, h1, fun m => by rw [h2, hm]⟩

/-- `v` comes before `w` on the ring, seen from `k`. -/
def Closer (k v w : Nat) : Prop := (k ≤ v ∧ (w < k ∨ v < w)) ∨ (v < k ∧ w < k ∧ v < w)

instance (k v w : Nat) : Decidable (Closer k v w) := inferInstanceAs (Decidable (_ ∨ _))

theorem Closer.trans {k u v w : Nat} (h1 : Closer k u v) (h2 : Closer k v w) : Closer k u w := by
  unfold Closer at *; omega

theorem Closer.irrefl {k v : Nat} : ¬ Closer k v v := by unfold Closer; omega

theorem Consistent.init {D : Nat → RNode} {ops : List Op} {o : Op} (hc : Consistent h D (ops ++ [o])) : Consistent h D ops :=
  ⟨hc.id, hc.clash, fun x n hx => hc.same x n (List.mem_append_left _ hx),
    fun pre x n post e => hc.self pre x n (post ++ [o]) (by rw [e]; simp)⟩

theorem Consistent.knowsSelf {D : Nat → RNode} {ops : List Op} (hc : Consistent h D ops) {x : Nat} {n : RNode}
    (hl : .learn x n ∈ ops) : .learn x (D x) ∈ ops := by
  obtain ⟨pre, post, e⟩ := List.append_of_mem hl
  rcases hc.self pre x n post e with h1 | h1
  · have := hc.same x n hl
    rw [h1] at this
    rw [← this]; exact hl
  · rw [e]; exact List.mem_append_left _ h1

/-- a node asks only nodes that come before itself. -/
theorem owner_closer {D : Nat → RNode} {ops : List Op} (hc : Consistent h D ops) (x a : Nat)
    (hne : (run h key ops).owner key x a ≠ x) :
    .learn x (D ((run h key ops).owner key x a)) ∈ ops ∧
    Closer (key a) (h (D ((run h key ops).owner key x a))) (h (D x)) := by
  have hh := holds_run (h := h) (key := key) hc.same
  obtain ⟨ms, h1, h2⟩ := hh.ring x
  unfold St.owner at hne ⊢
  rcases Option.eq_none_or_eq_some (((run h key ops).stores x).byKey (key a)) with hn | ⟨n, hn⟩
  · rw [hn] at hne; exact absurd rfl hne
  · rw [hn] at hne ⊢
    simp only [Option.map_some, Option.getD_some] at hne ⊢
    have ho := ringGet_owner h1 hn
    have hl := (h2 n).1 ho.1
    have hn' := hc.same x n hl
    rw [← hn']
    refine ⟨hl, ?_⟩
    have hx := (h2 (D x)).2 (hc.knowsSelf hl)
    have hne' : h n ≠ h (D x) := by
      intro e
      rw [hn'] at e
      exact hne (hc.clash _ _ e)
    unfold Closer
    rcases ho.2 with ⟨g1, g2⟩ | ⟨g1, g2⟩
    · have := g2 (D x) hx; omega
    · have := g1 n ho.1; have := g1 (D x) hx; have := g2 (D x) hx; omega

/-! ### No circles -/

/-- the nodes asked are ever closer. -/
def Chain.Ok (h : RNode → Nat) (key : Nat → Nat) (D : Nat → RNode) (c : Chain) : Prop :=
  c.path ≠ [] ∧ c.path.Pairwise fun p q => Closer (key c.actor) (h (D p)) (h (D q))

theorem mem_set_cases {α : Type} {l : List α} {i : Nat} {a b : α} (hm : b ∈ l.set i a) : b ∈ l ∨ b = a := List.mem_or_eq_of_mem_set hm

theorem pairwise_hop {k : Nat} {f : Nat → Nat} {o x : Nat} {p : List Nat} (hp : (x :: p).Pairwise fun p q => Closer k (f p) (f q))
    (hc : Closer k (f o) (f x)) : (o :: x :: p).Pairwise fun p q => Closer k (f p) (f q) := by
  rw [List.pairwise_cons]
  refine ⟨fun q hq => ?_, hp⟩
  rcases List.mem_cons.1 hq with rfl | hq
  · exact hc
  · exact hc.trans ((List.pairwise_cons.1 hp).1 q hq)

theorem chains_ok {D : Nat → RNode} {ops : List Op} (hc : Consistent h D ops) :
    ∀ c ∈ (run h key ops).chains, c.Ok h key D := by
  induction ops using snoc_induction with
  | nil => intro c hm; simp [run] at hm
  | snoc ops o ih =>
    have hc' := hc.init
    have ih := ih hc'
    have hclose := owner_closer (key := key) hc'
    rw [run_snoc]
    generalize run h key ops = σ at ih hclose
    cases o with
    | learn x n => exact ih
    | start x a => simp only [St.step, St.start]; split <;> exact ih
    | arrive i => simp only [St.step]; split <;> exact ih
    | drop i => exact ih
    | ask x a c =>
      intro d hd
      simp only [St.step, List.mem_append, List.mem_singleton] at hd
      rcases hd with hd | rfl
      · exact ih d hd
      · exact ⟨by simp, by simp⟩
    | look i =>
      simp only [St.step]
      split
      · rename_i a x p c hi
        intro d hd
        rcases mem_set_cases hd with hd | rfl
        · exact ih d hd
        · have hk := ih _ (List.mem_of_getElem? hi)
          simp only [St.look]
          split
          · exact hk
          · split
            · exact hk
            · rename_i hne
              exact ⟨by simp, pairwise_hop hk.2 (hclose x a hne).2⟩
      · exact ih
    | back i =>
      simp only [St.step]
      split
      · rename_i a x y p r c hi
        intro d hd
        rcases mem_set_cases hd with hd | rfl
        · exact ih d hd
        · have hk := ih _ (List.mem_of_getElem? hi)
          exact ⟨by simp, (List.pairwise_cons.1 hk.2).2⟩
      · intro d hd
        exact ih d (List.mem_of_mem_eraseIdx hd)
      · exact ih
    | giveUp i k =>
      simp only [St.step]
      split
      · rename_i a p f c hi
        split
        · rename_i hk
          have hok := ih _ (List.mem_of_getElem? hi)
          intro d hd
          rcases List.mem_append.1 hd with hd | hd
          · rcases mem_set_cases hd with hd | rfl
            · exact ih d hd
            · refine ⟨?_, hok.2.sublist (List.drop_sublist k p)⟩
              intro e
              have : (p.drop k).length = 0 := by simp only at e; rw [e]; rfl
              rw [List.length_drop] at this; omega
          · simp only [List.mem_singleton] at hd
            subst hd
            refine ⟨?_, hok.2.sublist (List.take_sublist k p)⟩
            intro e
            have : (p.take k).length = 0 := by simp only at e; rw [e]; rfl
            rw [List.length_take] at this; omega
        · exact ih
      · exact ih
    | lost i =>
      simp only [St.step]
      split
      · rename_i a x y p f c hi
        intro d hd
        rcases mem_set_cases hd with hd | rfl
        · exact ih d hd
        · have hk := ih _ (List.mem_of_getElem? hi)
          exact ⟨by simp, (List.pairwise_cons.1 hk.2).2⟩
      · exact ih

/-! ### It ends -/

def rank (h : RNode → Nat) (key : Nat → Nat) (D : Nat → RNode) (U : List Nat) (a x : Nat) : Nat :=
  U.countP fun m => decide (Closer (key a) (h (D m)) (h (D x)))

theorem rank_lt {D : Nat → RNode} {U : List Nat} {a o x : Nat} (ho : o ∈ U) (hc : Closer (key a) (h (D o)) (h (D x))) :
    rank h key D U a o < rank h key D U a x := by
  refine Peering.countP_lt_of (fun m hm => ?_) ho ?_ ?_
  · simp only [decide_eq_true_eq] at hm ⊢
    exact hm.trans hc
  · simp [Closer.irrefl]
  · simpa using hc

def Chain.weight (h : RNode → Nat) (key : Nat → Nat) (D : Nat → RNode) (U : List Nat) (c : Chain) : Nat :=
  match c.phase, c.path with
  | .asking, x :: p => 4 * rank h key D U c.actor x + 3 * (p.length + 1)
  | .asking, [] => 0
  | .back _, p => 3 * p.length - 1

def St.weight (h : RNode → Nat) (key : Nat → Nat) (D : Nat → RNode) (U : List Nat) (σ : St) : Nat :=
  (σ.chains.map (Chain.weight h key D U)).sum

theorem sum_set {f : Chain → Nat} {l : List Chain} {i : Nat} {c d : Chain} (hi : l[i]? = some c) :
    ((l.set i d).map f).sum + f c = (l.map f).sum + f d := by
  induction l generalizing i with
  | nil => simp at hi
  | cons e l ih =>
    cases i with
    | zero => simp at hi; subst hi; simp; omega
    | succ i =>
      rw [List.getElem?_cons_succ] at hi
      have := ih hi
      simp only [List.set_cons_succ, List.map_cons, List.sum_cons]; omega

theorem sum_erase {f : Chain → Nat} {l : List Chain} {i : Nat} {c : Chain} (hi : l[i]? = some c) :
    ((l.eraseIdx i).map f).sum + f c = (l.map f).sum := by
  have := ((Peering.eraseIdx_split hi).map f).sum_nat
  simp only [List.map_cons, List.sum_cons] at this
  omega

/-- every step of a question makes it smaller. -/
theorem weight_step {D : Nat → RNode} {ops : List Op} (hc : Consistent h D ops) {U : List Nat}
    (hU : ∀ x n, .learn x n ∈ ops → n.id ∈ U) {o : Op} (he : Enabled (run h key ops) o) :
    ((run h key ops).step h key o).weight h key D U < (run h key ops).weight h key D U := by
  have hclose := owner_closer (key := key) hc
  generalize run h key ops = σ at he hclose
  cases o with
  | learn x n => exact he.elim
  | start x a => exact he.elim
  | arrive i => exact he.elim
  | drop i => exact he.elim
  | ask x a c => exact he.elim
  | look i =>
    obtain ⟨a, x, p, c, hi⟩ := he
    simp only [St.step, hi, St.weight]
    have hs := sum_set (f := Chain.weight h key D U) (d := σ.look key ⟨a, x :: p, .asking, c⟩ x) hi
    suffices hlt : (σ.look key ⟨a, x :: p, .asking, c⟩ x).weight h key D U < (⟨a, x :: p, .asking, c⟩ : Chain).weight h key D U by
      omega
    simp only [St.look]
    split
    · simp only [Chain.weight, List.length_cons]; omega
    · split
      · simp only [Chain.weight, List.length_cons]; omega
      · rename_i hne
        obtain ⟨h1, h2⟩ := hclose x a hne
        have hU' := hU _ _ h1
        rw [hc.id] at hU'
        have := rank_lt (key := key) (U := U) hU' h2
        simp only [Chain.weight, List.length_cons]
        omega
  | back i =>
    obtain ⟨a, x, p, r, c, hi⟩ := he
    cases p with
    | nil =>
      simp only [St.step, hi, St.weight]
      have hs := sum_erase (f := Chain.weight h key D U) hi
      have : (⟨a, [x], .back r, c⟩ : Chain).weight h key D U = 2 := rfl
      omega
    | cons y p =>
      simp only [St.step, hi, St.weight]
      have hs := sum_set (f := Chain.weight h key D U) (d := ⟨a, y :: p, .back r, c⟩) hi
      simp only [Chain.weight, List.length_cons] at hs ⊢
      omega
  | giveUp i k =>
    obtain ⟨a, p, f, c, hi, hk⟩ := he
    simp only [St.step, hi, St.weight, if_pos hk, List.map_append, List.sum_append, List.map_cons, List.map_nil, List.sum_cons,
      List.sum_nil]
    have hs := sum_set (f := Chain.weight h key D U) (d := ⟨a, p.drop k, .back none, c⟩) hi
    suffices hlt : (⟨a, p.drop k, .back none, c⟩ : Chain).weight h key D U + (⟨a, p.take k, f, none⟩ : Chain).weight h key D U
        < (⟨a, p, f, c⟩ : Chain).weight h key D U by omega
    cases p with
    | nil => simp at hk
    | cons x p =>
      obtain ⟨k', rfl⟩ : ∃ k', k = k' + 1 := ⟨k - 1, by omega⟩
      simp only [List.length_cons] at hk
      cases f with
      | asking => simp only [Chain.weight, List.take_succ_cons, List.drop_succ_cons, List.length_take, List.length_drop]; omega
      | back r =>
        simp only [Chain.weight, List.take_succ_cons, List.drop_succ_cons, List.length_cons, List.length_take, List.length_drop]; omega
  | lost i =>
    obtain ⟨a, x, y, p, f, c, hi⟩ := he
    simp only [St.step, hi, St.weight]
    have hs := sum_set (f := Chain.weight h key D U) (d := ⟨a, y :: p, .back none, c⟩) hi
    cases f <;> simp only [Chain.weight, List.length_cons] at hs ⊢ <;> omega

theorem enabled_not_learn {σ : St} {o : Op} (he : Enabled σ o) (x : Nat) (n : RNode) : o ≠ .learn x n := by rintro rfl; exact he

theorem Consistent.snoc {D : Nat → RNode} {ops : List Op} (hc : Consistent h D ops) {o : Op} (ho : ∀ x n, o ≠ .learn x n) :
    Consistent h D (ops ++ [o]) := by
  refine ⟨hc.id, hc.clash, fun x n hx => ?_, fun pre x n post e => ?_⟩
  · rcases List.mem_append.1 hx with hx | hx
    · exact hc.same x n hx
    · simp only [List.mem_singleton] at hx; exact absurd hx.symm (ho x n)
  · rcases snoc_eq_append_cons e with ⟨_, _, h3⟩ | ⟨post', _, h3⟩
    · exact absurd h3 (ho x n)
    · exact hc.self pre x n post' h3

def learned (ops : List Op) : List Nat := ops.filterMap fun | .learn _ n => some n.id | _ => none

theorem goes_weight {D : Nat → RNode} {ops : List Op} (hc : Consistent h D ops) (more : List Op) (U : List Nat)
    (hU : ∀ x n, .learn x n ∈ ops → n.id ∈ U) (hg : Goes h key (run h key ops) more) :
    more.length ≤ (run h key ops).weight h key D U := by
  induction more generalizing ops with
  | nil => exact Nat.zero_le _
  | cons o os ih =>
    obtain ⟨h1, h2⟩ := hg
    have hlt := weight_step hc hU h1
    rw [← run_snoc] at h2 hlt
    have hno := enabled_not_learn h1
    have := ih (hc.snoc hno) (fun x n hx => by
      rcases List.mem_append.1 hx with hx | hx
      · exact hU x n hx
      · simp only [List.mem_singleton] at hx
        exact absurd hx.symm (hno x n)) h2
    simp only [List.length_cons]; omega

/-! ### Answers -/

theorem chains_path (ops : List Op) : ∀ c ∈ (run h key ops).chains, c.path ≠ [] := by
  induction ops using snoc_induction with
  | nil => intro c hm; simp [run] at hm
  | snoc ops o ih =>
    rw [run_snoc]
    generalize run h key ops = σ at ih
    cases o with
    | learn x n => exact ih
    | start x a => simp only [St.step, St.start]; split <;> exact ih
    | arrive i => simp only [St.step]; split <;> exact ih
    | drop i => exact ih
    | ask x a c =>
      intro d hd
      simp only [St.step, List.mem_append, List.mem_singleton] at hd
      rcases hd with hd | rfl
      · exact ih d hd
      · simp
    | look i =>
      simp only [St.step]
      split
      · intro d hd
        rcases mem_set_cases hd with hd | rfl
        · exact ih d hd
        · simp only [St.look]
          split
          · simp
          · split <;> simp
      · exact ih
    | back i =>
      simp only [St.step]
      split
      · intro d hd
        rcases mem_set_cases hd with hd | rfl
        · exact ih d hd
        · simp
      · intro d hd
        exact ih d (List.mem_of_mem_eraseIdx hd)
      · exact ih
    | giveUp i k =>
      simp only [St.step]
      split
      · rename_i a p f c hi
        split
        · rename_i hk
          intro d hd
          rcases List.mem_append.1 hd with hd | hd
          · rcases mem_set_cases hd with hd | rfl
            · exact ih d hd
            · intro e
              have : (p.drop k).length = 0 := by simp only at e; rw [e]; rfl
              rw [List.length_drop] at this; omega
          · simp only [List.mem_singleton] at hd
            subst hd
            intro e
            have : (p.take k).length = 0 := by simp only at e; rw [e]; rfl
            rw [List.length_take] at this; omega
        · exact ih
      · exact ih
    | lost i =>
      simp only [St.step]
      split
      · intro d hd
        rcases mem_set_cases hd with hd | rfl
        · exact ih d hd
        · simp
      · exact ih

def St.callers (σ : St) : List Nat := σ.results.map (·.1) ++ σ.chains.filterMap (·.caller)

theorem filterMap_set {l : List Chain} {i : Nat} {c d : Chain} (hi : l[i]? = some c) (e : d.caller = c.caller) :
    (l.set i d).filterMap (·.caller) = l.filterMap (·.caller) := by
  induction l generalizing i with
  | nil => simp at hi
  | cons b l ih =>
    cases i with
    | zero => simp at hi; subst hi; simp [List.filterMap_cons, e]
    | succ i =>
      rw [List.getElem?_cons_succ] at hi
      simp only [List.set_cons_succ, List.filterMap_cons, ih hi]

theorem asked_snoc (ops : List Op) (o : Op) :
    asked (ops ++ [o]) = asked ops ++ (match o with | .ask _ _ c => [c] | _ => []) := by
  unfold asked
  rw [List.filterMap_append]
  cases o <;> rfl

theorem callers_run (ops : List Op) : (run h key ops).callers.Perm (asked ops) := by
  induction ops using snoc_induction with
  | nil => simp [run, St.callers, asked]
  | snoc ops o ih =>
    rw [run_snoc, asked_snoc]
    generalize run h key ops = σ at ih
    cases o with
    | learn x n => simpa [St.step, St.callers] using ih
    | start x a => simp only [St.step, St.start, List.append_nil]; split <;> exact ih
    | arrive i => simp only [St.step, List.append_nil]; split <;> exact ih
    | drop i => simpa [St.step, St.callers] using ih
    | ask x a c =>
      simp only [St.step, St.callers, List.filterMap_append]
      rw [← List.append_assoc]
      exact ih.append_right _
    | look i =>
      simp only [St.step, List.append_nil]
      split
      · rename_i a x p c hi
        simp only [St.callers]
        rw [filterMap_set hi]
        · exact ih
        · simp only [St.look]
          split
          · rfl
          · split <;> rfl
      · exact ih
    | back i =>
      simp only [St.step, List.append_nil]
      split
      · rename_i a x y p r c hi
        simp only [St.callers]
        rw [filterMap_set hi (d := ⟨a, y :: p, .back r, c⟩) rfl]
        exact ih
      · rename_i a x r c hi
        refine .trans ?_ ih
        have := (Peering.eraseIdx_split hi).filterMap (·.caller)
        rw [List.perm_iff_count] at this ⊢
        intro b
        have := this b
        simp only [St.callers, List.map_append, List.count_append, List.filterMap_cons] at this ⊢
        cases c with
        | none => simp at this ⊢; omega
        | some c => simp [List.count_cons] at this ⊢; omega
      · exact ih
    | giveUp i k =>
      simp only [St.step, List.append_nil]
      split
      · rename_i a p f c hi
        split
        · simp only [St.callers, List.filterMap_append]
          rw [filterMap_set hi (d := ⟨a, p.drop k, .back none, c⟩) rfl]
          simpa [St.callers] using ih
        · exact ih
      · exact ih
    | lost i =>
      simp only [St.step, List.append_nil]
      split
      · rename_i a x y p r c hi
        simp only [St.callers]
        rw [filterMap_set hi (d := ⟨a, y :: p, .back none, c⟩) rfl]
        exact ih
      · exact ih

theorem enabled_of_chain {ops : List Op} (hne : (run h key ops).chains ≠ []) : ∃ o, Op.Calm o ∧ Enabled (run h key ops) o := by
  have hp := chains_path (h := h) (key := key) ops
  cases hl : (run h key ops).chains with
  | nil => exact absurd hl hne
  | cons c l =>
    have hp := hp c (by rw [hl]; simp)
    obtain ⟨a, p, f, cl⟩ := c
    cases p with
    | nil => exact absurd rfl hp
    | cons x p =>
      cases f with
      | asking => exact ⟨.look 0, trivial, a, x, p, cl, by rw [hl]; rfl⟩
      | back r => exact ⟨.back 0, trivial, a, x, p, r, cl, by rw [hl]; rfl⟩

/-! ### Truth -/

/-- what registries, registrations under way, questions and answers say is that an actor was started on a node. -/
structure Truth (ops : List Op) (σ : St) : Prop where
  reg : ∀ x a n, σ.reg x a = some n → .start n a ∈ ops
  fly : ∀ e ∈ σ.flying, .start e.2.2 e.2.1 ∈ ops
  chain : ∀ c ∈ σ.chains, (∀ n, c.phase = .back (some n) → .start n c.actor ∈ ops) ∧
    ∀ k, c.caller = some k → ∃ x, .ask x c.actor k ∈ ops
  res : ∀ e ∈ σ.results, ∃ x a, .ask x a e.1 ∈ ops ∧ ∀ n, e.2 = some n → .start n a ∈ ops

theorem Truth.mono {ops : List Op} {σ : St} (ht : Truth ops σ) (o : Op) : Truth (ops ++ [o]) σ := by
  have m : ∀ p, p ∈ ops → p ∈ ops ++ [o] := fun p hp => List.mem_append_left _ hp
  refine ⟨fun x a n hr => m _ (ht.reg x a n hr), fun e he => m _ (ht.fly e he), fun c hc => ?_, fun e he => ?_⟩
  · obtain ⟨h1, h2⟩ := ht.chain c hc
    refine ⟨fun n hn => m _ (h1 n hn), fun k hk => ?_⟩
    obtain ⟨x, hx⟩ := h2 k hk
    exact ⟨x, m _ hx⟩
  · obtain ⟨x, a, h1, h2⟩ := ht.res e he
    exact ⟨x, a, m _ h1, fun n hn => m _ (h2 n hn)⟩

theorem truth_run (ops : List Op) : Truth ops (run h key ops) := by
  induction ops using snoc_induction with
  | nil =>
    refine ⟨?_, ?_, ?_, ?_⟩
    · intro x a n hr; simp [run] at hr
    · intro e he; simp [run] at he
    · intro e he; simp [run] at he
    · intro e he; simp [run] at he
  | snoc ops o ih =>
    have ih := ih.mono o
    have hmem : o ∈ ops ++ [o] := by simp
    rw [run_snoc]
    generalize run h key ops = σ at ih
    generalize ops ++ [o] = l at ih hmem
    have hreg : ∀ (σ' : St), σ'.reg = σ.reg → ∀ x a n y b m, .start m b ∈ l → (σ'.setReg y b m).reg x a = some n → .start n a ∈ l := by
      intro σ' e x a n y b m hs hr
      simp only [St.setReg, e] at hr
      split at hr
      · rename_i hc; obtain ⟨_, rfl⟩ := hc; cases hr; exact hs
      · exact ih.reg x a n hr
    cases o with
    | learn x n => exact ⟨ih.reg, ih.fly, ih.chain, ih.res⟩
    | start x a =>
      simp only [St.step, St.start]
      split
      · exact ⟨fun y b n hr => hreg σ rfl y b n x a x hmem hr, ih.fly, ih.chain, ih.res⟩
      · refine ⟨ih.reg, fun e he => ?_, ih.chain, ih.res⟩
        simp only [List.mem_append, List.mem_singleton] at he
        rcases he with he | rfl
        · exact ih.fly e he
        · exact hmem
    | arrive i =>
      simp only [St.step]
      split
      · exact ih
      · rename_i o a n hi
        refine ⟨fun y b m hr => hreg _ rfl y b m o a n (ih.fly _ (List.mem_of_getElem? hi)) hr, fun e he => ih.fly e (List.mem_of_mem_eraseIdx he), ih.chain, ih.res⟩
    | drop i => exact ⟨ih.reg, fun e he => ih.fly e (List.mem_of_mem_eraseIdx he), ih.chain, ih.res⟩
    | ask x a c =>
      refine ⟨ih.reg, ih.fly, fun d hd => ?_, ih.res⟩
      simp only [St.step, List.mem_append, List.mem_singleton] at hd
      rcases hd with hd | rfl
      · exact ih.chain d hd
      · exact ⟨fun n hn => (by cases hn), fun k hk => by cases hk; exact ⟨x, hmem⟩⟩
    | look i =>
      simp only [St.step]
      split
      · rename_i a x p c hi
        refine ⟨ih.reg, ih.fly, fun d hd => ?_, ih.res⟩
        rcases mem_set_cases hd with hd | rfl
        · exact ih.chain d hd
        · have hk := ih.chain _ (List.mem_of_getElem? hi)
          simp only [St.look]
          split
          · rename_i m hm
            refine ⟨fun n hn => ?_, hk.2⟩
            cases hn
            exact ih.reg x a _ hm
          · split
            · exact ⟨fun n hn => (by cases hn), hk.2⟩
            · exact hk
      · exact ih
    | back i =>
      simp only [St.step]
      split
      · rename_i a x y p r c hi
        refine ⟨ih.reg, ih.fly, fun d hd => ?_, ih.res⟩
        rcases mem_set_cases hd with hd | rfl
        · exact ih.chain d hd
        · have hk := ih.chain _ (List.mem_of_getElem? hi)
          exact ⟨hk.1, hk.2⟩
      · rename_i a x r c hi
        have hk := ih.chain _ (List.mem_of_getElem? hi)
        refine ⟨ih.reg, ih.fly, fun d hd => ih.chain d (List.mem_of_mem_eraseIdx hd), fun e he => ?_⟩
        rcases List.mem_append.1 he with he | he
        · exact ih.res e he
        · cases c with
          | none => simp at he
          | some c =>
            simp at he
            subst he
            obtain ⟨x', hx'⟩ := hk.2 c rfl
            exact ⟨x', a, hx', fun n hn => hk.1 n (by rw [← hn])⟩
      · exact ih
    | giveUp i k =>
      simp only [St.step]
      split
      · rename_i a p f c hi
        split
        · have hk := ih.chain _ (List.mem_of_getElem? hi)
          refine ⟨ih.reg, ih.fly, fun d hd => ?_, ih.res⟩
          rcases List.mem_append.1 hd with hd | hd
          · rcases mem_set_cases hd with hd | rfl
            · exact ih.chain d hd
            · exact ⟨fun n hn => (by cases hn), hk.2⟩
          · simp only [List.mem_singleton] at hd
            subst hd
            exact ⟨hk.1, fun k hk => (by cases hk)⟩
        · exact ih
      · exact ih
    | lost i =>
      simp only [St.step]
      split
      · rename_i a x y p f c hi
        have hk := ih.chain _ (List.mem_of_getElem? hi)
        refine ⟨ih.reg, ih.fly, fun d hd => ?_, ih.res⟩
        rcases mem_set_cases hd with hd | rfl
        · exact ih.chain d hd
        · exact ⟨fun n hn => (by cases hn), hk.2⟩
      · exact ih

end Verif.Remote.Lookup
