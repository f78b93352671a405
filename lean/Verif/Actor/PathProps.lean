import Verif.Actor.PathModel

/-!
# C89: the path of an actor tells where it stands, and references compare equal for one actor only

Specifications: `Place` says what the path of an actor ought to be, the name of the system and the ids of all it stands
under; `Standing` says that an actor and all those are alive.
-/

namespace Verif.Actor.Path

/-- where an actor stands: the name of the system, the ids of all it was started under, its own id. -/
inductive Place (σ : Sys) : Nat → String → Prop where
  | root {a : Nat} {n : Node} : σ.nodes[a]? = some n → n.parent = none → Place σ a (σ.name ++ "/" ++ n.id)
  | child {a p : Nat} {n : Node} {s : String} : σ.nodes[a]? = some n → n.parent = some p → Place σ p s →
      Place σ a (s ++ "/" ++ n.id)

/-- an actor that is alive, and so are all it was started under. -/
inductive Standing (σ : Sys) : Nat → Prop where
  | root {a : Nat} {n : Node} : σ.nodes[a]? = some n → n.alive = true → n.parent = none → Standing σ a
  | child {a p : Nat} {n : Node} : σ.nodes[a]? = some n → n.alive = true → n.parent = some p → Standing σ p →
      Standing σ a

/-- actors are only started at the top and by `spawn`. -/
def Plain (ops : List Op) : Prop := ∀ op ∈ ops, (∀ p c, op ≠ .attach p c) ∧ ∀ p id, op ≠ .supervised p id

/-- no id contains a slash. -/
def SlashFree (s : String) : Prop := '/' ∉ s.toList

/-! ## Invariants -/

/-- what is known of one actor after a history. -/
structure Known (σ : Sys) (ops : List Op) (a : Nat) (n : Node) : Prop where
  top : n.parent = none → n.path = σ.name
  sup : n.sup = none ∨ n.sup = some n.full ∨ (n.sup = some n.path ∧ ∃ c, Op.attach a c ∈ ops)
  under : ∀ p, n.parent = some p → p < a ∧ ∃ m : Node, σ.nodes[p]? = some m ∧
    (n.path = m.full ∨ (n.path = m.path ∧ ∃ c, Op.attach p c ∈ ops) ∨
      (n.path = σ.name ∧ Op.supervised p n.id ∈ ops))

/-- the parts of an actor that never change. -/
def Node.same (n m : Node) : Prop := n.id = m.id ∧ n.path = m.path ∧ n.parent = m.parent

theorem Node.same_full {n m : Node} (h : n.same m) : n.full = m.full := by
  unfold Node.full; rw [h.1, h.2.1]

theorem Known.mono {σ : Sys} {ops : List Op} {a : Nat} {n : Node} (h : Known σ ops a n) {ops' : List Op}
    (hs : ∀ o ∈ ops, o ∈ ops') : Known σ ops' a n := by
  refine ⟨h.top, ?_, ?_⟩
  · rcases h.sup with e | e | ⟨e, c, hc⟩
    · exact .inl e
    · exact .inr (.inl e)
    · exact .inr (.inr ⟨e, c, hs _ hc⟩)
  · intro p hp
    obtain ⟨hlt, m, hm, e⟩ := h.under p hp
    refine ⟨hlt, m, hm, ?_⟩
    rcases e with e | ⟨e, c, hc⟩ | ⟨e, hc⟩
    · exact .inl e
    · exact .inr (.inl ⟨e, c, hs _ hc⟩)
    · exact .inr (.inr ⟨e, hs _ hc⟩)

def AllKnown (σ : Sys) (ops : List Op) : Prop := ∀ (a : Nat) (n : Node), σ.nodes[a]? = some n → Known σ ops a n

theorem get_modify (σ : Sys) (a : Nat) (f : Node → Node) (b : Nat) :
    (σ.modify a f).nodes[b]? = (if a = b then (σ.nodes[b]?).map f else σ.nodes[b]?) := by
  unfold Sys.modify
  simp only [List.getElem?_modify]
  split <;> rename_i h
  · rfl
  · cases σ.nodes[b]? <;> rfl

theorem modify_known {σ : Sys} {ops : List Op} (hk : AllKnown σ ops) (a : Nat) (f : Node → Node)
    (hsame : ∀ n, (f n).same n)
    (hsup : ∀ n, σ.nodes[a]? = some n →
      (f n).sup = n.sup ∨ (f n).sup = some n.full ∨ ((f n).sup = some n.path ∧ ∃ c, Op.attach a c ∈ ops)) :
    AllKnown (σ.modify a f) ops := by
  have back : ∀ (p : Nat) (m : Node), σ.nodes[p]? = some m → ∃ m' : Node, (σ.modify a f).nodes[p]? = some m' ∧ m'.same m := by
    intro p m hm
    rw [get_modify, hm]
    by_cases e : a = p
    · rw [if_pos e]; exact ⟨f m, rfl, hsame m⟩
    · rw [if_neg e]; exact ⟨m, rfl, rfl, rfl, rfl⟩
  intro b n hn
  rw [get_modify] at hn
  have key : ∃ n0 : Node, σ.nodes[b]? = some n0 ∧ n.same n0 ∧
      (n.sup = n0.sup ∨ n.sup = some n0.full ∨ (n.sup = some n0.path ∧ ∃ c, Op.attach b c ∈ ops)) := by
    by_cases e : a = b
    · subst e
      rw [if_pos rfl] at hn
      cases h0 : σ.nodes[a]? with
      | none => rw [h0] at hn; cases hn
      | some n0 =>
        rw [h0] at hn
        cases hn
        exact ⟨n0, rfl, hsame n0, hsup n0 h0⟩
    · rw [if_neg e] at hn
      exact ⟨n, hn, ⟨rfl, rfl, rfl⟩, .inl rfl⟩
  obtain ⟨n0, h0, hs, hu⟩ := key
  have K := hk b n0 h0
  refine ⟨?_, ?_, ?_⟩
  · intro hp
    rw [hs.2.1]
    exact K.top (by rw [← hs.2.2]; exact hp)
  · rw [Node.same_full hs, hs.2.1]
    rcases hu with e | e | e
    · rw [e]; exact K.sup
    · exact .inr (.inl e)
    · exact .inr (.inr e)
  · intro p hp
    obtain ⟨hlt, m, hm, e⟩ := K.under p (by rw [← hs.2.2]; exact hp)
    obtain ⟨m', hm', hms⟩ := back p m hm
    refine ⟨hlt, m', hm', ?_⟩
    rw [hs.2.1, Node.same_full hms, hms.2.1, hs.1]
    exact e

theorem append_known {σ : Sys} {ops : List Op} (hk : AllKnown σ ops) (n : Node) (hsup : n.sup = none)
    (htop : n.parent = none → n.path = σ.name)
    (hund : ∀ p, n.parent = some p → ∃ m : Node, σ.nodes[p]? = some m ∧
      (n.path = m.full ∨ (n.path = m.path ∧ ∃ c, Op.attach p c ∈ ops) ∨
        (n.path = σ.name ∧ Op.supervised p n.id ∈ ops))) :
    AllKnown { σ with nodes := σ.nodes ++ [n] } ops := by
  have back : ∀ (p : Nat) (m : Node), σ.nodes[p]? = some m → (σ.nodes ++ [n])[p]? = some m := by
    intro p m hm
    have := (List.getElem?_eq_some_iff.mp hm).1
    rw [List.getElem?_append_left this]; exact hm
  intro a m hm
  simp only [] at hm
  by_cases hlt : a < σ.nodes.length
  · rw [List.getElem?_append_left hlt] at hm
    have K := hk a m hm
    refine ⟨K.top, K.sup, ?_⟩
    intro p hp
    obtain ⟨h1, q, hq, e⟩ := K.under p hp
    exact ⟨h1, q, back p q hq, e⟩
  · rw [List.getElem?_append_right (by omega)] at hm
    have ha : a = σ.nodes.length := by
      have := (List.getElem?_eq_some_iff.mp hm).1
      simp only [List.length_singleton] at this
      omega
    subst ha
    simp only [Nat.sub_self, List.getElem?_cons_zero, Option.some.injEq] at hm
    subst hm
    refine ⟨htop, .inl hsup, ?_⟩
    intro p hp
    obtain ⟨q, hq, e⟩ := hund p hp
    exact ⟨(List.getElem?_eq_some_iff.mp hq).1, q, back p q hq, e⟩

theorem ensure_same (s : String) (n : Node) : (n.ensure s).same n := ⟨rfl, rfl, rfl⟩
theorem enter_same (id : String) (c : Nat) (n : Node) : (n.enter id c).same n := ⟨rfl, rfl, rfl⟩

/-- an actor after its `Supervised` was made sure of and a child entered. -/
theorem opened_known {σ : Sys} {ops : List Op} (hk : AllKnown σ ops) (p : Nat) (n : Node) (hn : σ.nodes[p]? = some n)
    (own : String) (hown : own = n.full ∨ (own = n.path ∧ ∃ c, Op.attach p c ∈ ops)) :
    AllKnown (σ.modify p (Node.ensure own)) ops := by
  refine modify_known hk p _ (ensure_same own) ?_
  intro m hm
  rw [hn] at hm
  cases hm
  cases hs : n.sup with
  | some s => left; simp [Node.ensure, hs]
  | none =>
    right
    rcases hown with e | ⟨e, h⟩
    · left; simp [Node.ensure, hs, e]
    · right; exact ⟨by simp [Node.ensure, hs, e], h⟩

theorem entered_known {σ : Sys} {ops : List Op} (hk : AllKnown σ ops) (p : Nat) (id : String) (c : Nat) :
    AllKnown (σ.modify p (Node.enter id c)) ops :=
  modify_known hk p _ (enter_same id c) fun _ _ => .inl rfl

theorem step_known {σ : Sys} {ops : List Op} (hk : AllKnown σ ops) (op : Op) :
    AllKnown (σ.step op) (ops ++ [op]) := by
  have hk' : AllKnown σ (ops ++ [op]) := fun a n h => (hk a n h).mono fun o ho => List.mem_append_left _ ho
  have hop : op ∈ ops ++ [op] := List.mem_append_right _ (List.mem_singleton.mpr rfl)
  cases op with
  | root id =>
    exact append_known hk' _ rfl (fun _ => rfl) (fun p hp => by cases hp)
  | spawn p id =>
    show AllKnown (σ.spawn p id) _
    unfold Sys.spawn
    cases hn : σ.nodes[p]? with
    | none => exact hk'
    | some n =>
      simp only []
      split
      · exact hk'
      · split
        · exact opened_known hk' p n hn _ (.inl rfl)
        · refine append_known (entered_known (opened_known hk' p n hn _ (.inl rfl)) p _ _) _ rfl
            (fun hp => by cases hp) ?_
          intro q hq
          cases hq
          refine ⟨(n.ensure n.full).enter id σ.nodes.length, ?_, ?_⟩
          · rw [get_modify, if_pos rfl, get_modify, if_pos rfl, hn]; rfl
          · rcases (hk' p n hn).sup with e | e | ⟨e, h⟩
            · left; simp [e, Node.full, Node.ensure, Node.enter]
            · left; simp [e, Node.full, Node.ensure, Node.enter]
            · right; left; exact ⟨by simp [e, Node.ensure, Node.enter], h⟩
  | supervised p id =>
    show AllKnown (σ.supervised p id) _
    unfold Sys.supervised
    cases hn : σ.nodes[p]? with
    | none => exact hk'
    | some n =>
      simp only []
      split
      · exact hk'
      · refine append_known (entered_known (opened_known hk' p n hn _ (.inl rfl)) p _ _) _ rfl
          (fun hp => by cases hp) ?_
        intro q hq
        cases hq
        refine ⟨(n.ensure n.full).enter id σ.nodes.length, ?_, .inr (.inr ⟨rfl, hop⟩)⟩
        rw [get_modify, if_pos rfl, get_modify, if_pos rfl, hn]; rfl
  | attach p c =>
    show AllKnown (σ.attach p c) _
    unfold Sys.attach
    cases hn : σ.nodes[p]? with
    | none => exact hk'
    | some n =>
      cases hm : σ.nodes[c]? with
      | none => exact hk'
      | some m =>
        simp only []
        split
        · exact hk'
        · exact entered_known (opened_known hk' p n hn _ (.inr ⟨rfl, c, hop⟩)) p _ _
  | ends a =>
    exact modify_known hk' a _ (fun _ => ⟨rfl, rfl, rfl⟩) (fun _ _ => .inl rfl)
  | notice a =>
    show AllKnown (σ.notice a) _
    unfold Sys.notice
    cases hn : σ.nodes[a]? with
    | none => exact hk'
    | some n =>
      simp only []
      cases hp : n.parent with
      | none => exact hk'
      | some p =>
        simp only []
        split
        · exact hk'
        · refine modify_known (modify_known hk' a _ ?_ ?_) p _ ?_ ?_
          · exact fun _ => ⟨rfl, rfl, rfl⟩
          · exact fun _ _ => .inl rfl
          · exact fun _ => ⟨rfl, rfl, rfl⟩
          · exact fun _ _ => .inl rfl

theorem run_snoc (σ : Sys) (ops : List Op) (op : Op) : σ.run (ops ++ [op]) = (σ.run ops).step op := by
  simp [Sys.run, List.foldl_append]

theorem run_known (name : String) (ops : List Op) : AllKnown (Sys.run { name := name } ops) ops := by
  induction ops using snoc_induction with
  | nil => intro a n h; simp [Sys.run] at h
  | snoc l x ih => rw [run_snoc]; exact step_known ih x

theorem step_name (σ : Sys) (op : Op) : (σ.step op).name = σ.name := by
  cases op with
  | root id => rfl
  | spawn p id => simp only [Sys.step, Sys.spawn]; repeat' split <;> try rfl
  | supervised p id => simp only [Sys.step, Sys.supervised]; repeat' split <;> try rfl
  | attach p c => simp only [Sys.step, Sys.attach]; repeat' split <;> try rfl
  | ends a => rfl
  | notice a => simp only [Sys.step, Sys.notice]; repeat' split <;> try rfl

theorem run_name (name : String) (ops : List Op) : (Sys.run { name := name } ops).name = name := by
  induction ops using snoc_induction with
  | nil => rfl
  | snoc l x ih => rw [run_snoc, step_name, ih]

/-! ## The children of an actor, with no child attached from outside -/

/-- an actor whose end its parent has not handled is entered with its parent; one whose end was handled is not alive. -/
structure Entered (σ : Sys) : Prop where
  entry : ∀ (a : Nat) (n : Node) (p : Nat), σ.nodes[a]? = some n → n.parent = some p → n.noticed = false →
    ∃ m : Node, σ.nodes[p]? = some m ∧ m.children.get n.id = some a
  gone : ∀ (a : Nat) (n : Node), σ.nodes[a]? = some n → n.noticed = true → n.alive = false

theorem Entered.modify {σ : Sys} (h : Entered σ) (a : Nat) (f : Node → Node) (hsame : ∀ n, (f n).same n)
    (hch : ∀ n, (f n).children = n.children) (hno : ∀ n, (f n).noticed = n.noticed)
    (hal : ∀ n, n.alive = false → (f n).alive = false) : Entered (σ.modify a f) := by
  have get : ∀ (b : Nat) (n : Node), (σ.modify a f).nodes[b]? = some n → ∃ n0 : Node, σ.nodes[b]? = some n0 ∧ n.same n0 ∧
      n.children = n0.children ∧ n.noticed = n0.noticed ∧ (n0.alive = false → n.alive = false) := by
    intro b n hn
    rw [get_modify] at hn
    by_cases e : a = b
    · rw [if_pos e] at hn
      cases h0 : σ.nodes[b]? with
      | none => rw [h0] at hn; cases hn
      | some n0 =>
        rw [h0] at hn
        cases hn
        exact ⟨n0, rfl, hsame n0, hch n0, hno n0, hal n0⟩
    · rw [if_neg e] at hn
      exact ⟨n, hn, ⟨rfl, rfl, rfl⟩, rfl, rfl, id⟩
  constructor
  · intro b n p hn hp hnn
    obtain ⟨n0, h0, hs, _, hnt, _⟩ := get b n hn
    obtain ⟨m, hm, hc⟩ := h.entry b n0 p h0 (by rw [← hs.2.2]; exact hp) (by rw [← hnt]; exact hnn)
    rw [get_modify, hm, hs.1]
    by_cases e : a = p
    · rw [if_pos e]; exact ⟨f m, rfl, by rw [hch]; exact hc⟩
    · rw [if_neg e]; exact ⟨m, rfl, hc⟩
  · intro b n hn hnn
    obtain ⟨n0, h0, _, _, hnt, ha⟩ := get b n hn
    exact ha (h.gone b n0 h0 (by rw [← hnt]; exact hnn))

theorem get_lt {l : List Node} {a : Nat} {n : Node} (h : l[a]? = some n) : a < l.length :=
  (List.getElem?_eq_some_iff.mp h).1

theorem get_snoc {l : List Node} {x : Node} {a : Nat} {n : Node} (h : (l ++ [x])[a]? = some n) :
    l[a]? = some n ∨ (a = l.length ∧ n = x) := by
  by_cases hlt : a < l.length
  · left; rwa [List.getElem?_append_left hlt] at h
  · right
    rw [List.getElem?_append_right (by omega)] at h
    have := get_lt h
    simp only [List.length_singleton] at this
    have e : a = l.length := by omega
    subst e
    simp only [Nat.sub_self, List.getElem?_cons_zero, Option.some.injEq] at h
    exact ⟨rfl, h.symm⟩

theorem modify_length (σ : Sys) (a : Nat) (f : Node → Node) : (σ.modify a f).nodes.length = σ.nodes.length := by
  simp [Sys.modify]

/-- a new child, and its entry with the parent, under an id not in use there. -/
theorem Entered.add {σ : Sys} (h : Entered σ) {p : Nat} {n : Node} (hn : σ.nodes[p]? = some n) {id : String}
    (hfree : n.children.get id = none) (x : Node) (hx : x.id = id) (hxp : x.parent = some p)
    (hxn : x.noticed = false) :
    Entered { σ.modify p (Node.enter id σ.nodes.length) with
      nodes := (σ.modify p (Node.enter id σ.nodes.length)).nodes ++ [x] } := by
  have hlen : (σ.modify p (Node.enter id σ.nodes.length)).nodes.length = σ.nodes.length := modify_length ..
  have hpar : ((σ.modify p (Node.enter id σ.nodes.length)).nodes ++ [x])[p]? =
      some (n.enter id σ.nodes.length) := by
    rw [List.getElem?_append_left (by rw [hlen]; exact get_lt hn), get_modify, if_pos rfl, hn]; rfl
  have old : ∀ (b : Nat) (m : Node), (σ.modify p (Node.enter id σ.nodes.length)).nodes[b]? = some m →
      ∃ m0 : Node, σ.nodes[b]? = some m0 ∧ m.same m0 ∧ m.noticed = m0.noticed ∧ m.alive = m0.alive := by
    intro b m hm
    rw [get_modify] at hm
    by_cases e : p = b
    · rw [if_pos e] at hm
      cases h0 : σ.nodes[b]? with
      | none => rw [h0] at hm; cases hm
      | some m0 => rw [h0] at hm; cases hm; exact ⟨m0, rfl, enter_same _ _ _, rfl, rfl⟩
    · rw [if_neg e] at hm
      exact ⟨m, hm, ⟨rfl, rfl, rfl⟩, rfl, rfl⟩
  constructor
  · intro b m q hm hq hnn
    simp only [] at hm ⊢
    rcases get_snoc hm with hm' | ⟨e1, e2⟩
    · obtain ⟨m0, h0, hs, hnt, _⟩ := old b m hm'
      obtain ⟨r, hr, hc⟩ := h.entry b m0 q h0 (by rw [← hs.2.2]; exact hq) (by rw [← hnt]; exact hnn)
      by_cases e : p = q
      · subst e
        rw [hn] at hr
        cases hr
        refine ⟨_, hpar, ?_⟩
        have hne : m.id ≠ id := by
          intro he
          rw [← hs.1, he, hfree] at hc
          cases hc
        simp only [Node.enter, Assoc.get_insert, if_neg hne]
        rw [hs.1]; exact hc
      · refine ⟨r, ?_, by rw [hs.1]; exact hc⟩
        rw [List.getElem?_append_left (by rw [hlen]; exact get_lt hr), get_modify, if_neg e]
        exact hr
    · subst e2
      rw [hxp] at hq
      cases hq
      refine ⟨_, hpar, ?_⟩
      simp only [Node.enter, Assoc.get_insert, hx, if_true]
      rw [e1, hlen]
  · intro b m hm hnn
    simp only [] at hm
    rcases get_snoc hm with hm' | ⟨_, e2⟩
    · obtain ⟨m0, h0, _, hnt, ha⟩ := old b m hm'
      rw [ha]
      exact h.gone b m0 h0 (by rw [← hnt]; exact hnn)
    · subst e2; rw [hxn] at hnn; cases hnn

theorem Entered.ensure {σ : Sys} (h : Entered σ) (p : Nat) (s : String) : Entered (σ.modify p (Node.ensure s)) :=
  h.modify p _ (ensure_same s) (fun _ => rfl) (fun _ => rfl) (fun _ h => h)

theorem Entered.step {σ : Sys} (h : Entered σ) (op : Op) (hop : (∀ p c, op ≠ .attach p c) ∧ ∀ p id, op ≠ .supervised p id) :
    Entered (σ.step op) := by
  cases op with
  | attach p c => exact absurd rfl (hop.1 p c)
  | supervised p id => exact absurd rfl (hop.2 p id)
  | root id =>
    constructor
    · intro b m q hm hq hnn
      rcases get_snoc hm with hm' | ⟨_, e2⟩
      · obtain ⟨r, hr, hc⟩ := h.entry b m q hm' hq hnn
        refine ⟨r, ?_, hc⟩
        show (σ.nodes ++ _)[q]? = _
        rw [List.getElem?_append_left (get_lt hr)]; exact hr
      · subst e2; cases hq
    · intro b m hm hnn
      rcases get_snoc hm with hm' | ⟨_, e2⟩
      · exact h.gone b m hm' hnn
      · subst e2; cases hnn
  | spawn p id =>
    show Entered (σ.spawn p id)
    unfold Sys.spawn
    cases hn : σ.nodes[p]? with
    | none => exact h
    | some n =>
      simp only []
      split
      · exact h
      · split
        · exact h.ensure p _
        · rename_i hfree
          have hfree' : n.children.get id = none := by
            cases hg : n.children.get id with
            | none => rfl
            | some v => rw [hg] at hfree; simp at hfree
          have hlen : (σ.modify p (Node.ensure n.full)).nodes.length = σ.nodes.length := modify_length ..
          have := (h.ensure p n.full).add (p := p) (n := n.ensure n.full)
            (by rw [get_modify, if_pos rfl, hn]; rfl) (id := id) hfree'
            { id := id, path := n.sup.getD n.full, parent := some p } rfl rfl rfl
          rw [hlen] at this
          exact this
  | ends a => exact h.modify a _ (fun _ => ⟨rfl, rfl, rfl⟩) (fun _ => rfl) (fun _ => rfl) (fun _ _ => rfl)
  | notice a =>
    show Entered (σ.notice a)
    unfold Sys.notice
    cases hn : σ.nodes[a]? with
    | none => exact h
    | some n =>
      simp only []
      cases hp : n.parent with
      | none => exact h
      | some p =>
        simp only []
        split
        · exact h
        · rename_i hc
          have hal : n.alive = false := by cases e : n.alive <;> simp [e] at hc ⊢
          have hno : n.noticed = false := by cases e : n.noticed <;> simp [e] at hc ⊢
          obtain ⟨m, hm, hent⟩ := h.entry a n p hn hp hno
          have get : ∀ (b : Nat) (k : Node), ((σ.modify a fun n => { n with noticed := true }).modify p
              fun m => { m with children := Assoc.erase m.children n.id }).nodes[b]? = some k →
              ∃ k0 : Node, σ.nodes[b]? = some k0 ∧ k.same k0 ∧ k.alive = k0.alive ∧
                k.noticed = (if a = b then true else k0.noticed) ∧
                k.children = (if p = b then Assoc.erase k0.children n.id else k0.children) := by
            intro b k hk
            rw [get_modify, get_modify] at hk
            cases h0 : σ.nodes[b]? with
            | none => rw [h0] at hk; by_cases e : p = b <;> by_cases e' : a = b <;> simp [e, e'] at hk
            | some k0 =>
              rw [h0] at hk
              refine ⟨k0, rfl, ?_⟩
              by_cases e : p = b <;> by_cases e' : a = b <;>
                simp only [e, e', if_true, if_false, Option.map_some, Option.some.injEq] at hk <;>
                subst hk <;> simp [e, e', Node.same]
          have fwd : ∀ (b : Nat) (k0 : Node), σ.nodes[b]? = some k0 → ∃ k : Node, ((σ.modify a fun n => { n with noticed := true }).modify p
              fun m => { m with children := Assoc.erase m.children n.id }).nodes[b]? = some k := by
            intro b k0 h0
            rw [get_modify, get_modify, h0]
            by_cases e : p = b <;> by_cases e' : a = b <;> simp [e, e']
          constructor
          · intro b k q hk hq hnn
            obtain ⟨k0, h0, hs, _, hnt, _⟩ := get b k hk
            have hab : a ≠ b := by
              intro e; rw [hnt, if_pos e] at hnn; cases hnn
            rw [hnt, if_neg hab] at hnn
            obtain ⟨r, hr, hc'⟩ := h.entry b k0 q h0 (by rw [← hs.2.2]; exact hq) hnn
            obtain ⟨r', hr'⟩ := fwd q r hr
            obtain ⟨r0, hr0, _, _, _, hch⟩ := get q r' hr'
            rw [hr] at hr0
            cases hr0
            refine ⟨r', hr', ?_⟩
            rw [hch, hs.1]
            by_cases e : p = q
            · subst e
              rw [if_pos rfl, Assoc.get_erase]
              rw [hm] at hr
              cases hr
              have hne : k0.id ≠ n.id := by
                intro he
                rw [he, hent] at hc'
                cases hc'
                exact hab rfl
              rw [if_neg hne]; exact hc'
            · rw [if_neg e]; exact hc'
          · intro b k hk hnn
            obtain ⟨k0, h0, _, ha, hnt, _⟩ := get b k hk
            rw [ha]
            by_cases e : a = b
            · subst e; rw [hn] at h0; cases h0; exact hal
            · rw [hnt, if_neg e] at hnn; exact h.gone b k0 h0 hnn

theorem run_entered (name : String) (ops : List Op) (hp : Plain ops) : Entered (Sys.run { name := name } ops) := by
  induction ops using snoc_induction with
  | nil => constructor <;> intro a n <;> simp [Sys.run]
  | snoc l x ih =>
    rw [run_snoc]
    exact (ih fun o ho => hp o (List.mem_append_left _ ho)).step x
      (hp x (List.mem_append_right _ (List.mem_singleton.mpr rfl)))

/-! ## Strings -/

theorem split_last (l l' s s' : List Char) (hs : '/' ∉ s) (hs' : '/' ∉ s') (h : l ++ '/' :: s = l' ++ '/' :: s') :
    l = l' ∧ s = s' := by
  rcases List.append_eq_append_iff.mp h with ⟨t, ht, e⟩ | ⟨t, ht, e⟩
  · cases t with
    | nil => simp at e ht; exact ⟨ht.symm, e⟩
    | cons c t =>
      simp only [List.cons_append, List.cons.injEq] at e
      exact absurd (by rw [e.2]; simp) hs
  · cases t with
    | nil => simp at e ht; exact ⟨ht, e.symm⟩
    | cons c t =>
      simp only [List.cons_append, List.cons.injEq] at e
      exact absurd (by rw [e.2]; simp) hs'

theorem slash_split {p q a b : String} (ha : SlashFree a) (hb : SlashFree b) (h : p ++ "/" ++ a = q ++ "/" ++ b) :
    p = q ∧ a = b := by
  have := congrArg String.toList h
  simp only [String.toList_append] at this
  have e : ("/" : String).toList = ['/'] := rfl
  rw [e] at this
  simp only [List.append_assoc, List.singleton_append] at this
  obtain ⟨h1, h2⟩ := split_last _ _ _ _ ha hb this
  exact ⟨String.toList_inj.mp h1, String.toList_inj.mp h2⟩

theorem not_slash {p a name : String} (hn : SlashFree name) : p ++ "/" ++ a ≠ name := by
  intro h
  apply hn
  rw [← h]
  simp [String.toList_append]

/-! ## C89 -/

/-- The path an actor is given, after any history: at the top it is the name of the system. Under another actor it is
the full path of that actor, unless that actor was given a child by `attach_child_ref` at some time (then it may be that
actor's own path, without its id) or the child was started by `new_supervised_actor` (then it is the name of the
system). -/
theorem C89_path (name : String) (ops : List Op) (a : Nat) (n : Node)
    (hn : (Sys.run { name := name } ops).nodes[a]? = some n) :
    (n.parent = none → n.path = name) ∧
    ∀ p, n.parent = some p → p < a ∧ ∃ m : Node, (Sys.run { name := name } ops).nodes[p]? = some m ∧
      (n.path = m.path ++ "/" ++ m.id ∨ (n.path = m.path ∧ ∃ c, Op.attach p c ∈ ops) ∨
        (n.path = name ∧ Op.supervised p n.id ∈ ops)) := by
  have K := run_known name ops a n hn
  have e := run_name name ops
  exact ⟨fun h => by rw [K.top h, e], fun p hp => by simpa only [e, Node.full] using K.under p hp⟩

/-- Where actors are only started at the top and by `spawn`, the full path of every actor is the name of the system, the
ids of all it stands under, and its own id. What is missing from the claim: actors given to another by
`attach_child_ref` or started by `new_supervised_actor`, of which it is refuted below. -/
theorem C89_path_partial (name : String) (ops : List Op) (hp : Plain ops) (a : Nat) (n : Node)
    (hn : (Sys.run { name := name } ops).nodes[a]? = some n) :
    Place (Sys.run { name := name } ops) a n.full := by
  induction a using Nat.strongRecOn generalizing n with
  | _ a ih =>
    have K := run_known name ops a n hn
    cases hpar : n.parent with
    | none =>
      unfold Node.full
      rw [K.top hpar]
      exact .root hn hpar
    | some p =>
      obtain ⟨hlt, m, hm, e⟩ := K.under p hpar
      have e' : n.path = m.full := by
        rcases e with e | ⟨_, c, hc⟩ | ⟨_, hc⟩
        · exact e
        · exact absurd rfl ((hp _ hc).1 p c)
        · exact absurd rfl ((hp _ hc).2 p n.id)
      have : n.full = m.full ++ "/" ++ n.id := by rw [← e']; rfl
      rw [this]
      exact .child hn hpar (ih p hlt m hm)

/-- Two references compare equal exactly if they are to the same actor, where actors are only started at the top and by
`spawn`, neither the name of the system nor an id contains a slash, no two living actors at the top share an id, and
both actors and all they stand under are alive. What is missing from the claim is each of these: without any of them it
is refuted below. -/
theorem C89_equal_partial (name : String) (ops : List Op) (hp : Plain ops) (hname : SlashFree name)
    (hids : ∀ n ∈ (Sys.run { name := name } ops).nodes, SlashFree n.id)
    (htop : ∀ (a b : Nat) (n m : Node), (Sys.run { name := name } ops).nodes[a]? = some n →
      (Sys.run { name := name } ops).nodes[b]? = some m → n.parent = none → m.parent = none → n.alive = true →
      m.alive = true → n.id = m.id → a = b)
    (a b : Nat) (ha : Standing (Sys.run { name := name } ops) a) (hb : Standing (Sys.run { name := name } ops) b) :
    (Sys.run { name := name } ops).refEq a b = true ↔ a = b := by
  have hent := run_entered name ops hp
  have hK := run_known name ops
  have hnm := run_name name ops
  generalize hσ : Sys.run { name := name } ops = σ at *
  have hup : ∀ (x : Nat) (n : Node) (p : Nat), σ.nodes[x]? = some n → n.parent = some p → ∃ m : Node, σ.nodes[p]? = some m ∧ n.path = m.full := by
    intro x n p hn hpar
    obtain ⟨_, m, hm, e⟩ := (hK x n hn).under p hpar
    refine ⟨m, hm, ?_⟩
    rcases e with e | ⟨_, c, hc⟩ | ⟨_, hc⟩
    · exact e
    · exact absurd rfl ((hp _ hc).1 p c)
    · exact absurd rfl ((hp _ hc).2 p n.id)
  have main : ∀ x, Standing σ x → ∀ y, Standing σ y → ∀ (n m : Node), σ.nodes[x]? = some n → σ.nodes[y]? = some m →
      n.path = m.path → n.id = m.id → x = y := by
    intro x hx
    induction hx with
    | root h1 h2 h3 =>
      intro y hy n m hn hm hpath hid
      rw [h1] at hn
      cases hn
      have hpn := (hK _ _ h1).top h3
      cases hy with
      | root g1 g2 g3 =>
        rw [g1] at hm
        cases hm
        exact htop _ _ _ _ h1 g1 h3 g3 h2 g2 hid
      | child g1 g2 g3 g4 =>
        rw [g1] at hm
        cases hm
        obtain ⟨k, _, e⟩ := hup _ _ _ g1 g3
        rw [hpn, hnm, e] at hpath
        exact absurd hpath.symm (not_slash hname)
    | child h1 h2 h3 h4 ih =>
      intro y hy n m hn hm hpath hid
      rw [h1] at hn
      cases hn
      obtain ⟨k, hk, e⟩ := hup _ _ _ h1 h3
      cases hy with
      | root g1 g2 g3 =>
        rw [g1] at hm
        cases hm
        have hpn := (hK _ _ g1).top g3
        rw [hpn, hnm, e] at hpath
        exact absurd hpath (not_slash hname)
      | child g1 g2 g3 g4 =>
        rw [g1] at hm
        cases hm
        obtain ⟨k', hk', e'⟩ := hup _ _ _ g1 g3
        rw [e, e'] at hpath
        obtain ⟨e1, e2⟩ := slash_split (hids _ (List.mem_of_getElem? hk)) (hids _ (List.mem_of_getElem? hk')) hpath
        have hpp := ih _ g4 k k' hk hk' e1 e2
        subst hpp
        have n1 : ∀ {z : Nat} {w : Node}, σ.nodes[z]? = some w → w.alive = true → w.noticed = false := by
          intro z w hz hw
          cases hh : w.noticed with
          | false => rfl
          | true => rw [hent.gone z w hz hh] at hw; cases hw
        obtain ⟨r, hr, hc⟩ := hent.entry _ _ _ h1 h3 (n1 h1 h2)
        obtain ⟨r', hr', hc'⟩ := hent.entry _ _ _ g1 g3 (n1 g1 g2)
        rw [hr] at hr'
        cases hr'
        rw [hid, hc'] at hc
        exact (Option.some.inj hc).symm
  have ex : ∀ x, Standing σ x → ∃ n : Node, σ.nodes[x]? = some n := by
    intro x hx
    cases hx with
    | root h1 _ _ => exact ⟨_, h1⟩
    | child h1 _ _ _ => exact ⟨_, h1⟩
  obtain ⟨n, hn⟩ := ex a ha
  obtain ⟨m, hm⟩ := ex b hb
  constructor
  · intro h
    unfold Sys.refEq at h
    rw [hn, hm] at h
    simp only [Bool.and_eq_true, decide_eq_true_eq] at h
    exact main a ha b hb n m hn hm h.1 h.2
  · intro h
    subst h
    unfold Sys.refEq
    rw [hn]
    simp

/-- The end of an actor is not in its reference: however an actor is started, a reference compares equal to that of any
actor of the same id under the same parent started later by `spawn`, so a reference held to an actor that has ended
compares equal to its successor's. -/
theorem C89_successor (name : String) (ops : List Op) (hp : Plain ops) (a b p : Nat) (n m : Node)
    (hn : (Sys.run { name := name } ops).nodes[a]? = some n) (hm : (Sys.run { name := name } ops).nodes[b]? = some m)
    (hnp : n.parent = some p) (hmp : m.parent = some p) (hid : n.id = m.id) :
    (Sys.run { name := name } ops).refEq a b = true := by
  have one : ∀ (x : Nat) (k : Node), (Sys.run { name := name } ops).nodes[x]? = some k → k.parent = some p →
      ∃ q : Node, (Sys.run { name := name } ops).nodes[p]? = some q ∧ k.path = q.full := by
    intro x k hk hkp
    obtain ⟨_, q, hq, e⟩ := (run_known name ops x k hk).under p hkp
    refine ⟨q, hq, ?_⟩
    rcases e with e | ⟨_, c, hc⟩ | ⟨_, hc⟩
    · exact e
    · exact absurd rfl ((hp _ hc).1 p c)
    · exact absurd rfl ((hp _ hc).2 p k.id)
  obtain ⟨q, hq, e⟩ := one a n hn hnp
  obtain ⟨q', hq', e'⟩ := one b m hm hmp
  rw [hq] at hq'
  cases hq'
  unfold Sys.refEq
  rw [hn, hm]
  simp [e, e', hid]

/-! ## Cases and refutations -/

/-- a parent with a child, and a root of the child's id. -/
def usual : List Op := [.root "a", .spawn 0 "b", .root "b", .spawn 1 "c", .ends 3, .notice 3, .spawn 1 "c"]

theorem usual_plain : Plain usual := by
  intro op h
  simp only [usual, List.mem_cons, List.not_mem_nil, or_false] at h
  rcases h with h | h | h | h | h | h | h <;> subst h <;> constructor <;> intro _ _ e <;> cases e

example : ((Sys.run { name := "s" } usual).nodes.map Node.full) = ["s/a", "s/a/b", "s/b", "s/a/b/c", "s/a/b/c"] := by
  decide +kernel

example : Standing (Sys.run { name := "s" } usual) 4 :=
  .child (p := 1) rfl rfl rfl (.child (p := 0) rfl rfl rfl (.root rfl rfl rfl))

example : (Sys.run { name := "s" } usual).refEq 1 2 = false := by decide +kernel

/-- A reference held to an actor that has ended compares equal to that of the actor started in its place. -/
theorem C89_successor_refuted : ∃ ops a b, (Sys.run { name := "s" } ops).refEq a b = true ∧ a ≠ b ∧
    Plain ops ∧ Standing (Sys.run { name := "s" } ops) b :=
  ⟨usual, 3, 4, by decide +kernel, by decide, usual_plain,
    .child (p := 1) rfl rfl rfl (.child (p := 0) rfl rfl rfl (.root rfl rfl rfl))⟩

/-- Two living actors at the top with the same id compare equal: nothing keeps an id from being used twice for actors that
are not registered, and a tracked actor's successor replaces the entry while the first still runs. -/
theorem C89_top_refuted : ∃ ops a b, (Sys.run { name := "s" } ops).refEq a b = true ∧ a ≠ b ∧
    Standing (Sys.run { name := "s" } ops) a ∧ Standing (Sys.run { name := "s" } ops) b :=
  ⟨[.root "a", .root "a"], 0, 1, by decide +kernel, by decide, .root rfl rfl rfl, .root rfl rfl rfl⟩

/-- An id may contain a slash: an actor `a/b` at the top and the child `b` of the actor `a` have the same full path, and
their children of the same id compare equal. -/
theorem C89_slash_refuted : ∃ ops a b, (Sys.run { name := "s" } ops).refEq a b = true ∧ a ≠ b ∧
    Standing (Sys.run { name := "s" } ops) a ∧ Standing (Sys.run { name := "s" } ops) b :=
  ⟨[.root "a/b", .spawn 0 "c", .root "a", .spawn 2 "b", .spawn 3 "c"], 1, 4, by decide +kernel, by decide,
    .child (p := 0) rfl rfl rfl (.root rfl rfl rfl),
    .child (p := 3) rfl rfl rfl (.child (p := 2) rfl rfl rfl (.root rfl rfl rfl))⟩

/-- A child started by `new_supervised_actor`, as the entities of a shard are, has the name of the system for its path:
the path does not tell where it stands, and the entities of the same id under two shards compare equal. -/
theorem C89_supervised_refuted : ∃ ops a b, (Sys.run { name := "s" } ops).refEq a b = true ∧ a ≠ b ∧
    Standing (Sys.run { name := "s" } ops) a ∧ Standing (Sys.run { name := "s" } ops) b ∧
    ¬ ∃ n : Node, (Sys.run { name := "s" } ops).nodes[a]? = some n ∧ Place (Sys.run { name := "s" } ops) a n.full :=
  ⟨[.root "h", .root "g", .supervised 0 "e", .supervised 1 "e"], 2, 3, by decide +kernel, by decide,
    .child (p := 0) rfl rfl rfl (.root rfl rfl rfl), .child (p := 1) rfl rfl rfl (.root rfl rfl rfl), by
    rintro ⟨n, hn, hpl⟩
    have hn' : n = { id := "e", path := "s", parent := some 0 } := (Option.some.inj hn).symm
    generalize hf : n.full = f at hpl
    cases hpl with
    | root h1 h2 =>
      rw [hn] at h1
      cases h1
      rw [hn'] at h2
      cases h2
    | child h1 h2 h3 =>
      rw [hn] at h1
      cases h1
      rw [hn'] at h2
      cases h2
      have hne : Node.full { id := "e", path := "s", parent := some 0 } ≠ "s/h/e" := by decide +kernel
      cases h3 with
      | root g1 g2 =>
        cases g1
        subst hn'
        exact absurd hf (by decide +kernel)
      | child g1 g2 g3 => cases g1; cases g2⟩

/-- An actor given its first child by `attach_child_ref` hands its own path, without its id, to the children it spawns
after: the child's path is that of its parent, and it compares equal to an actor of the same id beside its parent. -/
theorem C89_attach_refuted : ∃ ops a b, (Sys.run { name := "s" } ops).refEq a b = true ∧ a ≠ b ∧
    Standing (Sys.run { name := "s" } ops) a ∧ Standing (Sys.run { name := "s" } ops) b ∧
    ((Sys.run { name := "s" } ops).nodes.map Node.full)[a]? = some "s/c" ∧
    ((Sys.run { name := "s" } ops).nodes.map Node.parent)[a]? = some (some 0) :=
  ⟨[.root "h", .root "x", .attach 0 1, .spawn 0 "c", .root "c"], 2, 3, by decide +kernel, by decide,
    .child (p := 0) rfl rfl rfl (.root rfl rfl rfl), .root rfl rfl rfl, by decide +kernel, by decide +kernel⟩

/-- a parent ends before its child, and another is started under its id. -/
def orphaned : List Op := [.root "p", .spawn 0 "c", .ends 0, .root "p", .spawn 2 "c"]

theorem orphaned_plain : Plain orphaned := by
  intro op h
  simp only [orphaned, List.mem_cons, List.not_mem_nil, or_false] at h
  rcases h with h | h | h | h | h <;> subst h <;> constructor <;> intro _ _ e <;> cases e

/-- An actor whose parent has ended may still be alive (where a handler of the parent panicked, its children are not
stopped): the child of the actor started in the parent's place under the same id compares equal to it. -/
theorem C89_orphan_refuted : ∃ ops a b, (Sys.run { name := "s" } ops).refEq a b = true ∧ a ≠ b ∧ Plain ops ∧
    ((Sys.run { name := "s" } ops).nodes.map Node.alive)[a]? = some true ∧
    Standing (Sys.run { name := "s" } ops) b :=
  ⟨orphaned, 1, 3, by decide +kernel, by decide, orphaned_plain,
    by decide +kernel, .child (p := 2) rfl rfl rfl (.root rfl rfl rfl)⟩

end Verif.Actor.Path
