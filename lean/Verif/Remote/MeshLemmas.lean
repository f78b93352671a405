import Verif.Remote.MeshSpec

namespace Verif.Remote.Peering

theorem run_snoc (ops : List Op) (o : Op) : run (ops ++ [o]) = (run ops).step o := by simp [run]

/-! ### The loop -/

theorem regAll_induct {ok : Nat → Bool} {x : Nat} {P : St → List Nat → Prop} (ns : List Nat)
    (hstep : ∀ τ ids n, n ∈ ns → P τ ids → n ∉ τ.known x → τ.runs n → ok n = true → P (τ.reg x n) (ids ++ [τ.next]))
    (s : St × List Nat) (h0 : P s.1 s.2) : P (St.regAll ok x ns s).1 (St.regAll ok x ns s).2 := by
  induction ns generalizing s with
  | nil => exact h0
  | cons n ns ih =>
    obtain ⟨σ, ids⟩ := s
    have ih := ih fun τ ids m hm => hstep τ ids m (List.mem_cons_of_mem _ hm)
    simp only [St.regAll]
    split
    · rename_i hc
      exact ih _ (hstep σ ids n (by simp) h0 hc.1 hc.2.1 hc.2.2)
    · exact ih _ h0

theorem reg_known (σ : St) (x n y z : Nat) : z ∈ (σ.reg x n).known y ↔ z ∈ σ.known y ∨ (y = x ∧ z = n) := by
  simp only [St.reg]
  split
  · rename_i h; subst h; simp
  · rename_i h; simp [h]

theorem reg_runs {σ : St} {x n y : Nat} (h : σ.runs y) : (σ.reg x n).runs y := by
  unfold St.runs at h ⊢
  simp only [St.reg]
  split
  · simp
  · exact h

theorem regAll_mono (ok : Nat → Bool) (x : Nat) (ns : List Nat) (s : St × List Nat) :
    (∀ y z, z ∈ s.1.known y → z ∈ (St.regAll ok x ns s).1.known y) ∧
    ∀ y, s.1.runs y → (St.regAll ok x ns s).1.runs y :=
  regAll_induct (P := fun τ _ => (∀ y z, z ∈ s.1.known y → z ∈ τ.known y) ∧ ∀ y, s.1.runs y → τ.runs y) ns
    (fun τ ids n _ h _ _ _ => ⟨fun y z hz => (reg_known τ x n y z).2 (.inl (h.1 y z hz)), fun y hy => reg_runs (h.2 y hy)⟩)
    s ⟨fun _ _ h => h, fun _ h => h⟩

theorem runs_of_mem {σ : St} {x y : Nat} (h : y ∈ σ.known x) : σ.runs x := by
  intro e; rw [e] at h; cases h

theorem regAll_learns (ok : Nat → Bool) (hok : ∀ n, ok n = true) (x : Nat) (ns : List Nat) (s : St × List Nat) (n : Nat)
    (hn : n ∈ ns) (hr : s.1.runs n) : n ∈ (St.regAll ok x ns s).1.known x := by
  induction ns generalizing s with
  | nil => cases hn
  | cons m ns ih =>
    obtain ⟨σ, ids⟩ := s
    simp only [St.regAll]
    rcases List.mem_cons.1 hn with e | hn
    · subst e
      split
      · exact (regAll_mono ok x ns _).1 x n ((reg_known σ x n x n).2 (.inr ⟨rfl, rfl⟩))
      · rename_i hc
        refine (regAll_mono ok x ns _).1 x n ?_
        apply Classical.byContradiction
        intro h
        exact hc ⟨h, hr, hok n⟩
    · split
      · exact ih _ hn (reg_runs hr)
      · exact ih _ hn hr

/-! ### What a node knows stays -/

theorem discover_known (σ : St) (ok : Nat → Bool) (x : Nat) (c : Cause) (ns : List Nat) :
    (σ.discover ok x c ns).known = (St.regAll ok x ns (σ, [])).1.known := rfl

theorem step_mono (σ : St) (o : Op) :
    (∀ y z, z ∈ σ.known y → z ∈ (σ.step o).known y) ∧ ∀ y, σ.runs y → (σ.step o).runs y := by
  have key : ∀ ok x ns (τ : St), τ.known = σ.known → (∀ y z, z ∈ σ.known y → z ∈ (St.regAll ok x ns (τ, [])).1.known y) ∧
      ∀ y, σ.runs y → (St.regAll ok x ns (τ, [])).1.runs y := by
    intro ok x ns τ e
    have := regAll_mono ok x ns (τ, [])
    refine ⟨fun y z h => this.1 y z (by rw [e]; exact h), fun y h => this.2 y ?_⟩
    show τ.known y ≠ []
    rw [e]; exact h
  cases o with
  | start x =>
    simp only [St.step]
    split
    · exact ⟨fun _ _ h => h, fun _ h => h⟩
    · rename_i hr
      have hx : σ.known x = [] := Classical.byContradiction hr
      refine ⟨fun y z h => ?_, fun y h => ?_⟩
      · show z ∈ (if y = x then [x] else σ.known y)
        split
        · rename_i e; subst e; rw [hx] at h; cases h
        · exact h
      · show (if y = x then [x] else σ.known y) ≠ []
        split
        · simp
        · exact h
  | join x ns c ok =>
    simp only [St.step]
    split
    · exact key ok x ns σ rfl
    · exact ⟨fun _ _ h => h, fun _ h => h⟩
  | handle i ok =>
    simp only [St.step, St.handle]
    split
    · exact ⟨fun _ _ h => h, fun _ h => h⟩
    · exact key ok _ _ _ rfl
  | lose i =>
    simp only [St.step, St.lose]
    split <;> exact ⟨fun _ _ h => h, fun _ h => h⟩
  | finish j =>
    simp only [St.step, St.finish]
    split <;> exact ⟨fun _ _ h => h, fun _ h => h⟩
  | ack k =>
    simp only [St.step, St.ack]
    split <;> exact ⟨fun _ _ h => h, fun _ h => h⟩

/-! ### Running nodes, and where knowledge comes from -/

/-- everything known or told of is among the nodes of a relation that is an equivalence. -/
structure Sound (L : Nat → Nat → Prop) (σ : St) : Prop where
  head : ∀ x, σ.known x = [] ∨ ∃ r, σ.known x = x :: r
  nodup : ∀ x, (σ.known x).Nodup
  runs : ∀ x y, y ∈ σ.known x → σ.runs y
  link : ∀ x y, y ∈ σ.known x → L x y
  toldRuns : ∀ s ∈ σ.told, σ.runs s.dst ∧ ∀ n ∈ s.nodes, σ.runs n
  toldLink : ∀ s ∈ σ.told, L s.src s.dst ∧ ∀ n ∈ s.nodes, L s.src n

theorem Sound.reg {L : Nat → Nat → Prop} {σ : St} (h : Sound L σ) {x n : Nat} (hx : σ.runs x) (hl : L x n) (hn : n ∉ σ.known x)
    (hr : σ.runs n) : Sound L (σ.reg x n) where
  head y := by
    by_cases e : y = x
    · subst e
      rcases h.head y with h1 | ⟨r, h1⟩
      · exact absurd h1 hx
      · exact .inr ⟨r ++ [n], by simp [St.reg, h1]⟩
    · have : (σ.reg x n).known y = σ.known y := by simp [St.reg, e]
      rw [this]; exact h.head y
  nodup y := by
    by_cases e : y = x
    · subst e
      have : (σ.reg y n).known y = σ.known y ++ [n] := by simp [St.reg]
      rw [this, List.nodup_append]
      refine ⟨h.nodup y, by simp, ?_⟩
      intro a ha b hb e
      simp at hb
      subst hb; subst e
      exact hn ha
    · have : (σ.reg x n).known y = σ.known y := by simp [St.reg, e]
      rw [this]; exact h.nodup y
  runs y z hz := by
    rcases (reg_known σ x n y z).1 hz with h1 | ⟨_, rfl⟩
    · exact reg_runs (h.runs y z h1)
    · exact reg_runs hr
  link y z hz := by
    rcases (reg_known σ x n y z).1 hz with h1 | ⟨rfl, rfl⟩
    · exact h.link y z h1
    · exact hl
  toldRuns s hs := by
    simp only [St.reg, List.mem_append, List.mem_singleton] at hs
    rcases hs with hs | rfl
    · exact ⟨reg_runs (h.toldRuns s hs).1, fun m hm => reg_runs ((h.toldRuns s hs).2 m hm)⟩
    · refine ⟨reg_runs hr, fun m hm => ?_⟩
      simp only [List.mem_append, List.mem_singleton] at hm
      rcases hm with hm | rfl
      · exact reg_runs (h.runs x m hm)
      · exact reg_runs hr
  toldLink s hs := by
    simp only [St.reg, List.mem_append, List.mem_singleton] at hs
    rcases hs with hs | rfl
    · exact h.toldLink s hs
    · refine ⟨hl, fun m hm => ?_⟩
      simp only [List.mem_append, List.mem_singleton] at hm
      rcases hm with hm | rfl
      · exact h.link x m hm
      · exact hl

theorem Sound.discover {L : Nat → Nat → Prop} {σ : St} (h : Sound L σ) (ok : Nat → Bool) (x : Nat) (c : Cause) (ns : List Nat)
    (hx : σ.runs x) (hl : ∀ n ∈ ns, σ.runs n → L x n) : Sound L (σ.discover ok x c ns) := by
  have := regAll_induct (ok := ok) (x := x)
    (P := fun τ _ => Sound L τ ∧ τ.runs x ∧ ∀ n ∈ ns, τ.runs n → σ.runs n) ns
    (fun τ ids n hn hτ h1 h2 _ => ⟨hτ.1.reg hτ.2.1 (hl n hn (hτ.2.2 n hn h2)) h1 h2, reg_runs hτ.2.1, fun m hm hr => by
      apply hτ.2.2 m hm
      unfold St.runs at hr ⊢
      simp only [St.reg] at hr
      split at hr
      · rename_i e; subst e; exact hτ.2.1
      · exact hr⟩)
    (σ, []) ⟨h, hx, fun _ _ h => h⟩
  exact ⟨this.1.head, this.1.nodup, this.1.runs, this.1.link, this.1.toldRuns, this.1.toldLink⟩

theorem Sound.erase {L : Nat → Nat → Prop} {σ : St} (h : Sound L σ) (i : Nat) : Sound L { σ with told := σ.told.eraseIdx i } :=
  ⟨h.head, h.nodup, h.runs, h.link, fun s hs => h.toldRuns s (List.mem_of_mem_eraseIdx hs),
    fun s hs => h.toldLink s (List.mem_of_mem_eraseIdx hs)⟩

theorem Sound.step {L : Nat → Nat → Prop} (hsymm : ∀ x y, L x y → L y x) (htrans : ∀ x y z, L x y → L y z → L x z) {σ : St}
    (h : Sound L σ) (o : Op) (hs : ∀ x, o = .start x → L x x)
    (hj : ∀ x ns c ok, o = .join x ns c ok → ∀ n ∈ ns, σ.runs x → σ.runs n → L x n) : Sound L (σ.step o) := by
  cases o with
  | start x =>
    simp only [St.step]
    split
    · exact h
    · rename_i hr
      have hx : σ.known x = [] := Classical.byContradiction hr
      have hmem : ∀ y z, z ∈ (if y = x then [x] else σ.known y) → (y = x ∧ z = x) ∨ z ∈ σ.known y := by
        intro y z hz
        split at hz
        · rename_i e; simp at hz; exact .inl ⟨e, hz⟩
        · exact .inr hz
      have hruns : ∀ y, σ.runs y → ({ σ with known := fun y => if y = x then [x] else σ.known y } : St).runs y := by
        intro y hy
        show (if y = x then [x] else σ.known y) ≠ []
        split
        · simp
        · exact hy
      refine ⟨fun y => ?_, fun y => ?_, fun y z hz => ?_, fun y z hz => ?_, fun s hs => ?_, h.toldLink⟩
      · show (if y = x then [x] else σ.known y) = [] ∨ ∃ r, (if y = x then [x] else σ.known y) = y :: r
        split
        · rename_i e; subst e; exact .inr ⟨[], rfl⟩
        · exact h.head y
      · show (if y = x then [x] else σ.known y).Nodup
        split
        · simp
        · exact h.nodup y
      · rcases hmem y z hz with ⟨_, rfl⟩ | hz
        · show (if z = z then [z] else σ.known z) ≠ []
          simp
        · exact hruns z (h.runs y z hz)
      · rcases hmem y z hz with ⟨rfl, rfl⟩ | hz
        · exact hs _ rfl
        · exact h.link y z hz
      · exact ⟨hruns _ (h.toldRuns s hs).1, fun n hn => hruns n ((h.toldRuns s hs).2 n hn)⟩
  | join x ns c ok =>
    simp only [St.step]
    split
    · rename_i hr
      exact h.discover ok x _ ns hr fun n hn hrn => hj x ns c ok rfl n hn hr hrn
    · exact h
  | handle i ok =>
    simp only [St.step, St.handle]
    split
    · exact h
    · rename_i s hs
      have hm : s ∈ σ.told := List.mem_of_getElem? hs
      refine (h.erase i).discover ok s.dst _ _ (h.toldRuns s hm).1 fun n hn _ => ?_
      have hn := (List.mem_filter.1 hn).1
      exact htrans _ _ _ (hsymm _ _ (h.toldLink s hm).1) ((h.toldLink s hm).2 n hn)
  | lose i =>
    simp only [St.step, St.lose]
    split
    · exact h
    · have := h.erase i
      exact ⟨this.head, this.nodup, this.runs, this.link, this.toldRuns, this.toldLink⟩
  | finish j =>
    simp only [St.step, St.finish]
    split <;> exact ⟨h.head, h.nodup, h.runs, h.link, h.toldRuns, h.toldLink⟩
  | ack k =>
    simp only [St.step, St.ack]
    split <;> exact ⟨h.head, h.nodup, h.runs, h.link, h.toldRuns, h.toldLink⟩

theorem Linked.snoc {ops : List Op} {x y : Nat} (h : Linked ops x y) (o : Op) : Linked (ops ++ [o]) x y := by
  induction h with
  | self h => exact .self (List.mem_append_left _ h)
  | join e h1 h2 h3 => exact .join (by rw [e, List.append_assoc]; rfl) h1 h2 h3
  | symm _ ih => exact .symm ih
  | trans _ _ ih1 ih2 => exact .trans ih1 ih2

theorem Sound.mono {L L' : Nat → Nat → Prop} {σ : St} (h : Sound L σ) (hl : ∀ x y, L x y → L' x y) : Sound L' σ :=
  ⟨h.head, h.nodup, h.runs, fun x y hy => hl _ _ (h.link x y hy), h.toldRuns,
    fun s hs => ⟨hl _ _ (h.toldLink s hs).1, fun n hn => hl _ _ ((h.toldLink s hs).2 n hn)⟩⟩

theorem discover_runs {σ : St} {ok : Nat → Bool} {x : Nat} {c : Cause} {ns : List Nat} {y : Nat} (hx : σ.runs x)
    (h : (σ.discover ok x c ns).runs y) : σ.runs y := by
  have := regAll_induct (ok := ok) (x := x) (P := fun τ _ => ∀ y, τ.runs y → σ.runs y) ns
    (fun τ ids n _ hτ _ _ _ => fun y hy => by
      unfold St.runs at hy
      simp only [St.reg] at hy
      split at hy
      · rename_i e; subst e; exact hx
      · exact hτ y hy)
    (σ, []) (fun _ h => h)
  exact this y h

theorem sound_run (ops : List Op) : Sound (Linked ops) (run ops) ∧ ∀ x, (run ops).runs x ↔ .start x ∈ ops := by
  induction ops using snoc_induction with
  | nil =>
    refine ⟨⟨fun x => .inl rfl, fun x => List.nodup_nil, ?_, ?_, ?_, ?_⟩, ?_⟩
    · intro x y h; simp [run] at h
    · intro x y h; simp [run] at h
    · intro s h; simp [run] at h
    · intro s h; simp [run] at h
    · intro x; simp [run, St.runs]
  | snoc ops o ih =>
    obtain ⟨ih, hup⟩ := ih
    rw [run_snoc]
    constructor
    · refine (ih.mono fun x y h => h.snoc o).step (fun _ _ => .symm) (fun _ _ _ => .trans) o ?_ ?_
      · rintro x rfl; exact .self (by simp)
      · rintro x ns c ok rfl n hn hx hr
        exact .join (post := []) rfl ((hup x).1 hx) ((hup n).1 hr) hn
    · intro x
      constructor
      · intro h
        have old : (run ops).runs x → .start x ∈ ops ++ [o] := fun h => List.mem_append_left _ ((hup x).1 h)
        cases o with
        | start y =>
          simp only [St.step] at h
          split at h
          · exact old h
          · unfold St.runs at h
            simp only at h
            split at h
            · rename_i e; subst e; simp
            · exact old h
        | join y ns c ok =>
          simp only [St.step] at h
          split at h
          · rename_i hy
            exact old (discover_runs hy h)
          · exact old h
        | handle i ok =>
          simp only [St.step, St.handle] at h
          split at h
          · exact old h
          · rename_i s hs
            exact old (discover_runs (σ := { run ops with told := (run ops).told.eraseIdx i })
              (ih.toldRuns s (List.mem_of_getElem? hs)).1 h)
        | lose i =>
          simp only [St.step, St.lose] at h
          split at h <;> exact old h
        | finish j =>
          simp only [St.step, St.finish] at h
          split at h <;> exact old h
        | ack k =>
          simp only [St.step, St.ack] at h
          split at h <;> exact old h
      · intro h
        rcases List.mem_append.1 h with h | h
        · exact (step_mono _ o).2 x ((hup x).2 h)
        · simp only [List.mem_singleton] at h
          subst h
          simp only [St.step]
          split
          · assumption
          · show (if x = x then [x] else _) ≠ []
            simp

/-! ### Who has been informed -/

/-- a list up to an element. -/
def upTo (y : Nat) : List Nat → List Nat
  | [] => []
  | a :: l => if a = y then [a] else a :: upTo y l

theorem upTo_append {y : Nat} {l : List Nat} (h : y ∈ l) (r : List Nat) : upTo y (l ++ r) = upTo y l := by
  induction l with
  | nil => cases h
  | cons a l ih =>
    simp only [List.cons_append, upTo]
    split
    · rfl
    · rename_i hne
      rw [ih ((List.mem_cons.1 h).resolve_left fun e => hne e.symm)]

theorem upTo_snoc {y : Nat} {l : List Nat} (h : y ∉ l) : upTo y (l ++ [y]) = l ++ [y] := by
  induction l with
  | nil => simp [upTo]
  | cons a l ih =>
    simp only [List.cons_append, upTo]
    rw [List.mem_cons, not_or] at h
    rw [if_neg fun e => h.1 e.symm, ih h.2]

theorem mem_upTo_head {y x : Nat} {r : List Nat} : x ∈ upTo y (x :: r) := by
  simp only [upTo]; split <;> simp

theorem upTo_or {y z : Nat} {l : List Nat} (hy : y ∈ l) (hz : z ∈ l) : y ∈ upTo z l ∨ z ∈ upTo y l := by
  induction l with
  | nil => cases hy
  | cons a l ih =>
    simp only [upTo]
    rcases List.mem_cons.1 hy with rfl | hy
    · left; split <;> simp
    · rcases List.mem_cons.1 hz with rfl | hz
      · right; split <;> simp
      · by_cases e1 : a = z
        · right
          by_cases e2 : a = y
          · subst e1; simp [e2]
          · rw [if_neg e2]; simp [e1]
        · by_cases e2 : a = y
          · left; rw [if_neg e1]; simp [e2]
          · rw [if_neg e1, if_neg e2]
            exact (ih hy hz).imp (List.mem_cons_of_mem _) (List.mem_cons_of_mem _)

/-- `x` has told `y` of everybody it knew when it registered `y`, or is doing so. -/
def Informs (σ : St) (extra : List Shake) (x y : Nat) : Prop :=
  (∃ s ∈ σ.told ++ extra, s.src = x ∧ s.dst = y ∧ s.nodes = upTo y (σ.known x)) ∨
    ∀ z ∈ upTo y (σ.known x), z ∈ σ.known y

def InformsAll (σ : St) (extra : List Shake) : Prop := ∀ x y, x ≠ y → y ∈ σ.known x → Informs σ extra x y

theorem InformsAll.reg {σ : St} {extra : List Shake} (h : InformsAll σ extra) {x n : Nat} (hn : n ∉ σ.known x) :
    InformsAll (σ.reg x n) extra := by
  intro a b hab hb
  by_cases ex : a = x
  · subst ex
    have hk : (σ.reg a n).known a = σ.known a ++ [n] := by simp [St.reg]
    rw [hk] at hb
    by_cases en : b = n
    · subst en
      left
      refine ⟨⟨σ.next, a, b, σ.known a ++ [b]⟩, by simp [St.reg], rfl, rfl, ?_⟩
      rw [hk, upTo_snoc hn]
    · have hb' : b ∈ σ.known a := by simpa [en] using hb
      rcases h a b hab hb' with ⟨s, h1, h2⟩ | h1
      · left
        refine ⟨s, ?_, h2.1, h2.2.1, ?_⟩
        · simp only [St.reg, List.mem_append] at h1 ⊢
          rcases h1 with h1 | h1
          · exact .inl (.inl h1)
          · exact .inr h1
        · rw [hk, upTo_append hb']; exact h2.2.2
      · right
        intro z hz
        rw [hk, upTo_append hb'] at hz
        exact (reg_known σ a n b z).2 (.inl (h1 z hz))
  · have hk : (σ.reg x n).known a = σ.known a := by simp [St.reg, ex]
    rw [hk] at hb
    rcases h a b hab hb with ⟨s, h1, h2⟩ | h1
    · left
      refine ⟨s, ?_, by rw [hk]; exact h2⟩
      simp only [St.reg, List.mem_append] at h1 ⊢
      rcases h1 with h1 | h1
      · exact .inl (.inl h1)
      · exact .inr h1
    · right
      intro z hz
      rw [hk] at hz
      exact (reg_known σ x n b z).2 (.inl (h1 z hz))

theorem InformsAll.discover {σ : St} {extra : List Shake} (h : InformsAll σ extra) (ok : Nat → Bool) (x : Nat) (c : Cause)
    (ns : List Nat) : InformsAll (σ.discover ok x c ns) extra := by
  have := regAll_induct (ok := ok) (x := x) (P := fun τ _ => InformsAll τ extra) ns
    (fun τ ids n _ hτ h1 _ _ => hτ.reg h1) (σ, []) h
  exact this

theorem informs_run (ops : List Op) (hp : ∀ o ∈ ops, o.Plain) : InformsAll (run ops) [] := by
  induction ops using snoc_induction with
  | nil => intro x y _ h; simp [run] at h
  | snoc ops o ih =>
    have ih := ih fun o ho => hp o (List.mem_append_left _ ho)
    have ho : o.Plain := hp o (by simp)
    have hs := (sound_run ops).1
    rw [run_snoc]
    generalize run ops = σ at ih hs ⊢
    cases o with
    | start x =>
      simp only [St.step]
      split
      · exact ih
      · rename_i hr
        have hx : σ.known x = [] := Classical.byContradiction hr
        intro a b hab hb
        have ha : a ≠ x := by
          rintro rfl
          simp at hb
          exact hab hb.symm
        have hb : b ∈ σ.known a := by simpa [ha] using hb
        rcases ih a b hab hb with ⟨s, h1, h2⟩ | h1
        · left; exact ⟨s, h1, by simpa [ha] using h2⟩
        · right
          intro z hz
          have hz : z ∈ upTo b (σ.known a) := by simpa [ha] using hz
          have := h1 z hz
          have hbx : b ≠ x := by rintro rfl; rw [hx] at this; cases this
          simpa [hbx] using this
    | join x ns c ok =>
      simp only [St.step]
      split
      · exact ih.discover ok x _ ns
      · exact ih
    | handle i ok =>
      simp only [St.step, St.handle]
      split
      · exact ih
      · rename_i s hi
        have hm : s ∈ σ.told := List.mem_of_getElem? hi
        have hsplit : ∀ s' ∈ σ.told, s' ∈ σ.told.eraseIdx i ∨ s' = s := by
          intro s' hs'
          obtain ⟨j, hj⟩ := List.mem_iff_getElem?.1 hs'
          by_cases e : j = i
          · subst e; rw [hi] at hj; right; exact (Option.some.inj hj).symm
          · left
            rw [List.mem_iff_getElem?]
            by_cases hlt : j < i
            · exact ⟨j, by rw [List.getElem?_eraseIdx_of_lt hlt]; exact hj⟩
            · refine ⟨j - 1, ?_⟩
              rw [List.getElem?_eraseIdx_of_ge (by omega)]
              rw [show j - 1 + 1 = j by omega]; exact hj
        have h0 : InformsAll { σ with told := σ.told.eraseIdx i } [s] := by
          intro a b hab hb
          rcases ih a b hab hb with ⟨s', h1, h2⟩ | h1
          · left
            refine ⟨s', ?_, h2⟩
            rw [List.append_nil] at h1
            rcases hsplit s' h1 with h | h
            · exact List.mem_append_left _ h
            · exact List.mem_append_right _ (by simp [h])
          · exact .inr h1
        have h1 := h0.discover ok s.dst (.shake s.id) (s.nodes.filter fun n => decide (n ≠ s.dst))
        intro a b hab hb
        rcases h1 a b hab hb with ⟨s', h2, h3⟩ | h2
        · rcases List.mem_append.1 h2 with h2 | h2
          · exact .inl ⟨s', by simpa using h2, h3⟩
          · simp only [List.mem_singleton] at h2
            subst h2
            right
            intro z hz
            rw [← h3.2.2] at hz
            rw [← h3.2.1]
            have hd := (hs.toldRuns s' hm).1
            by_cases e : z = s'.dst
            · subst e
              refine (regAll_mono ok _ _ _).1 _ _ ?_
              show s'.dst ∈ σ.known s'.dst
              rcases hs.head s'.dst with h | ⟨r, h⟩
              · exact absurd h hd
              · rw [h]; simp
            · exact regAll_learns ok ho _ _ _ z (List.mem_filter.2 ⟨hz, by simpa using e⟩) ((hs.toldRuns s' hm).2 z hz)
        · exact .inr h2
    | lose i => exact ho.elim
    | finish j =>
      simp only [St.step, St.finish]
      split <;> exact ih
    | ack k =>
      simp only [St.step, St.ack]
      split <;> exact ih

end Verif.Remote.Peering
