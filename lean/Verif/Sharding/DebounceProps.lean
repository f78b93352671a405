import Verif.Sharding.DebounceModel
import Verif.Sharding.RebalanceProps

/-! Properties of the scheduled full rebalance. -/

namespace Verif.Sharding.Debounce

/-! ### Specification -/

/-- A runtime without delay: time passes only while no task is ready, and never beyond the moment at which the
first timer goes off. (With several tasks ready they may be polled in any order, and messages may be handled
before and between.) -/
def Prompt : Sys → List Op → Prop
  | _, [] => True
  | s, op :: ops =>
    (∀ d, op = .pass d → ∀ t ∈ s.tasks, t.cancelled = false ∧ s.now + d ≤ t.due) ∧ Prompt (s.step op) ops

/-- the node has become available: it was unknown, or known and not ready. -/
def Arrives (σ : Coord) (n : Nat) : Prop := ∀ h, σ.Knows n h → h.status ≠ .ready

/-- the messages the coordinator handles in a run, as operations of the coordinator. -/
def coordOps : Sys → List Op → List CoordOp
  | _, [] => []
  | s, op :: ops =>
    (match op with
      | .msg (.restart _ _) | .msg .rebalanceAll => []
      | .msg o => [o]
      | .full => if s.queued = 0 then [] else [.rebalanceAll]
      | _ => []) ++ coordOps (s.step op) ops

/-! ### Lemmas -/

theorem run_snoc (s : Sys) (ops : List Op) (op : Op) : s.run (ops ++ [op]) = (s.run ops).step op := by
  simp [Sys.run]

theorem run_cons (s : Sys) (op : Op) (ops : List Op) : s.run (op :: ops) = (s.step op).run ops := rfl

theorem mem_cancel {i : Option Nat} {ts : List Task} {t : Task} (h : t ∈ cancel i ts) :
    ∃ u ∈ ts, u.id = t.id ∧ u.due = t.due ∧ (t.cancelled = false → u = t ∧ i ≠ some t.id) := by
  obtain ⟨u, hu, rfl⟩ := List.mem_map.mp h
  refine ⟨u, hu, ?_⟩
  split
  · rename_i he; simp
  · rename_i he; exact ⟨rfl, rfl, fun _ => ⟨rfl, he⟩⟩

theorem nodeAdded_out (σ : Coord) (n : Nat) :
    (σ.nodeAdded n).out = σ.out ↔ ¬ Arrives σ n := by
  simp only [Coord.nodeAdded, Arrives, Coord.Knows]
  cases hg : σ.hosts.get n with
  | none => simp
  | some h =>
    by_cases hr : h.status = .ready <;> simp [hr]

/-- what a message changes: nothing but the coordinator, or it schedules. -/
theorem handle_cases (s : Sys) (o : CoordOp) :
    (∃ c, s.handle o = { s with coord := c }) ∨ (∃ c, s.handle o = ({ s with coord := c } : Sys).schedule) := by
  cases o with
  | nodeAdded n =>
    simp only [Sys.handle]
    split
    · exact .inl ⟨_, rfl⟩
    · exact .inr ⟨_, rfl⟩
  | restart a b => exact .inl ⟨s.coord, rfl⟩
  | rebalanceAll => exact .inl ⟨s.coord, rfl⟩
  | _ => exact .inl ⟨_, rfl⟩

/-- what polling does. -/
theorem poll_cases (s : Sys) (i : Nat) (pick : Bool) :
    s.poll i pick = s ∨ (∃ t ∈ s.tasks, t.id = i ∧ t.cancelled = true ∧ s.poll i pick = s.drop i) ∨
    (∃ t ∈ s.tasks, t.id = i ∧ t.due ≤ s.now ∧ s.poll i pick = s.send i) := by
  unfold Sys.poll
  cases hf : s.tasks.find? fun t => t.id = i with
  | none => exact .inl rfl
  | some t =>
    have hm := List.mem_of_find?_eq_some hf
    have hi : t.id = i := by simpa using List.find?_some hf
    dsimp only
    split
    · split
      · rename_i h; exact .inr (.inl ⟨t, hm, hi, h.1, rfl⟩)
      · exact .inr (.inr ⟨t, hm, hi, ‹_›, rfl⟩)
    · split
      · exact .inr (.inl ⟨t, hm, hi, ‹_›, rfl⟩)
      · exact .inl rfl

/-- what holds in every run, however slow the runtime. -/
structure Inv (s : Sys) : Prop where
  ids : ∀ t ∈ s.tasks, t.id < s.next
  nodup : s.tasks.Pairwise (fun t u => t.id ≠ u.id)
  live : ∀ t ∈ s.tasks, t.cancelled = false → s.scheduled = some t.id
  sched : ∀ i, s.scheduled = some i → i < s.next
  task : ∀ t ∈ s.tasks, ∃ a ∈ s.arrivals, t.due = a + delay
  sent : ∀ t ∈ s.sends, t ≤ s.now ∧ ∃ a ∈ s.arrivals, a + delay ≤ t
  past : ∀ a ∈ s.arrivals, a ≤ s.now
  count : s.sends.length + s.tasks.length ≤ s.arrivals.length
  handled : s.rebalances.length + s.queued = s.sends.length
  after : ∀ t ∈ s.sends, s.queued ≠ 0 ∨ ∃ r ∈ s.rebalances, t ≤ r

theorem filter_length_lt {ts : List Task} {i : Nat} (h : ∃ t ∈ ts, t.id = i) :
    (ts.filter fun t => t.id ≠ i).length + 1 ≤ ts.length := by
  obtain ⟨t, ht, hi⟩ := h
  induction ts with
  | nil => cases ht
  | cons u us ih =>
    by_cases hu : u.id = i
    · have := List.length_filter_le (fun t : Task => decide (t.id ≠ i)) us
      simp [hu] at this ⊢; omega
    · rcases List.mem_cons.mp ht with rfl | ht
      · exact absurd hi hu
      · simp only [List.filter_cons, ne_eq, hu, not_false_eq_true, decide_true, if_true, List.length_cons]
        have := ih ht
        simp only [ne_eq] at this
        omega

theorem inv_schedule {s : Sys} (h : Inv s) : Inv s.schedule := by
  obtain ⟨h1, h2, h3, h4, h5, h6, h7, h8, h9, h10⟩ := h
  refine ⟨?_, ?_, ?_, ?_, ?_, ?_, ?_, ?_, h9, h10⟩
  · intro t ht
    rcases List.mem_append.mp ht with ht | ht
    · obtain ⟨u, hu, he, -⟩ := mem_cancel ht
      have := h1 u hu
      simp only [Sys.schedule]; omega
    · simp only [List.mem_singleton] at ht
      subst ht; simp [Sys.schedule]
  · simp only [Sys.schedule]
    rw [List.pairwise_append]
    refine ⟨?_, by simp, ?_⟩
    · simp only [cancel]
      rw [List.pairwise_map]
      refine h2.imp ?_
      intro a b hab
      split <;> split <;> exact hab
    · intro a ha b hb
      obtain ⟨u, hu, he, -⟩ := mem_cancel ha
      have := h1 u hu
      simp only [List.mem_singleton] at hb
      subst hb; dsimp only; omega
  · intro t ht hc
    rcases List.mem_append.mp ht with ht | ht
    · obtain ⟨u, hu, he, hd, hx⟩ := mem_cancel ht
      obtain ⟨rfl, hne⟩ := hx hc
      exact absurd (h3 u hu hc) hne
    · simp only [List.mem_singleton] at ht
      subst ht; rfl
  · intro i hi
    simp only [Sys.schedule, Option.some.injEq] at hi ⊢
    omega
  · intro t ht
    simp only [Sys.schedule]
    rcases List.mem_append.mp ht with ht | ht
    · obtain ⟨u, hu, he, hd, -⟩ := mem_cancel ht
      obtain ⟨a, ha, hda⟩ := h5 u hu
      exact ⟨a, List.mem_append_left _ ha, by omega⟩
    · simp only [List.mem_singleton] at ht
      subst ht
      exact ⟨s.now, by simp, rfl⟩
  · intro t ht
    obtain ⟨hn, a, ha, hat⟩ := h6 t ht
    exact ⟨hn, a, List.mem_append_left _ ha, hat⟩
  · intro a ha
    rcases List.mem_append.mp ha with ha | ha
    · exact h7 a ha
    · simp only [List.mem_singleton] at ha; subst ha; exact Nat.le_refl _
  · simp only [Sys.schedule, cancel, List.length_append, List.length_map, List.length_cons, List.length_nil]
    omega

theorem inv_coord {s : Sys} (c : Coord) (h : Inv s) : Inv { s with coord := c } := by
  obtain ⟨h1, h2, h3, h4, h5, h6, h7, h8, h9, h10⟩ := h
  exact ⟨h1, h2, h3, h4, h5, h6, h7, h8, h9, h10⟩

theorem inv_drop {s : Sys} (i : Nat) (h : Inv s) : Inv (s.drop i) := by
  obtain ⟨h1, h2, h3, h4, h5, h6, h7, h8, h9, h10⟩ := h
  have hl := List.length_filter_le (fun t : Task => decide (t.id ≠ i)) s.tasks
  exact ⟨fun t ht => h1 t (List.mem_filter.mp ht).1, h2.sublist List.filter_sublist,
    fun t ht => h3 t (List.mem_filter.mp ht).1, h4, fun t ht => h5 t (List.mem_filter.mp ht).1, h6, h7,
    by simp only [Sys.drop]; omega, h9, h10⟩

theorem inv_send {s : Sys} {t : Task} (ht : t ∈ s.tasks) (hd : t.due ≤ s.now) (h : Inv s) : Inv (s.send t.id) := by
  obtain ⟨h1, h2, h3, h4, h5, h6, h7, h8, h9, h10⟩ := h
  have hl := filter_length_lt (i := t.id) ⟨t, ht, rfl⟩
  refine ⟨fun t ht => h1 t (List.mem_filter.mp ht).1, h2.sublist List.filter_sublist,
    fun t ht => h3 t (List.mem_filter.mp ht).1, h4, fun t ht => h5 t (List.mem_filter.mp ht).1, ?_, h7,
    ?_, ?_, fun u hu => .inl ?_⟩
  · intro u hu
    rcases List.mem_append.mp hu with hu | hu
    · exact h6 u hu
    · simp only [List.mem_singleton] at hu
      subst hu
      obtain ⟨a, ha, hda⟩ := h5 t ht
      exact ⟨Nat.le_refl _, a, ha, by omega⟩
  · simp only [Sys.send, Sys.drop, List.length_append, List.length_cons, List.length_nil]
    omega
  · simp only [Sys.send, List.length_append, List.length_cons, List.length_nil]
    have : (s.drop t.id).rebalances = s.rebalances := rfl
    rw [this]; omega
  · simp only [Sys.send]; omega

theorem inv_step {s : Sys} (op : Op) (h : Inv s) : Inv (s.step op) := by
  cases op with
  | msg o =>
    rcases handle_cases s o with ⟨c, e⟩ | ⟨c, e⟩
    · simp only [Sys.step, e]; exact inv_coord c h
    · simp only [Sys.step, e]; exact inv_schedule (inv_coord c h)
  | full =>
    simp only [Sys.step]
    split
    · exact h
    · obtain ⟨h1, h2, h3, h4, h5, h6, h7, h8, h9, h10⟩ := h
      refine ⟨h1, h2, h3, h4, h5, h6, h7, h8, ?_, fun t ht => .inr ⟨s.now, by simp, (h6 t ht).1⟩⟩
      simp only [List.length_append, List.length_cons, List.length_nil]; omega
  | pass d =>
    obtain ⟨h1, h2, h3, h4, h5, h6, h7, h8, h9, h10⟩ := h
    refine ⟨h1, h2, h3, h4, h5, fun t ht => ⟨?_, (h6 t ht).2⟩, fun a ha => ?_, h8, h9, h10⟩
    · have := (h6 t ht).1; simp only [Sys.step]; omega
    · have := h7 a ha; simp only [Sys.step]; omega
  | poll i pick =>
    simp only [Sys.step]
    rcases poll_cases s i pick with e | ⟨t, ht, hi, hc, e⟩ | ⟨t, ht, hi, hd, e⟩
    · rw [e]; exact h
    · rw [e]; exact inv_drop i h
    · rw [e, ← hi]; exact inv_send ht hd h

theorem inv_run (c : Coord) (ops : List Op) : Inv (({ coord := c } : Sys).run ops) := by
  induction ops using Verif.snoc_induction with
  | nil => constructor <;> simp [Sys.run]
  | snoc l a ih => rw [run_snoc]; exact inv_step a ih

theorem prompt_snoc (s : Sys) (ops : List Op) (op : Op) :
    Prompt s (ops ++ [op]) ↔ Prompt s ops ∧ Prompt (s.run ops) [op] := by
  induction ops generalizing s with
  | nil => simp [Prompt, Sys.run]
  | cons o os ih =>
    simp only [List.cons_append, Prompt, ih, run_cons, and_assoc]

theorem prompt_append (s : Sys) (k l : List Op) (hk : Prompt s k) (hl : Prompt (s.run k) l) : Prompt s (k ++ l) := by
  induction k generalizing s with
  | nil => exact hl
  | cons o os ih => exact ⟨hk.1, ih _ hk.2 hl⟩

/-- what holds in addition if the runtime is prompt. -/
structure PInv (s : Sys) : Prop where
  window : ∀ t ∈ s.tasks, s.now ≤ t.due ∧ ∃ a ∈ s.arrivals, t.due = a + delay ∧
    (∀ c ∈ s.arrivals, c ≤ a ∨ c = s.now) ∧ (t.cancelled = false → ∀ c ∈ s.arrivals, c ≤ a)
  sent : ∀ t ∈ s.sends, ∃ a ∈ s.arrivals, t = a + delay ∧ ∀ c ∈ s.arrivals, c ≤ a ∨ t ≤ c
  kept : ∀ a ∈ s.arrivals, (∃ c ∈ s.arrivals, a < c ∧ c ≤ a + delay) ∨ a + delay ∈ s.sends ∨
    ∃ t ∈ s.tasks, t.cancelled = false ∧ t.due = a + delay
  dues : s.tasks.Pairwise (fun t u => t.due = u.due → t.due = s.now + delay)
  before : ∀ t ∈ s.tasks, ∀ u ∈ s.sends, u < t.due
  sorted : s.sends.Pairwise (· < ·)

theorem pinv_coord {s : Sys} (c : Coord) (h : PInv s) : PInv { s with coord := c } := by
  obtain ⟨h1, h2, h3, h4, h5, h6⟩ := h
  exact ⟨h1, h2, h3, h4, h5, h6⟩

theorem pinv_schedule {s : Sys} (hi : Inv s) (h : PInv s) : PInv s.schedule := by
  obtain ⟨h1, h2, h3, h4, h5, h6⟩ := h
  refine ⟨?_, ?_, ?_, ?_, ?_, h6⟩
  · intro t ht
    rcases List.mem_append.mp ht with ht | ht
    · obtain ⟨u, hu, he, hd, hx⟩ := mem_cancel ht
      obtain ⟨hn, a, ha, hda, hw, -⟩ := h1 u hu
      refine ⟨by simp only [Sys.schedule]; omega, a, List.mem_append_left _ ha, by omega, ?_, ?_⟩
      · intro c hc
        rcases List.mem_append.mp hc with hc | hc
        · exact hw c hc
        · simp only [List.mem_singleton] at hc; exact .inr hc
      · intro hc
        obtain ⟨rfl, hne⟩ := hx hc
        exact absurd (hi.live u hu hc) hne
    · simp only [List.mem_singleton] at ht
      subst ht
      have hp : ∀ c ∈ s.schedule.arrivals, c ≤ s.now := (inv_schedule hi).past
      exact ⟨by simp only [Sys.schedule]; omega, s.now, by simp [Sys.schedule], rfl, fun c hc => .inl (hp c hc),
        fun _ c hc => hp c hc⟩
  · intro t ht
    obtain ⟨a, ha, hta, hw⟩ := h2 t ht
    refine ⟨a, List.mem_append_left _ ha, hta, ?_⟩
    intro c hc
    rcases List.mem_append.mp hc with hc | hc
    · exact hw c hc
    · simp only [List.mem_singleton] at hc; subst hc
      exact .inr (hi.sent t ht).1
  · intro a ha
    simp only [Sys.schedule, List.mem_append, List.mem_singleton] at ha ⊢
    by_cases hn : a = s.now
    · subst hn
      exact .inr (.inr ⟨_, .inr rfl, rfl, rfl⟩)
    · have ha : a ∈ s.arrivals := ha.resolve_right hn
      rcases h3 a ha with ⟨c, hc, hac⟩ | hs | ⟨t, ht, htc, htd⟩
      · exact .inl ⟨c, .inl hc, hac⟩
      · exact .inr (.inl hs)
      · have := hi.past a ha
        have := (h1 t ht).1
        exact .inl ⟨s.now, .inr rfl, by omega, by omega⟩
  · simp only [Sys.schedule]
    rw [List.pairwise_append]
    refine ⟨?_, by simp, ?_⟩
    · simp only [cancel]
      rw [List.pairwise_map]
      refine h4.imp ?_
      intro a b hab
      split <;> split <;> exact hab
    · intro a ha b hb e
      simp only [List.mem_singleton] at hb
      subst hb; exact e
  · intro t ht u hu
    rcases List.mem_append.mp ht with ht | ht
    · obtain ⟨v, hv, he, hd, -⟩ := mem_cancel ht
      have := h5 v hv u hu
      omega
    · simp only [List.mem_singleton] at ht
      subst ht
      have := (hi.sent u hu).1
      simp only [delay]; omega

theorem pinv_drop {s : Sys} {t : Task} (ht : t ∈ s.tasks) (hc : t.cancelled = true) (hi : Inv s) (h : PInv s) :
    PInv (s.drop t.id) := by
  obtain ⟨h1, h2, h3, h4, h5, h6⟩ := h
  refine ⟨fun u hu => h1 u (List.mem_filter.mp hu).1, h2, ?_, h4.sublist List.filter_sublist,
    fun u hu => h5 u (List.mem_filter.mp hu).1, h6⟩
  intro a ha
  rcases h3 a ha with hl | hs | ⟨u, hu, huc, hud⟩
  · exact .inl hl
  · exact .inr (.inl hs)
  · refine .inr (.inr ⟨u, List.mem_filter.mpr ⟨hu, ?_⟩, huc, hud⟩)
    simp only [ne_eq, decide_eq_true_eq]
    intro e
    have hne : u ≠ t := by rintro rfl; simp [hc] at huc
    exact pairwise_ne hi.nodup hu ht hne e
where
  pairwise_ne {ts : List Task} (hp : ts.Pairwise (fun t u => t.id ≠ u.id)) {u t : Task} (hu : u ∈ ts) (ht : t ∈ ts)
      (hne : u ≠ t) : u.id ≠ t.id := by
    induction hp with
    | nil => cases hu
    | cons h _ ih =>
      rcases List.mem_cons.mp hu with rfl | hu' <;> rcases List.mem_cons.mp ht with rfl | ht'
      · exact absurd rfl hne
      · exact h t ht'
      · exact (h u hu').symm
      · exact ih hu' ht'

theorem pairwise_dues {ts : List Task} {b : Nat} (hp : ts.Pairwise (fun t u => t.due = u.due → t.due = b)) {u t : Task}
    (hu : u ∈ ts) (ht : t ∈ ts) (hne : u ≠ t) (he : u.due = t.due) : u.due = b := by
  induction hp with
  | nil => cases hu
  | cons h _ ih =>
    rcases List.mem_cons.mp hu with rfl | hu' <;> rcases List.mem_cons.mp ht with rfl | ht'
    · exact absurd rfl hne
    · exact h t ht' he
    · rw [he]; exact h u hu' he.symm
    · exact ih hu' ht'

theorem pinv_send {s : Sys} {t : Task} (ht : t ∈ s.tasks) (hd : t.due ≤ s.now) (hi : Inv s) (h : PInv s) :
    PInv (s.send t.id) := by
  obtain ⟨h1, h2, h3, h4, h5, h6⟩ := h
  obtain ⟨hn, a, ha, hda, hw, -⟩ := h1 t ht
  have hnow : s.now = t.due := by omega
  have other : ∀ u ∈ s.tasks, u.id ≠ t.id → s.now < u.due := by
    intro u hu hne
    have := (h1 u hu).1
    by_cases he : u.due = t.due
    · have := pairwise_dues h4 hu ht (by rintro rfl; exact hne rfl) he
      simp only [delay] at this; omega
    · omega
  refine ⟨fun u hu => h1 u (List.mem_filter.mp hu).1, ?_, ?_, h4.sublist List.filter_sublist, ?_, ?_⟩
  · intro u hu
    rcases List.mem_append.mp hu with hu | hu
    · exact h2 u hu
    · simp only [List.mem_singleton] at hu
      subst hu
      refine ⟨a, ha, by omega, fun c hc => ?_⟩
      rcases hw c hc with hl | hr
      · exact .inl hl
      · exact .inr (by omega)
  · intro b hb
    rcases h3 b hb with hl | hs | ⟨u, hu, huc, hud⟩
    · exact .inl hl
    · exact .inr (.inl (List.mem_append_left _ hs))
    · by_cases he : u.id = t.id
      · by_cases hut : u = t
        · subst hut
          refine .inr (.inl ?_)
          simp only [Sys.send, List.mem_append, List.mem_singleton]
          exact .inr (by omega)
        · exact absurd he (pinv_drop.pairwise_ne hi.nodup hu ht hut)
      · exact .inr (.inr ⟨u, List.mem_filter.mpr ⟨hu, by simpa using he⟩, huc, hud⟩)
  · intro u hu v hv
    obtain ⟨hu, hne⟩ := List.mem_filter.mp hu
    rcases List.mem_append.mp hv with hv | hv
    · exact h5 u hu v hv
    · simp only [List.mem_singleton] at hv
      subst hv
      exact other u hu (by simpa using hne)
  · simp only [Sys.send]
    rw [List.pairwise_append]
    refine ⟨h6, by simp, ?_⟩
    intro u hu v hv
    simp only [List.mem_singleton] at hv
    subst hv
    have := h5 t ht u hu
    omega

theorem pinv_step {s : Sys} (op : Op) (hp : Prompt s [op]) (hi : Inv s) (h : PInv s) : PInv (s.step op) := by
  cases op with
  | msg o =>
    rcases handle_cases s o with ⟨c, e⟩ | ⟨c, e⟩
    · simp only [Sys.step, e]; exact pinv_coord c h
    · simp only [Sys.step, e]; exact pinv_schedule (inv_coord c hi) (pinv_coord c h)
  | full =>
    simp only [Sys.step]
    split
    · exact h
    · obtain ⟨h1, h2, h3, h4, h5, h6⟩ := h
      exact ⟨h1, h2, h3, h4, h5, h6⟩
  | pass d =>
    have hp := hp.1 d rfl
    obtain ⟨h1, h2, h3, h4, h5, h6⟩ := h
    refine ⟨?_, h2, h3, ?_, h5, h6⟩
    · intro t ht
      obtain ⟨hc, hd⟩ := hp t ht
      obtain ⟨hn, a, ha, hda, hw, hl⟩ := h1 t ht
      exact ⟨hd, a, ha, hda, fun c hc' => .inl (hl hc c hc'), hl⟩
    · refine (List.Pairwise.and_mem.mp hi.nodup).imp ?_
      rintro u v ⟨hu, hv, hne⟩
      have a := hi.live u hu (hp u hu).1
      have b := hi.live v hv (hp v hv).1
      rw [a] at b
      exact absurd (Option.some.inj b) hne
  | poll i pick =>
    simp only [Sys.step]
    rcases poll_cases s i pick with e | ⟨t, ht, hid, hc, e⟩ | ⟨t, ht, hid, hd, e⟩
    · rw [e]; exact h
    · rw [e, ← hid]; exact pinv_drop ht hc hi h
    · rw [e, ← hid]; exact pinv_send ht hd hi h

theorem pinv_run (c : Coord) (ops : List Op) (hp : Prompt { coord := c } ops) :
    PInv (({ coord := c } : Sys).run ops) := by
  induction ops using Verif.snoc_induction with
  | nil => constructor <;> simp [Sys.run]
  | snoc l a ih =>
    rw [prompt_snoc] at hp
    rw [run_snoc]; exact pinv_step a hp.2 (inv_run c l) (ih hp.1)

theorem schedule_coord (s : Sys) : s.schedule.coord = s.coord := rfl

theorem poll_coord (s : Sys) (i : Nat) (pick : Bool) :
    (s.poll i pick).coord = s.coord ∧ (s.poll i pick).rebalances = s.rebalances := by
  rcases poll_cases s i pick with e | ⟨_, _, _, _, e⟩ | ⟨_, _, _, _, e⟩ <;> rw [e] <;> exact ⟨rfl, rfl⟩

theorem handle_rebalances (s : Sys) (o : CoordOp) : (s.handle o).rebalances = s.rebalances := by
  rcases handle_cases s o with ⟨c, e⟩ | ⟨c, e⟩ <;> rw [e] <;> rfl

theorem coordOps_run (s : Sys) (ops : List Op) :
    (s.run ops).coord = s.coord.run (coordOps s ops) ∧
    (s.run ops).rebalances.length = s.rebalances.length + (coordOps s ops).countP (· = .rebalanceAll) := by
  induction ops generalizing s with
  | nil => simp [Sys.run, coordOps, Coord.run]
  | cons op ops ih =>
    obtain ⟨h1, h2⟩ := ih (s.step op)
    rw [run_cons, h1, h2]
    cases op with
    | msg o =>
      have hr := handle_rebalances s o
      have hc : ∀ s' : Sys, s'.schedule.coord = s'.coord := fun _ => rfl
      cases o with
      | nodeAdded n =>
        simp only [coordOps, Sys.step, hr, Coord.run, List.foldl_append, List.foldl_cons, List.foldl_nil,
          List.countP_append]
        constructor
        · congr 1
          simp only [Sys.handle]
          split <;> rfl
        · simp
      | restart a b => simp [coordOps, Sys.step, Sys.handle]
      | rebalanceAll => simp [coordOps, Sys.step, Sys.handle]
      | _ =>
        simp only [coordOps, Sys.step, hr, Coord.run, List.foldl_append, List.foldl_cons, List.foldl_nil,
          List.countP_append]
        exact ⟨rfl, by simp⟩
    | full =>
      by_cases hq : s.queued = 0
      · simp [coordOps, Sys.step, hq]
      · simp only [coordOps, Sys.step, hq, if_false, Coord.run, List.foldl_append, List.foldl_cons, List.foldl_nil,
          List.countP_append, List.length_append, List.length_cons, List.length_nil]
        refine ⟨rfl, ?_⟩
        simp only [List.countP_cons, List.countP_nil, decide_true, if_true]
        omega
    | pass d => simp [coordOps, Sys.step]
    | poll i pick => simp [coordOps, Sys.step, poll_coord]

/-! ### Properties -/

/-- A message of the coordinator schedules a rebalance exactly if it tells of a node that has become
available: unknown so far, or known and not ready. -/
theorem C124_arrivals (s : Sys) (o : CoordOp) :
    ((∃ n, o = .nodeAdded n ∧ Arrives s.coord n) → (s.step (.msg o)).arrivals = s.arrivals ++ [s.now]) ∧
    (¬ (∃ n, o = .nodeAdded n ∧ Arrives s.coord n) → (s.step (.msg o)).arrivals = s.arrivals) := by
  cases o with
  | nodeAdded n =>
    have h := nodeAdded_out s.coord n
    simp only [Sys.step, Sys.handle]
    constructor
    · rintro ⟨m, e, ha⟩
      cases e
      rw [if_neg (fun e => (h.mp e) ha)]; rfl
    · intro hn
      rw [if_pos (h.mpr fun ha => hn ⟨n, rfl, ha⟩)]
  | _ =>
    refine ⟨?_, fun _ => rfl⟩
    rintro ⟨n, e, _⟩; cases e

/-- In every run, however slow the runtime: at most one rebalance is scheduled and not cancelled; a rebalance
is sent at most once for each arrival and not within the delay after the first of them; as many are handled as
were sent, less those in the mailbox; and the coordinator does nothing but handle messages, of which so many
are full rebalances. -/
theorem C124_at_most (c : Coord) (ops : List Op) :
    let s := ({ coord := c } : Sys).run ops
    (s.tasks.filter fun t => t.cancelled = false).length ≤ 1 ∧
    s.sends.length ≤ s.arrivals.length ∧
    (∀ t ∈ s.sends, ∃ a ∈ s.arrivals, a + 500 ≤ t) ∧
    s.rebalances.length + s.queued = s.sends.length ∧
    s.coord = c.run (coordOps { coord := c } ops) ∧
    ((coordOps { coord := c } ops).countP (· = .rebalanceAll)) = s.rebalances.length := by
  intro s
  have hi : Inv s := inv_run c ops
  refine ⟨?_, by have := hi.count; omega, fun t ht => (hi.sent t ht).2, hi.handled,
    (coordOps_run _ ops).1, ?_⟩
  · have hp : (s.tasks.filter fun t => t.cancelled = false).Pairwise (fun _ _ => False) := by
      refine (List.Pairwise.and_mem.mp (hi.nodup.sublist List.filter_sublist)).imp ?_
      rintro u v ⟨hu, hv, hne⟩
      obtain ⟨hu, huc⟩ := List.mem_filter.mp hu
      obtain ⟨hv, hvc⟩ := List.mem_filter.mp hv
      have a := hi.live u hu (by simpa using huc)
      have b := hi.live v hv (by simpa using hvc)
      rw [a] at b
      exact hne (Option.some.inj b)
    generalize (s.tasks.filter fun t => t.cancelled = false) = l at hp ⊢
    match l, hp with
    | [], _ => simp
    | [_], _ => simp
    | _ :: y :: _, hp => exact ((List.pairwise_cons.mp hp).1 y (by simp)).elim
  · have := (coordOps_run { coord := c } ops).2
    simpa using this.symm

/-- With a prompt runtime a rebalance is sent only 500 ms after an arrival that no other followed in between, and
never twice at the same time: a burst of arrivals, each within 500 ms of the one before, is followed by one
rebalance at most. -/
theorem C124_quiet (c : Coord) (ops : List Op) (hp : Prompt { coord := c } ops) :
    let s := ({ coord := c } : Sys).run ops
    (∀ t ∈ s.sends, ∃ a ∈ s.arrivals, t = a + 500 ∧ ∀ b ∈ s.arrivals, b ≤ a ∨ t ≤ b) ∧
    s.sends.Pairwise (· < ·) :=
  ⟨(pinv_run c ops hp).sent, (pinv_run c ops hp).sorted⟩

/-- With a prompt runtime, an arrival that is followed by no other within 500 ms is followed by a rebalance after
exactly these 500 ms, which is handled once the mailbox has no more of them. -/
theorem C124_follows_partial (c : Coord) (ops : List Op) (hp : Prompt { coord := c } ops) (a : Nat) :
    let s := ({ coord := c } : Sys).run ops
    a ∈ s.arrivals → (∀ b ∈ s.arrivals, b ≤ a ∨ a + 500 < b) → a + 500 < s.now →
    a + 500 ∈ s.sends ∧ (s.queued = 0 → ∃ r ∈ s.rebalances, a + 500 ≤ r) := by
  intro s ha hb hn
  have hi : Inv s := inv_run c ops
  have h : PInv s := pinv_run c ops hp
  have hs : a + 500 ∈ s.sends := by
    rcases h.kept a ha with ⟨b, hbm, hab⟩ | hs | ⟨t, ht, _, hd⟩
    · have := hb b hbm
      simp only [delay] at hab; omega
    · exact hs
    · have := (h.window t ht).1
      simp only [delay] at hd; omega
  refine ⟨hs, fun hq => ?_⟩
  rcases hi.after _ hs with hne | hr
  · exact absurd hq hne
  · exact hr

theorem coordOps_places (s : Sys) (ops : List Op) (h : ∀ op ∈ ops, (∃ o, op = .msg o ∧ o.places = true) ∨
    (∃ d, op = .pass d) ∨ ∃ i p, op = .poll i p) : ∀ o ∈ coordOps s ops, o.places = true := by
  induction ops generalizing s with
  | nil => simp [coordOps]
  | cons op ops ih =>
    intro o ho
    simp only [coordOps, List.mem_append] at ho
    rcases ho with ho | ho
    · rcases h op (by simp) with ⟨o', rfl, hp⟩ | ⟨d, rfl⟩ | ⟨i, p, rfl⟩
      · cases o' <;> simp_all
      · cases ho
      · cases ho
    · exact ih _ (fun op' h' => h op' (List.mem_cons_of_mem _ h')) o ho

/-- What the rebalance is for: when it is handled with no earlier move under way, and once the shards it took are placed
again, every available node, those that arrived included, carries the fair share of the shards or one more. -/
theorem C124_even (c : Coord) (hr : c.Reachable) (ops ops' : List Op) :
    let s := ({ coord := c } : Sys).run ops
    let t := s.run (.full :: ops')
    s.queued ≠ 0 → s.coord.moving = [] → (∃ n k, s.coord.Avail n k) →
    (∀ op ∈ ops', (∃ o, op = .msg o ∧ o.places = true) ∨ (∃ d, op = .pass d) ∨ ∃ i p, op = .poll i p) →
    t.coord.moving = [] →
    t.coord.total = s.coord.total ∧ ∀ n k, t.coord.Avail n k →
      fairShare s.coord.total s.coord.available ≤ k ∧ k ≤ fairShare s.coord.total s.coord.available + 1 := by
  intro s t hq hm hav hops hd
  have hsr : s.coord.Reachable := by
    obtain ⟨self, nodes, journal, ops0, rfl⟩ := hr
    refine ⟨self, nodes, journal, ops0 ++ coordOps { coord := (Coord.start self nodes journal).run ops0 } ops, ?_⟩
    have := (coordOps_run { coord := (Coord.start self nodes journal).run ops0 } ops).1
    refine this.trans ?_
    simp only [Coord.run, List.foldl_append]
  have ht : t.coord = (s.coord.next .rebalanceAll).run (coordOps (s.step .full) ops') := by
    have := (coordOps_run (s.step .full) ops').1
    simp only [t, run_cons, this]
    congr 1
    simp only [Sys.step, hq, if_false]; rfl
  rw [ht] at hd ⊢
  exact C41_even s.coord hsr hm hav _ (coordOps_places _ ops' hops) hd

/-- nodes that come one after the other, 400 ms apart. -/
def stream : Nat → List Op
  | 0 => []
  | n + 1 => stream n ++ [.msg (.nodeAdded (n + 1)), .poll (n - 1) false, .pass 400]

theorem arrive_step (s : Sys) (n : Nat) (hg : s.coord.hosts.get n = none) :
    s.step (.msg (.nodeAdded n)) = ({ s with coord := s.coord.nodeAdded n } : Sys).schedule := by
  simp only [Sys.step, Sys.handle]
  rw [if_neg]
  intro e
  exact (nodeAdded_out s.coord n).mp e (by intro h hk; simp [Coord.Knows, hg] at hk)

theorem nodeAdded_get (σ : Coord) {n m : Nat} (h : m ≠ n) (hg : σ.hosts.get m = none) :
    (σ.nodeAdded n).hosts.get m = none := by
  simp only [Coord.nodeAdded]
  split
  · split
    · exact hg
    · grind [Assoc.get_update]
  · grind [Assoc.get_insert]

theorem stream_state (n : Nat) :
    let s := ({ coord := Coord.start 0 [] [] } : Sys).run (stream n)
    s.now = 400 * n ∧ s.sends = [] ∧ s.arrivals.length = n ∧ s.next = n ∧
    (∀ m, n < m → s.coord.hosts.get m = none) ∧
    Prompt { coord := Coord.start 0 [] [] } (stream n) ∧
    (n = 0 → s.tasks = [] ∧ s.scheduled = none) ∧
    (∀ k, n = k + 1 → s.tasks = [⟨k, 400 * k + 500, false⟩] ∧ s.scheduled = some k) := by
  induction n with
  | zero =>
    refine ⟨rfl, rfl, rfl, rfl, ?_, trivial, fun _ => ⟨rfl, rfl⟩, fun k h => by omega⟩
    intro m hm
    simp [stream, Sys.run, Coord.start, Coord.fresh, Assoc.get]
    omega
  | succ n ih =>
    simp only [stream]
    generalize hs : ({ coord := Coord.start 0 [] [] } : Sys).run (stream n) = s at ih
    obtain ⟨h1, h2, h3, h4, h5, h6, h7, h8⟩ := ih
    have hrun : ∀ l, ({ coord := Coord.start 0 [] [] } : Sys).run (stream n ++ l) = s.run l := by
      intro l; rw [← hs]; simp [Sys.run]
    have hpr : ∀ l, Prompt s l → Prompt { coord := Coord.start 0 [] [] } (stream n ++ l) := by
      rw [← hs]; exact fun l h => prompt_append _ _ _ h6 h
    rw [hrun]
    have ha := arrive_step s (n + 1) (h5 (n + 1) (by omega))
    have hp : ((s.step (.msg (.nodeAdded (n + 1)))).step (.poll (n - 1) false)).tasks =
        [⟨n, 400 * n + 500, false⟩] ∧
        (s.step (.msg (.nodeAdded (n + 1)))).step (.poll (n - 1) false) =
          { s with coord := s.coord.nodeAdded (n + 1), tasks := [⟨n, 400 * n + 500, false⟩], scheduled := some n,
                   next := n + 1, arrivals := s.arrivals ++ [s.now] } := by
      have : (s.step (.msg (.nodeAdded (n + 1)))).step (.poll (n - 1) false) =
          { s with coord := s.coord.nodeAdded (n + 1), tasks := [⟨n, 400 * n + 500, false⟩], scheduled := some n,
                   next := n + 1, arrivals := s.arrivals ++ [s.now] } := by
        rw [ha]
        cases n with
        | zero =>
          obtain ⟨e1, e2⟩ := h7 rfl
          simp [Sys.schedule, Sys.step, Sys.poll, e1, e2, cancel, h1, h4, delay]
        | succ k =>
          obtain ⟨e1, e2⟩ := h8 k rfl
          have : ¬ (400 * k + 500 ≤ 400 * (k + 1)) := by omega
          simp [Sys.schedule, Sys.step, Sys.poll, Sys.drop, e1, e2, cancel, h1, h4, delay, this]
      exact ⟨by rw [this], this⟩
    obtain ⟨hp1, hp2⟩ := hp
    have hfin : s.run [.msg (.nodeAdded (n + 1)), .poll (n - 1) false, .pass 400] =
        { s with coord := s.coord.nodeAdded (n + 1), tasks := [⟨n, 400 * n + 500, false⟩], scheduled := some n,
                 next := n + 1, arrivals := s.arrivals ++ [s.now], now := s.now + 400 } := by
      simp only [run_cons, hp2]; rfl
    rw [hfin]
    refine ⟨by simp only [h1]; omega, h2, by simp [h3], rfl, ?_, ?_, fun h => by omega, ?_⟩
    · intro m hm
      exact nodeAdded_get _ (by omega) (h5 m (by omega))
    · apply hpr
      refine ⟨by rintro d ⟨⟩, by rintro d ⟨⟩, ?_, trivial⟩
      rw [hp2]
      rintro d ⟨⟩ t ht
      simp only [List.mem_singleton] at ht
      subst ht
      exact ⟨rfl, by simp only [h1]; omega⟩
    · intro k hk
      obtain rfl : n = k := by omega
      exact ⟨rfl, rfl⟩

/-- That an arrival is always followed by a rebalance is not so: nodes that come less than 500 ms after one another
put it off as long as they keep coming, with a prompt runtime too. -/
theorem C124_put_off_refuted (n : Nat) : ∃ ops, Prompt { coord := Coord.start 0 [] [] } ops ∧
    let s := ({ coord := Coord.start 0 [] [] } : Sys).run ops
    s.arrivals.length = n ∧ s.now = 400 * n ∧ s.sends = [] ∧ s.rebalances = [] := by
  obtain ⟨h1, h2, h3, _, _, h6, _, _⟩ := stream_state n
  refine ⟨stream n, h6, h3, h1, h2, ?_⟩
  have := (inv_run (Coord.start 0 [] []) (stream n)).handled
  rw [h2] at this
  exact List.length_eq_zero_iff.mp (by simp only [List.length_nil] at this; omega)

/-- That a burst of arrivals is followed by one rebalance needs the promptness: the task that is cancelled in time but
polled late may still send (`select!` takes either of two branches that are ready). Here two nodes come 400 ms apart,
and two rebalances are handled. -/
theorem C124_twice_refuted : ∃ ops,
    let s := ({ coord := Coord.start 0 [] [] } : Sys).run ops
    s.arrivals = [0, 400] ∧ s.sends = [600, 900] ∧ s.rebalances = [600, 900] :=
  ⟨[.msg (.nodeAdded 1), .pass 400, .msg (.nodeAdded 2), .pass 200, .poll 0 true, .full, .pass 300, .poll 1 true, .full],
    by decide +kernel⟩

/-! Cases. -/

/-- three nodes within a second, then quiet: one rebalance, 500 ms after the last of them. -/
def calm : List Op :=
  [.msg (.allocate 1 true), .msg (.allocate 2 true), .msg (.allocate 3 true), .msg (.nodeAdded 1), .pass 300,
   .msg (.nodeAdded 2), .poll 0 true, .pass 400, .msg (.nodeAdded 3), .poll 1 false, .msg (.nodeAdded 3), .pass 500,
   .poll 2 true, .pass 1, .full]

example : Prompt { coord := Coord.start 0 [] [] } calm := by
  simp [calm, Prompt]
  decide +kernel

example : (({ coord := Coord.start 0 [] [] } : Sys).run calm).arrivals = [0, 300, 700] ∧
    (({ coord := Coord.start 0 [] [] } : Sys).run calm).sends = [1200] ∧
    (({ coord := Coord.start 0 [] [] } : Sys).run calm).rebalances = [1201] ∧
    (({ coord := Coord.start 0 [] [] } : Sys).run calm).coord.moving.length = 3 := by decide +kernel

/-- `C124_even`: six shards on the first node, two nodes come, one rebalance; then two shards each. -/
example :
    let s := ({ coord := Coord.start 0 [] [] } : Sys).run
      ([1, 2, 3, 4, 5, 6].map (fun i => Op.msg (.allocate i true)) ++
        [.msg (.nodeAdded 1), .pass 300, .msg (.nodeAdded 2), .poll 0 true, .pass 500, .poll 1 true])
    let t := s.run (.full :: [1, 2, 3, 4].map fun i => Op.msg (.stopAcked i 0))
    s.queued = 1 ∧ s.coord.moving = [] ∧ t.coord.moving = [] ∧
      t.coord.hosts.map (fun p => (p.1, p.2.shards.length)) = [(2, 2), (1, 2), (0, 2)] := by
  decide +kernel

end Verif.Sharding.Debounce
