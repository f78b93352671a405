import Verif.Remote.HealthModel

/-!
# C34: the health report
-/

namespace Verif.Remote

/-- Specification: `a` is registered: it was, and no removal of its id came later. -/
def Registered (ops : List HcOp) (a : HcActor) : Prop :=
  ∃ pre post, ops = pre ++ .register a :: post ∧ .remove a.id ∉ post

theorem hcRun_snoc (ops : List HcOp) (op : HcOp) : hcRun (ops ++ [op]) = hcStep (hcRun ops) op := by
  simp [hcRun]

/-- **C34.** The actors checked are those registered and not removed since. -/
theorem C34_registered (ops : List HcOp) (a : HcActor) : a ∈ hcRun ops ↔ Registered ops a := by
  induction ops using snoc_induction with
  | nil =>
    constructor
    · intro h; simp [hcRun] at h
    · rintro ⟨pre, post, h, _⟩; simp at h
  | snoc ops op ih =>
    rw [hcRun_snoc]
    have hback : Registered ops a → op ≠ .remove a.id → Registered (ops ++ [op]) a := by
      rintro ⟨pre, post, he, hr⟩ hop
      refine ⟨pre, post ++ [op], by rw [he]; simp, ?_⟩
      simp [hr, Ne.symm hop]
    have hforth : Registered (ops ++ [op]) a → (Registered ops a ∧ op ≠ .remove a.id) ∨ op = .register a := by
      rintro ⟨pre, post, he, hr⟩
      rcases snoc_eq_append_cons he with ⟨rfl, _, h⟩ | ⟨post', rfl, h⟩
      · exact .inr h
      · simp only [List.mem_append, List.mem_singleton, not_or] at hr
        exact .inl ⟨⟨pre, post', h, hr.1⟩, fun e => hr.2 e.symm⟩
    cases op with
    | register b =>
      simp only [hcStep, List.mem_append, List.mem_singleton, ih]
      constructor
      · rintro (h | rfl)
        · exact hback h (by simp)
        · exact ⟨ops, [], rfl, by simp⟩
      · intro h
        rcases hforth h with h | h
        · exact .inl h.1
        · cases h; exact .inr rfl
    | remove id =>
      simp only [hcStep, List.mem_filter, ih, decide_eq_true_eq]
      constructor
      · rintro ⟨h, hne⟩
        exact hback h (fun e => hne (by cases e; rfl))
      · intro h
        rcases hforth h with h | h
        · exact ⟨h.1, fun e => h.2 (by rw [e])⟩
        · cases h

theorem joinAll_none (ps : List Probe) : joinAll ps = none ↔ Probe.hangs ∈ ps := by
  induction ps with
  | nil => simp [joinAll]
  | cons p ps ih => cases p <;> simp [joinAll, ih]

theorem joinAll_some (ps : List Probe) (cs : List (Option Nat)) (h : joinAll ps = some cs) :
    (none ∈ cs ↔ Probe.failed ∈ ps) ∧ ∀ d, some d ∈ cs ↔ Probe.started d ∈ ps := by
  induction ps generalizing cs with
  | nil => simp [joinAll] at h; subst h; simp
  | cons p ps ih =>
    cases p with
    | hangs => simp [joinAll] at h
    | started d =>
      simp only [joinAll, Option.map_eq_some_iff] at h
      obtain ⟨cs', h', rfl⟩ := h
      obtain ⟨h1, h2⟩ := ih cs' h'
      exact ⟨by simp [h1], fun d' => by simp [h2]⟩
    | failed =>
      simp only [joinAll, Option.map_eq_some_iff] at h
      obtain ⟨cs', h', rfl⟩ := h
      obtain ⟨h1, h2⟩ := ih cs' h'
      exact ⟨by simp, fun d' => by simp [h2]⟩

theorem checkLoop_errors (cs : List (Option Nat)) (b : Bool) : (checkLoop cs b).1 = true ↔ none ∈ cs := by
  induction cs generalizing b with
  | nil => simp [checkLoop]
  | cons c cs ih => cases c <;> simp [checkLoop, ih]

theorem checkLoop_slow (cs : List (Option Nat)) (b : Bool) (h : none ∉ cs) :
    (checkLoop cs b).2 = true ↔ b = true ∨ ∃ d, some d ∈ cs ∧ slowActor < d := by
  induction cs generalizing b with
  | nil => simp [checkLoop]
  | cons c cs ih =>
    cases c with
    | none => simp at h
    | some d =>
      simp only [List.mem_cons, reduceCtorEq, false_or] at h
      simp only [checkLoop]
      rw [ih _ h]
      simp only [Bool.or_eq_true, decide_eq_true_eq, List.mem_cons, Option.some.injEq]
      constructor
      · rintro ((h | h) | ⟨d', h1, h2⟩)
        · exact .inl h
        · exact .inr ⟨d, .inl rfl, h⟩
        · exact .inr ⟨d', .inr h1, h2⟩
      · rintro (h | ⟨d', rfl | h1, h2⟩)
        · exact .inl (.inl h)
        · exact .inl (.inr h2)
        · exact .inr ⟨d', h1, h2⟩

/-- **C34 (if every actor answers).** Unhealthy exactly if a registered actor has stopped or failed;
otherwise degraded exactly if one took longer than a second; otherwise healthy. -/
theorem C34_report_partial (ops : List HcOp) (probe : HcActor → Probe)
    (hans : ∀ a, Registered ops a → probe a ≠ .hangs) :
    ∃ h, getHealth (hcRun ops) probe = some h ∧
      (h = .unhealthy ↔ ∃ a, Registered ops a ∧ probe a = .failed) ∧
      (h = .degraded ↔ (∀ a, Registered ops a → probe a ≠ .failed) ∧
        ∃ a d, Registered ops a ∧ probe a = .started d ∧ slowActor < d) ∧
      (h = .healthy ↔ ∀ a, Registered ops a → ∃ d, probe a = .started d ∧ d ≤ slowActor) := by
  have hj : joinAll ((hcRun ops).map probe) ≠ none := by
    rw [Ne, joinAll_none, List.mem_map]
    rintro ⟨a, ha, e⟩
    exact hans a ((C34_registered ops a).1 ha) e
  obtain ⟨cs, hcs⟩ := Option.ne_none_iff_exists'.1 hj
  obtain ⟨h1, h2⟩ := joinAll_some _ _ hcs
  have hf : none ∈ cs ↔ ∃ a, Registered ops a ∧ probe a = .failed := by
    rw [h1, List.mem_map]
    constructor
    · rintro ⟨a, ha, e⟩; exact ⟨a, (C34_registered ops a).1 ha, e⟩
    · rintro ⟨a, ha, e⟩; exact ⟨a, (C34_registered ops a).2 ha, e⟩
  have hs : ∀ d, some d ∈ cs ↔ ∃ a, Registered ops a ∧ probe a = .started d := by
    intro d
    rw [h2, List.mem_map]
    constructor
    · rintro ⟨a, ha, e⟩; exact ⟨a, (C34_registered ops a).1 ha, e⟩
    · rintro ⟨a, ha, e⟩; exact ⟨a, (C34_registered ops a).2 ha, e⟩
  have he := checkLoop_errors cs false
  unfold getHealth
  rw [hcs]
  simp only [Option.map_some]
  by_cases hn : none ∈ cs
  · have : (checkLoop cs false).1 = true := he.2 hn
    obtain ⟨a, ha, e⟩ := hf.1 hn
    refine ⟨.unhealthy, by simp [this], ?_, ?_, ?_⟩
    · exact ⟨fun _ => ⟨a, ha, e⟩, fun _ => rfl⟩
    · constructor
      · intro h; cases h
      · rintro ⟨h, _⟩; exact absurd e (h a ha)
    · constructor
      · intro h; cases h
      · intro h
        obtain ⟨d, hd, _⟩ := h a ha
        rw [e] at hd; cases hd
  · have hno : (checkLoop cs false).1 = false := by
      cases hc : (checkLoop cs false).1 with
      | false => rfl
      | true => exact absurd (he.1 hc) hn
    have hsl := checkLoop_slow cs false hn
    have hnf : ∀ a, Registered ops a → probe a ≠ .failed := fun a ha e => hn (hf.2 ⟨a, ha, e⟩)
    by_cases hslow : ∃ d, some d ∈ cs ∧ slowActor < d
    · have : (checkLoop cs false).2 = true := hsl.2 (.inr hslow)
      obtain ⟨d, hd, hlt⟩ := hslow
      obtain ⟨a, ha, e⟩ := (hs d).1 hd
      refine ⟨.degraded, by simp [hno, this], ?_, ?_, ?_⟩
      · constructor
        · intro h; cases h
        · rintro ⟨b, hb, e'⟩; exact absurd e' (hnf b hb)
      · exact ⟨fun _ => ⟨hnf, a, d, ha, e, hlt⟩, fun _ => rfl⟩
      · constructor
        · intro h; cases h
        · intro h
          obtain ⟨d', hd', hle⟩ := h a ha
          rw [e] at hd'; cases hd'; omega
    · have : (checkLoop cs false).2 = false := by
        cases hc : (checkLoop cs false).2 with
        | false => rfl
        | true => exact absurd ((hsl.1 hc).resolve_left (by simp)) hslow
      refine ⟨.healthy, by simp [hno, this], ?_, ?_, ?_⟩
      · constructor
        · intro h; cases h
        · rintro ⟨b, hb, e'⟩; exact absurd e' (hnf b hb)
      · constructor
        · intro h; cases h
        · rintro ⟨_, a, d, ha, e, hlt⟩
          exact absurd ⟨d, (hs d).2 ⟨a, ha, e⟩, hlt⟩ hslow
      · refine ⟨fun _ a ha => ?_, fun _ => rfl⟩
        cases hp : probe a with
        | hangs => exact absurd hp (hans a ha)
        | failed => exact absurd hp (hnf a ha)
        | started d =>
          refine ⟨d, rfl, Nat.le_of_not_lt fun hlt => hslow ⟨d, (hs d).2 ⟨a, ha, hp⟩, hlt⟩⟩

/-- **C34.** The report does not depend on the order of registration: it is determined by which actors
are registered. -/
theorem C34_order (ops ops' : List HcOp) (probe : HcActor → Probe)
    (hans : ∀ a, Registered ops a → probe a ≠ .hangs)
    (h : ∀ a, Registered ops a ↔ Registered ops' a) :
    getHealth (hcRun ops) probe = getHealth (hcRun ops') probe := by
  obtain ⟨x, hx, hx1, hx2, hx3⟩ := C34_report_partial ops probe hans
  obtain ⟨y, hy, hy1, hy2, hy3⟩ := C34_report_partial ops' probe (fun a ha => hans a ((h a).2 ha))
  rw [hx, hy]
  simp only [h] at hx1 hx2 hx3
  congr 1
  cases x with
  | unhealthy => exact (hy1.2 (hx1.1 rfl)).symm
  | degraded => exact (hy2.2 (hx2.1 rfl)).symm
  | healthy => exact (hy3.2 (hx3.1 rfl)).symm

/-- **C34 refuted (no answer in time).** If a registered actor does not answer, there is no report at
all, instead of an unhealthy one: exactly then. -/
theorem C34_hangs_refuted (ops : List HcOp) (probe : HcActor → Probe) :
    getHealth (hcRun ops) probe = none ↔ ∃ a, Registered ops a ∧ probe a = .hangs := by
  unfold getHealth
  rw [Option.map_eq_none_iff, joinAll_none, List.mem_map]
  constructor
  · rintro ⟨a, ha, e⟩; exact ⟨a, (C34_registered ops a).1 ha, e⟩
  · rintro ⟨a, ha, e⟩; exact ⟨a, (C34_registered ops a).2 ha, e⟩

/-- **C34 refuted (same id).** Removing the check of one actor removes that of another with the same id
on another path. -/
theorem C34_same_id_refuted :
    getHealth (hcRun [.register ⟨"/a", "x"⟩, .register ⟨"/b", "x"⟩, .remove "x"]) (fun _ => .failed) =
      some .healthy := by decide

/-! Concrete cases. -/
example : getHealth (hcRun [.register ⟨"/a", "x"⟩, .register ⟨"/a", "y"⟩, .register ⟨"/a", "z"⟩, .remove "z"])
    (fun a => if a.id = "z" then .failed else if a.id = "y" then .started 1000000001 else .started 5)
    = some .degraded := by decide
example : Registered [.register ⟨"/a", "x"⟩, .remove "y"] ⟨"/a", "x"⟩ := ⟨[], [.remove "y"], rfl, by decide⟩

end Verif.Remote
