import Verif.Singleton.JointHeir

namespace Verif.Singleton.Joint

open Verif.Remote.OneLeader (Conf Clu Up Answered Before Good)

variable {C : Conf}

/-- every manager has the id of its node, and knows every other at most once and itself not. -/
structure Proper (w : Sys) : Prop where
  self : ∀ i, (w.cl.mgr i).self = i
  nodup : ∀ i, (w.cl.mgr i).managers.Nodup
  notself : ∀ i, i ∉ (w.cl.mgr i).managers

theorem Proper.act {w v : Sys} (h : Proper w) {net0 : List (Nat × MMsg)} {i : Nat} {mop : MOp}
    (hv : v.cl = act w.cl net0 i mop) (hc : ∀ a, mop ≠ .childStopped a) : Proper v := by
  have k := keeps (σ := w.cl.mgr i) hc (h.nodup i) (by rw [h.self i]; exact h.notself i)
  rw [h.self i] at k
  refine ⟨?_, ?_, ?_⟩
  all_goals
    intro j
    rw [hv]
    by_cases e : j = i
    · subst e; rw [act_self]; first | exact k.1 | exact k.2.1 | exact k.2.2.1
    · rw [act_other _ _ _ e]; first | exact h.self j | exact h.nodup j | exact h.notself j

theorem Proper.step {w : Sys} (h : Proper w) (op : JOp) : Proper (w.step C op) := by
  have ht := step_trans C w op
  generalize w.step C op = w' at ht ⊢
  cases ht with
  | hear i e ha hm hin => exact h.act (i := i) (net0 := w.cl.net) (mop := e.op) rfl (op_child e)
  | recv i m ha hm hin => exact h.act (i := i) (net0 := w.cl.net.erase (i, m)) (mop := .recv m) rfl (by simp)
  | own op i mop ha hm ho => exact h.act (i := i) (net0 := w.cl.net) (mop := mop) rfl (own_plain ho).2.2.2.2.1
  | _ => exact ⟨h.self, h.nodup, h.notself⟩

theorem Proper.init (C : Conf) : Proper (Sys.init C) := ⟨fun _ => rfl, fun _ => List.nodup_nil, fun _ => List.not_mem_nil⟩

theorem Proper.run (C : Conf) (ops : List JOp) : Proper (Sys.run C ops) := by
  have : ∀ (ops : List JOp) (w : Sys), Proper w → Proper (w.runFrom C ops) := by
    intro ops
    induction ops with
    | nil => exact fun w h => h
    | cons op ops ih => exact fun w h => ih _ (h.step op)
  exact this ops _ (Proper.init C)

/-! ### The nodes of `R` that run go on running their instances -/

structure Tended (R : List Nat) (inst : Nat → Nat) (w : Sys) : Prop where
  lone : Lone R w
  run : ∀ i ∈ R, Up w.clu i → Steadfast (w.cl.mgr i) (inst i)
  calm : ∀ i ∈ R, Up w.clu i → ∀ s, (i, MMsg.request s) ∉ w.cl.net

theorem Tended.act {R : List Nat} {inst : Nat → Nat} {w v : Sys} (h : Tended R inst w) (hl : Lone R v)
    {net0 : List (Nat × MMsg)} {i : Nat} {mop : MOp} (ha : Up w.clu i)
    (hv : v.cl = Joint.act w.cl net0 i mop) (hclu : v.clu = w.clu) (hsub : ∀ x ∈ net0, x ∈ w.cl.net)
    (hc : ∀ a, mop ≠ .childStopped a) (hu : i ∈ R → ∀ l ms, mop ≠ .memberUp l ms) (hx : i ∈ R → ∀ c, mop ≠ .exits (inst i) c)
    (hu' : i ∉ R → ∀ ms, mop ≠ .memberUp i ms) (hl' : i ∉ R → mop ≠ .leaderChanged i)
    (hrec : ∀ m, mop = .recv m → (i, m) ∈ w.cl.net)
    (hstops : v.stops = w.stops ++ ((w.cl.mgr i).step (fun _ => true) mop).2.filterMap (stopsOf i)) :
    Tended R inst v ∧ (∀ k, (v.cl.mgr k).fresh = (w.cl.mgr k).fresh) ∧
      (∀ k b, b ∈ (v.cl.mgr k).live → b ∈ (w.cl.mgr k).live) ∧ v.stops = w.stops := by
  have hr := fun hi => run_step (h.run i hi ha) (hu hi) (fun s e => h.calm i hi ha s (hrec _ e)) (hx hi) hc
  have hq := fun hi => rest_step (h.lone.rest i hi) (by rw [h.lone.self i]; exact hu' hi)
    (by rw [h.lone.self i]; exact hl' hi) hc
  refine ⟨⟨hl, ?_, ?_⟩, ?_, ?_, ?_⟩
  · intro k hk hku
    rw [hclu] at hku
    rw [hv]
    by_cases e : k = i
    · subst e; rw [act_self]; exact (hr hk).1
    · rw [act_other _ _ _ e]; exact h.run k hk hku
  · intro k hk hku s hm
    rw [hclu] at hku
    rw [hv] at hm
    rcases (act_net ..).1 hm with hm | hm
    · exact h.calm k hk hku s (hsub _ hm)
    · by_cases hi : i ∈ R
      · have := (hr hi).2.2.2.1 _ _ hm; simp at this
      · have := (hq hi).2.2.1 _ _ hm; simp at this
  · intro k
    rw [hv]
    by_cases e : k = i
    · subst e; rw [act_self]
      by_cases hi : k ∈ R
      · exact (hr hi).2.1
      · exact (hq hi).2.1
    · rw [act_other _ _ _ e]
  · intro k b hb
    rw [hv] at hb
    by_cases e : k = i
    · subst e; rw [act_self] at hb
      by_cases hi : k ∈ R
      · exact (hr hi).2.2.1 b hb
      · rw [(hq hi).1.live] at hb; simp at hb
    · rw [act_other _ _ _ e] at hb; exact hb
  · rw [hstops]
    have : ∀ b, .stopActor b ∉ ((w.cl.mgr i).step (fun _ => true) mop).2 := by
      by_cases hi : i ∈ R
      · exact (hr hi).2.2.2.2.2
      · intro b hb
        rcases (hq hi).2.2.2.1 _ hb with ⟨_, _, h⟩ | ⟨_, _, h⟩ | ⟨_, _, h⟩ <;> cases h
    generalize ((w.cl.mgr i).step (fun _ => true) mop).2 = xs at this
    have hx : xs.filterMap (stopsOf i) = [] := by
      rw [List.filterMap_eq_nil_iff]
      intro x hx
      cases x <;> first | rfl | exact absurd hx (this _)
    rw [hx, List.append_nil]

/-- the instances `inst` of the nodes of `R` do not end by themselves. -/
def Keeping (R : List Nat) (inst : Nat → Nat) : JOp → Prop
  | .exits i a => i ∈ R → a ≠ inst i
  | _ => True

theorem up_back {w : Sys} {op : JOp} {i : Nat} (h : Up (w.step C op).clu i) : Up w.clu i :=
  Classical.byContradiction fun hn => down_stays hn op h

theorem Tended.step {R : List Nat} {inst : Nat → Nat} {w : Sys} (hg : Good C w.clu) (hups : Ups w)
    (h : Tended R inst w) {op : JOp} (hgs : GentleStep C R w op) (hlast : Keeping R inst op) :
    Tended R inst (w.step C op) ∧ (∀ k, ((w.step C op).cl.mgr k).fresh = (w.cl.mgr k).fresh) ∧
      (∀ k b, b ∈ ((w.step C op).cl.mgr k).live → b ∈ (w.cl.mgr k).live) ∧ (w.step C op).stops = w.stops := by
  have ht := step_trans C w op
  have hback : ∀ i, Up (w.step C op).clu i → Up w.clu i := fun i => up_back
  generalize w.step C op = w' at ht hback ⊢
  have hl := h.lone.step hg ht hgs
  have hsp : ∀ i ∈ R, Up w.clu i → Spent w i := by
    intro i hi hu
    apply hups.spent
    intro p hp
    rw [(h.run i hi hu).st] at hp
    cases hp
  cases ht with
  | beat o => exact ⟨⟨hl, fun i hi hu => h.run i hi (hback i hu), fun i hi hu => h.calm i hi (hback i hu)⟩, fun _ => rfl, fun _ _ hb => hb, rfl⟩
  | added k j => exact ⟨⟨hl, h.run, h.calm⟩, fun _ => rfl, fun _ _ hb => hb, rfl⟩
  | removed k j => exact ⟨⟨hl, h.run, h.calm⟩, fun _ => rfl, fun _ _ hb => hb, rfl⟩
  | build i => exact ⟨⟨hl, h.run, h.calm⟩, fun _ => rfl, fun _ _ hb => hb, rfl⟩
  | idle => exact ⟨h, fun _ => rfl, fun _ _ hb => hb, rfl⟩
  | miss i e hm hin => exact ⟨⟨hl, h.run, h.calm⟩, fun _ => rfl, fun _ _ hb => hb, rfl⟩
  | lose i m hm hin =>
    exact ⟨⟨hl, h.run, fun k hk hu s hx => h.calm k hk hu s (List.mem_of_mem_erase hx)⟩, fun _ => rfl, fun _ _ hb => hb, rfl⟩
  | hear i e ha hm hin =>
    refine h.act hl (i := i) (net0 := w.cl.net) (mop := e.op) ha rfl rfl (fun _ hx => hx) (op_child e) ?_ ?_ ?_ ?_ ?_ rfl
    · intro hi l ms he
      cases e <;> simp [News.op] at he
      obtain ⟨rfl, rfl⟩ := he
      exact spent_no (hsp i hi ha) _ _ hin
    · intro _ c he; cases e <;> simp [News.op] at he
    · intro hi ms he
      cases e <;> simp [News.op] at he
      obtain ⟨rfl, rfl⟩ := he
      exact h.lone.up _ _ hi hin
    · intro hi he
      cases e <;> simp [News.op] at he
      subst he
      exact h.lone.led _ hi hin
    · intro m he; cases e <;> simp [News.op] at he
  | recv i m ha hm hin =>
    exact h.act hl (i := i) (net0 := w.cl.net.erase (i, m)) (mop := .recv m) ha rfl rfl (fun _ hx => List.mem_of_mem_erase hx)
      (by simp) (by simp) (by simp) (by simp) (by simp) (by rintro _ ⟨rfl⟩; exact hin) rfl
  | own op i mop ha hm ho =>
    have hp := own_plain ho
    refine h.act hl (i := i) (net0 := w.cl.net) (mop := mop) ha rfl rfl (fun _ hx => hx) hp.2.2.2.2.1
      (fun _ l ms => hp.2.2.1 l ms) ?_ (fun _ ms => hp.2.2.1 _ ms) (fun _ => hp.2.2.2.1 _) (fun m he => absurd he (hp.2.1 m)) rfl
    intro hi c he
    have := hp.2.2.2.2.2.2 _ _ he
    subst this
    exact hlast hi rfl

theorem Tended.runFrom (henv : ∀ t d, C.env.addOk t d = true) {R : List Nat} {inst : Nat → Nat} (ops : List JOp)
    {w : Sys} (hg : Good C w.clu) (hu : Ups w) (h : Tended R inst w) (hgs : Gentle C R w ops)
    (hlast : ∀ op ∈ ops, Keeping R inst op) :
    Tended R inst (w.runFrom C ops) ∧ (∀ k, ((w.runFrom C ops).cl.mgr k).fresh = (w.cl.mgr k).fresh) ∧
      (∀ k b, b ∈ ((w.runFrom C ops).cl.mgr k).live → b ∈ (w.cl.mgr k).live) ∧ (w.runFrom C ops).stops = w.stops := by
  induction ops generalizing w with
  | nil => exact ⟨h, fun _ => rfl, fun _ _ hb => hb, rfl⟩
  | cons op ops ih =>
    obtain ⟨h1, h2, h3, h4⟩ := h.step hg hu hgs.1 (hlast op (by simp))
    obtain ⟨i1, i2, i3, i4⟩ := ih (good_step henv hg op) (hu.step hg (step_trans C w op)) h1 hgs.2 (fun o ho => hlast o (by simp [ho]))
    exact ⟨i1, fun k => by rw [← h2 k]; exact i2 k, fun k b hb => h3 k b (i3 k b hb), by rw [← h4]; exact i4⟩

theorem up_run {L : Nat} {inst : Nat → Nat} {R : List Nat} (hL : L ∈ R) (ops : List JOp) {w : Sys} (h : Up w.clu L)
    (hlast : ∀ op ∈ ops, Lasting R inst op) : Up (w.runFrom C ops).clu L := by
  induction ops generalizing w with
  | nil => exact h
  | cons op ops ih =>
    refine ih ?_ (fun o ho => hlast o (by simp [ho]))
    rw [step_clu]
    cases op with
    | beat o =>
      refine step_up h ?_
      rintro rfl
      have h1 : Lasting R inst (.beat (.stop L)) := hlast _ (by simp)
      exact h1 hL
    | _ => exact h

theorem down_run {Y : Nat} (ops : List JOp) {w : Sys} (h : ¬ Up w.clu Y) : ¬ Up (w.runFrom C ops).clu Y := by
  induction ops generalizing w with
  | nil => exact h
  | cons op ops ih => exact ih (down_stays h op)

end Verif.Singleton.Joint
