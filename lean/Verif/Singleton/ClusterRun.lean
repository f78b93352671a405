import Verif.Singleton.ClusterSteps
import Verif.Singleton.ClusterSpec

/-!
# Every step of the cluster keeps the invariant
-/

namespace Verif.Singleton

variable {nodes : List Nat} {w : Cl}

theorem beginStarting_eq (σ : Mgr) :
    ∃ k, k = (if σ.managers.length = 0 then 1 else 0) ∧ σ.beginStarting.1 = σ.begun k ∧
      σ.beginStarting.2.filterMap MOut.msg? = requests σ.self σ.managers := by
  refine ⟨_, rfl, ?_⟩
  unfold Mgr.beginStarting
  split
  · rename_i h
    have h0 := List.length_eq_zero_iff.1 h
    refine ⟨rfl, ?_⟩
    rw [h0]; rfl
  · refine ⟨rfl, ?_⟩
    simp only [Mgr.notifyManagers, requests, List.filterMap_map]
    have : (MOut.msg? ∘ fun n => MOut.send n (.request σ.self)) = fun n => some (n, MMsg.request σ.self) := rfl
    rw [this, List.filterMap_eq_map']

theorem notifyManagers_msgs (σ : Mgr) (m : MMsg) :
    (σ.notifyManagers m).filterMap MOut.msg? = σ.managers.map fun n => (n, m) := by
  simp only [Mgr.notifyManagers, List.filterMap_map]
  have : (MOut.msg? ∘ fun n => MOut.send n m) = fun n => some (n, m) := rfl
  rw [this, List.filterMap_eq_map']

theorem addManagers_spec (sel : Nat → Bool) (self : Nat) (ms ns : List Nat) (hn : ms.Nodup) :
    (addManagers sel self ms ns).Nodup ∧
      ∀ n, n ∈ addManagers sel self ms ns ↔ n ∈ ms ∨ (n ∈ ns ∧ n ≠ self ∧ sel n = true) := by
  unfold addManagers
  induction ns generalizing ms with
  | nil => simp [hn]
  | cons x ns ih =>
    simp only [List.foldl_cons]
    by_cases hx : x = self ∨ sel x = false
    · rw [if_pos hx]
      refine ⟨(ih ms hn).1, fun n => ?_⟩
      rw [(ih ms hn).2]
      constructor
      · rintro (h | ⟨h1, h2⟩)
        · exact .inl h
        · exact .inr ⟨List.mem_cons_of_mem _ h1, h2⟩
      · rintro (h | ⟨h1, h2⟩)
        · exact .inl h
        · rcases List.mem_cons.1 h1 with rfl | h1
          · rcases hx with hx | hx
            · exact absurd hx h2.1
            · rw [hx] at h2; simp at h2
          · exact .inr ⟨h1, h2⟩
    · rw [if_neg hx]
      simp only [not_or, Bool.not_eq_false] at hx
      have hs : (setInsert ms x).Nodup ∧ ∀ n, n ∈ setInsert ms x ↔ n ∈ ms ∨ n = x := by
        unfold setInsert
        split
        · refine ⟨hn, fun n => ⟨.inl, ?_⟩⟩
          rintro (h | rfl)
          · exact h
          · assumption
        · rename_i hx'
          refine ⟨?_, by simp⟩
          rw [List.nodup_append]
          refine ⟨hn, by simp, ?_⟩
          intro a ha b hb
          simp only [List.mem_singleton] at hb
          subst hb; rintro rfl; exact hx' ha
      refine ⟨(ih _ hs.1).1, fun n => ?_⟩
      rw [(ih _ hs.1).2, hs.2]
      constructor
      · rintro ((h | rfl) | ⟨h1, h2⟩)
        · exact .inl h
        · exact .inr ⟨by simp, hx⟩
        · exact .inr ⟨List.mem_cons_of_mem _ h1, h2⟩
      · rintro (h | ⟨h1, h2⟩)
        · exact .inl (.inl h)
        · rcases List.mem_cons.1 h1 with rfl | h1
          · exact .inl (.inr rfl)
          · exact .inr ⟨h1, h2⟩

/-- A node that knows `X` answers it. -/
theorem Inv.grant' (h : Inv nodes w) {d X : Nat} (hd : d ∈ nodes) (hX : X ∈ nodes)
    (hne : X ≠ d) (hs : (w.mgr X).st.isStarting = true) (ht : w.tok X d = 0) (hb : ¬ (w.mgr d).busy)
    (hc : (w.mgr d).st.isStarting = false) (σ : Mgr) (hσ : σ.self = d) :
    Inv nodes (w.tell ((σ.notifyManager X (.ack σ.self)).filterMap MOut.msg?)) := by
  unfold Mgr.notifyManager
  split
  · rw [hσ]
    exact h.grant hd hX hne hs ht hb hc
  · have : w.tell ([].filterMap MOut.msg?) = w := by simp [Cl.tell]
    rw [this]; exact h

theorem Cl.at_eq (w : Cl) (d : Nat) (p : Mgr × List MOut) : w.at d p = (w.upd d p.1).tell (p.2.filterMap MOut.msg?) := rfl

theorem Cl.at_same (w : Cl) (d : Nat) : w.at d (w.mgr d, []) = w := by
  have h : w.setMgr d (w.mgr d) = w.mgr := by
    funext n
    simp only [Cl.setMgr]
    split
    · rename_i e; rw [e]
    · rfl
  simp [Cl.at, h]

theorem Inv.onRequest (h : Inv nodes w) {d X : Nat} (hm : (d, MMsg.request X) ∈ w.net)
    (he : ¬ w.Early (.recv d (.request X))) :
    Inv nodes (Cl.at { w with net := w.net.erase (d, .request X) } d ((w.mgr d).onRequest X)) := by
  obtain ⟨hs, hr1, hh0, ha0, hc0⟩ := h.req hm
  obtain ⟨hd, hX, hne⟩ := h.src _ _ _ hm rfl
  have h0 : Inv nodes { w with net := w.net.erase (d, .request X) } := h.shrink List.erase_sublist
  have ht : Cl.tok { w with net := w.net.erase (d, .request X) } X d = 0 := by
    unfold Cl.tok
    dsimp only
    have : (w.net.erase (d, MMsg.request X)).count (X, .ack d) ≤ w.net.count (X, .ack d) := List.erase_sublist.count_le _
    rw [List.count_erase_self, hh0, hc0]
    omega
  have hself := h.self d
  unfold Mgr.onRequest
  cases hst : (w.mgr d).st with
  | joining p =>
    simp only [MState.isRunning, Bool.false_eq_true, if_false, Mgr.grantLease, hst]
    have := h0.hold' hd hX hne hs ht (.inl ⟨p, hst, rfl⟩)
    simpa [Cl.at_eq, Cl.tell] using this
  | idle =>
    simp only [MState.isRunning, Bool.false_eq_true, if_false, Mgr.grantLease, hst]
    have := h0.grant' hd hX hne hs ht (h.k4 d (.inr hst)) (by rw [hst]; rfl) (w.mgr d) hself
    have e := Cl.at_same { w with net := w.net.erase (d, .request X) } d
    rw [Cl.at_eq] at e ⊢
    dsimp only at e ⊢
    simp only [List.filterMap_nil, Cl.tell, List.append_nil] at e
    rw [show Cl.upd { w with net := w.net.erase (d, .request X) } d (w.mgr d) = { w with net := w.net.erase (d, .request X) } from e]
    exact this
  | stopping a n =>
    simp only [MState.isRunning, Bool.false_eq_true, if_false, Mgr.grantLease, hst]
    have hb : ¬ (w.mgr d).busy := fun hb => he ⟨hm, ⟨a, n, hst⟩, hb⟩
    have := h0.grant' hd hX hne hs ht hb (by rw [hst]; rfl) (w.mgr d) hself
    have e := Cl.at_same { w with net := w.net.erase (d, .request X) } d
    rw [Cl.at_eq] at e ⊢
    dsimp only at e ⊢
    simp only [List.filterMap_nil, Cl.tell, List.append_nil] at e
    rw [show Cl.upd { w with net := w.net.erase (d, .request X) } d (w.mgr d) = { w with net := w.net.erase (d, .request X) } from e]
    exact this
  | running a =>
    simp only [MState.isRunning, if_true, Mgr.beginStopping, hst, MState.actor]
    have h1 := h0.hold' hd hX hne hs ht (.inr ⟨a, hst, rfl⟩)
    rw [Cl.at_eq]
    refine h1.noise ?_
    intro x hx
    simp only [List.filterMap_cons, MOut.msg?] at hx
    rw [notifyManagers_msgs] at hx
    obtain ⟨n, _, rfl⟩ := List.mem_map.1 hx
    rfl
  | starting l =>
    simp only [MState.isRunning, if_true, Mgr.beginStopping, hst, MState.actor]
    have e := Cl.at_same { w with net := w.net.erase (d, .request X) } d
    dsimp only at e
    rw [e]
    exact h0

theorem Inv.next (h : Inv nodes w) (child : Bool) (op : ClOp) (he : ¬ w.Early op) (ha : ¬ w.Again op) :
    Inv nodes (w.next nodes child op) := by
  unfold Cl.next
  split
  case isFalse => exact h
  rename_i hal
  cases op with
  | recv d m =>
    simp only [Cl.allows, Bool.and_eq_true, List.contains_eq_mem, decide_eq_true_eq] at hal
    obtain ⟨hd, hm⟩ := hal
    have h0 : Inv nodes { w with net := w.net.erase (d, m) } := h.shrink List.erase_sublist
    simp only [Cl.rest, ClOp.node, ClOp.op, Mgr.step]
    cases m with
    | request X => exact h.onRequest hm he
    | ack Y =>
      have := h.acked hm
      simpa [Cl.at_eq, Cl.tell, Mgr.recv] using this
    | started n =>
      have e := Cl.at_same { w with net := w.net.erase (d, .started n) } d
      simp only [Cl.at_eq, Mgr.recv, List.filterMap_cons, MOut.msg?, List.filterMap_nil] at e ⊢
      rw [e]; exact h0
    | stopped n =>
      have e := Cl.at_same { w with net := w.net.erase (d, .stopped n) } d
      simp only [Cl.at_eq, Mgr.recv, List.filterMap_cons, MOut.msg?, List.filterMap_nil] at e ⊢
      rw [e]; exact h0
  | nodeAdded d n =>
    simp only [Cl.allows, Bool.and_eq_true, List.contains_eq_mem, decide_eq_true_eq] at hal
    change Inv nodes (Cl.at w d ((w.mgr d).step (fun _ => true) (.nodeAdded n)))
    simp only [Mgr.step, Mgr.onNodeAdded]
    split
    · rename_i hc
      rw [h.self] at hc
      obtain ⟨h1, h2⟩ := h.addManager hal.2 hal.1 hc.1 hc.2.2
      have hg : (w.mgr d).greeting n = [] := by
        unfold Mgr.greeting
        cases hst : (w.mgr d).st <;> simp_all [MState.isJoining]
      rw [hg]
      simpa [Cl.at_eq, Cl.tell] using h1
    · rw [Cl.at_same]; exact h
  | leaderChanged d n =>
    simp only [Cl.allows, List.contains_eq_mem, decide_eq_true_eq, ClOp.node] at hal
    change Inv nodes (Cl.at w d ((w.mgr d).step (fun _ => true) (.leaderChanged n)))
    simp only [Mgr.step, Mgr.onLeaderChanged]
    by_cases hj : (w.mgr d).st.isJoining = true
    · rw [if_pos hj]
      exact (Cl.at_same w d).symm ▸ h
    · rw [if_neg hj]
      by_cases hc : n = (w.mgr d).self ∧ (w.mgr d).st.isRunning = false
      · rw [if_pos hc]
        obtain ⟨k, hk, e1, e2⟩ := beginStarting_eq (w.mgr d)
        rw [Cl.at_eq, e1, e2, h.self]
        have hns : (w.mgr d).st.isStarting = false := by
          cases hst : (w.mgr d).st <;> simp_all [MState.isRunning, MState.isStarting]
        refine h.begin hal hns ?_ (by simpa using hj) hk
        intro a e
        have := hc.2
        rw [e] at this; simp [MState.isRunning] at this
      · rw [if_neg hc]
        exact (Cl.at_same w d).symm ▸ h
  | memberUp d l =>
    simp only [Cl.allows, List.contains_eq_mem, decide_eq_true_eq, ClOp.node] at hal
    obtain ⟨p, hp⟩ : ∃ p, (w.mgr d).st = .joining p :=
      Classical.byContradiction fun hx => ha fun p hp => hx ⟨p, hp⟩
    change Inv nodes (Cl.at w d ((w.mgr d).step (fun _ => true) (.memberUp l nodes)))
    simp only [Mgr.step, Mgr.onMemberUp]
    have hself := h.self d
    obtain ⟨hnd, hmem⟩ := addManagers_spec (fun _ => true) (w.mgr d).self (w.mgr d).managers nodes (h.nodup d)
    have hkn : ∀ n ∈ addManagers (fun _ => true) (w.mgr d).self (w.mgr d).managers nodes, n ∈ nodes ∧ n ≠ d := by
      intro n hn
      rcases (hmem n).1 hn with hn | ⟨h1, h2, _⟩
      · exact h.known d n hn
      · rw [hself] at h2; exact ⟨h1, h2⟩
    have hall : d ∈ nodes → ∀ n ∈ nodes, n ≠ d → n ∈ addManagers (fun _ => true) (w.mgr d).self (w.mgr d).managers nodes :=
      fun _ n h1 h2 => (hmem n).2 (.inr ⟨h1, by rw [hself]; exact h2, rfl⟩)
    have hns : (w.mgr d).st.isStarting = false := by rw [hp]; rfl
    have hb := h.k4 d (.inl (by rw [hp]; rfl))
    generalize addManagers (fun _ => true) (w.mgr d).self (w.mgr d).managers nodes = ms at hnd hkn hall ⊢
    obtain ⟨h1, h1t⟩ := h.idle hns hb hnd hkn hall
    -- the acknowledgement that was due
    have h2 : Inv nodes ((w.upd d { w.mgr d with st := .idle, managers := ms }).tell
        ((Mgr.dueAck { w.mgr d with managers := ms }).filterMap MOut.msg?)) := by
      unfold Mgr.dueAck
      rw [show ({ w.mgr d with managers := ms } : Mgr).st = .joining p from hp]
      cases p with
      | none => simpa [Cl.tell] using h1
      | some X =>
        have hX1 : (w.mgr d).st.holds X = 1 := by rw [hp]; simp [MState.holds]
        obtain ⟨q1, q2, q3, q4, q5⟩ := h.hold (X := X) (d := d) (by omega)
        obtain ⟨_, hXn, hXd⟩ := h.held d X (by omega)
        have ht : w.tok X d = 1 := by unfold Cl.tok; omega
        refine h1.grant' hal hXn hXd ?_ ?_ ?_ ?_ { w.mgr d with managers := ms } hself
        · rw [Cl.upd_other _ _ hXd]; exact q1
        · have := h1t X; omega
        · rw [Cl.upd_self]; exact hb
        · rw [Cl.upd_self]; rfl
    by_cases hl : l = (w.mgr d).self
    · rw [if_pos hl]
      obtain ⟨k, hk, e1, e2⟩ := beginStarting_eq { w.mgr d with managers := ms, st := .idle }
      have hmg : ((w.upd d { w.mgr d with st := .idle, managers := ms }).tell
        ((Mgr.dueAck { w.mgr d with managers := ms }).filterMap MOut.msg?)).mgr d = { w.mgr d with managers := ms, st := .idle } :=
        Cl.upd_self _ _ _
      have := h2.begin (d := d) (k := k) hal (by rw [hmg]; rfl) (by rw [hmg]; simp) (by rw [hmg]; rfl) (by rw [hmg]; exact hk)
      rw [hmg] at this
      rw [Cl.at_eq]
      simp only [List.filterMap_append]
      rw [e1, e2]
      have hfin : ∀ (A B : List (Nat × MMsg)) (σ τ : Mgr), (w.upd d τ).tell (A ++ B) = (((w.upd d σ).tell A).upd d τ).tell B := by
        intro A B σ τ
        have := w.upd_upd d σ τ
        unfold Cl.upd at this
        simp only [Cl.mk.injEq, and_true] at this
        simp only [Cl.upd, Cl.tell, Cl.mk.injEq, List.append_assoc, and_true]
        exact this.symm
      rw [hfin _ _ { w.mgr d with st := .idle, managers := ms }]
      exact Eq.mp (congrArg (fun x => Inv nodes (Cl.tell _ (requests x _))) hself.symm) this
    · rw [if_neg hl, Cl.at_eq]
      exact h2
  | boot d =>
    simp only [Cl.allows, List.contains_eq_mem, decide_eq_true_eq, ClOp.node] at hal
    change Inv nodes (Cl.at w d ((w.mgr d).step (fun _ => true) (.boot)))
    simp only [Mgr.step]
    by_cases h0 : (w.mgr d).starts = 0
    · rw [if_pos h0]
      exact (Cl.at_same w d).symm ▸ h
    · rw [if_neg h0]
      have k2 := h.k2 d
      have k3 := h.k3 d (by omega)
      have hl : (w.mgr d).live = [] := Classical.byContradiction fun e => k3 (.inl e)
      have he' : (w.mgr d).ended = [] := Classical.byContradiction fun e => k3 (.inr e)
      have hr : (w.mgr d).results = [] := by rw [← List.length_eq_zero_iff]; omega
      have hc := h.k2' d (by omega)
      have := h.inst (σ := (w.mgr d).boot) hal rfl rfl rfl (by simp [Mgr.boot, hl, he']) (by simp [Mgr.boot, hr]; omega)
        (fun _ => hc) (by simp only [Mgr.boot]; omega) (fun _ => .inr hc) (by simp [Mgr.boot])
      simpa [Cl.at_eq, Cl.tell] using this
  | startFails d =>
    simp only [Cl.allows, List.contains_eq_mem, decide_eq_true_eq, ClOp.node] at hal
    change Inv nodes (Cl.at w d ((w.mgr d).step (fun _ => true) (.startFails)))
    simp only [Mgr.step]
    have k2 := h.k2 d
    have := h.inst (σ := { w.mgr d with starts := (w.mgr d).starts - 1 }) hal rfl rfl rfl (h.k1 d) (by dsimp only; omega)
      (fun e => h.k2' d (by dsimp only at e; omega)) (fun e => h.k3 d (by dsimp only at e; omega)) (fun e => .inl e)
      (fun e1 e2 => ⟨e1, e2⟩)
    simpa [Cl.at_eq, Cl.tell] using this
  | started d a =>
    simp only [Cl.allows, List.contains_eq_mem, decide_eq_true_eq, ClOp.node] at hal
    change Inv nodes (Cl.at w d ((w.mgr d).step (fun _ => true) (.started a)))
    simp only [Mgr.step]
    by_cases hm : a ∈ (w.mgr d).results
    · rw [if_pos hm]
      have := h.ran hal hm
      rw [Cl.at_eq]
      refine this.noise ?_
      intro x hx
      simp only [Mgr.onStarted, List.filterMap_cons, MOut.msg?] at hx
      rw [notifyManagers_msgs] at hx
      obtain ⟨n, _, rfl⟩ := List.mem_map.1 hx
      rfl
    · rw [if_neg hm]
      exact (Cl.at_same w d).symm ▸ h
  | exits d a =>
    simp only [Cl.allows, List.contains_eq_mem, decide_eq_true_eq, ClOp.node] at hal
    change Inv nodes (Cl.at w d ((w.mgr d).step (fun _ => true) (.exits a child)))
    simp only [Mgr.step]
    by_cases hm : a ∈ (w.mgr d).live
    · rw [if_pos hm]
      have hb : (w.mgr d).busy := .inl (List.ne_nil_of_mem hm)
      have hlen := List.length_erase_of_mem hm
      have hpos := List.length_pos_of_mem hm
      have k1 := h.k1 d
      have := h.inst (σ := { w.mgr d with live := (w.mgr d).live.erase a, ended := if child then (w.mgr d).ended ++ [a] else (w.mgr d).ended })
        hal rfl rfl rfl (by cases child <;> simp <;> omega)
        (h.k2 d) (h.k2' d) (fun e => absurd hb (h.k3 d e)) (fun _ => .inl hb) (fun _ e => ⟨hb, e⟩)
      simpa [Cl.at_eq, Cl.tell] using this
    · rw [if_neg hm]
      exact (Cl.at_same w d).symm ▸ h
  | childStopped d a =>
    simp only [Cl.allows, List.contains_eq_mem, decide_eq_true_eq, ClOp.node] at hal
    change Inv nodes (Cl.at w d ((w.mgr d).step (fun _ => true) (.childStopped a)))
    simp only [Mgr.step]
    by_cases hm : a ∈ (w.mgr d).ended
    · rw [if_pos hm]
      have hb : (w.mgr d).busy := .inr (List.ne_nil_of_mem hm)
      have hlen := List.length_erase_of_mem hm
      have hpos := List.length_pos_of_mem hm
      have k1 := h.k1 d
      have h1 := h.inst (σ := { w.mgr d with ended := (w.mgr d).ended.erase a })
        hal rfl rfl rfl (by dsimp only; omega) (h.k2 d) (h.k2' d) (fun e => absurd hb (h.k3 d e)) (fun _ => .inl hb)
        (fun _ e => ⟨hb, e⟩)
      have hnb : ¬ Mgr.busy { w.mgr d with ended := (w.mgr d).ended.erase a } := by
        rintro (e | e)
        · exact e (List.length_eq_zero_iff.1 (by dsimp only; omega))
        · exact e (List.length_eq_zero_iff.1 (by dsimp only; omega))
      have hme := Cl.upd_self w d { w.mgr d with ended := (w.mgr d).ended.erase a }
      unfold Mgr.onChildStopped
      cases hst : (w.mgr d).st with
      | stopping b X =>
        have hst' : ({ w.mgr d with ended := (w.mgr d).ended.erase a } : Mgr).st = .stopping b X := hst
        simp only [Mgr.grantLease]
        have hX1 : (w.mgr d).st.holds X = 1 := by rw [hst]; simp [MState.holds]
        have f := h1.fits d
        rw [hme] at f
        obtain ⟨q1, q2, q3, q4, q5⟩ := h1.hold (X := X) (d := d) (by rw [hme]; show 0 < (w.mgr d).st.holds X; omega)
        obtain ⟨_, hXn, hXd⟩ := h.held d X (by omega)
        obtain ⟨h2, h2t⟩ := h1.idle (d := d) (ms := (w.mgr d).managers) (by rw [hme]; show (w.mgr d).st.isStarting = false; rw [hst]; rfl)
          (by rw [hme]; exact hnb) (h.nodup d) (h.known d) (fun hd => h.all d hd (by rw [hst]; rfl))
        rw [hme, Cl.upd_upd] at h2 h2t
        have h3 := h2.grant' hal hXn hXd (by rw [Cl.upd_other _ _ hXd] at q1 ⊢; exact q1) (by
          have e1 := h2t X
          have e2 : Cl.tok (w.upd d { w.mgr d with ended := (w.mgr d).ended.erase a }) X d = 1 := by unfold Cl.tok; omega
          rw [e2] at e1
          have e3 : ({ w.mgr d with ended := (w.mgr d).ended.erase a } : Mgr).st.holds X = 1 := hX1
          omega) (by rw [Cl.upd_self]; exact hnb) (by rw [Cl.upd_self]; rfl)
          { w.mgr d with ended := (w.mgr d).ended.erase a } (h.self d)
        exact h3
      | _ => simpa [hst, Cl.at_eq, Cl.tell] using h1
    · rw [if_neg hm]
      exact (Cl.at_same w d).symm ▸ h

theorem Inv.run (h : Inv nodes w) (child : Bool) (ops : List ClOp) (ho : w.Orderly nodes child ops) :
    Inv nodes (w.run nodes child ops) := by
  induction ops generalizing w with
  | nil => exact h
  | cons op ops ih => exact ih (h.next child op ho.1 ho.2.1) ho.2.2

/-- at most one node is busy. -/
def Cl.Alone (w : Cl) : Prop := ∀ X Y, (w.mgr X).busy → (w.mgr Y).busy → X = Y

theorem Mgr.onChildStopped_live (σ : Mgr) : σ.onChildStopped.1.live = σ.live ∧ σ.onChildStopped.1.ended = σ.ended := by
  unfold Mgr.onChildStopped Mgr.grantLease
  split <;> (try split) <;> simp_all

/-- Only the start of an instance makes a node busy. -/
theorem Mgr.busy_step (sel : Nat → Bool) (σ : Mgr) (op : MOp) (hop : op ≠ .boot) (hb : (σ.step sel op).1.busy) : σ.busy := by
  have frame : ∀ τ : Mgr, τ.live = σ.live → τ.ended = σ.ended → τ.busy → σ.busy := by
    intro τ h1 h2; unfold Mgr.busy; rw [h1, h2]; exact id
  cases op with
  | boot => exact absurd rfl hop
  | memberUp l ns =>
    refine frame _ ?_ ?_ hb <;>
      (simp only [Mgr.step, Mgr.onMemberUp, Mgr.beginStarting, Mgr.startActor]; split <;> (try split) <;> rfl)
  | leaderChanged n =>
    refine frame _ ?_ ?_ hb <;>
      (simp only [Mgr.step, Mgr.onLeaderChanged, Mgr.beginStarting, Mgr.startActor]; split <;> (try split) <;> (try split) <;> rfl)
  | nodeAdded n =>
    refine frame _ ?_ ?_ hb <;> (simp only [Mgr.step, Mgr.onNodeAdded]; split <;> rfl)
  | nodeRemoved n =>
    refine frame _ ?_ ?_ hb <;>
      (simp only [Mgr.step, Mgr.onNodeRemoved, Mgr.checkAcks, Mgr.startActor]; split <;> (try split) <;> rfl)
  | recv m =>
    refine frame _ ?_ ?_ hb <;> cases m <;>
      (simp only [Mgr.step, Mgr.recv, Mgr.onRequest, Mgr.beginStopping, Mgr.grantLease, Mgr.onAck, Mgr.checkAcks, Mgr.startActor]
       try split
       all_goals try split
       all_goals try rfl)
  | startFails => exact hb
  | started a =>
    simp only [Mgr.step] at hb
    split at hb
    · exact hb
    · exact hb
  | exits a child =>
    simp only [Mgr.step] at hb
    split at hb
    · rename_i hm; exact .inl (List.ne_nil_of_mem hm)
    · exact hb
  | childStopped a =>
    simp only [Mgr.step] at hb
    split at hb
    · rename_i hm; exact .inr (List.ne_nil_of_mem hm)
    · exact hb

theorem ClOp.op_boot {child : Bool} {op : ClOp} (h : op.op nodes child = .boot) : op = .boot op.node := by
  cases op <;> simp_all [ClOp.op, ClOp.node]

theorem Cl.next_mgr (w : Cl) (child : Bool) (op : ClOp) (X : Nat) :
    (w.next nodes child op).mgr X = w.mgr X ∨
      (X = op.node ∧ w.allows nodes op = true ∧ (w.next nodes child op).mgr X = ((w.mgr X).step (fun _ => true) (op.op nodes child)).1) := by
  unfold Cl.next
  split
  · rename_i ha
    by_cases h : X = op.node
    · subst h
      refine .inr ⟨rfl, ha, ?_⟩
      simp [Cl.at, Cl.setMgr]
    · left; simp [Cl.at, Cl.setMgr, h]
  · exact .inl rfl

theorem Inv.alone (h : Inv nodes w) (ha : w.Alone) (child : Bool) (op : ClOp) : (w.next nodes child op).Alone := by
  have hback : ∀ X, ((w.next nodes child op).mgr X).busy → (w.mgr X).busy ∨
      (op = .boot X ∧ X ∈ nodes ∧ (w.mgr X).starts ≠ 0) := by
    intro X hX
    rcases w.next_mgr (nodes := nodes) child op X with e | ⟨e1, e2, e3⟩
    · rw [e] at hX; exact .inl hX
    · by_cases hb : op.op nodes child = .boot
      · have hop := ClOp.op_boot hb
        rw [← e1] at hop
        by_cases hs : (w.mgr X).starts = 0
        · rw [e3, hb] at hX
          simp only [Mgr.step, if_pos hs] at hX
          exact .inl hX
        · refine .inr ⟨hop, ?_, hs⟩
          rw [hop] at e2
          simpa [Cl.allows, ClOp.node] using e2
      · rw [e3] at hX
        exact .inl (Mgr.busy_step _ _ _ hb hX)
  have hkey : ∀ X Y, X ≠ Y → (w.mgr X).busy → op = .boot Y → Y ∈ nodes → (w.mgr Y).starts ≠ 0 → False := by
    intro X Y hne hX hop hY hs
    have hc := h.k2' Y (by omega)
    have hj : (w.mgr Y).st.isJoining = false := by
      cases hst : (w.mgr Y).st <;> simp_all [Mgr.complete, MState.isStarting, MState.isJoining]
    have hm := h.all Y hY hj X (h.mem X hX) hne
    exact h.k6 X (.inl hX) Y (.inr (hc.2 X hm))
  intro X Y hX hY
  refine Classical.byContradiction fun hne => ?_
  rcases hback X hX with hX | ⟨x1, x2, x3⟩ <;> rcases hback Y hY with hY | ⟨y1, y2, y3⟩
  · exact hne (ha X Y hX hY)
  · exact hkey X Y hne hX y1 y2 y3
  · exact hkey Y X (Ne.symm hne) hY x1 x2 x3
  · rw [x1] at y1
    exact hne (by injection y1)

theorem Inv.aloneRun (h : Inv nodes w) (ha : w.Alone) (child : Bool) (ops : List ClOp) (ho : w.Orderly nodes child ops) :
    (w.run nodes child ops).Alone := by
  induction ops generalizing w with
  | nil => exact ha
  | cons op ops ih => exact ih (h.next child op ho.1 ho.2.1) (h.alone ha child op) ho.2.2

/-- With two nodes nobody is asked twice. -/
theorem Inv.notEarly (h : Inv nodes w) (h2 : nodes.length ≤ 2) (op : ClOp) : ¬ w.Early op := by
  cases op with
  | recv d m =>
    cases m with
    | request X =>
      rintro ⟨hm, ⟨a, n, hst⟩, _⟩
      obtain ⟨hd, hX, hXd⟩ := h.src _ _ _ hm rfl
      have hr := h.req hm
      have hhold : 0 < (w.mgr d).st.holds n := by rw [hst]; simp [MState.holds]
      obtain ⟨_, hn', hnd⟩ := h.held d n hhold
      have hne : X ≠ n := by
        rintro rfl
        rw [hr.2.2.1] at hhold; omega
      match nodes, h2 with
      | [], _ => simp at hd
      | [x], _ => simp at hd hX; exact hXd (hX.trans hd.symm)
      | [x, y], _ =>
        simp only [List.mem_cons, List.not_mem_nil, or_false] at hd hX hn'
        omega
    | _ => exact id
  | _ => exact id

theorem Inv.orderly (h : Inv nodes w) (h2 : nodes.length ≤ 2) (child : Bool) (ops : List ClOp)
    (ho : w.UpOnce nodes child ops) : w.Orderly nodes child ops := by
  induction ops generalizing w with
  | nil => trivial
  | cons op ops ih =>
    have he := h.notEarly h2 op
    exact ⟨he, ho.1, ih (h.next child op he ho.1) ho.2⟩

/-! A manager that stops its instance for another node, and is never told that it has ended. -/

/-- `A` owes `B` an acknowledgement it will never give. -/
structure Stuck (A B : Nat) (w : Cl) : Prop where
  b1 : (w.mgr B).st.isStarting = true
  b2 : A ∉ (w.mgr B).st.acked
  a1 : (∃ a, (w.mgr A).st = .stopping a B) ∨ ((w.mgr A).st.isStarting = true ∧ B ∉ (w.mgr A).st.acked)
  n1 : (A, MMsg.request B) ∉ w.net
  n2 : (B, MMsg.ack A) ∉ w.net
  n3 : (A, MMsg.ack B) ∉ w.net
  e : (w.mgr A).ended = []

theorem Inv.noStart (h : Inv nodes w) {X Y : Nat} (hX : X ∈ nodes) (hY : Y ∈ nodes) (hne : X ≠ Y)
    (hb : (w.mgr X).st.isStarting = true → Y ∉ (w.mgr X).st.acked) : (w.mgr X).starts = 0 ∧ (w.mgr X).results = [] := by
  have : (w.mgr X).starts + (w.mgr X).results.length = 0 := by
    refine Classical.byContradiction fun hs => ?_
    have hc := h.k2' X (by omega)
    have hj : (w.mgr X).st.isJoining = false := by
      cases hst : (w.mgr X).st <;> simp_all [Mgr.complete, MState.isStarting, MState.isJoining]
    exact hb hc.1 (hc.2 Y (h.all X hX hj Y hY (Ne.symm hne)))
  exact ⟨by omega, List.length_eq_zero_iff.1 (by omega)⟩

/-- requests and acknowledgements carry the node that sends them. -/
theorem Mgr.out_src (sel : Nat → Bool) (σ : Mgr) (op : MOp) {n s : Nat} {m : MMsg}
    (hm : (n, m) ∈ (σ.step sel op).2.filterMap MOut.msg?) (hs : m.src? = some s) : s = σ.self := by
  have hall : ∀ x k, (n, m) ∈ (σ.notifyManager x k).filterMap MOut.msg? → m = k := by
    intro x k hx
    unfold Mgr.notifyManager at hx
    split at hx
    · simp [MOut.msg?] at hx; exact hx.2
    · simp at hx
  have hall' : ∀ (τ : Mgr) k, (n, m) ∈ (τ.notifyManagers k).filterMap MOut.msg? → m = k := by
    intro τ k hx
    rw [notifyManagers_msgs] at hx
    obtain ⟨_, _, e⟩ := List.mem_map.1 hx
    injection e with _ e; exact e.symm
  have hreq : ∀ (τ : Mgr), (n, m) ∈ (τ.beginStarting.2).filterMap MOut.msg? → m = .request τ.self := by
    intro τ hx
    unfold Mgr.beginStarting at hx
    split at hx
    · simp at hx
    · exact hall' _ _ hx
  have hdue : ∀ (τ : Mgr), (n, m) ∈ (τ.dueAck).filterMap MOut.msg? → m = .ack τ.self := by
    intro τ hx
    unfold Mgr.dueAck Mgr.notifyManager at hx
    split at hx
    · split at hx
      · simp [MOut.msg?] at hx; exact hx.2
      · simp at hx
    · simp at hx
  have hgr : ∀ (τ : Mgr) x, (n, m) ∈ ((τ.grantLease x).2).filterMap MOut.msg? → m = .ack τ.self := by
    intro τ x hx
    unfold Mgr.grantLease Mgr.notifyManager at hx
    split at hx
    · simp at hx
    · dsimp only at hx
      split at hx
      · simp [MOut.msg?] at hx; exact hx.2
      · simp at hx
  have hsrc : ∀ {k : MMsg} {s' : Nat}, m = k → k.src? = some s' → s = s' := by
    rintro k s' rfl e; rw [hs] at e; injection e
  have hnone : ∀ {k : MMsg}, m = k → k.src? = none → False := by
    rintro k rfl e; rw [hs] at e; cases e
  cases op with
  | memberUp l ns =>
    simp only [Mgr.step, Mgr.onMemberUp] at hm
    split at hm
    · simp only [List.filterMap_append, List.mem_append] at hm
      rcases hm with hm | hm
      · exact hsrc (hdue _ hm) rfl
      · exact hsrc (hreq _ hm) rfl
    · exact hsrc (hdue _ hm) rfl
  | leaderChanged x =>
    simp only [Mgr.step, Mgr.onLeaderChanged] at hm
    split at hm
    · simp at hm
    · split at hm
      · exact hsrc (hreq _ hm) rfl
      · simp at hm
  | nodeAdded x =>
    simp only [Mgr.step, Mgr.onNodeAdded] at hm
    split at hm
    · unfold Mgr.greeting at hm
      dsimp only at hm
      split at hm
      · simp [MOut.msg?] at hm; exact hsrc hm.2 rfl
      · simp [MOut.msg?] at hm; exact (hnone hm.2 rfl).elim
      · simp at hm
    · simp at hm
  | nodeRemoved x => simp [Mgr.step] at hm
  | recv k =>
    cases k with
    | request x =>
      simp only [Mgr.step, Mgr.recv, Mgr.onRequest] at hm
      split at hm
      · unfold Mgr.beginStopping at hm
        split at hm
        · simp at hm
        · simp only [List.filterMap_cons, MOut.msg?] at hm
          exact (hnone (hall' _ _ hm) rfl).elim
      · exact hsrc (hgr _ _ hm) rfl
    | _ => simp [Mgr.step, Mgr.recv, MOut.msg?] at hm
  | boot =>
    simp only [Mgr.step] at hm
    split at hm <;> simp at hm
  | startFails => simp [Mgr.step] at hm
  | started a =>
    simp only [Mgr.step] at hm
    split at hm
    · simp only [Mgr.onStarted, List.filterMap_cons, MOut.msg?] at hm
      exact (hnone (hall' _ _ hm) rfl).elim
    · simp at hm
  | exits a c =>
    simp only [Mgr.step] at hm
    split at hm <;> simp at hm
  | childStopped a =>
    simp only [Mgr.step] at hm
    split at hm
    · unfold Mgr.onChildStopped at hm
      split at hm
      · exact hsrc (hgr _ _ hm) rfl
      · simp at hm
    · simp at hm

/-- the node that waits. -/
theorem Mgr.waits (sel : Nat → Bool) {σ : Mgr} {A : Nat} (op : MOp) (h1 : σ.st.isStarting = true) (h2 : A ∉ σ.st.acked)
    (h3 : σ.starts = 0) (h4 : σ.results = []) (h5 : A ∈ σ.managers) (o1 : ∀ l ns, op ≠ .memberUp l ns)
    (o2 : op ≠ .recv (.ack A)) (o3 : ∀ n, op ≠ .nodeRemoved n) :
    (σ.step sel op).1.st.isStarting = true ∧ A ∉ (σ.step sel op).1.st.acked ∧
      (σ.step sel op).1.fresh = σ.fresh ∧
      ∀ s, (A, MMsg.request s) ∉ (σ.step sel op).2.filterMap MOut.msg? ∧ (A, MMsg.ack s) ∉ (σ.step sel op).2.filterMap MOut.msg? := by
  obtain ⟨l, hl⟩ : ∃ l, σ.st = .starting l := by
    cases hst : σ.st <;> simp_all [MState.isStarting]
  have hA : A ∉ l := by rw [hl] at h2; exact h2
  cases op with
  | memberUp l ns => exact absurd rfl (o1 l ns)
  | nodeRemoved n => exact absurd rfl (o3 n)
  | leaderChanged n => simp [Mgr.step, Mgr.onLeaderChanged, hl, MState.isJoining, MState.isRunning, MState.isStarting, MState.acked, hA]
  | nodeAdded n =>
    simp only [Mgr.step, Mgr.onNodeAdded]
    split
    · rename_i hc
      have : A ≠ n := by rintro rfl; exact hc.2.2 h5
      simp [hl, Mgr.greeting, MState.isStarting, MState.acked, hA, MOut.msg?, this]
    · simp [hl, MState.isStarting, MState.acked, hA]
  | recv m =>
    cases m with
    | request x => simp [Mgr.step, Mgr.recv, Mgr.onRequest, Mgr.beginStopping, hl, MState.isRunning, MState.actor, MState.isStarting, MState.acked, hA]
    | ack x =>
      have hx : A ≠ x := by rintro rfl; exact o2 rfl
      have hx' : A ∉ setInsert l x := by
        unfold setInsert; split
        · exact hA
        · simp [hA, hx]
      simp only [Mgr.step, Mgr.recv, Mgr.onAck, hl, Mgr.checkAcks, Mgr.startActor]
      split <;> simp [MState.isStarting, MState.acked, hx']
    | _ => simp [Mgr.step, Mgr.recv, hl, MState.isStarting, MState.acked, hA, MOut.msg?]
  | boot => simp [Mgr.step, h3, hl, MState.isStarting, MState.acked, hA]
  | startFails => simp [Mgr.step, hl, MState.isStarting, MState.acked, hA]
  | started a => simp [Mgr.step, h4, hl, MState.isStarting, MState.acked, hA]
  | exits a c =>
    simp only [Mgr.step]
    split <;> simp [hl, MState.isStarting, MState.acked, hA]
  | childStopped a =>
    simp only [Mgr.step]
    split <;> simp [Mgr.onChildStopped, hl, MState.isStarting, MState.acked, hA]

/-- the node that should give the lease. -/
theorem Mgr.owes (sel : Nat → Bool) {σ : Mgr} {B : Nat} (op : MOp)
    (h1 : (∃ a, σ.st = .stopping a B) ∨ (σ.st.isStarting = true ∧ B ∉ σ.st.acked))
    (h3 : σ.starts = 0) (h4 : σ.results = []) (h5 : σ.ended = []) (hm : B ∈ σ.managers)
    (o1 : ∀ l ns, op ≠ .memberUp l ns) (o2 : op ≠ .recv (.ack B)) (o2' : op ≠ .recv (.request B))
    (o3 : ∀ n, op ≠ .nodeRemoved n) (o4 : ∀ a, op ≠ .exits a true) :
    ((∃ a, (σ.step sel op).1.st = .stopping a B) ∨
        ((σ.step sel op).1.st.isStarting = true ∧ B ∉ (σ.step sel op).1.st.acked)) ∧
      (σ.step sel op).1.ended = [] ∧
      ∀ s, (B, MMsg.ack s) ∉ (σ.step sel op).2.filterMap MOut.msg? := by
  by_cases hstart : σ.st.isStarting = true
  · have hB : B ∉ σ.st.acked := by
      rcases h1 with ⟨a, e⟩ | ⟨_, e⟩
      · rw [e] at hstart; simp [MState.isStarting] at hstart
      · exact e
    obtain ⟨w1, w2, _, w3⟩ := Mgr.waits sel op hstart hB h3 h4 hm o1 o2 o3
    refine ⟨.inr ⟨w1, w2⟩, ?_, fun s => (w3 s).2⟩
    obtain ⟨l, hl⟩ : ∃ l, σ.st = .starting l := by
      cases hst : σ.st <;> simp_all [MState.isStarting]
    cases op with
    | memberUp l ns => exact absurd rfl (o1 l ns)
    | nodeRemoved n => exact absurd rfl (o3 n)
    | leaderChanged n => simp [Mgr.step, Mgr.onLeaderChanged, hl, MState.isJoining, MState.isRunning, h5]
    | nodeAdded n => simp only [Mgr.step, Mgr.onNodeAdded]; split <;> simp [h5]
    | recv m =>
      cases m with
      | ack x =>
        simp only [Mgr.step, Mgr.recv, Mgr.onAck, hl, Mgr.checkAcks, Mgr.startActor]
        split <;> simp [h5]
      | _ => simp [Mgr.step, Mgr.recv, Mgr.onRequest, Mgr.beginStopping, hl, MState.isRunning, MState.actor, h5]
    | boot => simp [Mgr.step, h3, h5]
    | startFails => simp [Mgr.step, h5]
    | started a => simp [Mgr.step, h4, h5]
    | exits a c =>
      cases c with
      | true => exact absurd rfl (o4 a)
      | false => simp only [Mgr.step]; split <;> simp [h5]
    | childStopped a => simp [Mgr.step, h5]
  · obtain ⟨a, hl⟩ : ∃ a, σ.st = .stopping a B := by
      rcases h1 with e | e
      · exact e
      · exact absurd e.1 hstart
    cases op with
    | memberUp l ns => exact absurd rfl (o1 l ns)
    | nodeRemoved n => exact absurd rfl (o3 n)
    | leaderChanged n =>
      simp only [Mgr.step, Mgr.onLeaderChanged, hl, MState.isJoining, MState.isRunning, Bool.false_eq_true, if_false, and_true,
        Mgr.beginStarting, Mgr.startActor]
      split
      · split
        · rename_i hz; rw [List.length_eq_zero_iff.1 hz] at hm; simp at hm
        · refine ⟨.inr ⟨rfl, by simp [MState.acked]⟩, h5, fun s hs => ?_⟩
          dsimp only at hs
          rw [notifyManagers_msgs] at hs
          simp at hs
      · refine ⟨.inl ⟨a, by simp_all⟩, h5, by simp⟩
    | nodeAdded n =>
      simp only [Mgr.step, Mgr.onNodeAdded]
      split <;> simp [hl, Mgr.greeting, h5]
    | recv m =>
      cases m with
      | request x =>
        have hx : B ≠ x := by rintro rfl; exact o2' rfl
        simp only [Mgr.step, Mgr.recv, Mgr.onRequest, Mgr.grantLease, hl, MState.isRunning, Bool.false_eq_true, if_false,
          Mgr.notifyManager]
        refine ⟨.inl ⟨a, rfl⟩, h5, fun s => ?_⟩
        split <;> simp [MOut.msg?, hx]
      | ack x => simp [Mgr.step, Mgr.recv, Mgr.onAck, hl, h5]
      | _ => simp [Mgr.step, Mgr.recv, hl, h5, MOut.msg?]
    | boot => simp [Mgr.step, h3, hl, h5]
    | startFails => simp [Mgr.step, hl, h5]
    | started b => simp [Mgr.step, h4, hl, h5]
    | exits b c =>
      cases c with
      | true => exact absurd rfl (o4 b)
      | false => simp only [Mgr.step]; split <;> simp [hl, h5]
    | childStopped b => simp [Mgr.step, hl, h5]

theorem Cl.next_net {child : Bool} {op : ClOp} {x : Nat × MMsg} (hx : x ∈ (w.next nodes child op).net) :
    x ∈ w.net ∨ x ∈ ((w.mgr op.node).step (fun _ => true) (op.op nodes child)).2.filterMap MOut.msg? := by
  unfold Cl.next at hx
  split at hx
  · simp only [Cl.at, List.mem_append] at hx
    rcases hx with hx | hx
    · left
      cases op <;> simp only [Cl.rest] at hx <;> first | exact hx | exact List.mem_of_mem_erase hx
    · exact .inr hx
  · exact .inl hx

theorem Stuck.next {A B : Nat} (h : Inv nodes w) (hA : A ∈ nodes) (hB : B ∈ nodes) (hne : A ≠ B) (hs : Stuck A B w)
    (op : ClOp) (ha : ¬ w.Again op) : Stuck A B (w.next nodes false op) ∧
      ((w.next nodes false op).mgr B).fresh = (w.mgr B).fresh := by
  have hjB : (w.mgr B).st.isJoining = false := by
    have := hs.b1
    cases hst : (w.mgr B).st <;> simp_all [MState.isStarting, MState.isJoining]
  have hjA : (w.mgr A).st.isJoining = false := by
    rcases hs.a1 with ⟨a, e⟩ | ⟨e, _⟩
    · rw [e]; rfl
    · cases hst : (w.mgr A).st <;> simp_all [MState.isStarting, MState.isJoining]
  have hAB := h.all B hB hjB A hA hne
  have hBA := h.all A hA hjA B hB (Ne.symm hne)
  obtain ⟨sB, rB⟩ := h.noStart hB hA (Ne.symm hne) fun _ => hs.b2
  obtain ⟨sA, rA⟩ := h.noStart hA hB hne fun e => by
    rcases hs.a1 with ⟨a, e'⟩ | ⟨_, e'⟩
    · rw [e'] at e; simp [MState.isStarting] at e
    · exact e'
  by_cases hal : w.allows nodes op = true
  case neg =>
    have : w.next nodes false op = w := by unfold Cl.next; rw [if_neg hal]
    rw [this]; exact ⟨hs, rfl⟩
  have hmem : ∀ m, op.op nodes false = .recv m → (op.node, m) ∈ w.net := by
    intro m e
    cases op <;> simp_all [ClOp.op, ClOp.node, Cl.allows]
  have hup : ∀ d, op.node = d → (w.mgr d).st.isJoining = false → ∀ l ns, op.op nodes false ≠ .memberUp l ns := by
    intro d hd hj l ns e
    cases op with
    | memberUp d' l' =>
      simp only [ClOp.node] at hd
      subst hd
      exact ha fun p hp => by rw [hp] at hj; simp [MState.isJoining] at hj
    | _ => simp [ClOp.op] at e
  have hrem : ∀ n, op.op nodes false ≠ .nodeRemoved n := by
    intro n e; cases op <;> simp [ClOp.op] at e
  have hex : ∀ a, op.op nodes false ≠ .exits a true := by
    intro n e; cases op <;> simp [ClOp.op] at e
  have hstepped : ∀ d, op.node = d → (w.next nodes false op).mgr d = ((w.mgr d).step (fun _ => true) (op.op nodes false)).1 := by
    rintro d rfl
    unfold Cl.next; rw [if_pos hal]; simp [Cl.at, Cl.setMgr]
  have hother : ∀ d, op.node ≠ d → (w.next nodes false op).mgr d = w.mgr d := by
    intro d hd
    unfold Cl.next; rw [if_pos hal]; simp [Cl.at, Cl.setMgr, Ne.symm hd]
  have hself : ∀ {n s : Nat} {m : MMsg}, (n, m) ∈ ((w.mgr op.node).step (fun _ => true) (op.op nodes false)).2.filterMap MOut.msg? →
      m.src? = some s → op.node = s := by
    intro n s m hm e
    rw [Mgr.out_src _ _ _ hm e, h.self]
  by_cases hb : op.node = B
  · obtain ⟨w1, w2, wf, w3⟩ := Mgr.waits (fun _ => true) (op.op nodes false) hs.b1 hs.b2 sB rB hAB (hup B hb hjB)
      (fun e => hs.n2 (hb ▸ hmem _ e)) hrem
    have hoA := hother A (by rw [hb]; exact Ne.symm hne)
    refine ⟨⟨?_, ?_, ?_, ?_, ?_, ?_, ?_⟩, ?_⟩
    · rw [hstepped B hb]; exact w1
    · rw [hstepped B hb]; exact w2
    · rw [hoA]; exact hs.a1
    · intro hx
      rcases Cl.next_net hx with hx | hx
      · exact hs.n1 hx
      · rw [hb] at hx; exact (w3 _).1 hx
    · intro hx
      rcases Cl.next_net hx with hx | hx
      · exact hs.n2 hx
      · exact hne ((hself hx rfl).symm.trans hb)
    · intro hx
      rcases Cl.next_net hx with hx | hx
      · exact hs.n3 hx
      · rw [hb] at hx; exact (w3 _).2 hx
    · rw [hoA]; exact hs.e
    · rw [hstepped B hb]; exact wf
  · have hoB := hother B hb
    have hn1 : (A, MMsg.request B) ∉ (w.next nodes false op).net := by
      intro hx
      rcases Cl.next_net hx with hx | hx
      · exact hs.n1 hx
      · exact hb (hself hx rfl)
    have hn3 : (A, MMsg.ack B) ∉ (w.next nodes false op).net := by
      intro hx
      rcases Cl.next_net hx with hx | hx
      · exact hs.n3 hx
      · exact hb (hself hx rfl)
    by_cases hna : op.node = A
    · obtain ⟨v1, v2, v3⟩ := Mgr.owes (fun _ => true) (op.op nodes false) hs.a1 sA rA hs.e hBA (hup A hna hjA)
        (fun e => hs.n3 (hna ▸ hmem _ e)) (fun e => hs.n1 (hna ▸ hmem _ e)) hrem hex
      refine ⟨⟨?_, ?_, ?_, hn1, ?_, hn3, ?_⟩, ?_⟩
      · rw [hoB]; exact hs.b1
      · rw [hoB]; exact hs.b2
      · rw [hstepped A hna]; exact v1
      · intro hx
        rcases Cl.next_net hx with hx | hx
        · exact hs.n2 hx
        · rw [hna] at hx; exact v3 _ hx
      · rw [hstepped A hna]; exact v2
      · rw [hoB]
    · have hoA := hother A hna
      refine ⟨⟨?_, ?_, ?_, hn1, ?_, hn3, ?_⟩, ?_⟩
      · rw [hoB]; exact hs.b1
      · rw [hoB]; exact hs.b2
      · rw [hoA]; exact hs.a1
      · intro hx
        rcases Cl.next_net hx with hx | hx
        · exact hs.n2 hx
        · exact hna (hself hx rfl)
      · rw [hoA]; exact hs.e
      · rw [hoB]

theorem Stuck.run {A B : Nat} (h : Inv nodes w) (hA : A ∈ nodes) (hB : B ∈ nodes) (hne : A ≠ B) (hs : Stuck A B w)
    (ops : List ClOp) (ho : w.Orderly nodes false ops) :
    Stuck A B (w.run nodes false ops) ∧ ((w.run nodes false ops).mgr B).fresh = (w.mgr B).fresh := by
  induction ops generalizing w with
  | nil => exact ⟨hs, rfl⟩
  | cons op ops ih =>
    obtain ⟨h1, h2⟩ := hs.next h hA hB hne op ho.2.1
    obtain ⟨h3, h4⟩ := ih (h.next false op ho.1 ho.2.1) h1 ho.2.2
    exact ⟨h3, h4.trans h2⟩

/-- nobody is told that an instance has ended. -/
theorem ended_nil (ops : List ClOp) (h : ∀ d, (w.mgr d).ended = []) (d : Nat) :
    ((w.run nodes false ops).mgr d).ended = [] := by
  induction ops generalizing w with
  | nil => exact h d
  | cons op ops ih =>
    refine ih fun d => ?_
    rcases w.next_mgr (nodes := nodes) false op d with e | ⟨_, _, e⟩
    · rw [e]; exact h d
    · rw [e]
      have hd := h d
      cases op with
      | memberUp _ l =>
        simp only [ClOp.op, Mgr.step, Mgr.onMemberUp, Mgr.beginStarting, Mgr.startActor]; split <;> (try split) <;> exact hd
      | leaderChanged _ n =>
        simp only [ClOp.op, Mgr.step, Mgr.onLeaderChanged, Mgr.beginStarting, Mgr.startActor]
        split <;> (try split) <;> (try split) <;> exact hd
      | nodeAdded _ n => simp only [ClOp.op, Mgr.step, Mgr.onNodeAdded]; split <;> exact hd
      | recv _ m =>
        cases m <;>
          (simp only [ClOp.op, Mgr.step, Mgr.recv, Mgr.onRequest, Mgr.beginStopping, Mgr.grantLease, Mgr.onAck, Mgr.checkAcks, Mgr.startActor]
           try split
           all_goals try split
           all_goals try exact hd)
      | boot _ => simp only [ClOp.op, Mgr.step]; split <;> exact hd
      | startFails _ => exact hd
      | started _ a => simp only [ClOp.op, Mgr.step]; split <;> exact hd
      | exits _ a => simp only [ClOp.op, Mgr.step]; split <;> simp [hd]
      | childStopped _ a => simp [ClOp.op, Mgr.step, hd]

theorem Inv.stuck (h : Inv nodes w) {A B a : Nat} (hs : (w.mgr A).st = .stopping a B) (he : (w.mgr A).ended = []) :
    Stuck A B w := by
  have hh : 0 < (w.mgr A).st.holds B := by rw [hs]; simp [MState.holds]
  obtain ⟨q1, q2, _, q4, q5⟩ := h.hold hh
  have hA : (w.mgr A).st.isStarting = false := by rw [hs]; rfl
  have hg := h.notGranted hA B
  refine ⟨q1, ?_, .inl ⟨a, hs⟩, ?_, ?_, fun e => hg (.inl e), he⟩
  · exact fun e => by have := List.count_pos_iff.2 e; omega
  · exact fun e => by have := List.count_pos_iff.2 e; omega
  · exact fun e => by have := List.count_pos_iff.2 e; omega

end Verif.Singleton
