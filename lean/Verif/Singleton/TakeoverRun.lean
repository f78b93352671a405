import Verif.Singleton.TakeoverSteps
import Verif.Singleton.ServiceRun

/-! # Cluster singletons when nodes fail: every history -/

namespace Verif.Singleton

variable {nodes A : List Nat} {K B : Nat} {w : Fo}

theorem mem_alive {w : Fo} {d : Nat} : d ∈ w.alive nodes ↔ d ∈ nodes ∧ d ∉ w.down := by simp [Fo.alive]

theorem Heir.next (h : Heir (w.alive nodes) K B w.cl) (hn : nodes.Nodup) (hB : B ∈ w.alive nodes) (hK : K ∈ w.down)
    (child : Bool) (op : FoOp) (hp : w.Peaceful K B op) :
    (w.next nodes child op).down = w.down ∧ Heir (w.alive nodes) K B (w.next nodes child op).cl ∧
      (w.next nodes child op).cl.due (w.alive nodes) K B + (if w.Works nodes K B op then 1 else 0) =
        w.cl.due (w.alive nodes) K B := by
  have hA : (w.alive nodes).Nodup := hn.filter _
  have hKA : K ∉ w.alive nodes := fun e => (mem_alive.1 e).2 hK
  have same : w.next nodes child op = w → ¬ w.Works nodes K B op → (w.next nodes child op).down = w.down ∧
      Heir (w.alive nodes) K B (w.next nodes child op).cl ∧
      (w.next nodes child op).cl.due (w.alive nodes) K B + (if w.Works nodes K B op then 1 else 0) =
        w.cl.due (w.alive nodes) K B := by
    intro e hw
    rw [e, if_neg hw]
    exact ⟨rfl, h, Nat.add_zero _⟩
  cases op with
  | crash d => exact hp.elim
  | removed d n =>
    obtain ⟨rfl, hKm⟩ := hp
    by_cases hd : d ∈ nodes ∧ d ∉ w.down
    · have hdA := mem_alive.2 hd
      rw [if_pos ⟨hd.2, hd.1, rfl, hKm⟩]
      simp only [Fo.next]
      rw [if_pos hd]
      refine ⟨rfl, ?_⟩
      rw [show w.cl.at d ((w.cl.mgr d).step (fun _ => true) (.nodeRemoved n)) =
        w.cl.into w.cl.net d ((w.cl.mgr d).onNodeRemoved n) [] from Cl.at_eq _ _ _]
      by_cases e : d = B
      · subst e; exact h.removedLeader hA hKA hB hKm
      · exact h.removedOther hA hKA hdA e hKm
    · refine same ?_ fun hw => hd ⟨hw.2.1, hw.1⟩
      simp only [Fo.next]
      rw [if_neg hd]
  | cl op =>
    by_cases hdn : op.node ∈ w.down
    · refine same ?_ fun hw => ?_
      · simp only [Fo.next]; rw [if_pos hdn]
      · cases op <;> exact hw.1 hdn
    by_cases hal : w.cl.allows nodes op = true
    rotate_left
    · refine same ?_ fun hw => hal ?_
      · simp only [Fo.next]; rw [if_neg hdn, w.cl.next_not child op hal]
      · cases op with
        | leaderChanged d l => simp [Cl.allows, ClOp.node, hw.2.1]
        | _ =>
          have := hw.2
          simp [Cl.Works] at this
          try simp [Cl.allows, ClOp.node, this]
    have hdn' : op.node ∈ w.alive nodes := by
      refine mem_alive.2 ⟨?_, hdn⟩
      cases op <;> simp [Cl.allows, ClOp.node] at hal ⊢ <;> simp [hal]
    have hnext : w.next nodes child (.cl op) = { w with cl := w.cl.next nodes child op } := by
      simp only [Fo.next]; rw [if_neg hdn]
    have same' : w.cl.next nodes child op = w.cl → ¬ w.Works nodes K B (.cl op) → _ := fun e hw => same (by rw [hnext, e]) hw
    rw [hnext]
    refine ⟨rfl, ?_⟩
    simp only
    have quiet : ∀ σ : Mgr, ¬ w.Works nodes K B (.cl op) → w.cl.next nodes child op = w.cl.into w.cl.net op.node σ [] →
        σ.self = (w.cl.mgr op.node).self → σ.st = (w.cl.mgr op.node).st → σ.managers = (w.cl.mgr op.node).managers →
        σ.starts = (w.cl.mgr op.node).starts → σ.results = (w.cl.mgr op.node).results → σ.fresh = (w.cl.mgr op.node).fresh →
        Heir (w.alive nodes) K B (w.cl.next nodes child op) ∧ (w.cl.next nodes child op).due (w.alive nodes) K B +
          (if w.Works nodes K B (.cl op) then 1 else 0) = w.cl.due (w.alive nodes) K B := by
      intro σ hw e h0 h1 h2 h3 h4 h5
      rw [e, if_neg hw, Nat.add_zero]
      exact h.quiet hA hdn' h0 h1 h2 h3 h4 h5
    have still : ¬ w.Works nodes K B (.cl op) → w.cl.next nodes child op = w.cl →
        Heir (w.alive nodes) K B (w.cl.next nodes child op) ∧ (w.cl.next nodes child op).due (w.alive nodes) K B +
          (if w.Works nodes K B (.cl op) then 1 else 0) = w.cl.due (w.alive nodes) K B := by
      intro hw e
      rw [e, if_neg hw, Nat.add_zero]
      exact ⟨h, rfl⟩
    clear same same' hnext
    cases op with
    | memberUp d l => exact hp.elim
    | startFails d => exact hp.elim
    | leaderChanged d l =>
      have hd : d ∈ w.alive nodes := hdn'
      by_cases hwk : d = B ∧ l = B ∧ (w.cl.mgr d).st = .idle
      · obtain ⟨rfl, rfl, hst⟩ := hwk
        rw [if_pos ⟨hdn, (mem_alive.1 hd).1, rfl, rfl, hst⟩]
        rw [show w.cl.next nodes child (.leaderChanged l l) = w.cl.into w.cl.net l
          ((w.cl.mgr l).step (fun _ => true) (.leaderChanged l)).1
          (((w.cl.mgr l).step (fun _ => true) (.leaderChanged l)).2.filterMap MOut.msg?) from w.cl.next_at child _ hal]
        have hstep : (w.cl.mgr l).step (fun _ => true) (.leaderChanged l) = (w.cl.mgr l).beginStarting := by
          simp [Mgr.step, Mgr.onLeaderChanged, hst, MState.isJoining, MState.isRunning, h.self l hd]
        obtain ⟨k, hk, hb1, hb2⟩ := beginStarting_eq (w.cl.mgr l)
        rw [hstep, hb1, hb2, h.self l hd]
        exact h.begins hA hKA hd hst hk
      · refine still (fun hw => hwk hw.2.2) (w.cl.next_same child _ rfl ?_)
        by_cases e : d = l
        · subst e
          have e : d = B := hp rfl
          subst e
          show (if (w.cl.mgr d).st.isJoining then (w.cl.mgr d, []) else (w.cl.mgr d).onLeaderChanged d) = (w.cl.mgr d, [])
          have hni : (w.cl.mgr d).st ≠ .idle := fun e => hwk ⟨rfl, rfl, e⟩
          have hr : (w.cl.mgr d).st.isRunning = true ∧ (w.cl.mgr d).st.isJoining = false := by
            rcases h.lead with ⟨a, b, c, e⟩ | ⟨l, a, al, b, c, e⟩ | ⟨l, a, al, b, c, e⟩ | ⟨l, a, al, b, c, e⟩ | ⟨a, b, c, e⟩
            · exact absurd a hni
            all_goals rw [a]; exact ⟨rfl, rfl⟩
          rw [hr.2]
          simp [Mgr.onLeaderChanged, hr.1]
        · have e' : ¬ l = d := fun e' => e e'.symm
          show (if (w.cl.mgr d).st.isJoining then (w.cl.mgr d, []) else (w.cl.mgr d).onLeaderChanged l) = (w.cl.mgr d, [])
          have : (w.cl.mgr d).onLeaderChanged l = (w.cl.mgr d, []) := by
            unfold Mgr.onLeaderChanged
            rw [if_neg fun hx => e' (hx.1.trans (h.self d hd))]
          rw [this, ite_self]
    | nodeAdded d n =>
      have hd : d ∈ w.alive nodes := hdn'
      refine still (fun hw => hw.2) (w.cl.next_same child _ rfl ?_)
      have hnn : n ∈ nodes := by simp [Cl.allows] at hal; exact hal.2
      show (w.cl.mgr d).onNodeAdded (fun _ => true) n = (w.cl.mgr d, [])
      unfold Mgr.onNodeAdded
      rw [if_neg]
      rintro ⟨h1, _, h2⟩
      rw [h.self d hd] at h1
      exact h2 (h.all d hd n (mem_alive.2 ⟨hnn, hp⟩) h1)
    | recv d m =>
      have hd : d ∈ w.alive nodes := hdn'
      have hm : (d, m) ∈ w.cl.net := by simp [Cl.allows] at hal; exact hal.2
      rw [if_pos ⟨hdn, (mem_alive.1 hd).1, hm⟩]
      rw [show w.cl.next nodes child (.recv d m) = w.cl.into (w.cl.net.erase (d, m)) d ((w.cl.mgr d).recv m).1
        (((w.cl.mgr d).recv m).2.filterMap MOut.msg?) from w.cl.next_at child _ hal]
      obtain ⟨X, hX, hXB, hx | hx | hx⟩ := h.net _ hm hd
      · simp only [Prod.mk.injEq] at hx
        obtain ⟨rfl, rfl⟩ := hx
        have hin : B ∈ (w.cl.mgr d).managers := h.all d hd B hB fun e => hXB e.symm
        have hstep : (w.cl.mgr d).recv (.request B) = (w.cl.mgr d, [.send B (.ack d)]) := by
          simp [Mgr.recv, Mgr.onRequest, (h.oth d hd hXB).st, MState.isRunning, Mgr.grantLease, Mgr.notifyManager, hin, h.self d hd]
        rw [hstep]
        exact h.asked hA hB hd hXB hm
      · simp only [Prod.mk.injEq] at hx
        obtain ⟨rfl, rfl⟩ := hx
        exact h.ack hA hKA hB hX hXB hm
      · simp only [Prod.mk.injEq] at hx
        obtain ⟨rfl, rfl⟩ := hx
        exact h.learns hA hd hXB hm
    | boot d =>
      have hd : d ∈ w.alive nodes := hdn'
      by_cases h0 : (w.cl.mgr d).starts = 0
      · refine still (fun hw => by have := hw.2.2; omega) (w.cl.next_same child _ rfl ?_)
        simp only [ClOp.node, ClOp.op, Mgr.step, h0, if_true]
      · rw [if_pos ⟨hdn, (mem_alive.1 hd).1, Nat.pos_of_ne_zero h0⟩]
        rw [show w.cl.next nodes child (.boot d) = w.cl.into w.cl.net d ((w.cl.mgr d).step (fun _ => true) (.boot)).1
          (((w.cl.mgr d).step (fun _ => true) (.boot)).2.filterMap MOut.msg?) from w.cl.next_at child _ hal]
        rw [show (w.cl.mgr d).step (fun _ => true) .boot = ((w.cl.mgr d).boot, []) from if_neg h0]
        by_cases e : d = B
        · subst e; exact h.boots hA hB h0
        · exact absurd (h.oth d hd e).starts h0
    | started d a =>
      have hd : d ∈ w.alive nodes := hdn'
      by_cases h0 : a ∈ (w.cl.mgr d).results
      · rw [if_pos ⟨hdn, (mem_alive.1 hd).1, h0⟩]
        rw [show w.cl.next nodes child (.started d a) = w.cl.into w.cl.net d ((w.cl.mgr d).step (fun _ => true) (.started a)).1
          (((w.cl.mgr d).step (fun _ => true) (.started a)).2.filterMap MOut.msg?) from w.cl.next_at child _ hal]
        rw [show (w.cl.mgr d).step (fun _ => true) (.started a) =
          ({ w.cl.mgr d with results := (w.cl.mgr d).results.erase a } : Mgr).onStarted a from if_pos h0]
        by_cases e : d = B
        · subst e
          obtain ⟨rfl, h1⟩ := h.runs hA hKA hB h0
          have hres : (w.cl.mgr d).results.erase 0 = [] := by
            rcases h.lead with ⟨a, b, c, e⟩ | ⟨l, a, al, b, c, e⟩ | ⟨l, a, al, b, c, e⟩ | ⟨l, a, al, b, c, e⟩ | ⟨a, b, c, e⟩ <;>
              rw [c] <;> rfl
          have hmsg : (({ w.cl.mgr d with results := (w.cl.mgr d).results.erase 0 } : Mgr).onStarted 0).2.filterMap MOut.msg? =
              (w.cl.mgr d).managers.map fun n => (n, .started d) := by
            simp only [Mgr.onStarted, List.filterMap_cons, MOut.msg?]
            rw [notifyManagers_msgs, h.self d hd]
          have hfst : (({ w.cl.mgr d with results := (w.cl.mgr d).results.erase 0 } : Mgr).onStarted 0).1 =
              { w.cl.mgr d with results := [], st := .running 0 } := by
            simp [Mgr.onStarted, hres]
          rw [hmsg, hfst]
          exact h1
        · rw [(h.oth d hd e).results] at h0; cases h0
      · refine still (fun hw => h0 hw.2.2) (w.cl.next_same child _ rfl ?_)
        simp only [ClOp.node, ClOp.op, Mgr.step, h0, if_false]
    | exits d a =>
      by_cases h0 : a ∈ (w.cl.mgr d).live
      · refine quiet { w.cl.mgr d with
          live := (w.cl.mgr d).live.erase a
          ended := if child then (w.cl.mgr d).ended ++ [a] else (w.cl.mgr d).ended } (fun hw => hw.2) ?_ rfl rfl rfl rfl rfl rfl
        rw [show w.cl.next nodes child (.exits d a) = w.cl.into w.cl.net d ((w.cl.mgr d).step (fun _ => true) (.exits a child)).1
          (((w.cl.mgr d).step (fun _ => true) (.exits a child)).2.filterMap MOut.msg?) from w.cl.next_at child _ hal]
        rw [show (w.cl.mgr d).step (fun _ => true) (.exits a child) = ({ w.cl.mgr d with
          live := (w.cl.mgr d).live.erase a
          ended := if child then (w.cl.mgr d).ended ++ [a] else (w.cl.mgr d).ended }, []) from if_pos h0]
        rfl
      · refine still (fun hw => hw.2) (w.cl.next_same child _ rfl ?_)
        exact if_neg h0
    | childStopped d a =>
      have hd : d ∈ w.alive nodes := hdn'
      have hns : ∀ σ : Mgr, σ.st = (w.cl.mgr d).st → σ.onChildStopped = (σ, []) := by
        intro σ hσ
        unfold Mgr.onChildStopped
        rw [hσ]
        by_cases e : d = B
        · subst e
          rcases h.lead with ⟨a, b, c, e⟩ | ⟨l, a, al, b, c, e⟩ | ⟨l, a, al, b, c, e⟩ | ⟨l, a, al, b, c, e⟩ | ⟨a, b, c, e⟩ <;> rw [a]
        · rw [(h.oth d hd e).st]
      by_cases h0 : a ∈ (w.cl.mgr d).ended
      · refine quiet { w.cl.mgr d with ended := (w.cl.mgr d).ended.erase a } (fun hw => hw.2) ?_ rfl rfl rfl rfl rfl rfl
        rw [show w.cl.next nodes child (.childStopped d a) = w.cl.into w.cl.net d ((w.cl.mgr d).step (fun _ => true) (.childStopped a)).1
          (((w.cl.mgr d).step (fun _ => true) (.childStopped a)).2.filterMap MOut.msg?) from w.cl.next_at child _ hal]
        rw [show (w.cl.mgr d).step (fun _ => true) (.childStopped a) =
          ({ w.cl.mgr d with ended := (w.cl.mgr d).ended.erase a } : Mgr).onChildStopped from if_pos h0,
          hns { w.cl.mgr d with ended := (w.cl.mgr d).ended.erase a } rfl]
        rfl
      · refine still (fun hw => hw.2) (w.cl.next_same child _ rfl ?_)
        exact if_neg h0

theorem alive_down {w v : Fo} (h : v.down = w.down) : v.alive nodes = w.alive nodes := by unfold Fo.alive; rw [h]

theorem Heir.run (h : Heir (w.alive nodes) K B w.cl) (hn : nodes.Nodup) (hB : B ∈ w.alive nodes) (hK : K ∈ w.down)
    (child : Bool) (ops : List FoOp) (hp : w.Takeover nodes child K B ops) :
    (w.run nodes child ops).down = w.down ∧ Heir (w.alive nodes) K B (w.run nodes child ops).cl ∧
      (w.run nodes child ops).cl.due (w.alive nodes) K B + w.worked nodes child K B ops = w.cl.due (w.alive nodes) K B := by
  induction ops generalizing w with
  | nil => exact ⟨rfl, h, rfl⟩
  | cons op ops ih =>
    obtain ⟨h1, h2, h3⟩ := h.next hn hB hK child op hp.1
    have ha := alive_down (nodes := nodes) h1
    rw [← ha] at h2 h3 hB
    obtain ⟨h4, h5, h6⟩ := ih h2 hB (by rw [h1]; exact hK) hp.2
    rw [ha] at h3 h5 h6
    refine ⟨h4.trans h1, h5, ?_⟩
    show ((w.next nodes child op).run nodes child ops).cl.due _ K B + ((if w.Works nodes K B op then 1 else 0) + _) = _
    omega

/-- nothing is left to do exactly when no step is left. -/
theorem Heir.done (h : Heir (w.alive nodes) K B w.cl) (hB : B ∈ w.alive nodes) :
    w.Settled nodes K B ↔ w.cl.due (w.alive nodes) K B = 0 := by
  have hB' := mem_alive.1 hB
  have hpos : 0 < (w.alive nodes).length := List.length_pos_of_mem hB
  constructor
  · intro hs
    have hnet : ∀ x ∈ w.cl.net, x.1 ∉ w.alive nodes := by
      intro x hx hxA
      exact hs (.cl (.recv x.1 x.2)) ⟨(mem_alive.1 hxA).2, (mem_alive.1 hxA).1, hx⟩
    have hK : ∀ X ∈ w.alive nodes, K ∉ (w.cl.mgr X).managers := by
      intro X hX hKX
      exact hs (.removed X K) ⟨(mem_alive.1 hX).2, (mem_alive.1 hX).1, rfl, hKX⟩
    have h1 : load (w.alive nodes) w.cl.net = 0 := load_zero.2 hnet
    have h2 : ((w.alive nodes).map fun X => (w.cl.mgr X).untold K).sum = 0 := by
      rw [sum_const _ _ 0 fun X hX => by unfold Mgr.untold; rw [if_neg (hK X hX)]]
      simp
    have h3 : (w.cl.mgr B).heirLeft (w.alive nodes).length = 0 := by
      rcases h.lead with ⟨a, b, c, e⟩ | ⟨l, a, al, b, c, e⟩ | ⟨l, a, al, b, c, e⟩ | ⟨l, a, al, b, c, e⟩ | ⟨a, b, c, e⟩
      · exact absurd ⟨hB'.2, hB'.1, rfl, rfl, a⟩ (hs (.cl (.leaderChanged B B)))
      · exact absurd (h.answered hB a hnet (hK B hB)) al
      · exact absurd ⟨hB'.2, hB'.1, by omega⟩ (hs (.cl (.boot B)))
      · exact absurd ⟨hB'.2, hB'.1, by rw [c]; simp⟩ (hs (.cl (.started B 0)))
      · unfold Mgr.heirLeft; rw [a]
    unfold Cl.due
    omega
  · intro h0 op hw
    unfold Cl.due at h0
    have hnet := load_zero.1 (show load (w.alive nodes) w.cl.net = 0 by omega)
    have hK : ∀ X ∈ w.alive nodes, K ∉ (w.cl.mgr X).managers := by
      intro X hX hKX
      have hle := le_sum_map (f := fun X => (w.cl.mgr X).untold K) hX
      have : (w.cl.mgr X).untold K = 1 := by unfold Mgr.untold; rw [if_pos hKX]
      omega
    have hrun : (w.cl.mgr B).st = .running 0 ∧ (w.cl.mgr B).starts = 0 ∧ (w.cl.mgr B).results = [] := by
      have hl : (w.cl.mgr B).heirLeft (w.alive nodes).length = 0 := by omega
      unfold Mgr.heirLeft at hl
      rcases h.lead with ⟨a, b, c, e⟩ | ⟨l, a, al, b, c, e⟩ | ⟨l, a, al, b, c, e⟩ | ⟨l, a, al, b, c, e⟩ | ⟨a, b, c, e⟩
      · rw [a] at hl; simp only at hl; omega
      · rw [a, c] at hl; simp at hl
      · rw [a, c] at hl; simp at hl
      · rw [a, c] at hl; simp only [List.length_cons, List.length_nil] at hl; omega
      · exact ⟨a, b, c⟩
    cases op with
    | crash d => exact hw
    | removed d n => exact hK d (mem_alive.2 ⟨hw.2.1, hw.1⟩) hw.2.2.2
    | cl op =>
      cases op with
      | leaderChanged d l =>
        obtain ⟨_, _, rfl, _, hst⟩ := hw
        rw [hrun.1] at hst; cases hst
      | memberUp d l =>
        obtain ⟨hd, hd', p, hp⟩ := hw
        by_cases e : d = B
        · subst e; rw [hrun.1] at hp; cases hp
        · rw [(h.oth d (mem_alive.2 ⟨hd', hd⟩) e).st] at hp; cases hp
      | recv d m => exact hnet _ hw.2.2 (mem_alive.2 ⟨hw.2.1, hw.1⟩)
      | boot d =>
        have hx := hw.2.2
        by_cases e : d = B
        · subst e; omega
        · rw [(h.oth d (mem_alive.2 ⟨hw.2.1, hw.1⟩) e).starts] at hx; omega
      | started d a =>
        have hx := hw.2.2
        by_cases e : d = B
        · subst e; rw [hrun.2.2] at hx; cases hx
        · rw [(h.oth d (mem_alive.2 ⟨hw.2.1, hw.1⟩) e).results] at hx; cases hx
      | _ => exact hw.2

/-- A cluster at rest: `L` runs the singleton, nothing is under way. -/
structure Rest (A : List Nat) (L : Nat) (w : Cl) : Prop where
  self : ∀ d ∈ A, (w.mgr d).self = d
  nodup : ∀ d ∈ A, (w.mgr d).managers.Nodup
  known : ∀ d ∈ A, ∀ x, x ∈ (w.mgr d).managers ↔ x ∈ A ∧ x ≠ d
  oth : ∀ d ∈ A, d ≠ L → Calm (w.mgr d)
  net : ∀ x ∈ w.net, x.1 ∉ A
  lead : (w.mgr L).st = .running 0 ∧ (w.mgr L).starts = 0 ∧ (w.mgr L).results = [] ∧ (w.mgr L).fresh = 1

theorem Heir.rest {w : Cl} (h : Heir A K B w) (hB : B ∈ A) (h0 : Cl.due A K B w = 0) : Rest A B w := by
  unfold Cl.due at h0
  have hnet := load_zero.1 (show load A w.net = 0 by omega)
  have hpos : 0 < A.length := List.length_pos_of_mem hB
  have hK : ∀ X ∈ A, K ∉ (w.mgr X).managers := by
    intro X hX hKX
    have hle := le_sum_map (f := fun X => (w.mgr X).untold K) hX
    have : (w.mgr X).untold K = 1 := by unfold Mgr.untold; rw [if_pos hKX]
    omega
  refine ⟨h.self, h.nodup, fun d hd x => ⟨fun hx => ?_, fun hx => h.all d hd x hx.1 hx.2⟩, h.oth, hnet, ?_⟩
  · obtain ⟨h1 | h1, h2⟩ := h.known d hd x hx
    · exact ⟨h1, h2⟩
    · subst h1; exact absurd hx (hK d hd)
  · have hl : (w.mgr B).heirLeft A.length = 0 := by omega
    unfold Mgr.heirLeft at hl
    rcases h.lead with ⟨a, b, c, e⟩ | ⟨l, a, al, b, c, e⟩ | ⟨l, a, al, b, c, e⟩ | ⟨l, a, al, b, c, e⟩ | ⟨a, b, c, e⟩
    · rw [a] at hl; simp only at hl; omega
    · rw [a, c] at hl; simp at hl
    · rw [a, c] at hl; simp at hl
    · rw [a, c] at hl; simp only [List.length_cons, List.length_nil] at hl; omega
    · exact ⟨a, b, c, e⟩

/-- A node crashes. -/
theorem Rest.crash {L : Nat} {w : Cl} (h : Rest A L w) (hL : L ∈ A) {A' : List Nat} (hA' : ∀ x, x ∈ A' ↔ x ∈ A ∧ x ≠ K)
    (hK : K ∈ A) (hB : B ∈ A') (hl : K ≠ L → B = L) :
    Heir A' K B w ∧ w.due A' K B = (if K = L then 4 else 1) * A'.length := by
  have hsub : ∀ x ∈ A', x ∈ A := fun x hx => ((hA' x).1 hx).1
  have hne : ∀ x ∈ A', x ≠ K := fun x hx => ((hA' x).1 hx).2
  have hlead : Heading (w.mgr B) ∧ (w.mgr B).heirLeft A'.length = (if K = L then 3 else 0) * A'.length ∧
      ∀ l, (w.mgr B).st ≠ .starting l := by
    by_cases e : B = L
    · subst e
      obtain ⟨a, b, c, d⟩ := h.lead
      refine ⟨.running a b c d, ?_, fun l => by rw [a]; simp⟩
      unfold Mgr.heirLeft; rw [a, if_neg fun e => hne B hB e.symm]; simp
    · have hc := h.oth B (hsub B hB) e
      have hKL : K = L := Classical.byContradiction fun hx => e (hl hx)
      refine ⟨.idle hc.st hc.starts hc.results hc.fresh, ?_, fun l => by rw [hc.st]; simp⟩
      unfold Mgr.heirLeft; rw [hc.st, if_pos hKL]
  constructor
  · refine ⟨fun d hd => h.self d (hsub d hd), fun d hd => h.nodup d (hsub d hd), fun d hd x hx => ?_,
      fun d hd x hx hxd => (h.known d (hsub d hd) x).2 ⟨hsub x hx, hxd⟩, fun d hd hdB => ?_,
      fun x hx hxA => absurd (hsub _ hxA) (h.net x hx), hlead.1, fun _ x hx hxA => h.net x hx (hsub _ hxA),
      fun l hl' => absurd hl' (hlead.2.2 l), fun l hl' => absurd hl' (hlead.2.2 l)⟩
    · have := (h.known d (hsub d hd) x).1 hx
      refine ⟨?_, this.2⟩
      by_cases e : x = K
      · exact .inr e
      · exact .inl ((hA' x).2 ⟨this.1, e⟩)
    · refine h.oth d (hsub d hd) fun e => ?_
      subst e
      by_cases e : K = d
      · exact hne d hd e.symm
      · exact hdB (hl e).symm
  · unfold Cl.due
    have h1 : load A' w.net = 0 := load_zero.2 fun x hx hxA => h.net x hx (hsub _ hxA)
    have h2 : (A'.map fun X => (w.mgr X).untold K).sum = 1 * A'.length :=
      sum_const _ _ 1 fun X hX => by
        unfold Mgr.untold
        rw [if_pos ((h.known X (hsub X hX) K).2 ⟨hK, fun e => hne X hX e.symm⟩)]
    rw [h1, h2, hlead.2.1]
    split <;> omega

/-- A new cluster whose singleton has started is at rest. -/
theorem Solo.rest {L : Nat} {w : Cl} (h : Solo nodes L w) (hL : L ∈ nodes) (hs : w.Settled nodes) : Rest nodes L w := by
  have h0 := (h.done hL).1 hs
  unfold Cl.left at h0
  have hp : 0 < nodes.length := List.length_pos_of_mem hL
  have hup : ∀ X ∈ nodes, (w.mgr X).st.isJoining = false := by
    intro X hX
    cases hq : (w.mgr X).st with
    | joining p => exact absurd ⟨hX, p, hq⟩ (hs (.memberUp X L))
    | _ => rfl
  refine ⟨fun d _ => h.inv.self d, fun d _ => h.inv.nodup d, fun d hd x => ⟨h.inv.known d x, fun hx => ?_⟩, fun d hd hdL => ?_,
    fun x hx hxA => ?_, ?_⟩
  · exact h.inv.all d hd (hup d hd) x hx.1 hx.2
  · have hc := h.oth d hdL
    refine ⟨?_, hc.starts, hc.results, hc.fresh⟩
    have := hup d hd
    rcases hc.st with e | e | e
    · rw [e] at this; cases this
    · rw [e] at this; cases this
    · exact e
  · exact hs (.recv x.1 x.2) ⟨hxA, hx⟩
  · have hl : (w.mgr L).leadLeft nodes.length = 0 := by omega
    unfold Mgr.leadLeft at hl
    rcases h.lead with ⟨a, b, c, e⟩ | ⟨l, a, al, b, c, e⟩ | ⟨l, a, al, b, c, e⟩ | ⟨l, a, al, b, c, e⟩ | ⟨a, b, c, e⟩
    · rw [a] at hl; simp only at hl; omega
    · rw [a, c] at hl; simp at hl
    · rw [a, c] at hl; simp at hl
    · rw [a, c] at hl; simp only [List.length_cons, List.length_nil] at hl; omega
    · exact ⟨a, b, c, e⟩

theorem Fo.run_append (child : Bool) (w : Fo) (l m : List FoOp) :
    w.run nodes child (l ++ m) = (w.run nodes child l).run nodes child m := by simp [Fo.run]

theorem Fo.run_cl (child : Bool) (w : Cl) (ops : List ClOp) :
    Fo.run nodes child { cl := w } (ops.map .cl) = { cl := w.run nodes child ops } := by
  induction ops generalizing w with
  | nil => rfl
  | cons op ops ih => exact ih _

theorem alive_crash {w : Fo} (child : Bool) (x : Nat) :
    x ∈ (w.next nodes child (.crash K)).alive nodes ↔ x ∈ w.alive nodes ∧ x ≠ K := by
  simp only [mem_alive, Fo.next, List.mem_cons, not_or]
  exact ⟨fun ⟨a, b, c⟩ => ⟨⟨a, c⟩, b⟩, fun ⟨⟨a, c⟩, b⟩ => ⟨a, b, c⟩⟩

/-- after a crash, while the cluster is left in peace. -/
theorem Led.heir {child : Bool} {L : Nat} {ops : List FoOp} (hn : nodes.Nodup)
    (hr : L ∈ (Fo.run nodes child {} ops).alive nodes ∧ Rest ((Fo.run nodes child {} ops).alive nodes) L (Fo.run nodes child {} ops).cl)
    (hK : K ∈ (Fo.run nodes child {} ops).alive nodes) (hB : B ∈ (Fo.run nodes child {} (ops ++ [.crash K])).alive nodes)
    (hl : K ≠ L → B = L) {post : List FoOp} (hp : (Fo.run nodes child {} (ops ++ [.crash K])).Takeover nodes child K B post) :
    (Fo.run nodes child {} (ops ++ .crash K :: post)).down = (Fo.run nodes child {} (ops ++ [.crash K])).down ∧
    Heir ((Fo.run nodes child {} (ops ++ .crash K :: post)).alive nodes) K B (Fo.run nodes child {} (ops ++ .crash K :: post)).cl ∧
    (Fo.run nodes child {} (ops ++ .crash K :: post)).cl.due ((Fo.run nodes child {} (ops ++ .crash K :: post)).alive nodes) K B +
      (Fo.run nodes child {} (ops ++ [.crash K])).worked nodes child K B post =
      (if K = L then 4 else 1) * ((Fo.run nodes child {} (ops ++ .crash K :: post)).alive nodes).length := by
  have e1 : Fo.run nodes child {} (ops ++ .crash K :: post) = (Fo.run nodes child {} (ops ++ [.crash K])).run nodes child post := by
    rw [Fo.run_append, Fo.run_append]; rfl
  have e2 : Fo.run nodes child {} (ops ++ [.crash K]) = (Fo.run nodes child {} ops).next nodes child (.crash K) := by
    rw [Fo.run_append]; rfl
  rw [e1]
  rw [e2] at hB hp ⊢
  generalize Fo.run nodes child {} ops = w at *
  obtain ⟨h1, h2⟩ := hr.2.crash hr.1 (alive_crash child) hK hB hl
  have h3 : K ∈ (w.next nodes child (.crash K)).down := by simp [Fo.next]
  have h1' : Heir ((w.next nodes child (.crash K)).alive nodes) K B (w.next nodes child (.crash K)).cl := h1
  obtain ⟨h4, h5, h6⟩ := h1'.run hn hB h3 child post hp
  rw [alive_down h4]
  refine ⟨h4, h5, ?_⟩
  rw [h6]
  exact h2

theorem Led.rest {child : Bool} {L : Nat} {ops : List FoOp} (h : Led nodes child L ops) (hn : nodes.Nodup) :
    L ∈ (Fo.run nodes child {} ops).alive nodes ∧ Rest ((Fo.run nodes child {} ops).alive nodes) L (Fo.run nodes child {} ops).cl := by
  induction h with
  | @first L pre hL hf hs =>
    rw [show Fo.run nodes child {} (pre.map .cl) = _ from Fo.run_cl child Cl.init pre]
    have ha : ({ cl := Cl.init.run nodes child pre } : Fo).alive nodes = nodes := by simp [Fo.alive]
    rw [ha]
    obtain ⟨h0, _⟩ := Solo.init (nodes := nodes) hn hL
    exact ⟨hL, (h0.run hn hL child pre hf).1.rest hL hs⟩
  | @next L K B ops post h hK hB hl hp hs ih =>
    obtain ⟨h1, h2, h3⟩ := Led.heir hn ih hK hB hl hp
    have hB' : B ∈ (Fo.run nodes child {} (ops ++ .crash K :: post)).alive nodes := by rw [alive_down h1]; exact hB
    exact ⟨hB', h2.rest hB' ((h2.done hB').1 hs)⟩

/-! ### instances -/

theorem onNodeRemoved_live (σ : Mgr) (n : Nat) : (σ.onNodeRemoved n).live = σ.live ∧ (σ.onNodeRemoved n).fresh = σ.fresh := by
  unfold Mgr.onNodeRemoved Mgr.checkAcks Mgr.startActor
  split <;> (try split) <;> exact ⟨rfl, rfl⟩

/-- what is true of the instances of a node and is not changed by what happens to managers. -/
theorem Fo.next_live (child : Bool) (w : Fo) (op : FoOp) (d : Nat) (P : List Nat → Nat → Prop)
    (h : P (w.cl.mgr d).live (w.cl.mgr d).fresh)
    (hc : ∀ cop, op = .cl cop → P ((w.cl.next nodes child cop).mgr d).live ((w.cl.next nodes child cop).mgr d).fresh) :
    P ((w.next nodes child op).cl.mgr d).live ((w.next nodes child op).cl.mgr d).fresh := by
  cases op with
  | crash k => exact h
  | removed k n =>
    simp only [Fo.next]
    split
    · by_cases e : d = k
      · subst e
        simp only [Cl.at, Cl.setMgr, if_true, Mgr.step]
        rw [(onNodeRemoved_live _ n).1, (onNodeRemoved_live _ n).2]
        exact h
      · simp only [Cl.at, Cl.setMgr, e, if_false]
        exact h
    · exact h
  | cl op =>
    simp only [Fo.next]
    split
    · exact h
    · exact hc op rfl

theorem Fo.run_lt (child : Bool) (w : Fo) (ops : List FoOp) (d : Nat) (h : ∀ a ∈ (w.cl.mgr d).live, a < (w.cl.mgr d).fresh) :
    ∀ a ∈ ((w.run nodes child ops).cl.mgr d).live, a < ((w.run nodes child ops).cl.mgr d).fresh := by
  induction ops generalizing w with
  | nil => exact h
  | cons op ops ih =>
    refine ih _ ?_
    exact w.next_live child op d (fun l n => ∀ a ∈ l, a < n) h fun cop _ => live_lt (nodes := nodes) (w := w.cl) child [cop] d h

theorem Fo.run_range (child : Bool) (w : Fo) (ops : List FoOp) (d : Nat) (hx : ∀ a, .cl (.exits d a) ∉ ops)
    (h : (w.cl.mgr d).live = List.range (w.cl.mgr d).fresh) :
    ((w.run nodes child ops).cl.mgr d).live = List.range ((w.run nodes child ops).cl.mgr d).fresh := by
  induction ops generalizing w with
  | nil => exact h
  | cons op ops ih =>
    refine ih _ (fun a ha => hx a (by simp [ha])) ?_
    refine w.next_live child op d (fun l n => l = List.range n) h fun cop hcop => live_range (nodes := nodes) (w := w.cl) child [cop] d ?_ h
    intro a ha
    rw [List.mem_singleton] at ha
    exact hx a (by rw [hcop, ← ha]; simp)

end Verif.Singleton
