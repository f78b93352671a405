import Verif.Singleton.FirstStartSteps

/-! # The first start of a cluster singleton: every history -/

namespace Verif.Singleton

variable {nodes : List Nat} {w : Cl} {L : Nat}

theorem Solo.notEarly (h : Solo nodes L w) (op : ClOp) : ¬ w.Early op := by
  intro he
  cases op with
  | recv d m =>
    cases m with
    | request m =>
      obtain ⟨_, ⟨a, n, hs⟩, _⟩ := he
      by_cases e : d = L
      · subst e
        rcases h.lead with ⟨a, b, c, e⟩ | ⟨l, a, al, b, c, e⟩ | ⟨l, a, al, b, c, e⟩ | ⟨l, a, al, b, c, e⟩ | ⟨a, b, c, e⟩ <;>
          (rw [hs] at a; cases a)
      · rcases (h.oth d e).st with a | a | a <;> (rw [hs] at a; cases a)
    | _ => exact he
  | _ => exact he

theorem Solo.next (h : Solo nodes L w) (hn : nodes.Nodup) (hL : L ∈ nodes) (child : Bool) (op : ClOp)
    (hf : match op with
      | .memberUp _ l => l = L
      | .leaderChanged _ l => l = L
      | .startFails _ => False
      | _ => True) (ha : ¬ w.Again op) :
    Solo nodes L (w.next nodes child op) ∧
      (w.next nodes child op).left nodes L + (if w.Works nodes op then 1 else 0) = w.left nodes L := by
  have hi := h.inv.next child op (h.notEarly op) ha
  by_cases hal : w.allows nodes op = true
  rotate_left
  · rw [w.next_not child op hal]
    refine ⟨h, ?_⟩
    rw [if_neg, Nat.add_zero]
    intro hw
    apply hal
    cases op <;> simp [Cl.Works] at hw <;> simp [Cl.allows, ClOp.node, hw]
  -- a step that changes nothing and does nothing
  have same : w.next nodes child op = w → ¬ w.Works nodes op → Solo nodes L (w.next nodes child op) ∧
      (w.next nodes child op).left nodes L + (if w.Works nodes op then 1 else 0) = w.left nodes L := by
    intro e hw
    rw [e, if_neg hw]
    exact ⟨h, Nat.add_zero _⟩
  cases op with
  | memberUp d l =>
    simp only at hf
    subst hf
    have hd : d ∈ nodes := by simpa [Cl.allows, ClOp.node] using hal
    obtain ⟨p, hp⟩ : ∃ p, (w.mgr d).st = .joining p := Classical.byContradiction fun hx => ha fun p hp => hx ⟨p, hp⟩
    rw [if_pos ⟨hd, p, hp⟩]
    obtain ⟨m1, m2⟩ := addManagers_spec (fun _ => true) (w.mgr d).self (w.mgr d).managers nodes (h.inv.nodup d)
    have hself := h.inv.self d
    have hmem : ∀ x, x ∈ addManagers (fun _ => true) (w.mgr d).self (w.mgr d).managers nodes ↔ x ∈ nodes ∧ x ≠ d := by
      intro x
      rw [m2, hself]
      constructor
      · rintro (hx | hx)
        · exact h.inv.known d x hx
        · exact ⟨hx.1, hx.2.1⟩
      · exact fun hx => .inr ⟨hx.1, hx.2, rfl⟩
    rw [show w.next nodes child (.memberUp d l) = w.into w.net d ((w.mgr d).step (fun _ => true) (.memberUp l nodes)).1
      (((w.mgr d).step (fun _ => true) (.memberUp l nodes)).2.filterMap MOut.msg?) from w.next_at child _ hal] at hi ⊢
    simp only [Mgr.step, Mgr.onMemberUp] at hi ⊢
    generalize addManagers (fun _ => true) (w.mgr d).self (w.mgr d).managers nodes = ms at *
    by_cases e : d = l
    · subst e
      have hst : (w.mgr d).st = .joining none := by
        rcases h.lead with ⟨a, b, c, e⟩ | ⟨l, a, al, b, c, e⟩ | ⟨l, a, al, b, c, e⟩ | ⟨l, a, al, b, c, e⟩ | ⟨a, b, c, e⟩
        · exact a
        all_goals rw [hp] at a; cases a
      rw [if_pos hself.symm] at hi ⊢
      obtain ⟨k, hk, hb1, hb2⟩ := beginStarting_eq { w.mgr d with managers := ms, st := .idle }
      have hdue : Mgr.dueAck { w.mgr d with managers := ms } = [] := by
        simp only [Mgr.dueAck, hst]
      have hr : requests (w.mgr d).self ms = requests d ms := by rw [hself]
      simp only [hdue, List.nil_append, hb1, hb2] at hi ⊢
      rw [hr] at hi ⊢
      exact h.leaderUp hn hL hst m1 hmem hk rfl hi
    · rw [if_neg (fun e' => e (hself.symm.trans e'.symm))] at hi ⊢
      have hfo := h.oth d e
      rcases hfo.st with hs | hs | hs
      · have hdue : Mgr.dueAck { w.mgr d with managers := ms } = [] := by
          simp only [Mgr.dueAck, hs]
        simp only [hdue, List.filterMap_nil] at hi ⊢
        refine h.follow (b := false) hn hd e hi ⟨.inr (.inr rfl), hfo.starts, hfo.results, hfo.fresh⟩ (fun _ hx => hx)
          (fun _ _ _ _ _ => rfl) (fun _ => rfl) (fun _ => by simp [MState.holds, hs]) (fun _ => ⟨rfl, by simp⟩)
          (fun hx => by cases hx) ?_
        simp [hs, MState.left]
      · have hstart : (w.mgr l).st ≠ .joining none := fun hj => (h.jn hj).2 d e hs
        have hdue : Mgr.dueAck { w.mgr d with managers := ms } = [.send l (.ack d)] := by
          simp only [Mgr.dueAck, hs, Mgr.notifyManager]
          rw [if_pos ((hmem l).2 ⟨hL, fun e' => e e'.symm⟩), hself]
        simp only [hdue, List.filterMap_cons, MOut.msg?, List.filterMap_nil] at hi ⊢
        refine h.follow (b := true) hn hd e hi ⟨.inr (.inr rfl), hfo.starts, hfo.results, hfo.fresh⟩ (fun _ hx => hx)
          (fun _ _ _ _ _ => rfl) (fun _ => rfl) (fun _ => by simp [MState.holds, hs]) (fun hj => absurd hj hstart)
          (fun hx => by cases hx) ?_
        simp [hs, MState.left]
      · rw [hp] at hs; cases hs
  | leaderChanged d l =>
    simp only at hf
    subst hf
    refine same (w.next_same child _ rfl ?_) id
    simp only [ClOp.node, ClOp.op, Mgr.step, Mgr.onLeaderChanged, h.inv.self d]
    by_cases e : d = l
    · subst e
      rcases h.lead with ⟨a, b, c, e⟩ | ⟨l, a, al, b, c, e⟩ | ⟨l, a, al, b, c, e⟩ | ⟨l, a, al, b, c, e⟩ | ⟨a, b, c, e⟩ <;>
        simp [a, MState.isJoining, MState.isRunning]
    · have : ¬ l = d := fun e' => e e'.symm
      simp [this]
  | nodeAdded d n =>
    rw [if_neg (show ¬ Cl.Works nodes w (.nodeAdded d n) from id), Nat.add_zero]
    have hd : d ∈ nodes ∧ n ∈ nodes := by simpa [Cl.allows] using hal
    by_cases hc : n ≠ d ∧ n ∉ (w.mgr d).managers
    · have hj : (w.mgr d).st.isJoining = true := by
        cases hx : (w.mgr d).st.isJoining with
        | true => rfl
        | false => exact absurd (h.inv.all d hd.1 hx n hd.2 hc.1) hc.2
      have hg : (w.mgr d).greeting n = [] := by
        unfold Mgr.greeting
        cases hs : (w.mgr d).st <;> rw [hs] at hj <;> first | rfl | cases hj
      rw [show w.next nodes child (.nodeAdded d n) = w.into w.net d ((w.mgr d).step (fun _ => true) (.nodeAdded n)).1
        (((w.mgr d).step (fun _ => true) (.nodeAdded n)).2.filterMap MOut.msg?) from w.next_at child _ hal] at hi ⊢
      have hstep : (w.mgr d).step (fun _ => true) (.nodeAdded n) = ({ w.mgr d with managers := (w.mgr d).managers ++ [n] }, []) := by
        simp only [Mgr.step, Mgr.onNodeAdded, hg]
        rw [if_pos ⟨by rw [h.inv.self d]; exact hc.1, trivial, hc.2⟩]
      rw [hstep] at hi ⊢
      exact h.quiet hi rfl rfl rfl rfl fun hx => by rw [hj] at hx; cases hx
    · have : w.next nodes child (.nodeAdded d n) = w := by
        refine w.next_same child _ rfl ?_
        simp only [ClOp.node, ClOp.op, Mgr.step, Mgr.onNodeAdded, h.inv.self d]
        rw [if_neg fun hx => hc ⟨hx.1, hx.2.2⟩]
      rw [this]; exact ⟨h, rfl⟩
  | recv d m =>
    have hd : d ∈ nodes ∧ (d, m) ∈ w.net := by simpa [Cl.allows] using hal
    obtain ⟨hd, hm⟩ := hd
    rw [if_pos ⟨hd, hm⟩]
    rw [w.next_at child _ hal] at hi ⊢
    simp only [ClOp.node, ClOp.op, Mgr.step, Cl.rest] at hi ⊢
    obtain ⟨X, hX, hXL, hx | hx | hx⟩ := h.net _ hm
    · -- a request
      simp only [Prod.mk.injEq] at hx
      obtain ⟨rfl, rfl⟩ := hx
      obtain ⟨r1, r2, r3, r4, r5⟩ := h.inv.req hm
      have hfo := h.oth d hXL
      have hcnt : ∀ X, X ≠ d → (w.net.erase (d, .request L)).count (X, .request L) = w.net.count (X, .request L) := by
        intro X hX
        exact List.count_erase_of_ne (by simpa using hX)
      have hcnt' : ∀ X, (w.net.erase (d, .request L)).count (L, .ack X) = w.net.count (L, .ack X) := by
        intro X
        exact List.count_erase_of_ne (by simp)
      have hcd : (w.net.erase (d, .request L)).count (d, .request L) = 0 := by rw [List.count_erase_self, r2]
      have hsum := sum_erase hm
      simp only [MMsg.left] at hsum
      have hLj : (w.mgr L).st ≠ .joining none := fun e => by rw [e] at r1; cases r1
      rcases hfo.st with hs | hs | hs
      · have hstep : (w.mgr d).recv (.request L) = ({ w.mgr d with st := .joining (some L) }, []) := by
          simp [Mgr.recv, Mgr.onRequest, hs, MState.isRunning, Mgr.grantLease]
        rw [hstep] at hi ⊢
        refine h.follow (b := false) hn hd hXL hi ⟨.inr (.inl rfl), hfo.starts, hfo.results, hfo.fresh⟩
          (fun _ hx => List.mem_of_mem_erase hx)
          (fun _ X _ _ hX => hcnt X hX) hcnt' (fun _ => by rw [hcd, r2]; simp [MState.holds, hs])
          (fun hj => absurd hj hLj) (fun _ => ⟨rfl, by rw [hs]; rfl⟩) ?_
        simp only [hs, MState.left, MMsg.left] at hsum ⊢
        simp only [Bool.false_eq_true, if_false]
        omega
      · rw [hs] at r3; simp [MState.holds] at r3
      · have hin : L ∈ (w.mgr d).managers := h.inv.all d hd (by rw [hs]; rfl) L hL fun e => hXL e.symm
        have hstep : (w.mgr d).recv (.request L) = (w.mgr d, [.send L (.ack d)]) := by
          simp [Mgr.recv, Mgr.onRequest, hs, MState.isRunning, Mgr.grantLease, Mgr.notifyManager, hin, h.inv.self d]
        rw [hstep] at hi ⊢
        refine h.follow (b := true) hn hd hXL hi hfo
          (fun _ hx => List.mem_of_mem_erase hx)
          (fun _ X _ _ hX => hcnt X hX) hcnt' (fun _ => by rw [hcd, r2]; simp [hs, MState.holds])
          (fun hj => absurd hj hLj) (fun hx => by rw [hs] at hx; cases hx) ?_
        simp only [hs, MState.left, MMsg.left] at hsum ⊢
        simp only [if_true]
        omega
    · -- an acknowledgement
      simp only [Prod.mk.injEq] at hx
      obtain ⟨rfl, rfl⟩ := hx
      obtain ⟨l, hst⟩ := starting_of (h.inv.ack hm).1
      have hstep : (w.mgr d).recv (.ack X) = ((w.mgr d).checkAcks (setInsert l X), []) := by
        simp [Mgr.recv, Mgr.onAck, hst]
      rw [hstep] at hi ⊢
      exact h.ackCounted hL hm hst hi
    · -- the singleton has started
      simp only [Prod.mk.injEq] at hx
      obtain ⟨rfl, rfl⟩ := hx
      have hstep : (w.mgr d).recv (.started L) = (w.mgr d, [.proxyRemote L]) := rfl
      rw [hstep] at hi ⊢
      have hsum := sum_erase hm
      refine h.follow (b := false) hn hd hXL hi (h.oth d hXL) (fun _ hx => List.mem_of_mem_erase hx)
        (fun _ X _ _ _ => List.count_erase_of_ne (by simp)) (fun X => List.count_erase_of_ne (by simp))
        (fun _ => by rw [List.count_erase_of_ne (by simp)]; simp)
        (fun hj => ⟨rfl, (h.jn hj).2 d hXL⟩) (fun hx => ⟨rfl, hx⟩) ?_
      simp only [MMsg.left] at hsum ⊢
      simp only [Bool.false_eq_true, if_false]
      omega
  | boot d =>
    have hd : d ∈ nodes := by simpa [Cl.allows, ClOp.node] using hal
    by_cases h0 : (w.mgr d).starts = 0
    · refine same (w.next_same child _ rfl ?_) fun hw => by have := hw.2; omega
      simp only [ClOp.node, ClOp.op, Mgr.step, h0, if_true]
    · rw [if_pos ⟨hd, Nat.pos_of_ne_zero h0⟩]
      rw [show w.next nodes child (.boot d) = w.into w.net d ((w.mgr d).step (fun _ => true) (.boot)).1
        (((w.mgr d).step (fun _ => true) (.boot)).2.filterMap MOut.msg?) from w.next_at child _ hal] at hi ⊢
      rw [show (w.mgr d).step (fun _ => true) .boot = ((w.mgr d).boot, []) from if_neg h0] at hi ⊢
      by_cases e : d = L
      · subst e
        rcases h.lead with ⟨a, b, c, e⟩ | ⟨l, a, al, b, c, e⟩ | ⟨l, a, al, b, c, e⟩ | ⟨l, a, al, b, c, e⟩ | ⟨a, b, c, e⟩
        · exact absurd b h0
        · exact absurd b h0
        · exact h.booted a al b c e hi
        · exact absurd b h0
        · exact absurd b h0
      · exact absurd (h.oth d e).starts h0
  | startFails d => exact hf.elim
  | started d a =>
    have hd : d ∈ nodes := by simpa [Cl.allows, ClOp.node] using hal
    by_cases h0 : a ∈ (w.mgr d).results
    · rw [if_pos ⟨hd, h0⟩]
      rw [show w.next nodes child (.started d a) = w.into w.net d ((w.mgr d).step (fun _ => true) (.started a)).1
        (((w.mgr d).step (fun _ => true) (.started a)).2.filterMap MOut.msg?) from w.next_at child _ hal] at hi ⊢
      rw [show (w.mgr d).step (fun _ => true) (.started a) =
        ({ w.mgr d with results := (w.mgr d).results.erase a } : Mgr).onStarted a from if_pos h0] at hi ⊢
      by_cases e : d = L
      · subst e
        rcases h.lead with ⟨a, b, c, e⟩ | ⟨l, a, al, b, c, e⟩ | ⟨l, a, al, b, c, e⟩ | ⟨l, a, al, b, c, e⟩ | ⟨a, b, c, e⟩
        · rw [c] at h0; cases h0
        · rw [c] at h0; cases h0
        · rw [c] at h0; cases h0
        · rw [c] at h0
          obtain rfl := List.mem_singleton.1 h0
          have hmsg : (({ w.mgr d with results := (w.mgr d).results.erase 0 } : Mgr).onStarted 0).2.filterMap MOut.msg? =
              (w.mgr d).managers.map fun n => (n, .started d) := by
            simp only [Mgr.onStarted, List.filterMap_cons, MOut.msg?]
            rw [notifyManagers_msgs, h.inv.self d]
          have hfst : (({ w.mgr d with results := (w.mgr d).results.erase 0 } : Mgr).onStarted 0).1 =
              { w.mgr d with results := [], st := .running 0 } := by
            simp [Mgr.onStarted, c]
          rw [hmsg, hfst] at hi ⊢
          exact h.ran hn hL a al b c e rfl hi
        · rw [c] at h0; cases h0
      · rw [(h.oth d e).results] at h0; cases h0
    · refine same (w.next_same child _ rfl ?_) fun hw => h0 hw.2
      simp only [ClOp.node, ClOp.op, Mgr.step, h0, if_false]
  | exits d a =>
    rw [if_neg (show ¬ Cl.Works nodes w (.exits d a) from id), Nat.add_zero]
    rw [show w.next nodes child (.exits d a) = w.into w.net d ((w.mgr d).step (fun _ => true) (.exits a child)).1
      (((w.mgr d).step (fun _ => true) (.exits a child)).2.filterMap MOut.msg?) from w.next_at child _ hal] at hi ⊢
    by_cases h0 : a ∈ (w.mgr d).live
    · rw [show (w.mgr d).step (fun _ => true) (.exits a child) = ({ w.mgr d with
        live := (w.mgr d).live.erase a
        ended := if child then (w.mgr d).ended ++ [a] else (w.mgr d).ended }, []) from if_pos h0] at hi ⊢
      exact h.quiet hi rfl rfl rfl rfl fun _ => rfl
    · rw [show (w.mgr d).step (fun _ => true) (.exits a child) = (w.mgr d, []) from if_neg h0] at hi ⊢
      exact h.quiet hi rfl rfl rfl rfl fun _ => rfl
  | childStopped d a =>
    rw [if_neg (show ¬ Cl.Works nodes w (.childStopped d a) from id), Nat.add_zero]
    rw [show w.next nodes child (.childStopped d a) = w.into w.net d ((w.mgr d).step (fun _ => true) (.childStopped a)).1
      (((w.mgr d).step (fun _ => true) (.childStopped a)).2.filterMap MOut.msg?) from w.next_at child _ hal] at hi ⊢
    have hns : ∀ σ : Mgr, σ.st = (w.mgr d).st → σ.onChildStopped = (σ, []) := by
      intro σ hσ
      unfold Mgr.onChildStopped
      rw [hσ]
      by_cases e : d = L
      · subst e
        rcases h.lead with ⟨a, b, c, e⟩ | ⟨l, a, al, b, c, e⟩ | ⟨l, a, al, b, c, e⟩ | ⟨l, a, al, b, c, e⟩ | ⟨a, b, c, e⟩ <;> rw [a]
      · rcases (h.oth d e).st with a | a | a <;> rw [a]
    by_cases h0 : a ∈ (w.mgr d).ended
    · rw [show (w.mgr d).step (fun _ => true) (.childStopped a) =
        ({ w.mgr d with ended := (w.mgr d).ended.erase a } : Mgr).onChildStopped from if_pos h0,
        hns { w.mgr d with ended := (w.mgr d).ended.erase a } rfl] at hi ⊢
      exact h.quiet hi rfl rfl rfl rfl fun _ => rfl
    · rw [show (w.mgr d).step (fun _ => true) (.childStopped a) = (w.mgr d, []) from if_neg h0] at hi ⊢
      exact h.quiet hi rfl rfl rfl rfl fun _ => rfl

theorem Solo.run (h : Solo nodes L w) (hn : nodes.Nodup) (hL : L ∈ nodes) (child : Bool) (ops : List ClOp)
    (hf : w.Founding nodes child L ops) :
    Solo nodes L (w.run nodes child ops) ∧
      (w.run nodes child ops).left nodes L + w.worked nodes child ops = w.left nodes L := by
  induction ops generalizing w with
  | nil => exact ⟨h, rfl⟩
  | cons op ops ih =>
    obtain ⟨f1, f2, f3⟩ := hf
    obtain ⟨h1, h2⟩ := h.next hn hL child op f1 f2
    obtain ⟨h3, h4⟩ := ih h1 f3
    refine ⟨h3, ?_⟩
    simp only [Cl.worked]
    show ((w.next nodes child op).run nodes child ops).left nodes L + _ = _
    omega

theorem le_sum_map {l : List Nat} {f : Nat → Nat} {x : Nat} (h : x ∈ l) : f x ≤ (l.map f).sum := by
  induction l with
  | nil => cases h
  | cons a l ih =>
    simp only [List.map_cons, List.sum_cons]
    rcases List.mem_cons.1 h with rfl | h
    · omega
    · have := ih h; omega

/-- if nothing can be done, the leader runs the singleton. -/
theorem Solo.done (h : Solo nodes L w) (hL : L ∈ nodes) : w.Settled nodes ↔ w.left nodes L = 0 := by
  constructor
  · intro hs
    have hnet : w.net = [] := by
      refine List.eq_nil_iff_forall_not_mem.2 fun x hx => ?_
      obtain ⟨X, hX, hXL, e⟩ := h.net x hx
      refine hs (.recv x.1 x.2) ⟨?_, hx⟩
      rcases e with e | e | e <;> (rw [e]; first | exact hX | exact hL)
    have hup : ∀ d ∈ nodes, ∀ p, (w.mgr d).st ≠ .joining p := fun d hd p hp => hs (.memberUp d 0) ⟨hd, p, hp⟩
    have hfol : ((followers nodes L).map fun X => (w.mgr X).st.left).sum = 0 := by
      have := sum_const (followers nodes L) (fun X => (w.mgr X).st.left) 0 fun X hX => by
        have hX := mem_followers.1 hX
        rcases (h.oth X hX.2).st with e | e | e
        · exact absurd e (hup X hX.1 _)
        · exact absurd e (hup X hX.1 _)
        · rw [e]; rfl
      simpa using this
    have hlead : (w.mgr L).leadLeft nodes.length = 0 := by
      rcases h.lead with ⟨a, b, c, e⟩ | ⟨l, a, al, b, c, e⟩ | ⟨l, a, al, b, c, e⟩ | ⟨l, a, al, b, c, e⟩ | ⟨a, b, c, e⟩
      · exact absurd a (hup L hL _)
      · exfalso
        apply al
        have hst : (w.mgr L).st.isStarting = true := by rw [a]; rfl
        have hjn := h.notJoining a
        have hall : ∀ X ∈ (w.mgr L).managers, X ∈ l := by
          intro X hX
          have hk := h.inv.known L X hX
          have ht := h.tok hst X hk.1 hk.2
          have h0 : (w.mgr X).st.holds L = 0 := by
            rcases (h.oth X hk.2).st with e | e | e
            · rw [e]; rfl
            · exact absurd e (hup X hk.1 _)
            · rw [e]; rfl
          unfold Cl.tok at ht
          rw [hnet, h0, a] at ht
          simp only [List.count_nil, MState.acked] at ht
          exact List.count_pos_iff.1 (by omega)
        have hnd : l.Nodup := by
          rw [List.nodup_iff_count]
          intro x
          have h1 := h.inv.tok L x
          have h2 := (w.mgr L).st.one_le
          unfold Cl.tok at h1
          rw [a] at h1 h2
          simp only [MState.acked] at h1
          omega
        have hsub : ∀ x ∈ l, x ∈ (w.mgr L).managers := by
          intro x hx
          have := h.inv.ackd L x (by rw [a]; exact hx)
          exact h.inv.all L hL hjn x this.2.1 this.2.2
        exact ((List.perm_ext_iff_of_nodup hnd (h.inv.nodup L)).2 fun x => ⟨hsub x, hall x⟩).length_eq
      · exact absurd ⟨hL, by omega⟩ (hs (.boot L))
      · exact absurd ⟨hL, by rw [c]; simp⟩ (hs (.started L 0))
      · unfold Mgr.leadLeft; rw [a]
    unfold Cl.left
    rw [hnet, hfol, hlead]; rfl
  · intro h0 op hw
    unfold Cl.left at h0
    have hp : 0 < nodes.length := List.length_pos_of_mem hL
    have hnet : w.net = [] := by
      refine List.eq_nil_iff_forall_not_mem.2 fun x hx => ?_
      have := sum_erase hx
      have : 0 < x.2.left := by cases x.2 <;> simp [MMsg.left]
      omega
    have hrun : (w.mgr L).st = .running 0 ∧ (w.mgr L).starts = 0 ∧ (w.mgr L).results = [] := by
      have hl : (w.mgr L).leadLeft nodes.length = 0 := by omega
      unfold Mgr.leadLeft at hl
      rcases h.lead with ⟨a, b, c, e⟩ | ⟨l, a, al, b, c, e⟩ | ⟨l, a, al, b, c, e⟩ | ⟨l, a, al, b, c, e⟩ | ⟨a, b, c, e⟩
      · rw [a] at hl; simp only at hl; omega
      · rw [a, c] at hl; simp at hl
      · rw [a, c] at hl; simp at hl
      · rw [a, c] at hl; simp at hl; rw [hl] at hp; simp at hp
      · exact ⟨a, b, c⟩
    cases op with
    | memberUp d l =>
      obtain ⟨hd, p, hp'⟩ := hw
      by_cases e : d = L
      · subst e; rw [hrun.1] at hp'; cases hp'
      · have hle : (w.mgr d).st.left ≤ ((followers nodes L).map fun X => (w.mgr X).st.left).sum :=
          le_sum_map (f := fun X => (w.mgr X).st.left) (mem_followers.2 ⟨hd, e⟩)
        have : 0 < (w.mgr d).st.left := by rw [hp']; cases p <;> simp [MState.left]
        omega
    | recv d m => have := hw.2; rw [hnet] at this; cases this
    | boot d =>
      have := hw.2
      by_cases e : d = L
      · subst e; omega
      · have := (h.oth d e).starts; omega
    | started d a =>
      have := hw.2
      by_cases e : d = L
      · subst e; rw [hrun.2.2] at this; cases this
      · rw [(h.oth d e).results] at this; cases this
    | _ => exact hw

/-- as long as no instance ends, those started are those that run. -/
theorem live_range (child : Bool) (ops : List ClOp) (d : Nat) (hx : ∀ a, .exits d a ∉ ops)
    (h : (w.mgr d).live = List.range (w.mgr d).fresh) :
    ((w.run nodes child ops).mgr d).live = List.range ((w.run nodes child ops).mgr d).fresh := by
  induction ops generalizing w with
  | nil => exact h
  | cons op ops ih =>
    refine ih (fun a ha => hx a (by simp [ha])) ?_
    rcases w.next_mgr (nodes := nodes) child op d with e | ⟨hd, _, e⟩
    · rw [e]; exact h
    · rw [e]
      cases op with
      | memberUp _ l =>
        simp only [ClOp.op, Mgr.step, Mgr.onMemberUp, Mgr.beginStarting, Mgr.startActor]; split <;> (try split) <;> exact h
      | leaderChanged _ n =>
        simp only [ClOp.op, Mgr.step, Mgr.onLeaderChanged, Mgr.beginStarting, Mgr.startActor]
        split <;> (try split) <;> (try split) <;> exact h
      | nodeAdded _ n => simp only [ClOp.op, Mgr.step, Mgr.onNodeAdded]; split <;> exact h
      | recv _ m =>
        cases m <;>
          (simp only [ClOp.op, Mgr.step, Mgr.recv, Mgr.onRequest, Mgr.beginStopping, Mgr.grantLease, Mgr.onAck, Mgr.checkAcks, Mgr.startActor]
           try split
           all_goals try split
           all_goals try exact h)
      | boot _ =>
        simp only [ClOp.op, Mgr.step]
        split
        · exact h
        · simp only [Mgr.boot, h, List.range_succ]
      | startFails _ => exact h
      | started _ a => simp only [ClOp.op, Mgr.step]; split <;> exact h
      | exits k a =>
        simp only [ClOp.node] at hd
        subst hd
        exact absurd (List.mem_cons_self) (hx a)
      | childStopped _ a =>
        simp only [ClOp.op, Mgr.step]
        split
        · simp only [Mgr.onChildStopped, Mgr.grantLease]
          split <;> (try split) <;> exact h
        · exact h

/-- only instances that were started run. -/
theorem live_lt (child : Bool) (ops : List ClOp) (d : Nat) (h : ∀ a ∈ (w.mgr d).live, a < (w.mgr d).fresh) :
    ∀ a ∈ ((w.run nodes child ops).mgr d).live, a < ((w.run nodes child ops).mgr d).fresh := by
  induction ops generalizing w with
  | nil => exact h
  | cons op ops ih =>
    refine ih ?_
    rcases w.next_mgr (nodes := nodes) child op d with e | ⟨hd, _, e⟩
    · rw [e]; exact h
    · rw [e]
      cases op with
      | memberUp _ l =>
        simp only [ClOp.op, Mgr.step, Mgr.onMemberUp, Mgr.beginStarting, Mgr.startActor]; split <;> (try split) <;> exact h
      | leaderChanged _ n =>
        simp only [ClOp.op, Mgr.step, Mgr.onLeaderChanged, Mgr.beginStarting, Mgr.startActor]
        split <;> (try split) <;> (try split) <;> exact h
      | nodeAdded _ n => simp only [ClOp.op, Mgr.step, Mgr.onNodeAdded]; split <;> exact h
      | recv _ m =>
        cases m <;>
          (simp only [ClOp.op, Mgr.step, Mgr.recv, Mgr.onRequest, Mgr.beginStopping, Mgr.grantLease, Mgr.onAck, Mgr.checkAcks, Mgr.startActor]
           try split
           all_goals try split
           all_goals try exact h)
      | boot _ =>
        simp only [ClOp.op, Mgr.step]
        split
        · exact h
        · intro a ha
          simp only [Mgr.boot, List.mem_append, List.mem_singleton] at ha ⊢
          rcases ha with ha | rfl
          · have := h a ha; omega
          · omega
      | startFails _ => exact h
      | started _ a => simp only [ClOp.op, Mgr.step]; split <;> exact h
      | exits k a =>
        simp only [ClOp.op, Mgr.step]
        split
        · exact fun b hb => h b (List.mem_of_mem_erase hb)
        · exact h
      | childStopped _ a =>
        simp only [ClOp.op, Mgr.step]
        split
        · simp only [Mgr.onChildStopped, Mgr.grantLease]
          split <;> (try split) <;> exact h
        · exact h

/-- a start that failed: every manager has acknowledged, and no start is under way. -/
structure Failed (L : Nat) (w : Cl) : Prop where
  complete : (w.mgr L).complete
  starts : (w.mgr L).starts = 0
  results : (w.mgr L).results = []

theorem Failed.next (hi : Inv nodes w) (hL : L ∈ nodes) (h : Failed L w) (child : Bool) (op : ClOp)
    (ha : ¬ w.Again op) : Failed L (w.next nodes child op) ∧
      ∀ d, ((w.next nodes child op).mgr d).fresh = (w.mgr d).fresh := by
  obtain ⟨l, hst⟩ := starting_of h.complete.1
  have hjn : (w.mgr L).st.isJoining = false := by rw [hst]; rfl
  have hall : ∀ n ∈ nodes, n ≠ L → n ∈ l := by
    intro n hn hne
    have := h.complete.2 n (hi.all L hL hjn n hn hne)
    rw [hst] at this; exact this
  have hno : ∀ d ∈ nodes, (w.mgr d).starts = 0 := by
    intro d hd
    by_cases e : d = L
    · subst e; exact h.starts
    · rcases Nat.eq_zero_or_pos (w.mgr d).starts with h0 | h0
      · exact h0
      · exfalso
        have hc := hi.k2' d (by omega)
        obtain ⟨l', hst'⟩ := starting_of hc.1
        have hm := hi.all d hd (by rw [hst']; rfl) L hL fun e' => e e'.symm
        exact hi.k6 L (.inr h.complete) d (.inr (hc.2 L hm))
  have hnode : w.allows nodes op = true → op.node ∈ nodes := by
    cases op <;> simp only [Cl.allows, ClOp.node, Bool.and_eq_true, List.contains_iff_mem] <;>
      first | exact fun h => h | exact fun h => h.1
  constructor
  · -- nothing changes at `L`
    suffices hs : (w.mgr L).st = ((w.next nodes child op).mgr L).st ∧
        (w.mgr L).managers = ((w.next nodes child op).mgr L).managers ∧
        (w.mgr L).starts = ((w.next nodes child op).mgr L).starts ∧
        (w.mgr L).results = ((w.next nodes child op).mgr L).results by
      obtain ⟨e1, e2, e3, e4⟩ := hs
      refine ⟨?_, e3 ▸ h.starts, e4 ▸ h.results⟩
      unfold Mgr.complete
      rw [← e1, ← e2]; exact h.complete
    rcases w.next_mgr (nodes := nodes) child op L with e | ⟨hd, hal, e⟩
    · rw [e]; exact ⟨rfl, rfl, rfl, rfl⟩
    · rw [e]
      cases op with
      | memberUp d l' =>
        simp only [ClOp.node] at hd
        subst hd
        exact absurd (fun p hp => by rw [hst] at hp; cases hp) ha
      | leaderChanged d n =>
        simp [ClOp.op, Mgr.step, Mgr.onLeaderChanged, hst, MState.isRunning, MState.isJoining]
      | nodeAdded d n =>
        simp only [ClOp.node] at hd
        subst hd
        have hn : n ∈ nodes := by simp [Cl.allows] at hal; exact hal.2
        simp only [ClOp.op, Mgr.step, Mgr.onNodeAdded]
        rw [if_neg]
        · exact ⟨rfl, rfl, rfl, rfl⟩
        · rintro ⟨h1, _, h2⟩
          rw [hi.self L] at h1
          exact h2 (hi.all L hL hjn n hn h1)
      | recv d m =>
        simp only [ClOp.node] at hd
        subst hd
        have hm : (L, m) ∈ w.net := by simp [Cl.allows] at hal; exact hal.2
        cases m with
        | request n => simp [ClOp.op, Mgr.step, Mgr.recv, Mgr.onRequest, hst, MState.isRunning, Mgr.beginStopping, MState.actor]
        | ack n =>
          have hx := hi.src _ _ n hm rfl
          have := (hi.ack hm).2.2.2.2
          rw [hst] at this
          have := List.count_eq_zero.1 this
          exact absurd (hall n hx.2.1 hx.2.2) this
        | started n => exact ⟨rfl, rfl, rfl, rfl⟩
        | stopped n => exact ⟨rfl, rfl, rfl, rfl⟩
      | boot d => simp [ClOp.op, Mgr.step, h.starts]
      | startFails d => simp [ClOp.op, Mgr.step, h.starts]
      | started d a => simp [ClOp.op, Mgr.step, h.results]
      | exits d a => simp only [ClOp.op, Mgr.step]; split <;> exact ⟨rfl, rfl, rfl, rfl⟩
      | childStopped d a =>
        simp only [ClOp.op, Mgr.step]
        split
        · simp [Mgr.onChildStopped, hst]
        · exact ⟨rfl, rfl, rfl, rfl⟩
  · intro d
    rcases w.next_mgr (nodes := nodes) child op d with e | ⟨hd, hal, e⟩
    · rw [e]
    · rw [e]
      have hs := hno d (hd ▸ hnode hal)
      cases op with
      | memberUp _ l =>
        simp only [ClOp.op, Mgr.step, Mgr.onMemberUp, Mgr.beginStarting, Mgr.startActor]; split <;> (try split) <;> rfl
      | leaderChanged _ n =>
        simp only [ClOp.op, Mgr.step, Mgr.onLeaderChanged, Mgr.beginStarting, Mgr.startActor]
        split <;> (try split) <;> (try split) <;> rfl
      | nodeAdded _ n => simp only [ClOp.op, Mgr.step, Mgr.onNodeAdded]; split <;> rfl
      | recv _ m =>
        cases m <;>
          (simp only [ClOp.op, Mgr.step, Mgr.recv, Mgr.onRequest, Mgr.beginStopping, Mgr.grantLease, Mgr.onAck, Mgr.checkAcks, Mgr.startActor]
           try split
           all_goals try split
           all_goals try rfl)
      | boot _ => simp [ClOp.op, Mgr.step, hs]
      | startFails _ => rfl
      | started _ a => simp only [ClOp.op, Mgr.step]; split <;> rfl
      | exits k a => simp only [ClOp.op, Mgr.step]; split <;> rfl
      | childStopped _ a =>
        simp only [ClOp.op, Mgr.step]
        split
        · simp only [Mgr.onChildStopped, Mgr.grantLease]
          split <;> (try split) <;> rfl
        · rfl

theorem Failed.run (hi : Inv nodes w) (hL : L ∈ nodes) (h : Failed L w) (child : Bool) (ops : List ClOp)
    (ho : w.Orderly nodes child ops) (d : Nat) : ((w.run nodes child ops).mgr d).fresh = (w.mgr d).fresh := by
  induction ops generalizing w with
  | nil => rfl
  | cons op ops ih =>
    obtain ⟨h1, h2⟩ := h.next hi hL child op ho.2.1
    exact (ih (hi.next child op ho.1 ho.2.1) h1 ho.2.2).trans (h2 d)

end Verif.Singleton
