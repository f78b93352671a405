import Verif.Singleton.ServiceSteps

/-! # Sending to a cluster singleton: where messages go -/

namespace Verif.Singleton

variable {nodes : List Nat} {L : Nat}

theorem Mgr.step_live (σ : Mgr) (op : MOp) {x : Nat} (h : x ∈ (σ.step (fun _ => true) op).1.live) : x ∈ σ.live ∨ x = σ.fresh := by
  cases op with
  | memberUp l ns =>
    simp only [Mgr.step, Mgr.onMemberUp, Mgr.beginStarting, Mgr.startActor] at h
    split at h <;> (try split at h) <;> exact .inl h
  | leaderChanged k =>
    simp only [Mgr.step, Mgr.onLeaderChanged, Mgr.beginStarting, Mgr.startActor] at h
    split at h <;> (try split at h) <;> (try split at h) <;> exact .inl h
  | nodeAdded k => simp only [Mgr.step, Mgr.onNodeAdded] at h; split at h <;> exact .inl h
  | nodeRemoved k =>
    simp only [Mgr.step, Mgr.onNodeRemoved, Mgr.checkAcks, Mgr.startActor] at h
    split at h <;> (try split at h) <;> exact .inl h
  | recv m =>
    cases m <;>
      (simp only [Mgr.step, Mgr.recv, Mgr.onRequest, Mgr.beginStopping, Mgr.grantLease, Mgr.onAck, Mgr.checkAcks, Mgr.startActor] at h
       try split at h
       all_goals try split at h
       all_goals exact .inl h)
  | boot =>
    simp only [Mgr.step, Mgr.boot] at h
    split at h
    · exact .inl h
    · simp only [List.mem_append, List.mem_singleton] at h; exact h
  | startFails => exact .inl h
  | started a => simp only [Mgr.step, Mgr.onStarted] at h; split at h <;> exact .inl h
  | exits a c =>
    simp only [Mgr.step] at h
    split at h
    · exact .inl (List.mem_of_mem_erase h)
    · exact .inl h
  | childStopped a =>
    simp only [Mgr.step, Mgr.onChildStopped, Mgr.grantLease] at h
    split at h <;> (try split at h) <;> (try split at h) <;> exact .inl h

/-- the instances started so far, as seen from the leader. -/
theorem Solo.fresh_le {w : Cl} (h : Solo nodes L w) : (w.mgr L).fresh ≤ 1 := by
  rcases h.lead with ⟨_, _, _, e⟩ | ⟨_, _, _, _, _, e⟩ | ⟨_, _, _, _, _, e⟩ | ⟨_, _, _, _, _, e⟩ | ⟨_, _, _, e⟩ <;> omega

theorem Solo.fresh_of_result {w : Cl} (h : Solo nodes L w) {d : Nat} (hr : (w.mgr d).results ≠ [] ∨ ∃ a, (w.mgr d).st = .running a) :
    d = L ∧ 0 < (w.mgr L).fresh := by
  by_cases e : d = L
  · subst e
    refine ⟨rfl, ?_⟩
    rcases h.lead with ⟨a, b, c, e⟩ | ⟨l, a, al, b, c, e⟩ | ⟨l, a, al, b, c, e⟩ | ⟨l, a, al, b, c, e⟩ | ⟨a, b, c, e⟩
    · rw [a, c] at hr; simp at hr
    · rw [a, c] at hr; simp at hr
    · rw [a, c] at hr; simp at hr
    · omega
    · omega
  · have hf := h.oth d e
    rw [hf.results] at hr
    rcases hr with hr | ⟨a, hr⟩
    · exact absurd rfl hr
    · rcases hf.st with e | e | e <;> rw [e] at hr <;> cases hr

structure Served (nodes : List Nat) (L : Nat) (w : Svc) : Prop where
  solo : Solo nodes L w.cl
  lt : ∀ d, ∀ a ∈ (w.cl.mgr d).live, a < (w.cl.mgr d).fresh
  note : ∀ d n, (d, .started n) ∈ w.cl.net → n = L ∧ 0 < (w.cl.mgr L).fresh
  nostop : ∀ d n, (d, .stopped n) ∉ w.cl.net
  mail : ∀ d r, .started r ∈ w.mail d → r = L ∧ 0 < (w.cl.mgr L).fresh
  mail' : ∀ d, .stopping ∉ w.mail d
  act : ∀ d r, (w.proxy d).st = .active r → r = L ∧ 0 < (w.cl.mgr L).fresh
  tasks : ∀ d, ∀ t ∈ (w.proxy d).tasks, t.1 = L ∧ 0 < (w.cl.mgr L).fresh
  told : ∀ d ∈ nodes, (w.cl.mgr L).st = .running 0 → (d = L ∨ (d, .started L) ∉ w.cl.net) →
    (w.proxy d).st = .active L ∨ .started L ∈ w.mail d ∨ (w.proxy d).st = .dead
  got : ∀ d, ∀ x ∈ w.got d, x.1 = L ∧ x.2.1 = 0
  failed : ∀ d, ∀ x ∈ w.failed d, x.1 = L

theorem Served.init (hn : nodes.Nodup) (hL : L ∈ nodes) : Served nodes L {} := by
  refine ⟨(Solo.init hn hL).1, ?_, ?_, ?_, ?_, ?_, ?_, ?_, ?_, ?_, ?_⟩ <;> simp [Cl.init, Mgr.init]

theorem proxy_active (p : Proxy) (x : POp) {r : Nat} (h : (p.next x).st = .active r) : p.st = .active r ∨ x = .started r := by
  cases x with
  | deliver m =>
    simp only [Proxy.next, Proxy.onDeliver, Proxy.deliver] at h
    split at h
    · cases h
    · split at h
      · rename_i r' _ _ hs
        split at hs
        · cases hs; exact .inl h
        · cases hs
      · cases h
    · exact .inl h
  | started r' =>
    simp only [Proxy.next, Proxy.onStarted] at h
    split at h
    · rename_i q hq
      refine .inr ?_
      clear hq
      induction q generalizing p with
      | nil => simp only [Proxy.flush, PState.active.injEq] at h; rw [h]
      | cons m q ih =>
        simp only [Proxy.flush] at h
        split at h
        · exact ih _ h
        · cases h
    · simp only [PState.active.injEq] at h; rw [h]; exact .inr rfl
    · exact .inl h
  | stopping =>
    simp only [Proxy.next, Proxy.onStopping] at h
    split at h
    · cases h
    · exact .inl h
  | task i =>
    simp only [Proxy.next, Proxy.runTask] at h
    split at h <;> exact .inl h

theorem flush_tasks (p : Proxy) (r : Nat) (q : List PMsg) {t : Nat × Nat} (h : t ∈ (p.flush r q).tasks) : t ∈ p.tasks ∨ t.1 = r := by
  induction q generalizing p with
  | nil => exact .inl h
  | cons m q ih =>
    simp only [Proxy.flush, Proxy.deliver] at h
    split at h
    · rename_i p' hp
      split at hp
      · cases hp
        rcases ih _ h with h | h
        · simp only [List.mem_append, List.mem_singleton] at h
          rcases h with h | h
          · exact .inl h
          · rw [h]; exact .inr rfl
        · exact .inr h
      · cases hp
    · exact .inl h

theorem proxy_tasks (p : Proxy) (x : POp) {t : Nat × Nat} (h : t ∈ (p.next x).tasks) :
    t ∈ p.tasks ∨ p.st = .active t.1 ∨ x = .started t.1 := by
  cases x with
  | deliver m =>
    simp only [Proxy.next, Proxy.onDeliver, Proxy.deliver] at h
    split at h
    · exact .inl h
    · rename_i r' hst
      split at h
      · rename_i p' hp
        split at hp
        · cases hp
          simp only [List.mem_append, List.mem_singleton] at h
          rcases h with h | h
          · exact .inl h
          · rw [h]; exact .inr (.inl hst)
        · cases hp
      · exact .inl h
    · exact .inl h
  | started r' =>
    simp only [Proxy.next, Proxy.onStarted] at h
    split at h
    · rcases flush_tasks _ _ _ h with h | h
      · exact .inl h
      · rw [h]; exact .inr (.inr rfl)
    · exact .inl h
    · exact .inl h
  | stopping =>
    simp only [Proxy.next, Proxy.onStopping] at h
    split at h <;> exact .inl h
  | task i =>
    simp only [Proxy.next, Proxy.runTask] at h
    split at h
    · exact .inl (List.mem_of_mem_eraseIdx h)
    · exact .inl h

/-- once told, a proxy stays so unless it is told that the singleton stops. -/
theorem proxy_told (p : Proxy) (x : POp) {r : Nat} (hx : x ≠ .stopping) (hr : ∀ r', x = .started r' → r' = r)
    (h : p.st = .active r ∨ x = .started r ∨ p.st = .dead) : (p.next x).st = .active r ∨ (p.next x).st = .dead := by
  have hfl : ∀ (q : List PMsg) (p : Proxy), (p.flush r q).st = .active r ∨ (p.flush r q).st = .dead := by
    intro q
    induction q with
    | nil => intro p; exact .inl rfl
    | cons m q ih =>
      intro p
      simp only [Proxy.flush]
      split
      · exact ih _
      · exact .inr rfl
  cases x with
  | deliver m =>
    rcases h with h | h | h
    · simp only [Proxy.next, Proxy.onDeliver, h, Proxy.deliver]
      split
      · rename_i hs
        split at hs
        · cases hs; exact .inl rfl
        · cases hs
      · exact .inr rfl
    · cases h
    · simp only [Proxy.next, Proxy.onDeliver, h]; exact .inr trivial
  | started r' =>
    cases hr r' rfl
    cases hst : p.st with
    | buffered q => simp only [Proxy.next, Proxy.onStarted, hst]; exact hfl _ _
    | active r' => simp only [Proxy.next, Proxy.onStarted, hst]; exact .inl trivial
    | dead => simp only [Proxy.next, Proxy.onStarted, hst]; exact .inr trivial
  | stopping => exact absurd rfl hx
  | task i =>
    have e : (p.next (.task i)).st = p.st := by
      simp only [Proxy.next, Proxy.runTask]
      split <;> rfl
    rw [e]
    rcases h with h | h | h
    · exact .inl h
    · cases h
    · exact .inr h

theorem Served.live_of {w : Svc} (h : Served nodes L w) {a : Nat} (ha : a ∈ (w.cl.mgr L).live) : a = 0 := by
  have := h.lt L a ha
  have := h.solo.fresh_le
  omega

/-- steps of the managers. -/
theorem Served.cl {w : Svc} (h : Served nodes L w) (hn : nodes.Nodup) (hL : L ∈ nodes) (child : Bool) (op : ClOp)
    (hf : match op with
      | .memberUp _ l => l = L
      | .leaderChanged _ l => l = L
      | .startFails _ => False
      | _ => True) (ha : ¬ w.cl.Again op) : Served nodes L (w.next nodes child (.cl op)) := by
  have hs := (h.solo.next hn hL child op hf ha).1
  have hfr := Cl.next_fresh (nodes := nodes) child w.cl op L
  have up : 0 < (w.cl.mgr L).fresh → 0 < ((w.cl.next nodes child op).mgr L).fresh := fun x => by omega
  have hself := h.solo.inv.self
  -- what the proxy is told
  have htell : ∀ x ∈ w.cl.tells nodes child op, x = .started L ∧ 0 < (w.cl.mgr L).fresh := by
    intro x hx
    unfold Cl.tells at hx
    split at hx
    rotate_left
    · cases hx
    rename_i hal
    rw [Mgr.step_told] at hx
    cases op with
    | started d a =>
      have hx : x ∈ if a ∈ (w.cl.mgr d).results then [POp.started (w.cl.mgr d).self] else [] := hx
      by_cases hr : a ∈ (w.cl.mgr d).results
      · rw [if_pos hr, List.mem_singleton] at hx
        have := h.solo.fresh_of_result (d := d) (.inl (List.ne_nil_of_mem hr))
        rw [hx, hself, this.1]
        exact ⟨rfl, this.2⟩
      · rw [if_neg hr] at hx; cases hx
    | recv d m =>
      have hnet : (d, m) ∈ w.cl.net := by
        simp only [Cl.allows, Bool.and_eq_true, List.contains_iff_mem] at hal
        exact hal.2
      cases m with
      | started n =>
        simp only [ClOp.op, List.mem_singleton] at hx
        have := h.note d n hnet
        rw [hx, this.1]
        exact ⟨rfl, this.2⟩
      | stopped n => exact absurd hnet (h.nostop d n)
      | _ => simp [ClOp.op] at hx
    | _ => simp [ClOp.op] at hx
  refine ⟨hs, ?_, ?_, ?_, ?_, ?_, ?_, ?_, ?_, h.got, h.failed⟩
  · intro d
    exact live_lt (nodes := nodes) (w := w.cl) child [op] d (h.lt d)
  · intro d n hx
    have hnL : n = L := by
      obtain ⟨X, _, _, e⟩ := hs.net _ hx
      rcases e with e | e | e
      · cases e
      · cases e
      · cases e; rfl
    refine ⟨hnL, ?_⟩
    simp only [Svc.next] at hx ⊢
    by_cases hal : w.cl.allows nodes op = true
    · have hx' := hx
      rw [w.cl.next_at child op hal] at hx'
      have hx'' : (d, MMsg.started n) ∈ w.cl.rest op ++ _ := hx'
      rcases List.mem_append.1 hx'' with hr | hr
      · refine up (h.note d n ?_).2
        cases op with
        | recv _ _ => exact List.mem_of_mem_erase hr
        | _ => exact hr
      · have := Mgr.step_started _ _ _ _ hr
        exact up (h.solo.fresh_of_result this.2).2
    · rw [w.cl.next_not child op hal] at hx
      exact up (h.note d n hx).2
  · intro d n hx
    obtain ⟨X, _, _, e⟩ := hs.net _ hx
    rcases e with e | e | e <;> cases e
  · intro d r hx
    simp only [Svc.next] at hx ⊢
    by_cases e : d = op.node
    · subst e
      rw [setAt_self, List.mem_append] at hx
      rcases hx with hx | hx
      · exact ⟨(h.mail _ r hx).1, up (h.mail _ r hx).2⟩
      · have := htell _ hx
        simp only [POp.started.injEq] at this
        exact ⟨this.1, up this.2⟩
    · rw [setAt_ne _ _ e] at hx
      exact ⟨(h.mail _ r hx).1, up (h.mail _ r hx).2⟩
  · intro d hx
    simp only [Svc.next] at hx
    by_cases e : d = op.node
    · subst e
      rw [setAt_self, List.mem_append] at hx
      rcases hx with hx | hx
      · exact h.mail' _ hx
      · have := htell _ hx
        cases this.1
    · rw [setAt_ne _ _ e] at hx
      exact h.mail' _ hx
  · exact fun d r hx => ⟨(h.act d r hx).1, up (h.act d r hx).2⟩
  · exact fun d t hx => ⟨(h.tasks d t hx).1, up (h.tasks d t hx).2⟩
  · intro d hd hrun hw
    simp only [Svc.next] at hrun hw ⊢
    have old : (w.proxy d).st = .active L ∨ .started L ∈ w.mail d ∨ (w.proxy d).st = .dead →
        (w.proxy d).st = .active L ∨ .started L ∈ setAt w.mail op.node (w.mail op.node ++ w.cl.tells nodes child op) d ∨
          (w.proxy d).st = .dead := by
      rintro (e | e | e)
      · exact .inl e
      · refine .inr (.inl ?_)
        by_cases e' : d = op.node
        · subst e'; rw [setAt_self]; exact List.mem_append_left _ e
        · rw [setAt_ne _ _ e']; exact e
      · exact .inr (.inr e)
    have new : d = op.node → .started L ∈ w.cl.tells nodes child op →
        (w.proxy d).st = .active L ∨ .started L ∈ setAt w.mail op.node (w.mail op.node ++ w.cl.tells nodes child op) d ∨
          (w.proxy d).st = .dead := by
      rintro rfl e
      refine .inr (.inl ?_)
      rw [setAt_self]; exact List.mem_append_right _ e
    by_cases hr : (w.cl.mgr L).st = .running 0
    · by_cases hin : d = L ∨ (d, .started L) ∉ w.cl.net
      · exact old (h.told d hd hr hin)
      · have hdL : d ≠ L := fun e => hin (.inl e)
        have hmem : (d, MMsg.started L) ∈ w.cl.net := Classical.byContradiction fun e => hin (.inr e)
        rcases w.cl.next_stays (nodes := nodes) child op hmem with hx | ⟨hal, hx⟩
        · rcases hw with e | e
          · exact absurd e hdL
          · exact absurd hx e
        · subst hx
          refine new rfl ?_
          unfold Cl.tells
          rw [if_pos hal, Mgr.step_told]
          simp [ClOp.op]
    · rcases w.cl.next_mgr (nodes := nodes) child op L with e | ⟨hnode, hal, e⟩
      · rw [e] at hrun; exact absurd hrun hr
      · rw [e] at hrun
        rcases Mgr.step_running _ _ _ hrun with hx | ⟨hx, hres⟩
        · exact absurd hx hr
        · have hop : op = .started L 0 := by
            cases op with
            | started d' a' =>
              simp only [ClOp.op, MOp.started.injEq] at hx
              simp only [ClOp.node] at hnode
              rw [← hnode, hx]
            | _ => simp [ClOp.op] at hx
          subst hop
          by_cases hdL : d = L
          · subst hdL
            refine new rfl ?_
            unfold Cl.tells
            rw [if_pos hal, Mgr.step_told]
            simp [ClOp.op, ClOp.node, hres, hself]
          · exfalso
            rcases hw with hw | hw
            · exact hdL hw
            · apply hw
              rw [w.cl.next_at child _ hal]
              show _ ∈ w.cl.net ++ _
              refine List.mem_append_right _ ?_
              have hj : (w.cl.mgr L).st.isJoining = false := by
                rcases h.solo.lead with ⟨a, b, c, e⟩ | ⟨l, a, al, b, c, e⟩ | ⟨l, a, al, b, c, e⟩ | ⟨l, a, al, b, c, e⟩ | ⟨a, b, c, e⟩
                · rw [c] at hres; cases hres
                all_goals (rw [a]; rfl)
              have hall := h.solo.inv.all L hL hj d hd hdL
              simp only [ClOp.node, ClOp.op, Mgr.step, if_pos hres, Mgr.onStarted, List.filterMap_cons, MOut.msg?, notifyManagers_msgs,
                hself]
              exact List.mem_map_of_mem (f := fun n => (n, MMsg.started L)) hall

/-- the other steps. -/
theorem Served.other {w : Svc} (h : Served nodes L w) (child : Bool) (op : SvcOp) (ho : ∀ o, op ≠ .cl o) :
    Served nodes L (w.next nodes child op) := by
  cases op with
  | cl o => exact absurd rfl (ho o)
  | send d m =>
    refine ⟨h.solo, h.lt, h.note, h.nostop, ?_, ?_, h.act, h.tasks, ?_, h.got, h.failed⟩
    · intro e r hx
      simp only [Svc.next] at hx
      by_cases hd : e = d
      · subst hd
        rw [setAt_self] at hx
        simp only [List.mem_append, List.mem_singleton, reduceCtorEq, or_false] at hx
        exact h.mail _ _ hx
      · rw [setAt_ne _ _ hd] at hx; exact h.mail _ _ hx
    · intro e hx
      simp only [Svc.next] at hx
      by_cases hd : e = d
      · subst hd
        rw [setAt_self] at hx
        simp only [List.mem_append, List.mem_singleton, reduceCtorEq, or_false] at hx
        exact h.mail' _ hx
      · rw [setAt_ne _ _ hd] at hx; exact h.mail' _ hx
    · intro e he hr hw
      rcases h.told e he hr hw with hx | hx | hx
      · exact .inl hx
      · refine .inr (.inl ?_)
        simp only [Svc.next]
        by_cases hd : e = d
        · subst hd; rw [setAt_self]; exact List.mem_append_left _ hx
        · rw [setAt_ne _ _ hd]; exact hx
      · exact .inr (.inr hx)
  | handle d =>
    cases hm : w.mail d with
    | nil => simp only [Svc.next, hm]; exact h
    | cons x rest =>
      have hn : w.next nodes child (.handle d) =
          { w with proxy := setAt w.proxy d ((w.proxy d).next x), mail := setAt w.mail d rest } := by
        simp only [Svc.next, hm]
      rw [hn]
      have hmem : ∀ y ∈ rest, y ∈ w.mail d := fun y hy => by rw [hm]; simp [hy]
      have hx : x ∈ w.mail d := by rw [hm]; simp
      refine ⟨h.solo, h.lt, h.note, h.nostop, ?_, ?_, ?_, ?_, ?_, h.got, h.failed⟩
      · intro e r hy
        simp only at hy
        by_cases hd : e = d
        · subst hd; rw [setAt_self] at hy; exact h.mail _ _ (hmem _ hy)
        · rw [setAt_ne _ _ hd] at hy; exact h.mail _ _ hy
      · intro e hy
        simp only at hy
        by_cases hd : e = d
        · subst hd; rw [setAt_self] at hy; exact h.mail' _ (hmem _ hy)
        · rw [setAt_ne _ _ hd] at hy; exact h.mail' _ hy
      · intro e r hy
        simp only at hy ⊢
        by_cases hd : e = d
        · subst hd
          rw [setAt_self] at hy
          rcases proxy_active _ _ hy with hy | hy
          · exact h.act _ _ hy
          · subst hy; exact h.mail _ _ hx
        · rw [setAt_ne _ _ hd] at hy; exact h.act _ _ hy
      · intro e t hy
        simp only at hy ⊢
        by_cases hd : e = d
        · subst hd
          rw [setAt_self] at hy
          rcases proxy_tasks _ _ hy with hy | hy | hy
          · exact h.tasks _ _ hy
          · exact h.act _ _ hy
          · subst hy; exact h.mail _ _ hx
        · rw [setAt_ne _ _ hd] at hy; exact h.tasks _ _ hy
      · intro e he hr hw
        have := h.told e he hr hw
        simp only
        by_cases hd : e = d
        · subst hd
          rw [setAt_self, setAt_self]
          have hpt := proxy_told (w.proxy e) x (r := L) (fun e' => h.mail' e (e' ▸ hx))
            (fun r' e' => (h.mail e r' (e' ▸ hx)).1)
          rcases this with hy | hy | hy
          · rcases hpt (.inl hy) with hz | hz
            · exact .inl hz
            · exact .inr (.inr hz)
          · rw [hm] at hy
            rcases List.mem_cons.1 hy with hy | hy
            · rcases hpt (.inr (.inl hy.symm)) with hz | hz
              · exact .inl hz
              · exact .inr (.inr hz)
            · exact .inr (.inl hy)
          · rcases hpt (.inr (.inr hy)) with hz | hz
            · exact .inl hz
            · exact .inr (.inr hz)
        · rw [setAt_ne _ _ hd, setAt_ne _ _ hd]; exact this
  | task d i =>
    cases ht : (w.proxy d).tasks[i]? with
    | none => simp only [Svc.next, ht]; exact h
    | some t =>
      simp only [Svc.next, ht]
      have hmt := h.tasks d t (List.mem_of_getElem? ht)
      have hst : ∀ e, (setAt w.proxy d ((w.proxy d).next (.task i)) e).st = (w.proxy e).st := by
        intro e
        by_cases hd : e = d
        · subst hd; rw [setAt_self]; simp only [Proxy.next, Proxy.runTask, ht]
        · rw [setAt_ne _ _ hd]
      refine ⟨?_, ?_, ?_, ?_, ?_, ?_, ?_, ?_, ?_, ?_, ?_⟩
      · rw [Svc.arrive_cl]; exact h.solo
      · rw [Svc.arrive_cl]; exact h.lt
      · rw [Svc.arrive_cl]; exact h.note
      · rw [Svc.arrive_cl]; exact h.nostop
      · rw [Svc.arrive_cl, Svc.arrive_mail]; exact h.mail
      · rw [Svc.arrive_mail]; exact h.mail'
      · rw [Svc.arrive_cl, Svc.arrive_proxy]
        intro e r hy
        simp only at hy
        rw [hst] at hy
        exact h.act e r hy
      · rw [Svc.arrive_cl, Svc.arrive_proxy]
        intro e t' hy
        simp only at hy
        by_cases hd : e = d
        · subst hd
          rw [setAt_self] at hy
          rcases proxy_tasks _ _ hy with hy | hy | hy
          · exact h.tasks _ _ hy
          · exact h.act _ _ hy
          · cases hy
        · rw [setAt_ne _ _ hd] at hy; exact h.tasks _ _ hy
      · rw [Svc.arrive_cl, Svc.arrive_proxy, Svc.arrive_mail]
        intro e he hr hw
        simp only
        rw [hst]
        exact h.told e he hr hw
      · intro e x hx
        unfold Svc.arrive at hx
        split at hx
        · rename_i a hl
          simp only at hx hl
          by_cases hd : e = d
          · subst hd
            rw [setAt_self] at hx
            simp only [List.mem_append, List.mem_singleton] at hx
            rcases hx with hx | hx
            · exact h.got _ _ hx
            · rw [hx]
              refine ⟨hmt.1, ?_⟩
              rw [hmt.1] at hl
              exact h.live_of (List.mem_of_getLast? hl)
          · rw [setAt_ne _ _ hd] at hx; exact h.got _ _ hx
        · exact h.got _ _ hx
      · intro e x hx
        unfold Svc.arrive at hx
        split at hx
        · exact h.failed _ _ hx
        · simp only at hx
          by_cases hd : e = d
          · subst hd
            rw [setAt_self] at hx
            simp only [List.mem_append, List.mem_singleton] at hx
            rcases hx with hx | hx
            · exact h.failed _ _ hx
            · rw [hx]; exact hmt.1
          · rw [setAt_ne _ _ hd] at hx; exact h.failed _ _ hx

theorem Served.run {w : Svc} (h : Served nodes L w) (hn : nodes.Nodup) (hL : L ∈ nodes) (child : Bool) (ops : List SvcOp)
    (hf : w.cl.Founding nodes child L (clOps ops)) : Served nodes L (w.run nodes child ops) := by
  induction ops generalizing w with
  | nil => exact h
  | cons op ops ih =>
    cases op with
    | cl o => exact ih (h.cl hn hL child o hf.1 hf.2.1) hf.2.2
    | send d m => exact ih (h.other child _ (by simp)) (by rw [Svc.next_cl]; exact hf)
    | handle d => exact ih (h.other child _ (by simp)) (by rw [Svc.next_cl]; exact hf)
    | task d i => exact ih (h.other child _ (by simp)) (by rw [Svc.next_cl]; exact hf)

section

variable (nodes : List Nat) (L : Nat) (child : Bool)

/-- a step without an end of the instance on `L` produces no error. -/
theorem Served.noError {w : Svc} (h : Served nodes L w) (hl : (w.cl.mgr L).live = List.range (w.cl.mgr L).fresh)
    (op : SvcOp) (h0 : ∀ d, w.failed d = []) (d : Nat) : (w.next nodes child op).failed d = [] := by
  cases op with
  | cl o => exact h0 d
  | send e m => exact h0 d
  | handle e => simp only [Svc.next]; split <;> exact h0 d
  | task e i =>
    simp only [Svc.next]
    split
    · exact h0 d
    · rename_i t ht
      have hmt := h.tasks e t (List.mem_of_getElem? ht)
      unfold Svc.arrive
      split
      · exact h0 d
      · rename_i hx
        simp only at hx
        rw [hmt.1, hl, List.getLast?_eq_none_iff] at hx
        have := congrArg List.length hx
        simp at this
        omega

/-- one proxy can be brought to rest without anything else changing. -/
theorem drain (d : Nat) (w : Svc) : ∃ more, clOps more = [] ∧ (∀ e m, SvcOp.send e m ∉ more) ∧
    (w.run nodes child more).mail d = [] ∧ ((w.run nodes child more).proxy d).tasks = [] ∧
    ∀ e, e ≠ d → (w.run nodes child more).mail e = w.mail e ∧ (w.run nodes child more).proxy e = w.proxy e := by
  have tasks : ∀ k (w : Svc), ((w.proxy d).tasks).length = k → w.mail d = [] → ∃ more, clOps more = [] ∧ (∀ e m, SvcOp.send e m ∉ more) ∧
      (w.run nodes child more).mail d = [] ∧ ((w.run nodes child more).proxy d).tasks = [] ∧
      ∀ e, e ≠ d → (w.run nodes child more).mail e = w.mail e ∧ (w.run nodes child more).proxy e = w.proxy e := by
    intro k
    induction k with
    | zero => intro w hk hm; exact ⟨[], rfl, by simp, hm, List.length_eq_zero_iff.1 hk, fun _ _ => ⟨rfl, rfl⟩⟩
    | succ k ih =>
      intro w hk hm
      cases ht : (w.proxy d).tasks with
      | nil => rw [ht] at hk; cases hk
      | cons t ts =>
        have ht0 : (w.proxy d).tasks[0]? = some t := by rw [ht]; rfl
        have hn : w.next nodes child (.task d 0) =
            ({ w with proxy := setAt w.proxy d ((w.proxy d).next (.task 0)) } : Svc).arrive d t.1 t.2 := by
          simp only [Svc.next, ht0]
        have hp : (w.next nodes child (.task d 0)).proxy = setAt w.proxy d ((w.proxy d).next (.task 0)) := by
          rw [hn, Svc.arrive_proxy]
        have hml : (w.next nodes child (.task d 0)).mail = w.mail := by rw [hn, Svc.arrive_mail]
        obtain ⟨more, h1, h2, h3, h4, h5⟩ := ih (w.next nodes child (.task d 0))
          (by rw [hp, setAt_self]
              simp only [Proxy.next, Proxy.runTask, ht0, List.length_eraseIdx]
              rw [ht] at hk ⊢
              simp at hk ⊢
              omega)
          (by rw [hml]; exact hm)
        refine ⟨.task d 0 :: more, h1, ?_, h3, h4, fun e he => ?_⟩
        · intro e m hx
          rcases List.mem_cons.1 hx with hx | hx
          · cases hx
          · exact h2 e m hx
        · have := h5 e he
          rw [hml, hp, setAt_ne _ _ he] at this
          exact this
  have mails : ∀ k (w : Svc), (w.mail d).length = k → ∃ more, clOps more = [] ∧ (∀ e m, SvcOp.send e m ∉ more) ∧
      (w.run nodes child more).mail d = [] ∧
      ∀ e, e ≠ d → (w.run nodes child more).mail e = w.mail e ∧ (w.run nodes child more).proxy e = w.proxy e := by
    intro k
    induction k with
    | zero => intro w hk; exact ⟨[], rfl, by simp, List.length_eq_zero_iff.1 hk, fun _ _ => ⟨rfl, rfl⟩⟩
    | succ k ih =>
      intro w hk
      cases hm : w.mail d with
      | nil => rw [hm] at hk; cases hk
      | cons x rest =>
        have hn : w.next nodes child (.handle d) =
            { w with proxy := setAt w.proxy d ((w.proxy d).next x), mail := setAt w.mail d rest } := by
          simp only [Svc.next, hm]
        obtain ⟨more, h1, h2, h3, h5⟩ := ih (w.next nodes child (.handle d))
          (by rw [hn]; simp only [setAt_self]; rw [hm] at hk; simpa using hk)
        refine ⟨.handle d :: more, h1, ?_, h3, fun e he => ?_⟩
        · intro e m hx
          rcases List.mem_cons.1 hx with hx | hx
          · cases hx
          · exact h2 e m hx
        · have h6 := h5 e he
          rw [show ((w.next nodes child (.handle d)).mail e = w.mail e) by rw [hn]; exact setAt_ne _ _ he,
            show ((w.next nodes child (.handle d)).proxy e = w.proxy e) by rw [hn]; exact setAt_ne _ _ he] at h6
          exact h6
  obtain ⟨a, a1, a2, a3, a4⟩ := mails _ w rfl
  obtain ⟨b, b1, b2, b3, b4, b5⟩ := tasks _ (w.run nodes child a) rfl a3
  refine ⟨a ++ b, ?_, ?_, ?_, ?_, ?_⟩
  · simp only [clOps] at a1 b1 ⊢; rw [List.filterMap_append, a1, b1]; rfl
  · intro e m hx
    rcases List.mem_append.1 hx with hx | hx
    · exact a2 e m hx
    · exact b2 e m hx
  · rw [Svc.run_append]; exact b3
  · rw [Svc.run_append]; exact b4
  · intro e he
    rw [Svc.run_append]
    exact ⟨(b5 e he).1.trans (a4 e he).1, (b5 e he).2.trans (a4 e he).2⟩

theorem drainAll (ns : List Nat) (w : Svc) : ∃ more, clOps more = [] ∧ (∀ e m, SvcOp.send e m ∉ more) ∧
    ∀ d, (d ∈ ns ∨ (w.mail d = [] ∧ (w.proxy d).tasks = [])) →
      (w.run nodes child more).mail d = [] ∧ ((w.run nodes child more).proxy d).tasks = [] := by
  induction ns generalizing w with
  | nil => exact ⟨[], rfl, by simp, fun d hd => hd.resolve_left (by simp)⟩
  | cons n ns ih =>
    obtain ⟨a, a1, a2, a3, a4, a5⟩ := drain nodes child n w
    obtain ⟨b, b1, b2, b3⟩ := ih (w.run nodes child a)
    refine ⟨a ++ b, ?_, ?_, ?_⟩
    · simp only [clOps] at a1 b1 ⊢; rw [List.filterMap_append, a1, b1]; rfl
    · intro e m hx
      rcases List.mem_append.1 hx with hx | hx
      · exact a2 e m hx
      · exact b2 e m hx
    · intro d hd
      rw [Svc.run_append]
      refine b3 d ?_
      by_cases e : d = n
      · subst e; exact .inr ⟨a3, a4⟩
      · rcases hd with hd | hd
        · exact .inl ((List.mem_cons.1 hd).resolve_left e)
        · rw [(a5 d e).1, (a5 d e).2]; exact .inr hd

end

end Verif.Singleton
