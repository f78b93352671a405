import Verif.Sharding.FailoverJournalLemmas

/-!
# After a new coordinator has started

Used by `FailoverProps`.
-/

namespace Verif.Sharding

variable {R : Type}

theorem FSys.Healing.next (f : R → Nat) {s n : Nat} {w : FSys R} (h : w.Healing s n) (op : FOp R) (ho : w.Stays s n op) :
    (w.next f op).Healing s n := by
  cases op with
  | failover self nodes order => exact ho.elim
  | crash d => exact h.crash d
  | sys op =>
    simp only [FSys.next]
    cases op with
    | host d op =>
      simp only [FSys.sysStep]
      split
      · rename_i hl
        refine h.hostStep f d op (.inl hl) ?_
        intro q hq
        cases op <;> simp [HostOp.isLocal] at hl <;> simp [HostOp.asks] at hq
      · exact h
    | deliver d m =>
      simp only [FSys.sysStep]
      split
      · rename_i hm
        by_cases ha : ∃ x, m = .allocated s x
        · obtain ⟨x, rfl⟩ := ha
          have := h.alloc d x hm
          subst this
          exact h.heard f d hm
        · have hnet : ∀ x ∈ w.net.erase (d, m), x ∈ w.net := fun x hx => List.mem_of_mem_erase hx
          have ht : (w.take d m).Healing s n := by
            refine ⟨h.self, h.inv, ⟨h.dated.inv, fun d' s' o hm => h.dated.net d' s' o (hnet _ hm), h.dated.stops⟩, h.as,
              ?_, h.noAck, fun x y hx => h.alloc x y (hnet _ hx), h.own, ?_, h.old⟩
            · have h1 : (w.net.erase (d, m)).countP (isStop s) ≤ w.toSys.nStop s := (List.erase_sublist).countP_le
              have h0 := h.noStop
              show (w.net.erase (d, m)).countP (isStop s) = 0
              omega
            · intro x hx
              rcases h.other x hx with h1 | ⟨a, h1, h2, h3, h4⟩
              · exact .inl h1
              · refine .inr ⟨a, h1, h2, h3, (List.mem_erase_of_ne ?_).2 h4⟩
                intro e
                simp only [Prod.mk.injEq] at e
                exact ha ⟨n, e.2.symm⟩
          cases m with
          | allocated s' x =>
            refine ht.hostStep f d _ (.inr ?_) (by simp [HMsg.op, HostOp.asks])
            rintro rfl
            exact ha ⟨x, rfl⟩
          | reallocating s' =>
            by_cases e : s' = s
            · subst e
              have hsame : ∀ x, ((w.take d (.reallocating s')).host x).SameFor s'
                  (((w.take d (.reallocating s')).hostStep f d (HMsg.reallocating s').op).host x) := by
                intro x
                show (w.host x).SameFor s' (w.setHost d _ x)
                by_cases e : x = d
                · subst e
                  rw [Sys.setHost_self]
                  exact ⟨rfl, fun _ => .rfl, fun _ => .rfl, fun _ => .rfl, rfl⟩
                · rw [Sys.setHost_other _ _ e]
                  exact .refl _ _
              refine ⟨Sys.moved_self ht.self (h.self d), h.inv, ht.dated.hostStep f d _ (by simp [HMsg.op, HostOp.asks]), h.as,
                ht.noStop, ?_, ht.alloc, ?_, ?_, ?_⟩
              · show (w.acks ++ []).countP _ = 0
                rw [List.append_nil]; exact h.noAck
              · rcases ht.own with h1 | ⟨a, h1, h2⟩
                · exact .inl (h1.same (hsame n))
                · exact .inr ⟨a, h1.same (hsame n), by rw [(hsame n).stops]; exact h2⟩
              · intro x hx
                rcases ht.other x hx with h1 | ⟨a, h1, h2, h3, h4⟩
                · exact .inl (h1.same (hsame x))
                · exact .inr ⟨a, h1.same (hsame x), by rw [(hsame x).booting]; exact h2, by rw [(hsame x).stops]; exact h3, h4⟩
              · intro x t htm
                rw [(hsame x).stops] at htm
                exact ht.old x t htm
            · exact ht.hostStep f d _ (.inr e) (by simp [HMsg.op, HostOp.asks])
          | stop s' o =>
            refine ht.hostStep f d _ (.inr ?_) ?_
            · rintro rfl
              have h0 := h.noStop
              unfold Sys.nStop at h0
              rw [List.countP_eq_zero] at h0
              exact absurd (by simp [isStop, HMsg.op, HostOp.shard]) (h0 _ hm)
            · intro q hq
              simp only [HMsg.op, HostOp.asks, Option.some.injEq] at hq
              subst hq
              exact h.dated.net d s' o hm
      · exact h
    | coord op =>
      simp only [FSys.sysStep]
      split
      · rename_i hl
        obtain ⟨h1, h2, h3⟩ := ho
        have hloses : ∀ m, w.coord.shards.get s = some m → op.loses m = false := by
          intro m hm
          rw [h.as] at hm
          simp only [Option.some.injEq] at hm
          subst hm
          cases op <;> simp_all [CoordOp.loses]
        rcases coordLocal_rel h.inv s op hl hloses with hr | hr
        · exact h.tell (h.inv.next op) hr (by simp) h.noAck
        · obtain ⟨_, _, h4, _⟩ := hr
          rw [h3] at h4
          cases h4
      · exact h
    | ack s' m =>
      simp only [FSys.sysStep]
      split
      · have hak : ((w.acks.erase (s', m)).countP fun p => decide (p.1 = s)) = 0 := by
          have h1 : ((w.acks.erase (s', m)).countP fun p => decide (p.1 = s)) ≤ w.toSys.nAck s :=
            (List.erase_sublist).countP_le
          have := h.noAck
          omega
        rcases stopAcked_rel h.inv s s' m with hr | ⟨rfl, hr⟩
        · exact h.tell (h.inv.next _) hr (by simp) hak
        · obtain ⟨_, _, h4, _⟩ := hr
          rw [h.as] at h4
          cases h4
      · exact h
    | ask m s' ok =>
      simp only [FSys.sysStep]
      split
      · have hans := handleAllocate_answer h.inv s' m false ok
        rcases handleAllocate_rel h.inv s s' false ok with hr | ⟨rfl, hr⟩
        · refine h.tell (h.inv.next (.allocate s' ok)) hr ?_ h.noAck
          intro x hx
          obtain ⟨n', e1, e2⟩ := hans x hx
          refine ⟨m, s', n', e1, ?_⟩
          rintro rfl
          rw [hr.1, h.as] at e2
          simpa using e2.symm
        · obtain ⟨_, _, h4, _⟩ := hr
          rw [h.as] at h4
          cases h4
      · exact h

theorem FSys.Healing.run (f : R → Nat) {s n : Nat} {w : FSys R} (h : w.Healing s n) (ops : List (FOp R))
    (ho : w.StaysRun f s n ops) : (w.run f ops).Healing s n := by
  induction ops generalizing w with
  | nil => exact h
  | cons op ops ih => exact ih (h.next f op ho.1) ho.2

/-- a new coordinator, after an orderly run. -/
theorem FSys.healing_begins {s n self : Nat} {nodes : List (Nat × Bool)} {order : Assoc Nat HostInfo} {w : FSys R}
    (hp : w.toSys.Phase s) (hd : w.Dated) (hr : w.Rests s) (hk : w.Reached s self nodes)
    (hn : (w.failover self nodes order).coord.shards.get s = some n) : (w.failover self nodes order).Healing s n := by
  obtain ⟨r1, r2, r3⟩ := hr
  have hs := revive_sent s self (w.epoch + 1) nodes order w.coord.journal
  have hn' : (Coord.revive self nodes order w.coord.journal).shards.get s = some n := hn
  have hst : w.toSys.nStop s = 0 := by
    unfold Sys.nStop
    rw [List.countP_eq_zero]
    rintro ⟨d, m⟩ hm
    cases m with
    | stop s' o =>
      simp only [isStop, decide_eq_true_eq]
      rintro rfl
      exact r2 d o hm
    | _ => simp [isStop]
  have hheld : ∀ d, (w.host d).Blank s ∨ ∃ a, (w.host d).Held s a ∧ ((w.host d).stopsOf s).length ≤ 1 := by
    intro d
    rcases hp.phase with hg | ⟨A, a, hg⟩ | ⟨A, hg⟩
    · exact .inl (hg.blank d)
    · by_cases e : d = A
      · subst e
        exact .inr ⟨a, hg.held, by have := hg.count; omega⟩
      · exact .inl (hg.blank d e)
    · by_cases e : d = A
      · subst e
        rcases hg.own with h1 | ⟨a, h1, h2⟩
        · exact .inl h1
        · exact .inr ⟨a, h1, by rw [h2]; simp⟩
      · exact .inl (hg.blank d e)
  refine ⟨hp.self, InvP.revive self nodes order _, hd.next (fun _ => 0) (.failover self nodes order), hn, ?_, rfl, ?_,
    hheld n, ?_, ?_⟩
  · show (w.net ++ _).countP (isStop s) = 0
    rw [List.countP_append, hs.2]
    exact hst
  · intro d m hm
    rcases List.mem_append.1 hm with hm | hm
    · exact absurd hm (r1 d m)
    · have := hs.1 _ hm m rfl
      rw [hn'] at this
      simpa using this.symm
  · intro d hdn
    rcases hheld d with h1 | ⟨a, h1, h2⟩
    · exact .inl h1.fading
    · refine .inr ⟨a, h1, r3 d a, h2, List.mem_append_right _ ?_⟩
      exact revive_tells (hk d a ((h1.live a).2 rfl)) hn'
  · intro d t ht q hq e
    have e : q.origin = w.epoch + 1 := e
    exact hd.stops d q (by omega) t (List.mem_filter.1 ht).1 hq

/-- when all is done, the shard is in good order again. -/
theorem FSys.Healing.done {s n : Nat} {w : FSys R} (h : w.Healing s n) (hd : w.Done s) : w.toSys.Phase s := by
  obtain ⟨d1, d2, d3⟩ := hd
  have hstop : ∀ d, (w.host d).stopsOf s = [] := by
    intro d
    rw [Host.stopsOf, List.filter_eq_nil_iff]
    intro t ht
    simpa using d3 d t ht
  refine ⟨h.self, h.inv, .inr (.inr ⟨n, h.as, ?_, ?_, h.noStop, h.noAck, h.alloc⟩)⟩
  · intro d hdn
    rcases h.other d hdn with h1 | ⟨a, _, _, _, h1⟩
    · refine ⟨h1.hosted, ?_, h1.booting, d2 d, hstop d⟩
      intro a hm
      rcases h1.told a hm with h2 | ⟨t, h2, _⟩
      · exact d2 d a h2
      · rw [hstop] at h2; cases h2
    · exact absurd h1 (d1 d n)
  · rcases h.own with h1 | ⟨a, h1, _⟩
    · exact .inl h1
    · exact .inr ⟨a, h1, hstop n⟩

/-! ### everything under way can be handled -/

theorem staysRun_inner (f : R → Nat) (s n : Nat) (ops : List (FOp R)) (h : ∀ op ∈ ops, op.Inner) (w : FSys R) :
    w.StaysRun f s n ops := by
  induction ops generalizing w with
  | nil => trivial
  | cons op ops ih =>
    refine ⟨?_, ih (fun o ho => h o (List.mem_cons_of_mem _ ho)) _⟩
    have := h op List.mem_cons_self
    cases op with
    | sys o => cases o <;> first | exact this.elim | trivial
    | failover _ _ _ => exact this.elim
    | crash _ => exact this.elim

/-- only finitely many nodes have done anything. -/
def FSys.Finite (w : FSys R) : Prop := ∃ D : List Nat, ∀ d, d ∉ D → w.host d = Host.init d

theorem FSys.Finite.setHost {w : FSys R} (h : w.Finite) (d : Nat) (x : Host R) {w' : FSys R}
    (hw : w'.host = w.setHost d x) : w'.Finite := by
  obtain ⟨D, hD⟩ := h
  refine ⟨d :: D, fun y hy => ?_⟩
  rw [hw, Sys.setHost_other _ _ fun e => hy (by rw [e]; exact List.mem_cons_self)]
  exact hD y fun hm => hy (List.mem_cons_of_mem _ hm)

theorem FSys.Finite.next (f : R → Nat) {w : FSys R} (h : w.Finite) (op : FOp R) : (w.next f op).Finite := by
  cases op with
  | failover self nodes order => exact h
  | crash d => exact h.setHost d _ rfl
  | sys op =>
    simp only [FSys.next]
    cases op with
    | host d op =>
      simp only [FSys.sysStep]
      split
      · exact h.setHost d _ rfl
      · exact h
    | deliver d m =>
      simp only [FSys.sysStep]
      split
      · exact h.setHost d ((w.host d).next f m.op) rfl
      · exact h
    | coord op => simp only [FSys.sysStep]; split <;> exact h
    | ack s' m => simp only [FSys.sysStep]; split <;> exact h
    | ask m s' ok => simp only [FSys.sysStep]; split <;> exact h

theorem FSys.Finite.run (f : R → Nat) {w : FSys R} (h : w.Finite) (ops : List (FOp R)) : (w.run f ops).Finite := by
  induction ops generalizing w with
  | nil => exact h
  | cons op ops ih => exact ih (h.next f op)

/-- the node whose host the step touches. -/
def FOp.node : FOp R → Option Nat
  | .sys (.deliver d _) => some d
  | .sys (.host d _) => some d
  | .crash d => some d
  | _ => none

theorem FSys.run_untouched (f : R → Nat) (w : FSys R) (ops : List (FOp R)) (d : Nat)
    (h : ∀ op ∈ ops, op.node ≠ some d) : (w.run f ops).host d = w.host d := by
  induction ops generalizing w with
  | nil => rfl
  | cons op ops ih =>
    refine (ih (w.next f op) fun o ho => h o (List.mem_cons_of_mem _ ho)).trans ?_
    have hn := h op List.mem_cons_self
    cases op with
    | failover self nodes order => rfl
    | crash x => exact Sys.setHost_other _ _ fun e => hn (by rw [e]; rfl)
    | sys op =>
      simp only [FSys.next]
      cases op with
      | host x op =>
        simp only [FSys.sysStep]
        split
        · exact Sys.setHost_other _ _ fun e => hn (by rw [e]; rfl)
        · rfl
      | deliver x m =>
        simp only [FSys.sysStep]
        split
        · exact Sys.setHost_other _ _ fun e => hn (by rw [e]; rfl)
        · rfl
      | coord op => simp only [FSys.sysStep]; split <;> rfl
      | ack s' m => simp only [FSys.sysStep]; split <;> rfl
      | ask m s' ok => simp only [FSys.sysStep]; split <;> rfl

theorem FSys.finite_start (self : Nat) (nodes : List (Nat × Bool)) (j : List Nat) :
    (FSys.start self nodes j : FSys R).Finite := ⟨[], fun _ _ => rfl⟩

theorem FSys.run_append (f : R → Nat) (w : FSys R) (a b : List (FOp R)) : w.run f (a ++ b) = (w.run f a).run f b :=
  List.foldl_append ..

/-- all announcements of `s` are handled. -/
theorem FSys.drain_net (f : R → Nat) (s : Nat) (k : Nat) (w : FSys R) (hk : w.net.countP (isAlloc s) ≤ k) :
    ∃ ops : List (FOp R), (∀ op ∈ ops, op.Inner) ∧ ∀ d n, (d, HMsg.allocated s n) ∉ (w.run f ops).net := by
  induction k generalizing w with
  | zero =>
    refine ⟨[], by simp, fun d n hm => ?_⟩
    have h0 : w.net.countP (isAlloc s) = 0 := by omega
    rw [List.countP_eq_zero] at h0
    exact absurd (by simp [isAlloc]) (h0 _ hm)
  | succ k ih =>
    by_cases h0 : ∃ d n, (d, HMsg.allocated s n) ∈ w.net
    · obtain ⟨d, n, hm⟩ := h0
      have hw : (w.next f (.sys (.deliver d (.allocated s n)))).net = w.net.erase (d, HMsg.allocated s n) := by
        simp only [FSys.next, FSys.sysStep, if_pos hm]; rfl
      have hc := (List.perm_cons_erase hm).countP_eq (isAlloc s)
      rw [List.countP_cons_of_pos (by simp [isAlloc])] at hc
      obtain ⟨ops, h1, h2⟩ := ih (w.next f (.sys (.deliver d (.allocated s n)))) (by rw [hw]; omega)
      refine ⟨.sys (.deliver d (.allocated s n)) :: ops, ?_, h2⟩
      intro op ho
      rcases List.mem_cons.1 ho with rfl | ho
      · trivial
      · exact h1 op ho
    · exact ⟨[], by simp, fun d n hm => h0 ⟨d, n, hm⟩⟩

/-- node `d` has stopped what it was told to stop of `s`. -/
def Host.Finished (s : Nat) (h : Host R) : Prop := (∀ a, (s, a) ∉ h.closing) ∧ ∀ t ∈ h.stops, t.s ≠ s

theorem FSys.drain_host (f : R → Nat) (s d : Nat) (k : Nat) (w : FSys R)
    (hk : ((w.host d).closing.countP fun p => p.1 = s) + ((w.host d).stops.countP fun t => t.s = s) ≤ k) :
    ∃ ops : List (FOp R), (∀ op ∈ ops, op.Inner) ∧ ((w.run f ops).host d).Finished s ∧ (w.run f ops).net = w.net ∧
      ∀ x, x ≠ d → (w.run f ops).host x = w.host x := by
  induction k generalizing w with
  | zero =>
    refine ⟨[], by simp, ⟨?_, ?_⟩, rfl, fun _ _ => rfl⟩
    · intro a hm
      have h0 : ((w.host d).closing.countP fun p => p.1 = s) = 0 := by omega
      rw [List.countP_eq_zero] at h0
      exact absurd (by simp) (h0 _ hm)
    · intro t hm e
      have h0 : ((w.host d).stops.countP fun t => t.s = s) = 0 := by omega
      rw [List.countP_eq_zero] at h0
      exact absurd (by simpa using e) (h0 _ hm)
  | succ k ih =>
    have go : ∀ op : HostOp R, op.isLocal = true →
        ((((w.host d).next f op).closing.countP fun p => p.1 = s) + (((w.host d).next f op).stops.countP fun t => t.s = s) ≤ k) →
        ∃ ops : List (FOp R), (∀ op ∈ ops, op.Inner) ∧ ((w.run f ops).host d).Finished s ∧ (w.run f ops).net = w.net ∧
          ∀ x, x ≠ d → (w.run f ops).host x = w.host x := by
      intro op hl hop
      have hw : w.next f (.sys (.host d op)) = w.hostStep f d op := by simp only [FSys.next, FSys.sysStep, if_pos hl]
      have hd : (w.hostStep f d op).host d = (w.host d).next f op := Sys.setHost_self _ _ _
      obtain ⟨ops, h1, h2, h3, h4⟩ := ih (w.hostStep f d op) (by rw [hd]; exact hop)
      refine ⟨.sys (.host d op) :: ops, ?_, ?_, ?_, ?_⟩
      · intro o ho
        rcases List.mem_cons.1 ho with rfl | ho
        · trivial
        · exact h1 o ho
      · show (((w.next f (.sys (.host d op))).run f ops).host d).Finished s
        rw [hw]; exact h2
      · show ((w.next f (.sys (.host d op))).run f ops).net = w.net
        rw [hw]; exact h3
      · intro x hx
        show ((w.next f (.sys (.host d op))).run f ops).host x = w.host x
        rw [hw, h4 x hx]
        exact Sys.setHost_other _ _ hx
    by_cases h0 : ∃ t ∈ (w.host d).stops, t.s = s
    · obtain ⟨t, hm, ht⟩ := h0
      refine go (.stopDone t) rfl ?_
      have hc := (List.perm_cons_erase hm).countP_eq fun t => decide (t.s = s)
      rw [List.countP_cons_of_pos (by simpa using ht)] at hc
      simp only [Host.next, Host.step, if_pos hm, Host.stopDone]
      omega
    · by_cases h1 : ∃ a, (s, a) ∈ (w.host d).closing
      · obtain ⟨a, hm⟩ := h1
        refine go (.closed s a) rfl ?_
        simp only [Host.next, Host.step, if_pos hm]
        have : (((w.host d).closing.filter (· ≠ (s, a))).countP fun p => decide (p.1 = s)) + 1 ≤
            (w.host d).closing.countP fun p => decide (p.1 = s) := by
          have hs : ((w.host d).closing.filter (· ≠ (s, a))).Sublist ((w.host d).closing.erase (s, a)) := by
            have h2 : (w.host d).closing.filter (· ≠ (s, a)) = ((w.host d).closing.erase (s, a)).filter (· ≠ (s, a)) := by
              induction (w.host d).closing with
              | nil => rfl
              | cons x l ihl =>
                by_cases e : x = (s, a)
                · subst e; simp
                · rw [List.erase_cons_tail (by simpa using e)]
                  simp only [List.filter_cons]
                  rw [ihl]
            rw [h2]; exact List.filter_sublist
          have hc := (List.perm_cons_erase hm).countP_eq fun p => decide (p.1 = s)
          rw [List.countP_cons_of_pos (by simp)] at hc
          have := hs.countP_le (p := fun p => decide (p.1 = s))
          omega
        omega
      · exact ⟨[], by simp, ⟨fun a hm => h1 ⟨a, hm⟩, fun t hm e => h0 ⟨t, hm, e⟩⟩, rfl, fun _ _ => rfl⟩

theorem FSys.drain_hosts (f : R → Nat) (s : Nat) (D : List Nat) (w : FSys R) :
    ∃ ops : List (FOp R), (∀ op ∈ ops, op.Inner) ∧ (∀ d ∈ D, ((w.run f ops).host d).Finished s) ∧
      (w.run f ops).net = w.net ∧ ∀ x, x ∉ D → (w.run f ops).host x = w.host x := by
  induction D generalizing w with
  | nil => exact ⟨[], by simp, by simp, rfl, fun _ _ => rfl⟩
  | cons d D ih =>
    obtain ⟨o1, a1, a2, a3, a4⟩ := w.drain_host f s d _ (Nat.le_refl _)
    obtain ⟨o2, b1, b2, b3, b4⟩ := ih (w.run f o1)
    refine ⟨o1 ++ o2, ?_, ?_, ?_, ?_⟩
    · intro op ho
      rcases List.mem_append.1 ho with ho | ho
      · exact a1 op ho
      · exact b1 op ho
    · intro x hx
      rw [FSys.run_append]
      by_cases hD : x ∈ D
      · exact b2 x hD
      · rw [b4 x hD]
        rcases List.mem_cons.1 hx with rfl | hx
        · exact a2
        · exact absurd hx hD
    · rw [FSys.run_append, b3, a3]
    · intro x hx
      rw [FSys.run_append, b4 x fun h => hx (List.mem_cons_of_mem _ h), a4 x fun e => hx (by rw [e]; exact List.mem_cons_self)]

theorem FSys.Finite.can_finish (f : R → Nat) {w : FSys R} (h : w.Finite) (s : Nat) :
    ∃ ops : List (FOp R), (∀ op ∈ ops, op.Inner) ∧ (w.run f ops).Done s := by
  obtain ⟨o1, a1, a2⟩ := w.drain_net f s _ (Nat.le_refl _)
  obtain ⟨D, hD⟩ := h.run f o1
  obtain ⟨o2, b1, b2, b3, b4⟩ := (w.run f o1).drain_hosts f s D
  have hf : ∀ d, ((w.run f (o1 ++ o2)).host d).Finished s := by
    intro d
    rw [FSys.run_append]
    by_cases hd : d ∈ D
    · exact b2 d hd
    · rw [b4 d hd, hD d hd]
      exact ⟨fun a => List.not_mem_nil, fun t ht => nomatch ht⟩
  refine ⟨o1 ++ o2, ?_, ?_, fun d a => (hf d).1 a, fun d => (hf d).2⟩
  · intro op ho
    rcases List.mem_append.1 ho with ho | ho
    · exact a1 op ho
    · exact b1 op ho
  · intro d n
    rw [FSys.run_append, b3]
    exact a2 d n

/-! ### runs -/

theorem staysRun_append (f : R → Nat) {s n : Nat} {w : FSys R} {a b : List (FOp R)} (ha : w.StaysRun f s n a)
    (hb : (w.run f a).StaysRun f s n b) : w.StaysRun f s n (a ++ b) := by
  induction a generalizing w with
  | nil => exact hb
  | cons op a ih => exact ⟨ha.1, ih ha.2 hb⟩

theorem orderlyRun_append (f : R → Nat) {s : Nat} {w : FSys R} {a b : List (FOp R)} (ha : w.OrderlyRun f s a)
    (hb : (w.run f a).OrderlyRun f s b) : w.OrderlyRun f s (a ++ b) := by
  induction a generalizing w with
  | nil => exact hb
  | cons op a ih => exact ⟨ha.1, ih ha.2 hb⟩

theorem FSys.journal_next (f : R → Nat) {w : FSys R} (h : w.Written) (op : FOp R) :
    ∀ s ∈ w.coord.journal, s ∈ (w.next f op).coord.journal := by
  intro s hs
  cases op with
  | failover self nodes order =>
    show s ∈ (Coord.revive self nodes order w.coord.journal).journal
    rw [revive_journal]; exact hs
  | crash d => exact hs
  | sys op =>
    simp only [FSys.next]
    cases op with
    | host d op => simp only [FSys.sysStep]; split <;> exact hs
    | deliver d m => simp only [FSys.sysStep]; split <;> exact hs
    | coord op =>
      simp only [FSys.sysStep]
      split
      · exact (noted_step h.inv h.owned op).grows s hs
      · exact hs
    | ack s' m =>
      simp only [FSys.sysStep]
      split
      · exact (noted_step h.inv h.owned (.stopAcked s' m)).grows s hs
      · exact hs
    | ask m s' ok =>
      simp only [FSys.sysStep]
      split
      · exact (noted_step h.inv h.owned (.allocate s' ok)).grows s hs
      · exact hs

theorem FSys.journal_run (f : R → Nat) {w : FSys R} (h : w.Written) (ops : List (FOp R)) :
    ∀ s ∈ w.coord.journal, s ∈ (w.run f ops).coord.journal := by
  induction ops generalizing w with
  | nil => exact fun _ h => h
  | cons op ops ih => exact fun s hs => ih (h.next f op) s (FSys.journal_next f h op s hs)

end Verif.Sharding
