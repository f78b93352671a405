import Verif.Sharding.FailoverLemmas
import Verif.Sharding.FailoverSpec

/-!
# Orderly runs with new coordinators and crashes

Used by `FailoverProps`.
-/

namespace Verif.Sharding

variable {R : Type}

theorem FSys.tell_heard (w : FSys R) (c : Coord) (e : List (Nat × HMsg)) (as ak : List (Nat × Nat)) :
    (w.tell c e as ak).toSys = w.toSys.heard c (stampAll w.epoch (c.sentSince w.coord.out.length) ++ e) as ak := rfl

theorem stampAll_neutral {s e : Nat} {l : List (Nat × HMsg)} (h : ∀ m ∈ l, isAlloc s m = false) :
    ∀ m ∈ stampAll e l, isAlloc s m = false := by
  intro m hm
  obtain ⟨p, h1, rfl⟩ := List.mem_map.1 hm
  rw [isAlloc_stamp]
  exact h p h1

theorem FSys.phase_sys (f : R → Nat) {s : Nat} {w : FSys R} (h : w.toSys.Phase s) (op : SysOp R)
    (ho : w.Orderly s (.sys op)) : (w.sysStep f op).toSys.Phase s := by
  cases op with
  | host d op =>
    simp only [FSys.sysStep]
    split
    · exact Sys.Phase.hostStepF f (h.local f (by assumption))
    · exact h
  | deliver d m =>
    simp only [FSys.sysStep]
    split
    · exact Sys.Phase.hostStepF (w := w.take d m) f (h.deliver f (by assumption))
    · exact h
  | coord op =>
    simp only [FSys.sysStep]
    split
    · rename_i hl
      have hi := h.inv.next op
      rw [FSys.tell_heard, List.append_nil]
      by_cases hlo : ∃ n, w.coord.shards.get s = some n ∧ (op = .nodeUnavailable n ∨ op = .nodeRemoved n)
      · obtain ⟨n, hn, hop⟩ := hlo
        have hq := ho.1 n hn hop
        have hsay : w.coord.SaysSince s (w.coord.next op) := by
          rcases hop with rfl | rfl
          · exact nodeUnavailable_says h.inv s n
          · show w.coord.SaysSince s (w.coord.nodeRemoved n)
            rw [nodeRemoved_eq]
            exact nodeUnavailable_says h.inv s n
        refine h.anew hq hi (by rw [stampAll_stops]; exact hsay.sent.2) ?_ hq.counts.2
        intro m hm n' e
        exact hsay.sent.1 m (stampAll_mem hm n' s e) n' e
      · have hloses : ∀ n, w.coord.shards.get s = some n → op.loses n = false := by
          intro n hn
          have : ¬ (op = .nodeUnavailable n ∨ op = .nodeRemoved n) := fun e => hlo ⟨n, hn, e⟩
          cases op <;> simp_all [CoordOp.loses]
        rcases coordLocal_rel h.inv s op hl hloses with hr | hr
        · refine h.leaves hi hr.1 (by rw [stampAll_stops]; exact hr.sent.2) ?_ (Nat.le_refl _)
          intro m hm n e
          have := stampAll_neutral hr.sent.1 m hm
          rw [isAlloc_false_iff] at this
          exact absurd e (this n)
        · have hn : w.toSys.noAlloc s := by
            rw [noAlloc_iff]
            obtain ⟨n, h1, h2, _⟩ := hr
            exact ho.2 (by rw [h1]; simp) h2
          have ht := h.takes hi hr hn
          -- only the stamps differ
          refine ⟨ht.self, ht.inv, ?_⟩
          have hna : (w.toSys.heard (w.coord.next op) ((w.coord.next op).sentSince w.coord.out.length) w.asks w.acks).noAlloc s →
              (w.toSys.heard (w.coord.next op) (stampAll w.epoch ((w.coord.next op).sentSince w.coord.out.length))
                w.asks w.acks).noAlloc s := by
            intro _
            exact Sys.heard_noAlloc hn (stampAll_neutral hr.sent.1)
          have hst : (w.toSys.heard (w.coord.next op) (stampAll w.epoch ((w.coord.next op).sentSince w.coord.out.length))
                w.asks w.acks).nStop s =
              (w.toSys.heard (w.coord.next op) ((w.coord.next op).sentSince w.coord.out.length) w.asks w.acks).nStop s := by
            rw [Sys.heard_nStop, Sys.heard_nStop, stampAll_stops]
          rcases ht.phase with hg | ⟨A, a, hg⟩ | ⟨A, hg⟩
          · exact .inl ⟨hg.un, hg.blank, hna hg.noAlloc, by rw [hst]; exact hg.count⟩
          · exact .inr (.inl ⟨A, a, hg.un, hg.blank, hg.held, hna hg.noAlloc, by rw [hst]; exact hg.count, hg.acks⟩)
          · obtain ⟨n, _, h2, _⟩ := hr
            have := hg.as
            rw [show (w.toSys.heard (w.coord.next op) ((w.coord.next op).sentSince w.coord.out.length) w.asks
              w.acks).coord.shards.get s = (w.coord.next op).shards.get s from rfl, h2] at this
            cases this
    · exact h
  | ack s' n =>
    simp only [FSys.sysStep]
    split
    · rename_i hm
      have hi := h.inv.next (.stopAcked s' n)
      rw [FSys.tell_heard, List.append_nil]
      have hle : ((w.acks.erase (s', n)).countP fun p => decide (p.1 = s)) ≤ w.toSys.nAck s :=
        (List.erase_sublist).countP_le
      rcases stopAcked_rel h.inv s s' n with hr | ⟨rfl, hr⟩
      · refine h.leaves hi hr.1 (by rw [stampAll_stops]; exact hr.sent.2) ?_ hle
        intro m hm n e
        have := stampAll_neutral hr.sent.1 m hm
        rw [isAlloc_false_iff] at this
        exact absurd e (this n)
      · have hlt : ((w.acks.erase (s', n)).countP fun p => decide (p.1 = s')) + 1 = w.toSys.nAck s' := by
          have := (List.perm_cons_erase hm).countP_eq fun p => decide (p.1 = s')
          rw [List.countP_cons_of_pos (by simp)] at this
          exact this.symm
        have hg : w.toSys.Gone s' := by
          rcases h.phase with hg | ⟨A, a, hg⟩ | ⟨A, hg⟩
          · exact hg
          · have := hg.acks; omega
          · have := hg.acks; omega
        obtain ⟨n', e1, e2, e3⟩ := hr.sent
        have hc := hg.count
        refine h.gives hg hi e1 (by rw [stampAll_stops]; exact e3) ?_ (by omega) (by omega)
        intro m hm n'' e
        obtain ⟨d, rfl⟩ := e2 m (stampAll_mem hm n'' s' e)
        simp only [HMsg.allocated.injEq, true_and] at e
        exact e.symm
    · exact h
  | ask m s' ok =>
    simp only [FSys.sysStep]
    split
    · have hi := h.inv.next (.allocate s' ok)
      have hans := handleAllocate_answer h.inv s' m false ok
      have hnext : (w.coord.next (.allocate s' ok)) = (w.coord.handleAllocate s' false ok).1 := rfl
      rw [FSys.tell_heard]
      have hstop : ((w.coord.handleAllocate s' false ok).2.notice m).countP (isStop s) = 0 := by
        rw [List.countP_eq_zero]
        intro x hx
        obtain ⟨n, rfl, _⟩ := hans x hx
        simp [isStop]
      rcases handleAllocate_rel h.inv s s' false ok with hr | ⟨rfl, hr⟩
      · refine h.leaves hi hr.1 (by rw [List.countP_append, hnext, stampAll_stops, hr.sent.2, hstop]) ?_ (Nat.le_refl _)
        intro x hx n e
        rcases List.mem_append.1 hx with hx | hx
        · have := stampAll_neutral hr.sent.1 x hx
          rw [isAlloc_false_iff] at this
          exact absurd e (this n)
        · obtain ⟨n', rfl, hn'⟩ := hans x hx
          simp only [HMsg.allocated.injEq] at e
          obtain ⟨rfl, rfl⟩ := e
          rw [← hr.1]; exact hn'
      · have hun : w.coord.shards.get s' = none := by obtain ⟨_, _, h1, _⟩ := hr; exact h1
        have hq : w.Quiet s' := by
          rcases ho rfl with h1 | h1
          · exact absurd hun h1
          · exact h1
        have hsay : ∀ x ∈ stampAll w.epoch ((w.coord.next (.allocate s' ok)).sentSince w.coord.out.length)
            ++ (w.coord.handleAllocate s' false ok).2.notice m, ∀ n, x.2 = HMsg.allocated s' n →
              (w.coord.next (.allocate s' ok)).shards.get s' = some n := by
          obtain ⟨n, e1, e2, e3⟩ := hr.sent
          intro x hx n' e
          rcases List.mem_append.1 hx with hx | hx
          · obtain ⟨d, rfl⟩ := e2 x (stampAll_mem hx n' s' e)
            simp only [HMsg.allocated.injEq, true_and] at e
            rw [← e]; exact e1
          · obtain ⟨n'', rfl, hn''⟩ := hans x hx
            simp only [HMsg.allocated.injEq, true_and] at e
            subst e
            exact hn''
        refine h.anew hq hi ?_ hsay hq.counts.2
        obtain ⟨n, e1, e2, e3⟩ := hr.sent
        rw [List.countP_append, hnext, stampAll_stops, e3, hstop]
    · exact h

theorem FSys.phase_next (f : R → Nat) {s : Nat} {w : FSys R} (h : w.toSys.Phase s) (op : FOp R) (ho : w.Orderly s op) :
    (w.next f op).toSys.Phase s := by
  cases op with
  | sys op => exact w.phase_sys f h op ho
  | crash d => exact h.crash d
  | failover self nodes order =>
    have hs := revive_sent s self (w.epoch + 1) nodes order w.coord.journal
    have hi := InvP.revive self nodes order w.coord.journal
    show (w.toSys.heard (Coord.revive self nodes order w.coord.journal)
      (stampAll (w.epoch + 1) ((Coord.revive self nodes order w.coord.journal).sentSince 0)) w.asks []).Phase s
    rcases ho with ho | ho
    · have ho' : (Coord.revive self nodes order w.coord.journal).shards.get s = w.coord.shards.get s := ho
      exact h.leaves hi ho' hs.2 (fun m hm n e => by rw [← ho']; exact hs.1 m hm n e) (Nat.zero_le _)
    · exact h.anew ho hi hs.2 hs.1 rfl

theorem FSys.phase_run (f : R → Nat) {s : Nat} {w : FSys R} (h : w.toSys.Phase s) (ops : List (FOp R))
    (ho : w.OrderlyRun f s ops) : (w.run f ops).toSys.Phase s := by
  induction ops generalizing w with
  | nil => exact h
  | cons op ops ih => exact ih (w.phase_next f h op ho.1) ho.2

theorem FSys.phase_start (s self : Nat) (nodes : List (Nat × Bool)) (j : List Nat) :
    (FSys.start self nodes j : FSys R).toSys.Phase s := Sys.phase_start s self nodes j

end Verif.Sharding
