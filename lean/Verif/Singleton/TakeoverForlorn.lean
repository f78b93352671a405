import Verif.Singleton.TakeoverRun

/-! # Cluster singletons when nodes fail: a node that waits for one that has crashed -/

namespace Verif.Singleton

/-- what is true of a node that waits for one that crashed. -/
structure Forlorn (w : Fo) : Prop where
  down : 0 ∈ w.down
  self : (w.cl.mgr 1).self = 1
  managers : (w.cl.mgr 1).managers = [0]
  st : (w.cl.mgr 1).st = .idle ∨ (w.cl.mgr 1).st = .starting []
  starts : (w.cl.mgr 1).starts = 0
  results : (w.cl.mgr 1).results = []
  fresh : (w.cl.mgr 1).fresh = 0
  live : (w.cl.mgr 1).live = []
  ended : (w.cl.mgr 1).ended = []
  net : ∀ x ∈ w.cl.net, x.1 = 1 → x = (1, .request 0)

theorem Forlorn.next {w : Fo} (h : Forlorn w) {child : Bool} {op : FoOp} (hop : ∀ n, op ≠ .removed 1 n) :
    Forlorn (w.next [0, 1] child op) := by
  have key : ∀ (σ : Mgr) (n l : List (Nat × MMsg)), σ.self = 1 → σ.managers = [0] → (σ.st = .idle ∨ σ.st = .starting []) → σ.starts = 0 →
      σ.results = [] → σ.fresh = 0 → σ.live = [] → σ.ended = [] → (∀ x ∈ n, x ∈ w.cl.net) → (∀ x ∈ l, x.1 ≠ 1) →
      Forlorn { w with cl := w.cl.into n 1 σ l } := by
    intro σ n l h1 h2 h3 h4 h5 h6 h7 h8 h9 h10
    have e : (w.cl.into n 1 σ l).mgr 1 = σ := into_self _ _ _ _
    refine ⟨h.down, ?_, ?_, ?_, ?_, ?_, ?_, ?_, ?_, ?_⟩ <;> simp only [e] <;> try assumption
    intro x hx hx1
    rcases List.mem_append.1 hx with hx | hx
    · exact h.net x (h9 x hx) hx1
    · exact absurd hx1 (h10 x hx)
  cases op with
  | crash d => exact ⟨by simp [Fo.next, h.down], h.self, h.managers, h.st, h.starts, h.results, h.fresh, h.live, h.ended, h.net⟩
  | removed d n =>
    simp only [Fo.next]
    split
    · rename_i hd
      obtain rfl : d = 1 := by
        have := hd.1
        simp only [List.mem_cons, List.not_mem_nil, or_false] at this
        rcases this with e | e
        · subst e; exact absurd h.down hd.2
        · exact e
      exact absurd rfl (hop n)
    · exact h
  | cl op =>
    simp only [Fo.next]
    split
    · exact h
    rename_i hdn
    by_cases hal : w.cl.allows [0, 1] op = true
    rotate_left
    · rw [w.cl.next_not child op hal]; exact h
    have hd : op.node = 1 := by
      have : op.node ∈ [0, 1] := by
        cases op with
        | recv d m => simp [Cl.allows] at hal; simp [ClOp.node, hal.1]
        | nodeAdded d n => simp [Cl.allows] at hal; simp [ClOp.node, hal.1]
        | _ => simpa [Cl.allows] using hal
      simp only [List.mem_cons, List.not_mem_nil, or_false] at this
      rcases this with e | e
      · rw [e] at hdn; exact absurd h.down hdn
      · exact e
    have hat := w.cl.next_at child op hal
    rw [hd] at hat
    rw [hat]
    have same : ∀ n l, (∀ x ∈ n, x ∈ w.cl.net) → (∀ x ∈ l, x.1 ≠ 1) → Forlorn { w with cl := w.cl.into n 1 (w.cl.mgr 1) l } := fun n l hn hl =>
      key _ n l h.self h.managers h.st h.starts h.results h.fresh h.live h.ended hn hl
    have begins : ∀ σ : Mgr, σ.self = 1 → σ.managers = [0] → σ.starts = 0 →
        σ.results = [] → σ.fresh = 0 → σ.live = [] → σ.ended = [] →
        Forlorn { w with cl := w.cl.into w.cl.net 1 σ.beginStarting.1 (σ.beginStarting.2.filterMap MOut.msg?) } := by
      intro σ h1 h2 h3 h4 h5 h6 h7
      have : σ.beginStarting = ({ σ with st := .starting [] }, [.send 0 (.request 1)]) := by
        simp [Mgr.beginStarting, h2, Mgr.notifyManagers, h1]
      rw [this]
      exact key _ _ _ h1 h2 (.inr rfl) h3 h4 h5 h6 h7 (fun _ hx => hx) (by simp [MOut.msg?])
    cases op with
    | memberUp d l =>
      have hms : addManagers (fun _ => true) (w.cl.mgr 1).self (w.cl.mgr 1).managers [0, 1] = [0] := by
        rw [h.self, h.managers]; decide
      have hdue : Mgr.dueAck { w.cl.mgr 1 with managers := [0] } = [] := by
        rcases h.st with e | e <;> simp [Mgr.dueAck, e]
      show Forlorn { w with
        cl := w.cl.into w.cl.net 1 ((w.cl.mgr 1).onMemberUp (fun _ => true) l [0, 1]).1
          (((w.cl.mgr 1).onMemberUp (fun _ => true) l [0, 1]).2.filterMap MOut.msg?) }
      unfold Mgr.onMemberUp
      rw [hms]
      simp only [hdue]
      split
      · exact begins _ h.self rfl h.starts h.results h.fresh h.live h.ended
      · exact key _ _ _ h.self rfl (.inl rfl) h.starts h.results h.fresh h.live h.ended (fun _ hx => hx) (by simp)
    | leaderChanged d l =>
      show Forlorn { w with
        cl := w.cl.into w.cl.net 1 ((w.cl.mgr 1).step (fun _ => true) (.leaderChanged l)).1
          (((w.cl.mgr 1).step (fun _ => true) (.leaderChanged l)).2.filterMap MOut.msg?) }
      simp only [Mgr.step, Mgr.onLeaderChanged]
      split
      · exact same _ _ (fun _ hx => hx) (by simp)
      · split
        · exact begins _ h.self h.managers h.starts h.results h.fresh h.live h.ended
        · exact same _ _ (fun _ hx => hx) (by simp)
    | nodeAdded d n =>
      have hn : n = 0 ∨ n = 1 := by simp [Cl.allows] at hal; exact hal.2
      have : (w.cl.mgr 1).onNodeAdded (fun _ => true) n = (w.cl.mgr 1, []) := by
        unfold Mgr.onNodeAdded
        rw [if_neg]
        rw [h.self, h.managers]
        rcases hn with rfl | rfl <;> simp
      show Forlorn { w with
        cl := w.cl.into w.cl.net 1 ((w.cl.mgr 1).onNodeAdded (fun _ => true) n).1
          (((w.cl.mgr 1).onNodeAdded (fun _ => true) n).2.filterMap MOut.msg?) }
      rw [this]
      exact same _ _ (fun _ hx => hx) (by simp)
    | recv d m =>
      have hm : (1, m) ∈ w.cl.net := by
        have hd' : d = 1 := hd
        subst hd'
        simp [Cl.allows] at hal; exact hal
      have := h.net _ hm rfl
      simp only [Prod.mk.injEq, true_and] at this
      subst this
      show Forlorn { w with
        cl := w.cl.into (w.cl.net.erase (d, .request 0)) 1 ((w.cl.mgr 1).onRequest 0).1
          (((w.cl.mgr 1).onRequest 0).2.filterMap MOut.msg?) }
      rcases h.st with e | e
      · have : (w.cl.mgr 1).onRequest 0 = (w.cl.mgr 1, [.send 0 (.ack 1)]) := by
          simp [Mgr.onRequest, e, MState.isRunning, Mgr.grantLease, Mgr.notifyManager, h.managers, h.self]
        rw [this]
        exact same _ _ (fun _ hx => List.mem_of_mem_erase hx) (by simp [MOut.msg?])
      · have : (w.cl.mgr 1).onRequest 0 = (w.cl.mgr 1, []) := by
          simp [Mgr.onRequest, e, MState.isRunning, Mgr.beginStopping, MState.actor]
        rw [this]
        exact same _ _ (fun _ hx => List.mem_of_mem_erase hx) (by simp)
    | boot d =>
      show Forlorn { w with
        cl := w.cl.into w.cl.net 1 (if (w.cl.mgr 1).starts = 0 then (w.cl.mgr 1, []) else ((w.cl.mgr 1).boot, [])).1
          ((if (w.cl.mgr 1).starts = 0 then (w.cl.mgr 1, []) else ((w.cl.mgr 1).boot, [])).2.filterMap MOut.msg?) }
      rw [if_pos h.starts]
      exact same _ _ (fun _ hx => hx) (by simp)
    | startFails d =>
      exact key ({ w.cl.mgr 1 with starts := (w.cl.mgr 1).starts - 1 }) _ _ h.self h.managers h.st (by simp [h.starts]) h.results h.fresh
        h.live h.ended (fun _ hx => hx) (by simp [ClOp.op, Mgr.step])
    | started d a =>
      have : (w.cl.mgr 1).step (fun _ => true) (.started a) = (w.cl.mgr 1, []) := if_neg (by rw [h.results]; simp)
      show Forlorn { w with
        cl := w.cl.into w.cl.net 1 ((w.cl.mgr 1).step (fun _ => true) (.started a)).1
          (((w.cl.mgr 1).step (fun _ => true) (.started a)).2.filterMap MOut.msg?) }
      rw [this]
      exact same _ _ (fun _ hx => hx) (by simp)
    | exits d a =>
      have : (w.cl.mgr 1).step (fun _ => true) (.exits a child) = (w.cl.mgr 1, []) := if_neg (by rw [h.live]; simp)
      show Forlorn { w with
        cl := w.cl.into w.cl.net 1 ((w.cl.mgr 1).step (fun _ => true) (.exits a child)).1
          (((w.cl.mgr 1).step (fun _ => true) (.exits a child)).2.filterMap MOut.msg?) }
      rw [this]
      exact same _ _ (fun _ hx => hx) (by simp)
    | childStopped d a =>
      have : (w.cl.mgr 1).step (fun _ => true) (.childStopped a) = (w.cl.mgr 1, []) := if_neg (by rw [h.ended]; simp)
      show Forlorn { w with
        cl := w.cl.into w.cl.net 1 ((w.cl.mgr 1).step (fun _ => true) (.childStopped a)).1
          (((w.cl.mgr 1).step (fun _ => true) (.childStopped a)).2.filterMap MOut.msg?) }
      rw [this]
      exact same _ _ (fun _ hx => hx) (by simp)

end Verif.Singleton
