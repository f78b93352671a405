import Verif.Singleton.ServiceSpec
import Verif.Singleton.FirstStartRun

/-! # Sending to a cluster singleton: lemmas -/

namespace Verif.Singleton

variable {nodes : List Nat} {L : Nat}

theorem setAt_self {α : Type} (f : Nat → α) (d : Nat) (x : α) : setAt f d x d = x := by simp [setAt]

theorem setAt_ne {α : Type} (f : Nat → α) {d e : Nat} (x : α) (h : e ≠ d) : setAt f d x e = f e := by simp [setAt, h]

theorem Svc.arrive_cl (w : Svc) (d r id : Nat) : (w.arrive d r id).cl = w.cl := by
  unfold Svc.arrive; split <;> rfl

theorem Svc.arrive_proxy (w : Svc) (d r id : Nat) : (w.arrive d r id).proxy = w.proxy := by
  unfold Svc.arrive; split <;> rfl

theorem Svc.arrive_mail (w : Svc) (d r id : Nat) : (w.arrive d r id).mail = w.mail := by
  unfold Svc.arrive; split <;> rfl

theorem Svc.next_cl (child : Bool) (w : Svc) (op : SvcOp) :
    (w.next nodes child op).cl = w.cl.run nodes child (clOps [op]) := by
  cases op with
  | cl op => rfl
  | send d m => rfl
  | handle d => simp only [Svc.next]; split <;> rfl
  | task d i =>
    simp only [Svc.next]
    split
    · rfl
    · rw [Svc.arrive_cl]; rfl

theorem Svc.run_cl (child : Bool) (ops : List SvcOp) (w : Svc) :
    (w.run nodes child ops).cl = w.cl.run nodes child (clOps ops) := by
  induction ops generalizing w with
  | nil => rfl
  | cons op ops ih =>
    rw [show w.run nodes child (op :: ops) = (w.next nodes child op).run nodes child ops from rfl, ih, Svc.next_cl]
    rw [show clOps (op :: ops) = clOps [op] ++ clOps ops by
      rw [show op :: ops = [op] ++ ops from rfl]; simp only [clOps, List.filterMap_append]]
    simp [Cl.run]

theorem Svc.run_append (child : Bool) (w : Svc) (a b : List SvcOp) :
    w.run nodes child (a ++ b) = (w.run nodes child a).run nodes child b := by simp [Svc.run]

/-- what the manager tells the proxy. -/
theorem Mgr.step_told (σ : Mgr) (op : MOp) : (σ.step (fun _ => true) op).2.filterMap MOut.told? =
    match op with
    | .started a => if a ∈ σ.results then [.started σ.self] else []
    | .recv (.started n) => [.started n]
    | .recv (.stopped _) => [.stopping]
    | _ => [] := by
  have hms : ∀ (τ : Mgr) m, (τ.notifyManagers m).filterMap MOut.told? = [] := by
    intro τ m; simp [Mgr.notifyManagers, List.filterMap_eq_nil_iff, MOut.told?]
  have hm : ∀ (τ : Mgr) n m, (τ.notifyManager n m).filterMap MOut.told? = [] := by
    intro τ n m; unfold Mgr.notifyManager; split <;> simp [MOut.told?]
  have hb : ∀ τ : Mgr, τ.beginStarting.2.filterMap MOut.told? = [] := by
    intro τ; unfold Mgr.beginStarting; split
    · rfl
    · exact hms _ _
  have hd : ∀ τ : Mgr, τ.dueAck.filterMap MOut.told? = [] := by
    intro τ; unfold Mgr.dueAck; split
    · exact hm _ _ _
    · rfl
  have hg : ∀ (τ : Mgr) n, (τ.grantLease n).2.filterMap MOut.told? = [] := by
    intro τ n; unfold Mgr.grantLease; split
    · rfl
    · exact hm _ _ _
  cases op with
  | memberUp l ns =>
    simp only [Mgr.step, Mgr.onMemberUp]
    split
    · rw [List.filterMap_append, hd, hb]; rfl
    · exact hd _
  | leaderChanged n =>
    simp only [Mgr.step]
    split
    · rfl
    · unfold Mgr.onLeaderChanged
      split
      · exact hb _
      · rfl
  | nodeAdded n =>
    simp only [Mgr.step, Mgr.onNodeAdded]
    split
    · simp only [Mgr.greeting]; split <;> rfl
    · rfl
  | nodeRemoved n => rfl
  | recv m =>
    cases m with
    | request n =>
      simp only [Mgr.step, Mgr.recv, Mgr.onRequest]
      split
      · unfold Mgr.beginStopping
        split
        · rfl
        · rw [List.filterMap_cons]; simp only [MOut.told?]; exact hms _ _
      · exact hg _ _
    | ack n => rfl
    | started n => rfl
    | stopped n => rfl
  | boot => simp only [Mgr.step]; split <;> rfl
  | startFails => rfl
  | started a =>
    simp only [Mgr.step]
    split
    · simp only [Mgr.onStarted, List.filterMap_cons, MOut.told?]
      rw [hms]
    · rfl
  | exits a c => simp only [Mgr.step]; split <;> rfl
  | childStopped a =>
    simp only [Mgr.step]
    split
    · unfold Mgr.onChildStopped
      split
      · exact hg _ _
      · rfl
    · rfl

/-- who says that the singleton has started. -/
theorem Mgr.step_started (σ : Mgr) (op : MOp) (n s : Nat)
    (h : (n, .started s) ∈ (σ.step (fun _ => true) op).2.filterMap MOut.msg?) :
    s = σ.self ∧ (σ.results ≠ [] ∨ ∃ a, σ.st = .running a) := by
  have hms : ∀ (τ : Mgr) m, (n, .started s) ∈ (τ.notifyManagers m).filterMap MOut.msg? → m = .started s := by
    intro τ m hx
    rw [notifyManagers_msgs] at hx
    simp only [List.mem_map, Prod.mk.injEq] at hx
    obtain ⟨_, _, _, e⟩ := hx
    exact e
  have hm : ∀ (τ : Mgr) k m, (n, .started s) ∈ (τ.notifyManager k m).filterMap MOut.msg? → m = .started s := by
    intro τ k m hx
    unfold Mgr.notifyManager at hx
    split at hx
    · simp only [List.filterMap_cons, MOut.msg?, List.filterMap_nil, List.mem_singleton, Prod.mk.injEq] at hx
      exact hx.2.symm
    · cases hx
  have hb : ∀ τ : Mgr, (n, .started s) ∉ τ.beginStarting.2.filterMap MOut.msg? := by
    intro τ; unfold Mgr.beginStarting; split
    · intro hx; cases hx
    · intro hx; cases hms _ _ hx
  have hd : ∀ τ : Mgr, (n, .started s) ∉ τ.dueAck.filterMap MOut.msg? := by
    intro τ; unfold Mgr.dueAck; split
    · intro hx; cases hm _ _ _ hx
    · intro hx; cases hx
  have hg : ∀ (τ : Mgr) k, (n, .started s) ∉ (τ.grantLease k).2.filterMap MOut.msg? := by
    intro τ k; unfold Mgr.grantLease; split
    · intro hx; cases hx
    · intro hx; cases hm _ _ _ hx
  cases op with
  | memberUp l ns =>
    simp only [Mgr.step, Mgr.onMemberUp] at h
    split at h
    · rw [List.filterMap_append, List.mem_append] at h
      rcases h with h | h
      · exact absurd h (hd _)
      · exact absurd h (hb _)
    · exact absurd h (hd _)
  | leaderChanged k =>
    simp only [Mgr.step] at h
    split at h
    · cases h
    · unfold Mgr.onLeaderChanged at h
      split at h
      · exact absurd h (hb _)
      · cases h
  | nodeAdded k =>
    simp only [Mgr.step, Mgr.onNodeAdded] at h
    split at h
    · simp only [Mgr.greeting] at h
      split at h
      · simp [MOut.msg?] at h
      · rename_i a hst
        simp only [List.filterMap_cons, MOut.msg?, List.filterMap_nil, List.mem_singleton, Prod.mk.injEq, MMsg.started.injEq] at h
        exact ⟨h.2, .inr ⟨a, hst⟩⟩
      · cases h
    · cases h
  | nodeRemoved k => cases h
  | recv m =>
    cases m with
    | request k =>
      simp only [Mgr.step, Mgr.recv, Mgr.onRequest] at h
      split at h
      · unfold Mgr.beginStopping at h
        split at h
        · cases h
        · rw [List.filterMap_cons] at h; simp only [MOut.msg?] at h; cases hms _ _ h
      · exact absurd h (hg _ _)
    | ack k => cases h
    | started k => cases h
    | stopped k => cases h
  | boot => simp only [Mgr.step] at h; split at h <;> cases h
  | startFails => cases h
  | started a =>
    simp only [Mgr.step] at h
    split at h
    · rename_i ha
      simp only [Mgr.onStarted, List.filterMap_cons, MOut.msg?] at h
      have := hms _ _ h
      simp only [MMsg.started.injEq] at this
      exact ⟨this.symm, .inl (List.ne_nil_of_mem ha)⟩
    · cases h
  | exits a c => simp only [Mgr.step] at h; split at h <;> cases h
  | childStopped a =>
    simp only [Mgr.step] at h
    split at h
    · unfold Mgr.onChildStopped at h
      split at h
      · exact absurd h (hg _ _)
      · cases h
    · cases h

/-- only the result of a start makes a manager run its singleton. -/
theorem Mgr.step_running (σ : Mgr) (op : MOp) (b : Nat) (h : (σ.step (fun _ => true) op).1.st = .running b) :
    σ.st = .running b ∨ (op = .started b ∧ b ∈ σ.results) := by
  cases op with
  | memberUp l ns =>
    simp only [Mgr.step, Mgr.onMemberUp, Mgr.beginStarting, Mgr.startActor] at h
    split at h <;> (try split at h) <;> cases h
  | leaderChanged k =>
    simp only [Mgr.step, Mgr.onLeaderChanged, Mgr.beginStarting, Mgr.startActor] at h
    split at h
    · exact .inl h
    · split at h
      · split at h <;> cases h
      · exact .inl h
  | nodeAdded k => simp only [Mgr.step, Mgr.onNodeAdded] at h; split at h <;> exact .inl h
  | nodeRemoved k =>
    simp only [Mgr.step, Mgr.onNodeRemoved, Mgr.checkAcks, Mgr.startActor] at h
    split at h
    · split at h <;> cases h
    · exact .inl h
  | recv m =>
    cases m with
    | request k =>
      simp only [Mgr.step, Mgr.recv, Mgr.onRequest, Mgr.beginStopping, Mgr.grantLease] at h
      split at h
      · split at h
        · exact .inl h
        · cases h
      · split at h
        · cases h
        · exact .inl h
    | ack k =>
      simp only [Mgr.step, Mgr.recv, Mgr.onAck, Mgr.checkAcks, Mgr.startActor] at h
      split at h
      · split at h <;> cases h
      · exact .inl h
    | started k => exact .inl h
    | stopped k => exact .inl h
  | boot => simp only [Mgr.step] at h; split at h <;> exact .inl h
  | startFails => exact .inl h
  | started a =>
    simp only [Mgr.step] at h
    split at h
    · rename_i ha
      simp only [Mgr.onStarted, MState.running.injEq] at h
      subst h
      exact .inr ⟨rfl, ha⟩
    · exact .inl h
  | exits a c => simp only [Mgr.step] at h; split at h <;> exact .inl h
  | childStopped a =>
    simp only [Mgr.step] at h
    split at h
    · simp only [Mgr.onChildStopped] at h
      split at h
      · cases h
      · exact .inl h
    · exact .inl h

/-- instances are numbered upwards. -/
theorem Mgr.step_fresh (σ : Mgr) (op : MOp) : σ.fresh ≤ (σ.step (fun _ => true) op).1.fresh := by
  cases op with
  | memberUp l ns =>
    simp only [Mgr.step, Mgr.onMemberUp, Mgr.beginStarting, Mgr.startActor]
    split <;> (try split) <;> exact Nat.le_refl _
  | leaderChanged k =>
    simp only [Mgr.step, Mgr.onLeaderChanged, Mgr.beginStarting, Mgr.startActor]
    split <;> (try split) <;> (try split) <;> exact Nat.le_refl _
  | nodeAdded k => simp only [Mgr.step, Mgr.onNodeAdded]; split <;> exact Nat.le_refl _
  | nodeRemoved k =>
    simp only [Mgr.step, Mgr.onNodeRemoved, Mgr.checkAcks, Mgr.startActor]
    split <;> (try split) <;> exact Nat.le_refl _
  | recv m =>
    cases m <;>
      (simp only [Mgr.step, Mgr.recv, Mgr.onRequest, Mgr.beginStopping, Mgr.grantLease, Mgr.onAck, Mgr.checkAcks, Mgr.startActor]
       try split
       all_goals try split
       all_goals exact Nat.le_refl _)
  | boot => simp only [Mgr.step, Mgr.boot]; split <;> simp
  | startFails => exact Nat.le_refl _
  | started a => simp only [Mgr.step, Mgr.onStarted]; split <;> exact Nat.le_refl _
  | exits a c => simp only [Mgr.step]; split <;> exact Nat.le_refl _
  | childStopped a =>
    simp only [Mgr.step, Mgr.onChildStopped, Mgr.grantLease]
    split <;> (try split) <;> (try split) <;> exact Nat.le_refl _

theorem Cl.next_fresh (child : Bool) (w : Cl) (op : ClOp) (d : Nat) :
    (w.mgr d).fresh ≤ ((w.next nodes child op).mgr d).fresh := by
  rcases w.next_mgr (nodes := nodes) child op d with e | ⟨_, _, e⟩
  · rw [e]; exact Nat.le_refl _
  · rw [e]; exact Mgr.step_fresh _ _

/-- a notice of a start stays until it is handled. -/
theorem Cl.next_stays (child : Bool) (w : Cl) (op : ClOp) {x : Nat × MMsg} (hx : x ∈ w.net) :
    x ∈ (w.next nodes child op).net ∨ (w.allows nodes op = true ∧ op = .recv x.1 x.2) := by
  by_cases ha : w.allows nodes op = true
  · rw [w.next_at child op ha]
    show x ∈ w.rest op ++ _ ∨ _
    by_cases e : op = .recv x.1 x.2
    · exact .inr ⟨ha, e⟩
    · refine .inl (List.mem_append_left _ ?_)
      cases op with
      | recv d m =>
        simp only [Cl.rest]
        refine (List.mem_erase_of_ne ?_).2 hx
        intro e'
        subst e'
        exact e rfl
      | _ => exact hx
  · rw [w.next_not child op ha]; exact .inl hx

end Verif.Singleton
