import Verif.Singleton.ManagerLemmas

/-!
# C53 and C54: one singleton manager

C53, full statement: from the moment a node begins to take over the singleton until it stops it, the node
starts the singleton actor at most once, and only after every other manager it knows has given up its
lease; for every sequence of acknowledgements (repeated, late and unknown ones too) and of nodes joining
and leaving. The code violates it for repeated acknowledgements, for acknowledgements of nodes it does
not know, and for nodes joining and leaving after the start.
-/

namespace Verif.Singleton

/-- **C53, first part, partial.** The singleton is started at most once if meanwhile the members do not
change and every acknowledgement comes from a known manager, one from each. Missing: repeated and
unknown acknowledgements, joining and leaving nodes. -/
theorem C53_starts_once_partial (sel : Nat → Bool) (σ : Mgr) (op : MOp) (ops : List MOp)
    (h0 : σ.starts = 0) (hr : σ.results = [])
    (hbegin : σ.st.taking = false ∧ (σ.next sel op).st.taking = true)
    (hs : ∀ o ∈ ops, o.sameMembers = true) (hk : (σ.next sel op).Keeps sel ops)
    (ha : ∀ n ∈ acks ops, n ∈ (σ.next sel op).managers) (hn : (acks ops).Nodup) :
    σ.launched sel (op :: ops) ≤ 1 := by
  obtain ⟨hb1, hb2⟩ := hbegin
  rw [taking_eq] at hb1 hb2
  have hempty : (σ.next sel op).st.acked = [] := by
    rcases hh : (σ.next sel op).st.acked with _ | ⟨x, l⟩
    · rfl
    · have := (acked_next (show x ∈ (σ.next sel op).st.acked by rw [hh]; simp)).1
      rw [hb1] at this; cases this
  have hst : (σ.next sel op).st = .starting [] := by
    cases hh : (σ.next sel op).st <;> rw [hh] at hb2 hempty <;> simp_all [MState.isStarting, MState.acked]
  have hres : (σ.next sel op).results = [] := by
    unfold Mgr.next
    cases op with
    | memberUp l ns =>
      simp only [Mgr.step, Mgr.onMemberUp, Mgr.beginStarting, Mgr.startActor]; split <;> (try split) <;> exact hr
    | leaderChanged n =>
      simp only [Mgr.step, Mgr.onLeaderChanged, Mgr.beginStarting, Mgr.startActor]
      split <;> (try split) <;> (try split) <;> exact hr
    | nodeAdded n => simp only [Mgr.step, Mgr.onNodeAdded]; split <;> exact hr
    | nodeRemoved n =>
      simp only [Mgr.step, Mgr.onNodeRemoved, Mgr.checkAcks, Mgr.startActor]; split <;> (try split) <;> exact hr
    | recv m =>
      cases m <;>
        (simp only [Mgr.step, Mgr.recv, Mgr.onRequest, Mgr.beginStopping, Mgr.grantLease, Mgr.onAck, Mgr.checkAcks, Mgr.startActor]
         try split
         all_goals try split
         all_goals try exact hr)
    | boot => simp [Mgr.step, h0, hr]
    | startFails => exact hr
    | started a => simp [Mgr.step, hr]
    | exits a c => simp only [Mgr.step]; split <;> exact hr
    | childStopped a =>
      simp only [Mgr.step, Mgr.onChildStopped, Mgr.grantLease]; split <;> (try split) <;> (try split) <;> exact hr
  unfold Mgr.launched
  by_cases hl : σ.launches sel op = true
  · rw [hl]
    have hc := (launch_count hl).2
    rw [hempty] at hc
    have hm := List.length_eq_zero_iff.1 hc.symm
    rw [launched_zero (M := []) (l := []) ops (.inl ⟨hst, by simp⟩) hs hk (by rw [hm] at ha; exact ha) (by simp)]
    decide
  · have hs0 : (σ.next sel op).starts = 0 := by
      simp only [Mgr.launches, decide_eq_true_eq] at hl; omega
    have := launched_le_one (sel := sel) ops hst hs0 hres (by simp) (by simp) hs hk ha (by simp) hn
    simp only [hl, Bool.false_eq_true, if_false]
    omega

/-- three nodes; node 0 is told that it is the leader, and the others acknowledge. -/
example : (∀ o ∈ ([.recv (.ack 1), .recv (.ack 2), .boot, .started 0] : List MOp), o.sameMembers = true) ∧
    Mgr.launched (fun _ => true) (Mgr.init 0) [.memberUp 0 [0, 1, 2], .recv (.ack 1), .recv (.ack 2), .boot, .started 0] = 1 := by
  decide

/-- **C53, second part, partial.** Whenever a manager starts the singleton, every manager it knows has
acknowledged since it began to take over, also when nodes join and leave. Missing: acknowledgements from
nodes it does not know. -/
theorem C53_only_after_all_partial (sel : Nat → Bool) (self : Nat) (pre : List MOp) (op : MOp)
    (hk : (Mgr.init self).KnownAcks sel (pre ++ [op]))
    (hl : ((Mgr.init self).run sel pre).launches sel op = true) :
    ∀ n ∈ ((Mgr.init self).run sel (pre ++ [op])).managers, (Mgr.init self).AckedSince sel (pre ++ [op]) n := by
  intro n hn
  obtain ⟨k1, k2⟩ := KnownAcks.append hk
  have ht := (Tidy.init self).run pre k1
  refine acked_since (by simp [Mgr.init, MState.acked]) ?_
  rw [Mgr.run_append] at hn ⊢
  exact launch_all ht k2.1 hl n hn

/-- a node leaves, another one joins, before the last acknowledgement. -/
example :
    (((Mgr.init 0).run (fun _ => true) [.memberUp 0 [0, 1, 2, 3], .recv (.ack 1), .nodeRemoved 2, .nodeAdded 4, .recv (.ack 4)]).launches
      (fun _ => true) (.recv (.ack 3))) = true := by decide

/-- **C53 fails** for a repeated acknowledgement: the singleton is started twice. -/
theorem C53_repeated_ack_refuted :
    Mgr.launched (fun _ => true) (Mgr.init 0) [.memberUp 0 [0, 1], .recv (.ack 1), .recv (.ack 1)] = 2 := by decide

/-- **C53 fails** for an acknowledgement of an unknown node: node 2 has not acknowledged. -/
theorem C53_unknown_ack_refuted :
    ((Mgr.init 0).run (fun _ => true) [.memberUp 0 [0, 1, 2], .recv (.ack 1)]).launches (fun _ => true) (.recv (.ack 9)) = true ∧
      2 ∈ ((Mgr.init 0).run (fun _ => true) [.memberUp 0 [0, 1, 2], .recv (.ack 1), .recv (.ack 9)]).managers := by decide

/-- **C53 fails** when a node leaves after the start but before its result: the singleton is started
twice. -/
theorem C53_node_leaves_refuted :
    Mgr.launched (fun _ => true) (Mgr.init 0)
      [.memberUp 0 [0, 1, 2], .recv (.ack 1), .recv (.ack 2), .nodeRemoved 2] = 2 := by decide

/-- **C53 fails** when a node joins after the start but before its result: it is asked for the lease, and
its acknowledgement starts the singleton again. -/
theorem C53_node_joins_refuted :
    Mgr.launched (fun _ => true) (Mgr.init 0)
      [.memberUp 0 [0, 1], .recv (.ack 1), .nodeAdded 2, .recv (.ack 2)] = 2 := by decide

/-!
C54, full statement: a manager that is asked for the lease while it runs the singleton stops it and then
gives the lease to the node that asked; a manager not running it gives the lease at once; so a new leader
eventually starts the singleton. The last part fails, see `Verif.Singleton.ClusterProps`.
-/

/-- **C54, asked while running.** The instance gets a stop notification, the other managers are told,
and the manager remembers who asked. -/
theorem C54_running_stops (sel : Nat → Bool) (σ : Mgr) (a n : Nat) (h : σ.st = .running a) :
    σ.step sel (.recv (.request n)) =
      ({ σ with st := .stopping a n }, .stopActor a :: σ.managers.map fun m => .send m (.stopped σ.self)) := by
  simp [Mgr.step, Mgr.recv, Mgr.onRequest, Mgr.beginStopping, h, MState.isRunning, MState.actor, Mgr.notifyManagers]

/-- **C54, the instance has ended**, if the manager is told so: the lease goes to the node that asked. -/
theorem C54_ended_grants (sel : Nat → Bool) (σ : Mgr) (a b n : Nat) (h : σ.st = .stopping a n) (hb : b ∈ σ.ended)
    (hn : n ∈ σ.managers) :
    σ.step sel (.childStopped b) = ({ σ with st := .idle, ended := σ.ended.erase b }, [.send n (.ack σ.self)]) := by
  simp [Mgr.step, hb, Mgr.onChildStopped, h, Mgr.grantLease, Mgr.notifyManager, hn]

/-- **C54, asked while not running**: an idle or stopping manager gives the lease at once, to any node it
knows. -/
theorem C54_not_running_grants (sel : Nat → Bool) (σ : Mgr) (n : Nat) (h : σ.st = .idle ∨ σ.st.isStopping = true)
    (hn : n ∈ σ.managers) : σ.step sel (.recv (.request n)) = (σ, [.send n (.ack σ.self)]) := by
  cases hst : σ.st <;> simp_all [Mgr.step, Mgr.recv, Mgr.onRequest, Mgr.grantLease, MState.isRunning, Mgr.notifyManager, MState.isStopping]

/-- **C54, asked while joining**: the lease is given when the node is up. -/
theorem C54_joining_grants (sel : Nat → Bool) (σ : Mgr) (p : Option Nat) (n l : Nat) (ns : List Nat)
    (h : σ.st = .joining p) (hn : n ∈ ns) (hself : n ≠ σ.self) (hsel : sel n = true) :
    (σ.step sel (.recv (.request n))).2 = [] ∧
      .send n (.ack σ.self) ∈ ((σ.next sel (.recv (.request n))).step sel (.memberUp l ns)).2 := by
  have hm : n ∈ addManagers sel σ.self σ.managers ns := by
    unfold addManagers
    have key : ∀ ms : List Nat, n ∈ ms ∨ n ∈ ns → n ∈ ns.foldl (fun ms n => if n = σ.self ∨ sel n = false then ms else setInsert ms n) ms := by
      clear hn
      induction ns with
      | nil => intro ms hx; simpa using hx
      | cons x ns ih =>
        intro ms hx
        simp only [List.foldl_cons]
        refine ih _ ?_
        rcases hx with hx | hx
        · left
          split
          · exact hx
          · exact mem_setInsert.2 (.inl hx)
        · rcases List.mem_cons.1 hx with rfl | hx
          · left
            rw [if_neg (by simp [hself, hsel])]
            exact mem_setInsert.2 (.inr rfl)
          · exact .inr hx
    exact key _ (.inr hn)
  simp only [Mgr.step, Mgr.recv, Mgr.onRequest, Mgr.grantLease, h, MState.isRunning, Bool.false_eq_true, if_false, Mgr.next,
    Mgr.onMemberUp, true_and]
  split <;> simp [Mgr.dueAck, Mgr.notifyManager, hm]

/-- a manager that runs the singleton is asked, its instance ends, and the lease is given. -/
example : (((Mgr.init 0).run (fun _ => true) [.memberUp 0 [0, 1], .recv (.ack 1), .boot, .started 0, .recv (.request 1), .exits 0 true]).step
    (fun _ => true) (.childStopped 0)).2 = [.send 1 (.ack 0)] := by decide

/-- **C54 fails for two requests while joining**: only the last one is answered. -/
theorem C54_joining_refuted :
    (((Mgr.init 0).run (fun _ => true) [.recv (.request 1), .recv (.request 2)]).step (fun _ => true) (.memberUp 1 [0, 1, 2])).2 =
      [.send 2 (.ack 0)] := by decide

/-- **C54 fails for a manager that is starting**: it is not running the singleton, and does not give the
lease, then or later. -/
theorem C54_starting_refuted (sel : Nat → Bool) (σ : Mgr) (l : List Nat) (n : Nat) (h : σ.st = .starting l) :
    σ.step sel (.recv (.request n)) = (σ, []) := by
  simp [Mgr.step, Mgr.recv, Mgr.onRequest, Mgr.beginStopping, h, MState.isRunning, MState.actor]

/-- **C53.** A node that leaves is no longer waited for: the others still are, and what they have
acknowledged still counts. -/
theorem C53_node_removed (sel : Nat → Bool) (σ : Mgr) (n m : Nat) :
    (m ∈ (σ.next sel (.nodeRemoved n)).managers ↔ m ∈ σ.managers ∧ m ≠ n) ∧
    (∀ acked, σ.st = .starting acked →
      ∃ acked', (σ.next sel (.nodeRemoved n)).st = .starting acked' ∧ (m ∈ acked' ↔ m ∈ acked ∧ m ≠ n)) ∧
    (σ.st.taking = false → (σ.next sel (.nodeRemoved n)).st = σ.st) := by
  have hst : ∀ (τ : Mgr) l, (τ.checkAcks l).managers = τ.managers ∧ (τ.checkAcks l).st = .starting l := by
    intro τ l
    unfold Mgr.checkAcks
    split <;> exact ⟨rfl, rfl⟩
  simp only [Mgr.next, Mgr.step, Mgr.onNodeRemoved]
  cases hs : σ.st with
  | starting acked =>
    simp only [(hst _ _).1, (hst _ _).2, MState.starting.injEq]
    refine ⟨by simp, ?_, by simp [MState.taking]⟩
    rintro a rfl
    exact ⟨_, rfl, by simp⟩
  | joining p => simp
  | idle => simp
  | running a => simp
  | stopping a k => simp

end Verif.Singleton
