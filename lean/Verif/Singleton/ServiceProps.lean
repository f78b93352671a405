import Verif.Singleton.ServiceRun
import Verif.Singleton.FirstStartProps

/-!
# C108: a message sent to the singleton of a new cluster reaches its one instance once

Full statement: whatever is sent on whichever node of a new cluster, before, during or after the start of the
singleton, is received exactly once by the one instance of the singleton. Proved for messages sent with `send`
while the instance runs or has yet to start. The code has no second instance after the first one has ended, so
that every later message comes back with an error; messages sent on one node may overtake each other; and a message
sent with `notify` ends the proxy (C56).
-/

namespace Verif.Singleton

variable (nodes : List Nat) (L : Nat) (child : Bool) (ops : List SvcOp)

/-- **C108 (nothing lost, nothing doubled).** At every moment of every history of the cluster, with any leaders,
starts, failures and ends: what was sent on a node is, message for message, in the mailbox of its proxy, kept by it,
with a task, received by an instance, or returned with an error. -/
theorem C108_accounted_partial (ha : AllAsked ops) (d : Nat) :
    ((Svc.run nodes child {} ops).places d).Perm (sentAt d ops) := by
  have := ((Counted.init d).run (nodes := nodes) child ops ha).perm
  simpa using this

/-- **C108 (to the one instance).** In a new cluster with leader `L`, whatever any instance receives from any node
is received by the first instance of `L`. -/
theorem C108_one_instance_partial (hn : nodes.Nodup) (hL : L ∈ nodes) (hf : Cl.init.Founding nodes child L (clOps ops))
    (d : Nat) : ∀ x ∈ (Svc.run nodes child {} ops).got d, x.1 = L ∧ x.2.1 = 0 :=
  ((Served.init hn hL).run hn hL child ops hf).got d

/-- **C108 (no error).** As long as the instance on the leader does not end, no sender on any node gets an
error: a message is sent on only when the instance runs. -/
theorem C108_no_error_partial (hn : nodes.Nodup) (hL : L ∈ nodes) (hf : Cl.init.Founding nodes child L (clOps ops))
    (hx : ∀ a, .cl (.exits L a) ∉ ops) (d : Nat) : (Svc.run nodes child {} ops).failed d = [] := by
  have key : ∀ (ops : List SvcOp) (w : Svc), Served nodes L w → w.cl.Founding nodes child L (clOps ops) →
      (∀ a, .cl (.exits L a) ∉ ops) → (w.cl.mgr L).live = List.range (w.cl.mgr L).fresh → (∀ d, w.failed d = []) →
      (w.run nodes child ops).failed d = [] := by
    intro ops
    induction ops with
    | nil => intro w _ _ _ _ h0; exact h0 d
    | cons op ops ih =>
      intro w h hf hx hl h0
      have hne := h.noError nodes L child hl op h0
      have hx' : ∀ a, .cl (.exits L a) ∉ ops := fun a ha => hx a (by simp [ha])
      cases op with
      | cl o =>
        refine ih _ (h.cl hn hL child o hf.1 hf.2.1) hf.2.2 hx' ?_ hne
        exact live_range (nodes := nodes) (w := w.cl) child [o] L (fun a ha => hx a (by
          rw [List.mem_singleton] at ha; rw [ha]; simp)) hl
      | send e m => exact ih _ (h.other child _ (by simp)) (by rw [Svc.next_cl]; exact hf) hx' (by rw [Svc.next_cl]; exact hl) hne
      | handle e => exact ih _ (h.other child _ (by simp)) (by rw [Svc.next_cl]; exact hf) hx' (by rw [Svc.next_cl]; exact hl) hne
      | task e i => exact ih _ (h.other child _ (by simp)) (by rw [Svc.next_cl]; exact hf) hx' (by rw [Svc.next_cl]; exact hl) hne
  exact key ops {} (Served.init hn hL) hf hx rfl fun _ => rfl

/-- **C108 (everything arrives).** In a new cluster with leader `L` whose instance does not end: when nothing is left
to do, the first instance of `L` has received, from every node, exactly what was sent there, each message once, and
every proxy hands on at once what is sent next. -/
theorem C108_delivered_partial (hn : nodes.Nodup) (hL : L ∈ nodes) (hf : Cl.init.Founding nodes child L (clOps ops))
    (ha : AllAsked ops) (hx : ∀ a, .cl (.exits L a) ∉ ops) (hq : (Svc.run nodes child {} ops).Quiet nodes) (d : Nat)
    (hd : d ∈ nodes) :
    ((Svc.run nodes child {} ops).got d).Perm ((sentAt d ops).map fun id => (L, 0, id)) ∧
    ((Svc.run nodes child {} ops).proxy d).st = .active L := by
  have h1 := C108_accounted_partial nodes child ops ha d
  have h2 := C108_one_instance_partial nodes L child ops hn hL hf d
  have h3 := C108_no_error_partial nodes L child ops hn hL hf hx d
  have h4 := (Served.init hn hL).run hn hL child ops hf
  have h5 := (Counted.init d).run (nodes := nodes) child ops ha
  have hrun : ((Svc.run nodes child {} ops).cl.mgr L).st = .running 0 := by
    rw [Svc.run_cl]
    refine (C107_runs_partial nodes L child (clOps ops) hn hL hf ?_).1
    have := hq.1
    rw [Svc.run_cl] at this
    exact this
  generalize Svc.run nodes child {} ops = w at *
  have hact : (w.proxy d).st = .active L := by
    have hin : d = L ∨ (d, .started L) ∉ w.cl.net := .inr fun hx => hq.1 (.recv d (.started L)) ⟨hd, hx⟩
    rcases h4.told d hd hrun hin with e | e | e
    · exact e
    · rw [(hq.2 d hd).1] at e; cases e
    · exact absurd e h5.fine.alive
  refine ⟨?_, hact⟩
  unfold Svc.places at h1
  rw [(hq.2 d hd).1, (hq.2 d hd).2, hact, h3] at h1
  simp only [inMail, List.filterMap_nil, PState.kept, List.map_nil, List.append_nil, List.nil_append] at h1
  have h6 := h1.map fun id => (L, 0, id)
  rw [List.map_map] at h6
  have h7 : (w.got d).map ((fun id => (L, 0, id)) ∘ fun x => x.2.2) = w.got d := by
    have : ∀ x ∈ w.got d, ((fun id => (L, 0, id)) ∘ fun x : Nat × Nat × Nat => x.2.2) x = id x := by
      intro x hx
      have := h2 x hx
      obtain ⟨a, b, c⟩ := x
      simp only at this
      simp [this.1, this.2]
    rw [List.map_congr_left this, List.map_id]
  rw [h7] at h6
  exact h6

/-- **C108 (it can always go on).** From every moment, events that still have to happen lead on to a moment at which
nothing is left to do; nothing is sent and no instance ends meanwhile. -/
theorem C108_reachable_partial (hn : nodes.Nodup) (hL : L ∈ nodes) (hf : Cl.init.Founding nodes child L (clOps ops)) :
    ∃ more, (∀ d m, .send d m ∉ more) ∧ (∀ d a, .cl (.exits d a) ∉ more) ∧
      Cl.init.Founding nodes child L (clOps (ops ++ more)) ∧ (Svc.run nodes child {} (ops ++ more)).Quiet nodes := by
  obtain ⟨cs, h1, h2, h3⟩ := C107_reachable_partial nodes L child (clOps ops) hn hL hf
  obtain ⟨ds, d1, d2, d3⟩ := drainAll nodes child nodes (Svc.run nodes child {} (ops ++ cs.map .cl))
  have hc : clOps (cs.map .cl) = cs := by
    clear h1 h2 h3 d1 d2 d3
    induction cs with
    | nil => rfl
    | cons c cs ih => simp only [clOps] at ih ⊢; simp only [List.map_cons, List.filterMap_cons, ih]
  have happ : ∀ a b, clOps (a ++ b) = clOps a ++ clOps b := by intro a b; simp only [clOps, List.filterMap_append]
  refine ⟨cs.map .cl ++ ds, ?_, ?_, ?_, ?_⟩
  · intro d m hx
    rcases List.mem_append.1 hx with hx | hx
    · obtain ⟨_, _, e⟩ := List.mem_map.1 hx; cases e
    · exact d2 d m hx
  · intro d a hx
    rcases List.mem_append.1 hx with hx | hx
    · obtain ⟨c, hc, e⟩ := List.mem_map.1 hx; cases e; exact h3 d a hc
    · have : (ClOp.exits d a) ∈ clOps ds := List.mem_filterMap.2 ⟨_, hx, rfl⟩
      rw [d1] at this; cases this
  · rw [happ, happ, hc, d1, List.append_nil]; exact h1
  · rw [← List.append_assoc, Svc.run_append]
    refine ⟨?_, fun d hd => d3 d (.inl hd)⟩
    rw [Svc.run_cl, d1, Svc.run_cl, happ, hc]
    exact h2

/-- three nodes; messages are sent on all of them before, during and after the start on node 1. -/
def serving : List SvcOp :=
  [.send 0 ⟨10, true⟩, .handle 0, .send 1 ⟨20, true⟩, .cl (.memberUp 1 1), .cl (.memberUp 2 1), .cl (.memberUp 0 1), .send 0 ⟨11, true⟩,
    .cl (.recv 0 (.request 1)), .cl (.recv 2 (.request 1)), .cl (.recv 1 (.ack 0)), .cl (.recv 1 (.ack 2)), .handle 1, .cl (.boot 1),
    .cl (.started 1 0), .send 2 ⟨30, true⟩, .cl (.recv 2 (.started 1)), .handle 2, .handle 2, .task 2 0, .handle 1, .task 1 0,
    .handle 0, .cl (.recv 0 (.started 1)), .handle 0, .task 0 1, .task 0 0, .send 1 ⟨21, true⟩, .handle 1, .task 1 0]

example : Cl.init.Founding [0, 1, 2] false 1 (clOps serving) ∧
    (Svc.run [0, 1, 2] false {} serving).got 0 = [(1, 0, 11), (1, 0, 10)] ∧
    (Svc.run [0, 1, 2] false {} serving).got 1 = [(1, 0, 20), (1, 0, 21)] ∧
    (Svc.run [0, 1, 2] false {} serving).got 2 = [(1, 0, 30)] ∧
    Cl.init.worked [0, 1, 2] false (clOps serving) = 11 ∧
    (∀ d ∈ [0, 1, 2], (Svc.run [0, 1, 2] false {} serving).mail d = [] ∧ ((Svc.run [0, 1, 2] false {} serving).proxy d).tasks = []) ∧
    (∀ x ∈ serving, ∀ a ∈ [0, 1, 2], x ≠ .cl (.exits 1 a)) := by decide

example : AllAsked serving := by
  intro d m h
  simp [serving] at h
  rcases h with ⟨_, rfl⟩ | ⟨_, rfl⟩ | ⟨_, rfl⟩ | ⟨_, rfl⟩ | ⟨_, rfl⟩ <;> rfl

/-- **C108 refuted (order).** Two messages sent on one node before the start are received the other way round. -/
theorem C108_order_refuted : ∃ ops, Cl.init.Founding [0, 1, 2] false 1 (clOps ops) ∧ sentAt 0 ops = [10, 11] ∧
    (Svc.run [0, 1, 2] false {} ops).got 0 = [(1, 0, 11), (1, 0, 10)] := ⟨serving, by decide⟩

/-- **C108 refuted (after its end).** Once the instance of the leader has ended (for whatever reason, even if its
manager were told), it is never replaced: no instance runs again on any node and nothing more is received, on
whichever node it is sent, as long as the leader stays. -/
theorem C108_ended_refuted (hn : nodes.Nodup) (hL : L ∈ nodes) (more : List SvcOp)
    (hf : Cl.init.Founding nodes child L (clOps (ops ++ more)))
    (h1 : 0 < ((Svc.run nodes child {} ops).cl.mgr L).fresh) (h2 : ¬ (Svc.run nodes child {} ops).cl.Runs L 0) (d : Nat) :
    (Svc.run nodes child {} (ops ++ more)).got d = (Svc.run nodes child {} ops).got d ∧
    ∀ e a, ¬ (Svc.run nodes child {} (ops ++ more)).cl.Runs e a := by
  have happ : clOps (ops ++ more) = clOps ops ++ clOps more := by simp only [clOps, List.filterMap_append]
  have hsplit : ∀ (a b : List ClOp) (w : Cl), w.Founding nodes child L (a ++ b) →
      w.Founding nodes child L a ∧ (w.run nodes child a).Founding nodes child L b := by
    intro a b
    induction a with
    | nil => intro w h; exact ⟨trivial, h⟩
    | cons c a ih => intro w h; exact ⟨⟨h.1, h.2.1, (ih _ h.2.2).1⟩, (ih _ h.2.2).2⟩
  rw [happ] at hf
  obtain ⟨hf1, hf2⟩ := hsplit _ _ _ hf
  have hs := (Served.init hn hL).run hn hL child ops hf1
  have hcl := Svc.run_cl (nodes := nodes) child ops {}
  rw [Svc.run_append]
  change _ = Cl.init.run nodes child (clOps ops) at hcl
  rw [← hcl] at hf2
  generalize Svc.run nodes child {} ops = w at *
  clear hcl hf hf1 happ
  have hdone : ∀ v : Svc, Served nodes L v → 0 < (v.cl.mgr L).fresh → 0 ∉ (v.cl.mgr L).live → (v.cl.mgr L).live = [] := by
    intro v hv _ h0
    refine List.eq_nil_iff_forall_not_mem.2 fun x hx => ?_
    have := hv.live_of hx
    subst this
    exact h0 hx
  have key : ∀ (more : List SvcOp) (w : Svc), Served nodes L w → 0 < (w.cl.mgr L).fresh → 0 ∉ (w.cl.mgr L).live →
      w.cl.Founding nodes child L (clOps more) → (w.run nodes child more).got d = w.got d ∧
        0 < ((w.run nodes child more).cl.mgr L).fresh ∧ 0 ∉ ((w.run nodes child more).cl.mgr L).live := by
    intro more
    induction more with
    | nil => intro w _ h1 h2 _; exact ⟨rfl, h1, h2⟩
    | cons op more ih =>
      intro w h h1 h2 hf
      cases op with
      | cl o =>
        have h1' : 0 < ((w.cl.next nodes child o).mgr L).fresh := Nat.lt_of_lt_of_le h1 (Cl.next_fresh child w.cl o L)
        have h2' : 0 ∉ ((w.cl.next nodes child o).mgr L).live := by
          rcases w.cl.next_mgr (nodes := nodes) child o L with e | ⟨_, _, e⟩
          · rw [e]; exact h2
          · rw [e]
            intro hx
            rcases Mgr.step_live _ _ hx with hx | hx
            · exact h2 hx
            · omega
        exact ih _ (h.cl hn hL child o hf.1 hf.2.1) h1' h2' hf.2.2
      | send e m =>
        exact ih _ (h.other child (.send e m) (by simp)) h1 h2 hf
      | handle e =>
        have hc := Svc.next_cl (nodes := nodes) child w (.handle e)
        change _ = w.cl at hc
        have := ih _ (h.other child (.handle e) (by simp)) (by rw [hc]; exact h1) (by rw [hc]; exact h2) (by rw [hc]; exact hf)
        rw [show (w.next nodes child (.handle e)).got = w.got by simp only [Svc.next]; split <;> rfl] at this
        exact this
      | task e i =>
        have hc := Svc.next_cl (nodes := nodes) child w (.task e i)
        change _ = w.cl at hc
        have := ih _ (h.other child (.task e i) (by simp)) (by rw [hc]; exact h1) (by rw [hc]; exact h2) (by rw [hc]; exact hf)
        rw [show (w.next nodes child (.task e i)).got = w.got by
          simp only [Svc.next]
          split
          · rfl
          · rename_i t ht
            have hmt := h.tasks e t (List.mem_of_getElem? ht)
            unfold Svc.arrive
            rw [hmt.1, show (({ w with proxy := setAt w.proxy e ((w.proxy e).next (.task i)) } : Svc).cl.mgr L).live = [] from
              hdone w h h1 h2]
            rfl] at this
        exact this
  obtain ⟨k1, k2, k3⟩ := key more w hs h1 h2 hf2
  refine ⟨k1, fun e a hr => ?_⟩
  have hv := hs.run hn hL child more hf2
  by_cases he : e = L
  · subst he
    have := hdone _ hv k2 k3
    rw [Cl.Runs, this] at hr
    cases hr
  · have := hv.lt e a hr
    have := (hv.solo.oth e he).fresh
    omega

/-- the instance ends, the leader is announced again, another message is sent: its sender gets an error. -/
example : Cl.init.Founding [0, 1, 2] false 1 (clOps (serving ++ [.cl (.exits 1 0)] ++
      [.cl (.leaderChanged 1 1), .send 0 ⟨12, true⟩, .handle 0, .task 0 0])) ∧
    ((Svc.run [0, 1, 2] false {} (serving ++ [.cl (.exits 1 0)])).cl.mgr 1).fresh = 1 ∧
    ((Svc.run [0, 1, 2] false {} (serving ++ [.cl (.exits 1 0)])).cl.mgr 1).live = [] ∧
    (Svc.run [0, 1, 2] false {} (serving ++ [.cl (.exits 1 0)] ++
      [.cl (.leaderChanged 1 1), .send 0 ⟨12, true⟩, .handle 0, .task 0 0])).failed 0 = [(1, 12)] := by decide

end Verif.Singleton
