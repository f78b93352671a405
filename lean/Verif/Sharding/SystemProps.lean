import Verif.Sharding.SystemLemmas

/-!
# C51: a shard never runs on two nodes during a rebalance

`C51_at_most_one_instance_partial`: in every run of the coordinator and any number of hosts, with
messages, requests and answers handled in any order, there is at most one running instance of a shard,
and it runs on the node the shard is assigned to if there is one, provided that

* a request for the shard's allocation is not handled while it is being moved,
* a rebalance does not take the shard while an announcement of its place is still under way, and
* the shard's node is not given up as lost.

`C51_request_during_move_refuted` and `C51_late_announcement_refuted` show that the code relies on the
first two without ensuring them: an instance is started on the new node while the old one still runs.
The third is the property's own premise ("while nodes stay reachable").
-/

namespace Verif.Sharding

variable {R : Type}

/-- instance `a` of shard `s` is running on node `d`. -/
def Sys.Runs (w : Sys R) (s d a : Nat) : Prop := (s, a) ∈ (w.host d).live

/-- no trace of `s` outside the coordinator: nothing runs, and no announcement, request to stop or answer
to one is under way. -/
def Sys.Quiet (w : Sys R) (s : Nat) : Prop :=
  (∀ d a, ¬ w.Runs s d a) ∧ (∀ d n, (d, HMsg.allocated s n) ∉ w.net) ∧ (∀ d o, (d, HMsg.stop s o) ∉ w.net) ∧
    ∀ n, (s, n) ∉ w.acks

/-- what the code leaves to chance, see the head of this file. -/
def Sys.Orderly (w : Sys R) (s : Nat) : SysOp R → Prop
  | .coord op =>
    (∀ n, w.coord.shards.get s = some n → op ≠ .nodeUnavailable n ∧ op ≠ .nodeRemoved n) ∧
      (w.coord.shards.get s ≠ none → (w.coord.next op).shards.get s = none → ∀ d n, (d, HMsg.allocated s n) ∉ w.net)
  | .ask _ s' _ => s' = s → w.coord.shards.get s ≠ none ∨ w.Quiet s
  | _ => True

/-- every step of a run is orderly. -/
def Sys.OrderlyRun (f : R → Nat) (s : Nat) : Sys R → List (SysOp R) → Prop
  | _, [] => True
  | w, op :: ops => w.Orderly s op ∧ (w.next f op).OrderlyRun f s ops

theorem Sys.Quiet.counts {w : Sys R} {s : Nat} (h : w.Quiet s) : w.nStop s = 0 ∧ w.nAck s = 0 := by
  refine ⟨?_, ?_⟩
  · unfold Sys.nStop
    rw [List.countP_eq_zero]
    rintro ⟨d, m⟩ hm
    cases m with
    | stop s' o =>
      simp only [isStop, decide_eq_true_eq]
      rintro rfl
      exact h.2.2.1 d o hm
    | _ => simp [isStop]
  · unfold Sys.nAck
    rw [List.countP_eq_zero]
    rintro ⟨s', n⟩ hm
    simp only [decide_eq_true_eq]
    rintro rfl
    exact h.2.2.2 n hm

theorem Sys.Phase.next (f : R → Nat) {s : Nat} {w : Sys R} (h : w.Phase s) (op : SysOp R) (ho : w.Orderly s op) :
    (w.next f op).Phase s := by
  cases op with
  | host d op =>
    simp only [Sys.next]
    split
    · exact h.local f (by assumption)
    · exact h
  | deliver d m =>
    simp only [Sys.next]
    split
    · exact h.deliver f (by assumption)
    · exact h
  | coord op =>
    simp only [Sys.next]
    split
    · rename_i hl
      have hloses : ∀ n, w.coord.shards.get s = some n → op.loses n = false := by
        intro n hn
        obtain ⟨h1, h2⟩ := ho.1 n hn
        cases op <;> simp_all [CoordOp.loses]
      have hi := h.inv.next op
      rcases coordLocal_rel h.inv s op hl hloses with hr | hr
      · have := h.leaves (e := (w.coord.next op).sentSince w.coord.out.length) (as := w.asks) (ak := w.acks) hi hr.1
          hr.sent.2 (fun m hm n e => by
            have := hr.sent.1 m hm
            rw [isAlloc_false_iff] at this
            exact absurd e (this n)) (Nat.le_refl _)
        exact this
      · have hn : w.noAlloc s := by
          rw [noAlloc_iff]
          obtain ⟨n, h1, h2, _⟩ := hr
          exact ho.2 (by rw [h1]; simp) h2
        exact h.takes hi hr hn
    · exact h
  | ack s' n =>
    simp only [Sys.next]
    split
    · rename_i hm
      have hi := h.inv.next (.stopAcked s' n)
      have hle : ((w.acks.erase (s', n)).countP fun p => decide (p.1 = s)) ≤ w.nAck s :=
        (List.erase_sublist).countP_le
      rcases stopAcked_rel h.inv s s' n with hr | ⟨rfl, hr⟩
      · exact h.leaves (e := (w.coord.next (.stopAcked s' n)).sentSince w.coord.out.length) (as := w.asks)
          (ak := w.acks.erase (s', n)) hi hr.1 hr.sent.2 (fun m hm n e => by
            have := hr.sent.1 m hm
            rw [isAlloc_false_iff] at this
            exact absurd e (this n)) hle
      · have hlt : ((w.acks.erase (s', n)).countP fun p => decide (p.1 = s')) + 1 = w.nAck s' := by
          have := (List.perm_cons_erase hm).countP_eq fun p => decide (p.1 = s')
          rw [List.countP_cons_of_pos (by simp)] at this
          exact this.symm
        have hg : w.Gone s' := by
          rcases h.phase with hg | ⟨A, a, hg⟩ | ⟨A, hg⟩
          · exact hg
          · have := hg.acks; omega
          · have := hg.acks; omega
        obtain ⟨n', e1, e2, e3⟩ := hr.sent
        have hc := hg.count
        exact h.gives (e := (w.coord.next (.stopAcked s' n)).sentSince w.coord.out.length) (as := w.asks)
          (ak := w.acks.erase (s', n)) hg hi e1 e3 (fun m hm n'' e => by
            obtain ⟨d, rfl⟩ := e2 m hm
            simp only [HMsg.allocated.injEq, true_and] at e
            exact e.symm) (by omega) (by omega)
    · exact h
  | ask m s' ok =>
    simp only [Sys.next]
    split
    · have hi := h.inv.next (.allocate s' ok)
      have hans := handleAllocate_answer h.inv s' m false ok
      have hnext : (w.coord.next (.allocate s' ok)) = (w.coord.handleAllocate s' false ok).1 := rfl
      have hform : w.ask m s' ok = w.heard (w.coord.next (.allocate s' ok))
          ((w.coord.next (.allocate s' ok)).sentSince w.coord.out.length
            ++ (w.coord.handleAllocate s' false ok).2.notice m) (w.asks.erase (m, s')) w.acks := by
        simp [Sys.ask, Sys.heard]
      rw [hform]
      have hstop : ((w.coord.handleAllocate s' false ok).2.notice m).countP (isStop s) = 0 := by
        rw [List.countP_eq_zero]
        intro x hx
        obtain ⟨n, rfl, _⟩ := hans x hx
        simp [isStop]
      rcases handleAllocate_rel h.inv s s' false ok with hr | ⟨rfl, hr⟩
      · refine h.leaves hi hr.1 (by rw [List.countP_append, hnext, hr.sent.2, hstop]) ?_ (Nat.le_refl _)
        intro x hx n e
        rcases List.mem_append.1 hx with hx | hx
        · have := hr.sent.1 x hx
          rw [isAlloc_false_iff] at this
          exact absurd e (this n)
        · obtain ⟨n', rfl, hn'⟩ := hans x hx
          simp only [HMsg.allocated.injEq] at e
          obtain ⟨rfl, rfl⟩ := e
          rw [← hr.1]; exact hn'
      · have hun : w.coord.shards.get s' = none := by obtain ⟨_, _, h1, _⟩ := hr; exact h1
        have hq : w.Quiet s' := by
          rcases ho rfl with h1 | h1
          · exact absurd hun h1
          · exact h1
        have hg : w.Gone s' := by
          rcases h.phase with hg | ⟨A, a, hg⟩ | ⟨A, hg⟩
          · exact hg
          · exact absurd ((hg.held.live a).2 rfl) (hq.1 A a)
          · rw [hg.as] at hun; simp at hun
        obtain ⟨n, e1, e2, e3⟩ := hr.sent
        refine h.gives hg hi e1 (by rw [List.countP_append, hnext, e3, hstop]) ?_ hq.counts.1 hq.counts.2
        intro x hx n' e
        rcases List.mem_append.1 hx with hx | hx
        · obtain ⟨d, rfl⟩ := e2 x hx
          simp only [HMsg.allocated.injEq, true_and] at e
          exact e.symm
        · obtain ⟨n'', rfl, hn''⟩ := hans x hx
          simp only [HMsg.allocated.injEq, true_and] at e
          subst e
          rw [e1] at hn''
          simpa using hn''.symm
    · exact h

theorem Sys.Phase.run (f : R → Nat) {s : Nat} {w : Sys R} (h : w.Phase s) (ops : List (SysOp R))
    (ho : w.OrderlyRun f s ops) : (w.run f ops).Phase s := by
  induction ops generalizing w with
  | nil => exact h
  | cons op ops ih => exact ih (h.next f op ho.1) ho.2

theorem Sys.Phase.unique {s : Nat} {w : Sys R} (h : w.Phase s) {d a d' a' : Nat} (h1 : w.Runs s d a)
    (h2 : w.Runs s d' a') : d = d' ∧ a = a' := by
  have key : ∀ A b, (∀ x, x ≠ A → (w.host x).Blank s) → (w.host A).Held s b → ∀ x c, w.Runs s x c → x = A ∧ c = b := by
    intro A b hb hh x c hx
    by_cases e : x = A
    · subst e; exact ⟨rfl, (hh.live c).1 hx⟩
    · exact absurd hx ((hb x e).live c)
  have key' : ∀ A b, (∀ x, x ≠ A → (w.host x).Blank s) → (w.host A).Held s b → d = d' ∧ a = a' := by
    intro A b hb hh
    obtain ⟨rfl, rfl⟩ := key A b hb hh _ _ h1
    obtain ⟨rfl, rfl⟩ := key _ _ hb hh _ _ h2
    exact ⟨rfl, rfl⟩
  rcases h.phase with hg | ⟨A, b, hg⟩ | ⟨A, hg⟩
  · exact absurd h1 ((hg.blank d).live a)
  · exact key' A b hg.blank hg.held
  · rcases hg.own with hb | ⟨b, hb, _⟩
    · by_cases e : d = A
      · subst e; exact absurd h1 (hb.live a)
      · exact absurd h1 ((hg.blank d e).live a)
    · exact key' A b hg.blank hb

theorem Sys.Phase.where {s : Nat} {w : Sys R} (h : w.Phase s) {d a n : Nat} (h1 : w.Runs s d a)
    (h2 : w.coord.shards.get s = some n) : d = n := by
  rcases h.phase with hg | ⟨A, b, hg⟩ | ⟨A, hg⟩
  · rw [hg.un] at h2; simp at h2
  · rw [hg.un] at h2; simp at h2
  · rw [hg.as] at h2
    obtain rfl : A = n := by simpa using h2
    by_cases e : d = A
    · exact e
    · exact absurd h1 ((hg.blank d e).live a)

/-- **C51**, first part (partial: see the head of this file). -/
theorem C51_at_most_one_instance_partial (f : R → Nat) (self : Nat) (nodes : List (Nat × Bool)) (journal : List Nat)
    (ops : List (SysOp R)) (s : Nat) (h : (Sys.start self nodes journal).OrderlyRun f s ops)
    {d a d' a' : Nat} (h1 : ((Sys.start self nodes journal).run f ops).Runs s d a)
    (h2 : ((Sys.start self nodes journal).run f ops).Runs s d' a') : d = d' ∧ a = a' :=
  ((Sys.phase_start s self nodes journal).run f ops h).unique h1 h2

/-- **C51**, second part (partial: see the head of this file): once the coordinator has assigned the shard
to a new node, the old one has stopped. -/
theorem C51_runs_where_assigned_partial (f : R → Nat) (self : Nat) (nodes : List (Nat × Bool)) (journal : List Nat)
    (ops : List (SysOp R)) (s : Nat) (h : (Sys.start self nodes journal).OrderlyRun f s ops)
    {d a n : Nat} (h1 : ((Sys.start self nodes journal).run f ops).Runs s d a)
    (h2 : ((Sys.start self nodes journal).run f ops).coord.shards.get s = some n) : d = n :=
  ((Sys.phase_start s self nodes journal).run f ops h).where h1 h2

/-! ### concrete runs -/

/-- two shards are started on node 1, node 2 joins, and a rebalance takes shard 0 from node 1. -/
def moveBegins : List (SysOp Nat) :=
  [.host 1 (.request 0), .ask 1 0 true, .deliver 1 (.allocated 0 1), .deliver 1 (.allocated 0 1), .host 1 (.ready 0 0),
   .host 1 (.request 7), .ask 1 7 true, .deliver 1 (.allocated 7 1), .deliver 1 (.allocated 7 1), .host 1 (.ready 7 1),
   .coord (.nodeAdded 2), .coord .rebalanceAll]

/-- node 1 stops shard 0, answers, and node 2 starts it. -/
def moveEnds : List (SysOp Nat) :=
  [.deliver 1 (.reallocating 0), .deliver 2 (.reallocating 0), .deliver 1 (.stop 0 1),
   .host 1 (.stopDone { s := 0, a := 0, req := some { origin := 1, rid := 0 } }), .ack 0 1,
   .deliver 2 (.allocated 0 2)]

/-- in an orderly run the shard moves: it runs on node 1 before, on node 2 afterwards. -/
example :
    ((Sys.start 1 [] []).run id moveBegins).Runs 0 1 0 ∧
      ((Sys.start 1 [] []).run id (moveBegins ++ moveEnds)).Runs 0 2 0 ∧
      ((Sys.start 1 [] []).run id (moveBegins ++ moveEnds)).coord.shards.get 0 = some 2 ∧
      (((Sys.start 1 [] []).run id (moveBegins ++ moveEnds)).host 1).live = [(7, 1)] := by
  unfold Sys.Runs
  decide

/-- that run is orderly. -/
theorem move_orderly : (Sys.start 1 [] [] : Sys Nat).OrderlyRun id 0 (moveBegins ++ moveEnds) := by
  have hask : ∀ d a, (0, a) ∉ (((Sys.start 1 [] [] : Sys Nat).next id (.host 1 (.request 0))).host d).live := by
    intro d a
    show (0, a) ∉ (if d = 1 then _ else _ : Host Nat).live
    split
    · exact List.not_mem_nil
    · exact List.not_mem_nil
  have hnet : ((Sys.start 1 [] [] : Sys Nat).run id (moveBegins.take 11)).net = [] := by decide
  refine ⟨trivial, fun _ => .inr ⟨hask, fun _ _ => List.not_mem_nil, fun _ _ => List.not_mem_nil,
      fun _ => List.not_mem_nil⟩, trivial, trivial, trivial, trivial, fun h => absurd h (by decide), trivial, trivial,
    trivial, ⟨fun n _ => ⟨by simp, by simp⟩, fun _ h => absurd h (by decide)⟩, ⟨fun n _ => ⟨by simp, by simp⟩, ?_⟩,
    trivial, trivial, trivial, trivial, trivial, trivial, trivial⟩
  intro _ _ d n
  show (d, HMsg.allocated 0 n) ∉ ((Sys.start 1 [] [] : Sys Nat).run id (moveBegins.take 11)).net
  rw [hnet]; exact List.not_mem_nil

/-- **C51** does not hold of the code: a host that has a request for the shard during the move asks the
coordinator, which places the shard at once, while the old node has not even received the request to
stop. -/
theorem C51_request_during_move_refuted :
    ∃ ops : List (SysOp Nat), (∀ op ∈ ops, op ≠ .coord (.nodeUnavailable 1) ∧ op ≠ .coord (.nodeRemoved 1)) ∧
      ((Sys.start 1 [] []).run id ops).Runs 0 1 0 ∧ ((Sys.start 1 [] []).run id ops).Runs 0 2 0 := by
  refine ⟨moveBegins ++ [.deliver 2 (.reallocating 0), .host 2 (.request 0), .ask 2 0 true,
    .deliver 2 (.allocated 0 2)], ?_, ?_⟩
  · simp [moveBegins]
  · unfold Sys.Runs; decide

/-- **C51** does not hold of the code: the node that asked for the shard tells itself where it is, a
second time; if that message is handled after the shard has moved away, the node starts the shard
again. -/
theorem C51_late_announcement_refuted :
    ∃ ops : List (SysOp Nat), (∀ op ∈ ops, op ≠ .coord (.nodeUnavailable 1) ∧ op ≠ .coord (.nodeRemoved 1)) ∧
      ((Sys.start 1 [] []).run id ops).Runs 0 1 2 ∧ ((Sys.start 1 [] []).run id ops).Runs 0 2 0 := by
  refine ⟨[.host 1 (.request 0), .ask 1 0 true, .deliver 1 (.allocated 0 1), .host 1 (.ready 0 0),
   .host 1 (.request 7), .ask 1 7 true, .deliver 1 (.allocated 7 1), .deliver 1 (.allocated 7 1), .host 1 (.ready 7 1),
   .coord (.nodeAdded 2), .coord .rebalanceAll] ++ moveEnds ++ [.deliver 1 (.allocated 0 2), .deliver 1 (.allocated 0 1)],
   ?_, ?_⟩
  · simp [moveEnds]
  · unfold Sys.Runs; decide

end Verif.Sharding
