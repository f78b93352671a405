import Verif.Actor.PoolLemmas

/-!
# C103: a task given to a worker pool is done once and its caller gets the result

`/repo/coerce/src/actor/worker.rs` 13-142.
-/

namespace Verif.Actor.Pool

variable {R : Type}

/-- In every history — callers, the pool's actor, the spawned sends and the workers interleaved in any way, workers and the
pool stopping at any time, handlers panicking — tasks given once each are begun by at most one worker once, and are answered
at most once. -/
theorem C103_once (res : Nat → Nat → R) (n : Nat) (ops : List Op) (hg : (given ops).Nodup) :
    ((run res (init n) ops).outs.map Prod.fst).Nodup ∧ ((run res (init n) ops).done.map Prod.snd).Nodup ∧
    ∀ p ∈ (run res (init n) ops).done, p.2 ∈ given ops ∧ p.1 < n := by
  have hp := tasks_run res n ops
  have ho : ((run res (init n) ops).outs.map Prod.fst).Nodup := by
    have hn := (hp.nodup_iff).2 hg
    unfold tasks at hn
    exact (List.nodup_append.1 (List.nodup_append.1 (List.nodup_append.1 hn).2.1).2.1).2.1
  refine ⟨ho, ?_, ?_⟩
  · rw [List.nodup_iff_count]
    intro a
    exact Nat.le_trans (done_count res n ops a) (List.nodup_iff_count.1 ho a)
  · intro p hpd
    obtain ⟨h1, h2⟩ := (Inv.run res n ops).done p hpd
    refine ⟨?_, h1⟩
    apply hp.mem_iff.1
    unfold tasks
    have : p.2 ∈ (run res (init n) ops).outs.map Prod.fst := by
      rcases h2 with h2 | h2 <;> exact List.mem_map.2 ⟨_, h2, rfl⟩
    simp only [List.mem_append]
    exact .inr (.inr (.inr this))

/-- An answer is the result of the worker that did the task; there is just one. -/
theorem C103_true (res : Nat → Nat → R) (n : Nat) (ops : List Op) (hg : (given ops).Nodup) (t : Nat) (r : R)
    (h : (t, .ok r) ∈ (run res (init n) ops).outs) :
    ∃ w, (w, t) ∈ (run res (init n) ops).done ∧ r = res w t ∧ ∀ v, (v, t) ∈ (run res (init n) ops).done → v = w := by
  obtain ⟨w, h1, h2⟩ := (Inv.run res n ops).good t r h
  refine ⟨w, h1, h2, fun v hv => ?_⟩
  have hd := (C103_once res n ops hg).2.1
  have key : ∀ l : List (Nat × Nat), (l.map Prod.snd).Nodup → (w, t) ∈ l → (v, t) ∈ l → v = w := by
    intro l
    induction l with
    | nil => intro _ h; cases h
    | cons p l ih =>
      intro hn h1 h2
      rw [List.map_cons, List.nodup_cons] at hn
      rcases List.mem_cons.1 h1 with e1 | m1 <;> rcases List.mem_cons.1 h2 with e2 | m2
      · rw [← e2] at e1; exact (Prod.mk.inj e1).1.symm
      · subst e1; exact absurd (List.mem_map.2 ⟨_, m2, rfl⟩) hn.1
      · subst e2; exact absurd (List.mem_map.2 ⟨_, m1, rfl⟩) hn.1
      · exact ih hn.2 m1 m2
  exact key _ hd h1 hv

/-- Unless its handler panics, a worker that begins a task answers it: a caller that is told of a closed channel can be sure
that no worker without a panic has touched the task. -/
theorem C103_untouched (res : Nat → Nat → R) (n : Nat) (ops : List Op) (hg : (given ops).Nodup) (t : Nat)
    (h : (t, .closed) ∈ (run res (init n) ops).outs ∨ (t, .invalid) ∈ (run res (init n) ops).outs) (w : Nat)
    (hw : Op.panic w ∉ ops) : (w, t) ∉ (run res (init n) ops).done := by
  intro hd
  have hk := done_no_panic res n w ops hw t hd
  have ho := (C103_once res n ops hg).1
  have key : ∀ (l : List (Nat × Out R)) (a b : Out R), (l.map Prod.fst).Nodup → (t, a) ∈ l → (t, b) ∈ l → a = b := by
    intro l a b
    induction l with
    | nil => intro _ h; cases h
    | cons p l ih =>
      intro hn h1 h2
      rw [List.map_cons, List.nodup_cons] at hn
      rcases List.mem_cons.1 h1 with e1 | m1 <;> rcases List.mem_cons.1 h2 with e2 | m2
      · rw [← e2] at e1; exact (Prod.mk.inj e1).2
      · subst e1; exact absurd (List.mem_map.2 ⟨_, m2, rfl⟩) hn.1
      · subst e2; exact absurd (List.mem_map.2 ⟨_, m1, rfl⟩) hn.1
      · exact ih hn.2 m1 m2
  rcases h with h | h
  · have := key _ _ _ ho hk h; cases this
  · have := key _ _ _ ho hk h; cases this

/-- When nothing is left to do, every task given has been answered, each once. -/
theorem C103_answered (res : Nat → Nat → R) (n : Nat) (ops : List Op) (h : Quiet res (run res (init n) ops)) :
    ((run res (init n) ops).outs.map Prod.fst).Perm (given ops) := by
  obtain ⟨h1, h2, h3⟩ := quiet_empty h
  have := tasks_run res n ops
  unfold tasks at this
  rw [h1, h2, h3] at this
  simpa using this

/-- That state is always reached: whatever has happened, every step the pool takes by itself that does anything brings it
nearer, so there cannot be more of them than three for each task in the pool. -/
theorem C103_ends (res : Nat → Nat → R) (σ : St R) :
    (∃ os : List Op, (∀ o ∈ os, o.Own) ∧ Quiet res (run res σ os)) ∧
    ∀ o : Op, o.Own → step res σ o = σ ∨
      3 * (step res σ o).inbox.length + 2 * (step res σ o).fly.length + (step res σ o).queued.length
        < 3 * σ.inbox.length + 2 * σ.fly.length + σ.queued.length :=
  ⟨comes_to_rest res σ, fun o h => own_step res σ o h⟩

/-- The `j`-th task given, if any worker gets it, goes to worker `j mod n`, in every interleaving. -/
theorem C103_assigned (res : Nat → Nat → R) {n : Nat} (hn : 0 < n) (ops : List Op) (w t : Nat)
    (h : (w, t) ∈ (run res (init n) ops).done) : ∃ j, Nth ops j t ∧ w = j % n := by
  obtain ⟨k, hk⟩ := Turn.run res hn ops
  obtain ⟨j, -, h1, h2⟩ := hk.who (w, t) (.inr (.inr h))
  exact ⟨j, h1, h2⟩

/-- As long as nothing stops or panics, every answer is a result: with a worker, no task is refused. -/
theorem C103_served (res : Nat → Nat → R) {n : Nat} (hn : 0 < n) (ops : List Op) (hc : ∀ o ∈ ops, o.Calm) :
    ∀ p ∈ (run res (init n) ops).outs, ∃ r, p.2 = .ok r := by
  obtain ⟨k, hk⟩ := Turn.run res hn ops
  have hp : ∀ w, Op.panic w ∉ ops := fun w hw => hc _ hw
  have hs : Op.stopPool ∉ ops := fun hw => hc _ hw
  rintro ⟨t, o⟩ h
  cases o with
  | ok r => exact ⟨r, rfl⟩
  | closed =>
    obtain ⟨j, -, h2⟩ := hk.closed hp hs t h
    rw [alive_calm res n ops hc] at h2
    exact absurd (Nat.mod_lt j hn) (by simpa using h2)
  | invalid => exact absurd h ((hk.noinv hs).2 t)

/-- If workers stop, but nothing panics and the pool goes on, only tasks of stopped workers are refused. -/
theorem C103_only_dead (res : Nat → Nat → R) {n : Nat} (hn : 0 < n) (ops : List Op) (hp : ∀ w, Op.panic w ∉ ops)
    (hs : Op.stopPool ∉ ops) :
    ∀ p ∈ (run res (init n) ops).outs, (∃ r, p.2 = .ok r) ∨
      ∃ j, Nth ops j p.1 ∧ (run res (init n) ops).alive (j % n) = false := by
  obtain ⟨k, hk⟩ := Turn.run res hn ops
  rintro ⟨t, o⟩ h
  cases o with
  | ok r => exact .inl ⟨r, rfl⟩
  | closed => exact .inr (hk.closed hp hs t h)
  | invalid => exact absurd h ((hk.noinv hs).2 t)

/-- What a caller that waits for each answer gets from a pool some of whose workers (`ws`) have stopped: task `j` goes to
worker `j mod n`, in the order given, also when that worker is one of the stopped ones. -/
theorem C103_waiting_partial (res : Nat → Nat → R) {n : Nat} (hn : 0 < n) (ws ts : List Nat) :
    (run res (init n) (ws.map .stopWorker ++ turns n ts)).outs
      = ts.zipIdx.map fun p => (p.1, if p.2 % n ∈ ws then .closed else .ok (res (p.2 % n) p.1)) := by
  have e : run res (init n) (ws.map .stopWorker ++ turns n ts)
      = run res (run res (init n) (ws.map .stopWorker)) (turns n ts) := by simp [run]
  obtain ⟨d, h⟩ := turns_run res hn (fun w => decide (w < n ∧ w ∉ ws)) ts []
  rw [e, stops_run, h]
  simp only [List.nil_append]
  apply List.map_congr_left
  intro p _
  by_cases hm : p.2 % n ∈ ws <;> simp [answer, Nat.mod_lt _ hn, hm]

/-- A pool with idle workers refuses tasks: once a worker has stopped it keeps its place, and every `n`-th task given to the
pool, for ever, is answered with a closed channel. -/
theorem C103_waiting_refuted (res : Nat → Nat → R) {n : Nat} (w : Nat) (hw : w < n) (ts : List Nat) (m t : Nat)
    (ht : ts[w + m * n]? = some t) :
    (run res (init n) (.stopWorker w :: turns n ts)).outs[w + m * n]? = some (t, .closed) := by
  have h := C103_waiting_partial res (show 0 < n by omega) [w] ts
  simp only [List.map_cons, List.map_nil, List.singleton_append] at h
  rw [h, List.getElem?_map, List.getElem?_zipIdx, ht]
  simp [Nat.mod_eq_of_lt hw]

/-- Two tasks given one after the other, the second without waiting for the first, can be done in the wrong order, even by a
single worker: the pool's actor spawns a send for each. -/
theorem C103_order_refuted (res : Nat → Nat → R) :
    (run res (init 1) [.dispatch 1, .dispatch 2, .handle, .handle, .send 1, .send 0, .work 0, .work 0]).done
      = [(0, 2), (0, 1)] := by
  simp [run, step, init, dispatch, handle, workerHandle, List.range, List.range.loop, send, work, box]

/-- A task can be begun and its caller told of a closed channel: the handler panicked. -/
theorem C103_panic_refuted (res : Nat → Nat → R) :
    (run res (init 1) [.dispatch 1, .handle, .send 0, .panic 0]).outs = [(1, .closed)] ∧
    (run res (init 1) [.dispatch 1, .handle, .send 0, .panic 0]).done = [(0, 1)] := by
  simp [run, step, init, dispatch, handle, workerHandle, List.range, List.range.loop, send, panic, box, tell]

/-- `Worker::new` with 0 workers succeeds; such a pool refuses everything. -/
theorem C103_empty (res : Nat → Nat → R) (ops : List Op) : ∀ p ∈ (run res (init 0) ops).outs, ∀ r, p.2 ≠ .ok r := by
  rintro ⟨t, o⟩ hp r rfl
  obtain ⟨w, h1, -⟩ := (Inv.run res 0 ops).good t r hp
  exact absurd ((Inv.run res 0 ops).done _ h1).1 (by simp)

/-- The pool's actor can stop; its workers run on, and what was already passed on to them is done and answered. -/
theorem C103_stop_pool (res : Nat → Nat → R) (σ : St R) :
    (step res σ .stopPool).alive = σ.alive ∧ (step res σ .stopPool).fly = σ.fly ∧
    (step res σ .stopPool).queued = σ.queued ∧
    (∀ t ∈ σ.inbox, (t, .closed) ∈ (step res σ .stopPool).outs) ∧
    ∀ t, (step res (step res σ .stopPool) (.dispatch t)).outs = (step res σ .stopPool).outs ++ [(t, .invalid)] := by
  refine ⟨rfl, rfl, rfl, fun t ht => List.mem_append_right _ (mem_tell.2 ⟨ht, rfl⟩), fun t => rfl⟩

/-- `Worker::new` gives a pool exactly if all workers and the pool's actor start. The pool then has all the workers, in order. -/
theorem C103_new_partial (starts : Nat → Bool) (sup : Bool) (count : Nat) :
    ((∀ i, i < count → starts i = true) → sup = true → newPool starts sup count = (List.range count, .ok (List.range count))) ∧
    (¬ ((∀ i, i < count → starts i = true) ∧ sup = true) → (newPool starts sup count).2 = .error .actorStartFailed) := by
  unfold newPool
  rcases newLoop_eq starts count 0 [] with ⟨h1, h2⟩ | ⟨f, h1, h2, h3, h4⟩
  · rw [h2]
    simp only [Nat.zero_add] at h1
    constructor
    · intro _ hs; simp [hs, List.range_eq_range']
    · intro hn
      have : sup = false := by cases sup with | true => exact absurd ⟨h1, rfl⟩ hn | false => rfl
      simp [this]
  · rw [h4]
    simp only [Nat.zero_add] at h2
    constructor
    · intro h; rw [h f h1] at h2; cases h2
    · intro _; rfl

/-- If it fails at worker `f`, or at the pool's actor, the workers started before go on running: nothing stops them, and
nobody has a reference to them any more. -/
theorem C103_new_refuted (starts : Nat → Bool) (sup : Bool) (count f : Nat) (hf : f < count) (hs : starts f = false)
    (hb : ∀ i, i < f → starts i = true) :
    newPool starts sup count = (List.range f, .error .actorStartFailed) := by
  unfold newPool
  rcases newLoop_eq starts count 0 [] with ⟨h1, h2⟩ | ⟨g, h1, h2, h3, h4⟩
  · have := h1 f hf; simp [hs] at this
  · simp only [Nat.zero_add] at h2 h3
    have : g = f := by
      rcases Nat.lt_trichotomy g f with h | h | h
      · rw [hb g h] at h2; cases h2
      · exact h
      · rw [h3 f h] at hs; cases hs
    subst this
    rw [h4]
    simp [List.range_eq_range']

/-! ### Examples -/

section PoolExample

def exRes (w t : Nat) : Nat := 100 * w + t

/-- four tasks of two workers, interleaved. -/
def exOps : List Op :=
  [.dispatch 1, .dispatch 2, .handle, .dispatch 3, .handle, .send 1, .work 1, .handle, .send 1, .work 0, .send 0, .work 0]

example : (given exOps).Nodup := by decide
example : ∀ o ∈ exOps, o.Calm := by simp [exOps, Op.Calm]
example : (run exRes (init 2) exOps).outs = [(2, .ok 102), (3, .ok 3), (1, .ok 1)] := by decide
example : (run exRes (init 2) exOps).done = [(1, 2), (0, 3), (0, 1)] := by decide
example : Quiet exRes (run exRes (init 2) exOps) := ⟨rfl, fun _ => rfl, fun _ => rfl⟩
example : Op.stopPool ∉ Op.stopWorker 1 :: exOps := by decide
example : (run exRes (init 2) (.stopWorker 1 :: turns 2 [7, 8, 9, 10])).outs = [(7, .ok 7), (8, .closed), (9, .ok 9), (10, .closed)] := by decide
example : newPool (fun i => decide (i ≠ 2)) true 4 = ([0, 1], .error .actorStartFailed) := rfl

end PoolExample

end Verif.Actor.Pool
