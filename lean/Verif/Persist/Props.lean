import Verif.Persist.Retry

/-! Property theorems C01–C11 (persistence). -/

namespace Verif.Persist

open Verif.Proto

/-- an empty in-memory storage with nobody started yet. -/
def mem0 : Sys MemStore := Sys.init fun _ => none
/-- an empty Redis. -/
def redis0 : Sys RedisStore := Sys.init fun _ => []

/-- handlers for everything. -/
def knowAll : Known := ⟨fun _ => true, fun _ => true⟩

def pa : Payload := ⟨"T", [97]⟩
def pb : Payload := ⟨"T", [98]⟩
def pc : Payload := ⟨"T", [99]⟩

theorem filter_tt {α} (l : List α) : l.filter (fun _ => true) = l := by simp

/-! ### exact meaning of recovery (in-memory) -/

/-- For every history of every set of actors without lost acknowledgements, what `pid` recovers is what
the small machine `MemView` says about its own operations. -/
theorem mem_recovery_exact (ops : List (String × Op)) (pid : String)
    (ho : ∀ op ∈ own pid ops, op.Honest) (K : Known) :
    (mem0.run memStorage ops).recovered memStorage K pid
      = ((MemView.empty.run (own pid ops)).view).seen K := by
  unfold mem0
  rw [memIsolated.recovered_own]
  exact ((MemInv.init pid).run1 (PidOk.init _) _ ho).recovered K

theorem MemView.run_no_snapshot (m : MemView) (hm : m.view.snap = none) (ha : m.armed = false)
    (ops : List Op) (hs : ∀ op ∈ ops, op.isSnapshot = false) :
    (m.run ops).view = ⟨none, m.view.msgs ++ ops.flatMap Op.acked⟩ := by
  induction ops generalizing m with
  | nil => obtain ⟨⟨a, b⟩, c⟩ := m; simp only at hm; subst hm; simp [MemView.run]
  | cons op ops ih =>
    have h1 := hs op (by simp)
    have h2 : ∀ o ∈ ops, o.isSnapshot = false := fun o h => hs o (by simp [h])
    have key : (m.step op).view.snap = none ∧ (m.step op).armed = false ∧
        (m.step op).view.msgs = m.view.msgs ++ op.acked := by
      cases op with
      | persist p o => cases o <;> simp [MemView.step, ha, View.step, hm, Op.acked]
      | batch ps o =>
        cases o with
        | ok => by_cases hp : ps = [] <;> simp [MemView.step, hp, View.step, hm, ha, Op.acked]
        | rejected => simp [MemView.step, hm, ha, Op.acked]
        | lostAck => simp [MemView.step, hm, ha, Op.acked]
      | snapshot p o => simp [Op.isSnapshot] at h1
      | trim o => simp [MemView.step, hm, ha, Op.acked]
      | restart K => simp [MemView.step, hm, Op.acked]
    have := ih (m.step op) key.1 key.2.1 h2
    simp only [MemView.run, List.foldl_cons] at this ⊢
    rw [this, key.2.2]
    simp

/-! ### C01 -/

/-- C01: an actor that never took a snapshot recovers exactly the acknowledged messages, in order. -/
theorem C01_replay_without_snapshots (ops : List (String × Op)) (pid : String)
    (ho : ∀ op ∈ own pid ops, op.Honest) (hs : ∀ op ∈ own pid ops, op.isSnapshot = false)
    (K : Known) (hK : ∀ p ∈ (own pid ops).flatMap Op.acked, K.message p.ptype = true) :
    (mem0.run memStorage ops).recovered memStorage K pid
      = ⟨none, if (own pid ops).flatMap Op.acked = [] then none
          else some ((own pid ops).flatMap Op.acked)⟩ := by
  rw [mem_recovery_exact ops pid ho K, MemView.run_no_snapshot _ rfl rfl _ hs]
  have hf := List.filter_eq_self.2 hK
  simp [View.seen, MemView.empty, View.empty, hf]

/-- two actors, batches, failures and restarts, in the scope of C01. -/
example :
    let ops : List (String × Op) := [("x", .persist pa .ok), ("y", .snapshot pc .ok), ("x", .persist pb .rejected),
      ("x", .restart knowAll), ("x", .batch [pb, pb] .ok), ("x", .restart knowAll), ("x", .persist pc .ok)]
    (∀ op ∈ own "x" ops, op.Honest) ∧ (∀ op ∈ own "x" ops, op.isSnapshot = false) ∧
    (own "x" ops).flatMap Op.acked = [pa, pb, pb, pc] := by
  refine ⟨?_, ?_, ?_⟩ <;> simp [own, Op.Honest, Op.isSnapshot, Op.acked]

/-- the stored-but-unacknowledged messages too, when acknowledgements get lost: recovery without
snapshots is exactly what the storage kept. -/
theorem C01_replay_any_outcome (ops : List Op) (pid : String) (hs : ∀ op ∈ ops, op.isSnapshot = false) (K : Known) :
    (run1 memStorage mem0 pid ops).recovered memStorage K pid = View.seen K ⟨none, ops.flatMap Op.kept⟩ := by
  have key : ∀ (ops : List Op) (s : Sys MemStore), PidOk s → (∀ op ∈ ops, op.isSnapshot = false) →
      snapsOf s.store pid = [] → (s.journals pid).lastSnap = none →
      snapsOf (run1 memStorage s pid ops).store pid = [] ∧
      (msgsOf (run1 memStorage s pid ops).store pid).map Entry.payload
        = (msgsOf s.store pid).map Entry.payload ++ ops.flatMap Op.kept := by
    intro ops
    induction ops with
    | nil => intro s hp hs h1 h2; simp [run1, h1]
    | cons op ops ih =>
      intro s hp hs h1 h2
      have hpid := hp pid
      have hop := hs op (by simp)
      have : snapsOf (s.step memStorage pid op).store pid = [] ∧
          ((s.step memStorage pid op).journals pid).lastSnap = none ∧
          (msgsOf (s.step memStorage pid op).store pid).map Entry.payload
            = (msgsOf s.store pid).map Entry.payload ++ op.kept := by
        cases op with
        | snapshot p o => simp [Op.isSnapshot] at hop
        | persist p o =>
          cases o <;> simp [Sys.step, Sys.setJ, persistMessage, WriteOutcome.acked, applyWrite,
            WriteOutcome.stored, memStorage, hpid, Op.kept, h1, h2, snapsOf_writeMessage,
            msgsOf_writeMessage, Entry.payload]
        | batch ps o =>
          by_cases hps : ps = []
          · cases o <;> simp [Sys.step, Sys.setJ, persistBatch, hps, Op.kept, h1, h2]
          · cases o <;> simp [Sys.step, Sys.setJ, persistBatch, journalPersistBatch, hps,
              WriteOutcome.acked, applyWrite, WriteOutcome.stored, memStorage, hpid, Op.kept, h1, h2,
              snapsOf_writeBatch, msgsOf_writeBatch, numberBatch_payload]
        | trim o => simp [Sys.step, clearOldMessages, h2, h1, Op.kept]
        | restart K =>
          have hl := loadJournal_mem K s.store pid
          simp only [h1, List.getLast?_nil, Option.map_none] at hl
          simp [Sys.step, Sys.setJ, hl, h1, Op.kept]
      have h3 := ih (s.step memStorage pid op) (hp.step pid op) (fun o h => hs o (by simp [h])) this.1 this.2.1
      refine ⟨h3.1, ?_⟩
      have h4 := h3.2
      rw [this.2.2] at h4
      simpa [run1] using h4
  have h := key ops mem0 (PidOk.init _) hs rfl rfl
  have hl := loadJournal_mem K (run1 memStorage mem0 pid ops).store pid
  simp only [h.1, List.getLast?_nil, Option.map_none, Option.getD_none, memRead, if_true] at hl
  unfold Sys.recovered
  rw [hl, h.2]
  rfl

/-! ### C02 -/

/-- C02 as stated (for histories without lost acknowledgements) is false: the first single message after
a snapshot is not recovered. -/
theorem C02_refuted : ¬ ∀ (ops : List Op) (pid : String), (∀ op ∈ ops, op.Honest) →
    (run1 memStorage mem0 pid ops).recovered memStorage knowAll pid = (View.empty.run ops).seen knowAll := by
  intro h
  have := h [.snapshot pa .ok, .persist pb .ok] "x" (by simp [Op.Honest])
  revert this
  decide

/-- … and it stays lost whatever follows; while messages from before a snapshot come back when an
acknowledgement of a batch was lost. -/
theorem C02_refuted_lost_ack : ∃ ops : List Op, ∃ pid,
    (run1 memStorage mem0 pid ops).recovered memStorage knowAll pid = ⟨some pc, some [pb]⟩ ∧
    (View.empty.run ops).snap = some pc ∧ (View.empty.run ops).msgs = [] :=
  ⟨[.batch [pa, pb] .lostAck, .snapshot pc .ok], "x", by decide, rfl, rfl⟩

theorem MemView.run_batchAfter (m : MemView) (v : View) (flag : Bool) (ops : List Op) (hv : m.view = v)
    (h1 : m.armed = true → flag = true) (h2 : flag = false → v.snap = none ∨ v.msgs ≠ [])
    (hb : BatchAfterSnapshot flag ops = true) : (m.run ops).view = v.run ops := by
  induction ops generalizing m v flag with
  | nil => exact hv
  | cons op ops ih =>
    simp only [MemView.run, View.run, List.foldl_cons] at ih ⊢
    cases op with
    | persist p o =>
      cases o with
      | ok =>
        simp only [BatchAfterSnapshot, Bool.and_eq_true, Bool.not_eq_eq_eq_not, Bool.not_true] at hb
        have ha : m.armed = false := by
          cases hma : m.armed with
          | false => rfl
          | true => have := h1 hma; simp [hb.1] at this
        refine ih _ _ flag ?_ ?_ ?_ hb.2
        · simp [MemView.step, ha, hv]
        · simp [MemView.step, ha]
        · intro hf; right; simp [View.step]
      | rejected => exact ih _ _ flag hv h1 h2 hb
      | lostAck => exact ih _ _ flag hv h1 h2 hb
    | batch ps o =>
      cases o with
      | ok =>
        simp only [BatchAfterSnapshot] at hb
        by_cases hp : ps = []
        · subst hp
          refine ih _ _ flag ?_ ?_ ?_ (by simpa using hb)
          · simp [MemView.step, hv, View.step]
          · simpa [MemView.step] using h1
          · simpa [View.step] using h2
        · refine ih _ _ (flag && ps.isEmpty) ?_ ?_ ?_ hb
          · simp [MemView.step, hp, hv]
          · simp [MemView.step, hp]
          · intro _; right; simp [View.step, hp]
      | rejected => exact ih _ _ flag hv h1 h2 hb
      | lostAck => exact ih _ _ flag hv h1 h2 hb
    | snapshot p o =>
      cases o with
      | ok => exact ih _ _ true (by simp [MemView.step, View.step]) (by simp) (by simp) hb
      | rejected => exact ih _ _ flag hv h1 h2 hb
      | lostAck => exact ih _ _ flag hv h1 h2 hb
    | trim o => exact ih _ _ flag hv h1 h2 hb
    | restart K =>
      refine ih _ _ flag hv ?_ h2 hb
      intro ha
      cases flag with
      | true => rfl
      | false =>
        simp only [MemView.step, hv, Bool.and_eq_true, List.isEmpty_iff] at ha
        rcases h2 rfl with h | h
        · simp [h] at ha
        · exact absurd ha.2 h

/-- C02, proved part: if after every snapshot the first message is written by `persist_batch`, recovery
is exactly the latest snapshot and the messages after it. Missing: single messages directly after a
snapshot (they are lost, `C02_refuted`) and lost acknowledgements (`C02_refuted_lost_ack`). -/
theorem C02_snapshot_recovery_partial (ops : List (String × Op)) (pid : String)
    (ho : ∀ op ∈ own pid ops, op.Honest) (hb : BatchAfterSnapshot false (own pid ops) = true) (K : Known) :
    (mem0.run memStorage ops).recovered memStorage K pid = (View.empty.run (own pid ops)).seen K := by
  rw [mem_recovery_exact ops pid ho K]
  rw [MemView.run_batchAfter _ .empty false _ rfl (by simp [MemView.empty]) (by simp [View.empty]) hb]

example : BatchAfterSnapshot false [.persist pa .ok, .snapshot pb .ok, .restart knowAll, .batch [pc, pa] .ok,
    .persist pb .ok, .restart knowAll, .persist pb .ok, .snapshot pa .ok, .batch [pb] .ok] = true := by rfl

/-- In every history without lost acknowledgements the recovered snapshot is the right one and nothing
is invented, repeated or reordered: the recovered messages are the expected ones with some left out. -/
theorem C02_sound_partial (ops : List Op) :
    (MemView.empty.run ops).view.snap = (View.empty.run ops).snap ∧
    (MemView.empty.run ops).view.msgs.Sublist (View.empty.run ops).msgs := by
  have : ∀ (m : MemView) (v : View), m.view.snap = v.snap → m.view.msgs.Sublist v.msgs →
      (m.run ops).view.snap = (v.run ops).snap ∧ (m.run ops).view.msgs.Sublist (v.run ops).msgs := by
    induction ops with
    | nil => intro m v h1 h2; exact ⟨h1, h2⟩
    | cons op ops ih =>
      intro m v h1 h2
      refine ih (m.step op) (v.step op) ?_ ?_
      · cases op with
        | persist p o =>
          cases o with
          | ok => simp only [MemView.step, View.step]; split <;> simp [h1]
          | rejected => exact h1
          | lostAck => exact h1
        | batch p o =>
          cases o with
          | ok => simp only [MemView.step, View.step]; split <;> simp [h1]
          | rejected => exact h1
          | lostAck => exact h1
        | snapshot p o => cases o <;> simp [MemView.step, View.step, h1]
        | trim o => simpa [MemView.step, View.step] using h1
        | restart K => simpa [MemView.step, View.step] using h1
      · cases op with
        | persist p o =>
          cases o with
          | ok =>
            simp only [MemView.step, View.step]
            split
            · exact h2.trans (List.sublist_append_left _ _)
            · exact h2.append (List.Sublist.refl _)
          | rejected => exact h2
          | lostAck => exact h2
        | batch ps o =>
          cases o with
          | ok =>
            simp only [MemView.step, View.step]
            split
            · exact h2.trans (List.sublist_append_left _ _)
            · exact h2.append (List.Sublist.refl _)
          | rejected => exact h2
          | lostAck => exact h2
        | snapshot p o =>
          cases o with
          | ok => exact List.Sublist.refl _
          | rejected => exact h2
          | lostAck => exact h2
        | trim o => exact h2
        | restart K => exact h2
  exact this .empty .empty rfl (List.Sublist.refl _)

/-! ### C03 -/

/-- C03: an acknowledged single message was written exactly once, whatever the policy and however many
attempts were rejected before; any storage. -/
theorem C03_ok_stored_once {σ : Type} (S : Storage σ) (policy : PersistPolicy) (st : σ) (j : Journal)
    (p : Payload) (os : List WriteOutcome) (hl : ∀ o ∈ os, o ≠ .lostAck)
    (h : (persistCall S policy st j p os).res = .ok) :
    (persistCall S policy st j p os).state
      = (S.writeMessage st j.pid ⟨j.last, p.ptype, p.bytes⟩, { j with last := j.last + 1 }) := by
  have := loop_ok_once (quiet_msg S p) (reports_msg S p) policy (st, j) os hl h
  exact this

/-- … seen in the in-memory journal: one more message, at the end. -/
theorem C03_ok_stored_once_mem (policy : PersistPolicy) (st : MemStore) (j : Journal)
    (p : Payload) (os : List WriteOutcome) (hl : ∀ o ∈ os, o ≠ .lostAck)
    (h : (persistCall memStorage policy st j p os).res = .ok) :
    (msgsOf (persistCall memStorage policy st j p os).state.1 j.pid).map Entry.payload
      = (msgsOf st j.pid).map Entry.payload ++ [p] := by
  rw [C03_ok_stored_once memStorage policy st j p os hl h]
  simp [memStorage, msgsOf_writeMessage, Entry.payload]

example : (persistCall memStorage (.retry (.maxAttempts 3)) (fun _ => none) (.new "x") pa
    [.rejected, .rejected, .ok, .ok]).res = .ok := by decide

/-- batches: all messages of an acknowledged batch, each once. -/
theorem C03_ok_batch_stored_once {σ : Type} (S : Storage σ) (policy : PersistPolicy) (st : σ) (j : Journal)
    (ps : List Payload) (hps : ps ≠ []) (os : List WriteOutcome) (hl : ∀ o ∈ os, o ≠ .lostAck)
    (h : (persistBatchCall S policy st j ps os).res = .ok) :
    (persistBatchCall S policy st j ps os).state
      = (S.writeBatch st j.pid (numberBatch j.last ps), { j with last := j.last + ps.length }) := by
  unfold persistBatchCall at h ⊢
  rw [if_neg hps] at h ⊢
  exact loop_ok_once (quiet_batch S ps) (reports_batch S ps) policy (st, j) os hl h

theorem C03_ok_snapshot_stored_once {σ : Type} (S : Storage σ) (policy : PersistPolicy) (st : σ) (j : Journal)
    (p : Payload) (os : List WriteOutcome) (hl : ∀ o ∈ os, o ≠ .lostAck)
    (h : (snapshotCall S policy st j p os).res = .ok) :
    (snapshotCall S policy st j p os).state
      = (S.writeSnapshot st j.pid ⟨j.last + 1, p.ptype, p.bytes⟩,
          { j with last := j.last + 1, lastSnap := some (j.last + 1) }) :=
  loop_ok_once (quiet_snap S p) (reports_snap S p) policy (st, j) os hl h

/-- C03: when every attempt was rejected, storage and counters are untouched (and the call did not
return `Ok`). -/
theorem C03_err_unchanged {σ : Type} (S : Storage σ) (policy : PersistPolicy) (st : σ) (j : Journal)
    (p : Payload) (os : List WriteOutcome) (hl : ∀ o ∈ os, o = .rejected) :
    (persistCall S policy st j p os).state = (st, j) ∧ (persistCall S policy st j p os).res ≠ .ok := by
  constructor
  · show (persistLoop policy (attemptMsg S p) (st, j) 1 os).state = (st, j)
    rw [persistLoop_state _ _ _ _ (by omega)]
    exact attempts_rejected (quiet_msg S p) _ _ fun o ho => hl o (List.mem_of_mem_take ho)
  · intro h
    obtain ⟨fails, o, rest, h1, _, h3, _⟩ := persistLoop_ok (attemptMsg S p) (reports_msg S p) policy (st, j) 1 os h
    have := hl o (by rw [h1]; simp)
    subst this
    simp [WriteOutcome.acked] at h3

/-- On Redis even an attempt that stored the message but reported a failure does no harm: the retry
writes the same member again. -/
theorem C03_redis_once (key : String → String → String) (policy : PersistPolicy) (st : RedisStore) (j : Journal)
    (p : Payload) (os : List WriteOutcome)
    (h : (persistCall (redisStorage key) policy st j p os).res = .ok) :
    (persistCall (redisStorage key) policy st j p os).state
      = (redisWrite st (key j.pid "journal") ⟨j.last, p.ptype, p.bytes⟩, { j with last := j.last + 1 }) := by
  have hidem : ∀ l e, zadd (zadd l e) e = zadd l e := by
    intro l e
    have : e ∈ zadd l e := mem_zadd.2 (.inr rfl)
    rw [zadd, if_pos this]
  have hidem2 : ∀ st k e, redisWrite (redisWrite st k e) k e = redisWrite st k e := by
    intro st k e
    funext k'
    simp only [redisWrite, RedisStore.set]
    split <;> simp [hidem]
  obtain ⟨fails, o, rest, h1, h2, h3, h4⟩ :=
    persistLoop_ok (attemptMsg (redisStorage key) p) (reports_msg _ p) policy (st, j) 1 os h
  show (persistLoop policy (attemptMsg (redisStorage key) p) (st, j) 1 os).state = _
  rw [persistLoop_state _ _ _ _ (by omega), h4]
  have e : 1 + fails.length - (1 - 1) = fails.length + 1 := by omega
  have e2 : (fails ++ o :: rest).take (fails.length + 1) = fails ++ [o] := by
    rw [List.take_append]; simp
    exact List.take_of_length_le (by omega)
  rw [e, h1, e2, WriteOutcome.eq_ok h3]
  have hfails : ∀ (fails : List WriteOutcome), (∀ f ∈ fails, f.acked = false) → ∀ st,
      (attempts (attemptMsg (redisStorage key) p) (st, j) fails = (st, j) ∨
       attempts (attemptMsg (redisStorage key) p) (st, j) fails
        = (redisWrite st (key j.pid "journal") ⟨j.last, p.ptype, p.bytes⟩, j)) := by
    intro fails
    induction fails with
    | nil => intro _ st; exact .inl rfl
    | cons f fs ih =>
      intro hf st
      have hf1 := hf f (by simp)
      have hf2 : ∀ f ∈ fs, f.acked = false := fun f h => hf f (by simp [h])
      cases f with
      | ok => simp [WriteOutcome.acked] at hf1
      | rejected =>
        have := ih hf2 st
        simpa [attempts, attemptMsg, persistMessage, WriteOutcome.acked, applyWrite, WriteOutcome.stored] using this
      | lostAck =>
        have := ih hf2 (redisWrite st (key j.pid "journal") ⟨j.last, p.ptype, p.bytes⟩)
        rw [hidem2] at this
        right
        simpa [attempts, attemptMsg, persistMessage, WriteOutcome.acked, applyWrite, WriteOutcome.stored,
          redisStorage] using this
  have := hfails fails h2 st
  simp only [attempts, List.foldl_append, List.foldl_cons, List.foldl_nil] at this ⊢
  rcases this with h5 | h5 <;> rw [h5] <;>
    simp [attemptMsg, persistMessage, WriteOutcome.acked, applyWrite, WriteOutcome.stored, redisStorage, hidem2]

example : (persistCall (redisStorage (plainKey "")) (.retry .untilSuccess) (fun _ => []) (.new "x") pa
    [.lostAck, .rejected, .ok]).res = .ok := by rfl

/-- A storage that appends (as the in-memory one does) keeps a second copy after a lost
acknowledgement. -/
theorem C03_lost_ack_duplicates :
    let c := persistCall memStorage (.retry .untilSuccess) (fun _ => none) (.new "x") pa [.lostAck, .ok]
    c.res = .ok ∧ (msgsOf c.state.1 "x").map Entry.payload = [pa, pa] := by decide

/-- A whole `persist` call acts on the journal like the history of its attempts, so the history theorems
(C01, C02, C04, C08) speak about calls with any policy. -/
theorem persist_call_is_history {σ : Type} (S : Storage σ) (policy : PersistPolicy) (s : Sys σ) (pid : String)
    (p : Payload) (os : List WriteOutcome) :
    let c := persistCall S policy s.store (s.journals pid) p os
    let s' := run1 S s pid ((os.take c.attempts).map (.persist p))
    c.state = (s'.store, s'.journals pid) := by
  show (persistLoop policy (attemptMsg S p) (s.store, s.journals pid) 1 os).state = _
  rw [persistLoop_state _ _ _ _ (by omega)]
  exact attempts_msg_eq_run1 S s pid p _

/-! ### C04 -/

/-- C04: in every history without lost acknowledgements the numbers of the stored messages never
decrease in storage order, stay at or below the journal's counter, and the next snapshot gets a number
above all of them. -/
theorem C04_sequence_monotone (ops : List (String × Op)) (pid : String)
    (ho : ∀ op ∈ own pid ops, op.Honest) :
    let s := mem0.run memStorage ops
    (msgsOf s.store pid).Pairwise (fun a b => a.seq ≤ b.seq) ∧
    (∀ m ∈ msgsOf s.store pid, m.seq ≤ (s.journals pid).last) ∧
    (∀ p, let s' := s.step memStorage pid (.snapshot p .ok)
      ∃ e, (snapsOf s'.store pid).getLast? = some e ∧ ∀ m ∈ msgsOf s'.store pid, m.seq < e.seq) := by
  have hv := memIsolated.run_own (fun _ => none) pid ops
  have h := (MemInv.init pid).run1 (PidOk.init _) _ ho
  have hpk : PidOk (mem0.run memStorage ops) := (PidOk.init (σ := MemStore) _).run ops
  obtain ⟨hv1, hv2⟩ := hv
  have hm : msgsOf (mem0.run memStorage ops).store pid
      = msgsOf (run1 memStorage (Sys.init fun _ => none) pid (own pid ops)).store pid := by
    unfold msgsOf; rw [show (mem0.run memStorage ops).store pid = _ from hv1]; rfl
  have hj : (mem0.run memStorage ops).journals pid = _ := hv2
  have h2 : ∀ m ∈ msgsOf (mem0.run memStorage ops).store pid, m.seq ≤ ((mem0.run memStorage ops).journals pid).last := by
    rw [hm, hj]; exact h.le_last
  refine ⟨by rw [hm]; exact h.sorted, h2, ?_⟩
  intro p
  clear hj hm hv1 hv2 h
  generalize mem0.run memStorage ops = s at hpk h2
  have hst : (s.step memStorage pid (.snapshot p .ok)).store
      = memWriteSnapshot s.store pid ⟨(s.journals pid).last + 1, p.ptype, p.bytes⟩ := by
    simp [Sys.step, persistSnapshot, WriteOutcome.acked, applyWrite, WriteOutcome.stored, Sys.setJ,
      memStorage, hpk pid]
  simp only
  rw [hst, snapsOf_writeSnapshot, msgsOf_writeSnapshot]
  refine ⟨_, by simp; rfl, ?_⟩
  intro m hm'
  have := h2 m hm'
  show m.seq < _ + 1
  omega

/-- With lost acknowledgements the numbers can go backwards: the second batch reuses the numbers of the
first. -/
theorem C04_lost_ack_refuted : ∃ ops : List Op, ∃ pid,
    ((msgsOf (run1 memStorage mem0 pid ops).store pid).map (·.seq)) = [1, 2, 1] :=
  ⟨[.batch [pa, pb] .lostAck, .batch [pc] .ok], "x", by decide⟩

example : ∀ op ∈ [Op.persist pa .ok, .batch [pb, pc] .ok, .snapshot pa .ok, .restart knowAll, .persist pb .ok],
    op.Honest := by simp [Op.Honest]

/-! ### C05 -/

theorem MemView.run_trim (m : MemView) (a b : List Op) (o : WriteOutcome) :
    m.run (a ++ .trim o :: b) = m.run (a ++ b) := by
  simp [MemView.run, List.foldl_append, MemView.step]

/-- C05, in-memory storage: a trim anywhere in a history changes nothing about what is recovered at any
later time. -/
theorem C05_trim_invisible_mem (pre post : List Op) (pid : String) (o : WriteOutcome) (K : Known)
    (h1 : ∀ op ∈ pre, op.Honest) (h2 : ∀ op ∈ post, op.Honest) :
    (run1 memStorage mem0 pid (pre ++ .trim o :: post)).recovered memStorage K pid
      = (run1 memStorage mem0 pid (pre ++ post)).recovered memStorage K pid := by
  have ha : ∀ op ∈ pre ++ .trim o :: post, op.Honest := by
    intro op h
    rw [List.mem_append, List.mem_cons] at h
    rcases h with h | rfl | h
    · exact h1 op h
    · trivial
    · exact h2 op h
  have hb : ∀ op ∈ pre ++ post, op.Honest := by
    intro op h
    rw [List.mem_append] at h
    rcases h with h | h
    · exact h1 op h
    · exact h2 op h
  rw [show mem0 = Sys.init fun _ => none from rfl]
  rw [((MemInv.init pid).run1 (PidOk.init _) _ ha).recovered K,
    ((MemInv.init pid).run1 (PidOk.init _) _ hb).recovered K, MemView.run_trim]

/-- C05: what `clear_old_messages` answers and does: without a snapshot it refuses and touches nothing; with
one it asks the storage to delete the messages of this actor up to the snapshot's number, and reports what
the storage said. -/
theorem C05_trim_call (S : Storage σ) (st : σ) (j : Journal) (o : WriteOutcome) :
    (j.lastSnap = none → clearOldMessages S st j o = (st, false)) ∧
    (∀ s, j.lastSnap = some s → (clearOldMessages S st j o).2 = o.acked ∧
      (clearOldMessages S st j o).1 = match o with
        | .rejected => st
        | _ => S.deleteMessagesTo st j.pid s) := by
  refine ⟨fun h => by simp [clearOldMessages, h], fun s h => ?_⟩
  cases o <;> simp [clearOldMessages, h, applyWrite, WriteOutcome.stored]

/-- the trim really removes something in this history. -/
example : let s := run1 memStorage mem0 "x" [.persist pa .ok, .persist pb .ok, .snapshot pc .ok, .trim .ok, .batch [pa] .ok]
    (msgsOf s.store "x").length = 1 ∧ s.recovered memStorage knowAll "x" = ⟨some pc, some [pa]⟩ := by decide

/-- C05 fails on Redis: the trim removes the first single message after the snapshot, which shares its
number. -/
theorem C05_redis_refuted : ∃ pre : List Op, ∃ pid, (∀ op ∈ pre, op.Honest) ∧
    (run1 (redisStorage (plainKey "")) redis0 pid pre).recovered (redisStorage (plainKey "")) knowAll pid
      = ⟨some pa, some [pb]⟩ ∧
    (run1 (redisStorage (plainKey "")) redis0 pid (pre ++ [.trim .ok])).recovered (redisStorage (plainKey "")) knowAll pid
      = ⟨some pa, none⟩ :=
  ⟨[.snapshot pa .ok, .persist pb .ok], "x", by simp [Op.Honest], by decide +kernel, by decide +kernel⟩

/-! ### C06 -/

/-- what a read of the half-open range `from..to` should return. -/
def inRange (frm to : Int) (l : List Entry) : List Entry :=
  l.filter fun e => decide (frm ≤ e.seq) && decide (e.seq < to)

/-- C06 is false for the in-memory storage: it can panic… -/
theorem C06_refuted_panic : ∃ (st : MemStore) (frm to : Int), memReadMessages st "x" frm to = .panic :=
  ⟨fun _ => some ⟨[], [⟨1, "T", []⟩, ⟨2, "T", []⟩, ⟨3, "T", []⟩]⟩, 2, 2, by decide⟩

/-- …can return messages beyond the range… -/
theorem C06_refuted_extra : ∃ (st : MemStore) (frm to : Int) (l : List Entry),
    memReadMessages st "x" frm to = .ok (some l) ∧ ∃ e ∈ l, ¬ (e.seq < to) :=
  ⟨fun _ => some ⟨[], [⟨1, "T", []⟩, ⟨2, "T", []⟩, ⟨3, "T", []⟩]⟩, 0, 3,
    [⟨1, "T", []⟩, ⟨2, "T", []⟩, ⟨3, "T", []⟩], by decide, ⟨3, "T", []⟩, by decide, by decide⟩

/-- …and can miss messages in it. -/
theorem C06_refuted_missing : ∃ (st : MemStore) (frm to : Int) (e : Entry),
    memReadMessages st "x" frm to = .ok (some []) ∧ e ∈ msgsOf st "x" ∧ frm ≤ e.seq ∧ e.seq < to :=
  ⟨fun _ => some ⟨[], [⟨1, "T", []⟩, ⟨2, "T", []⟩, ⟨3, "T", []⟩]⟩, 0, 2, ⟨1, "T", []⟩, by decide, by decide, by decide, by decide⟩

/-- C06, proved part: if the range covers everything stored, everything is returned; if it starts inside
the journal and reaches beyond its end, exactly the messages numbered above the start. Missing: ranges
that end inside the journal, and the start bound itself. -/
theorem C06_range_read_partial (st : MemStore) (pid : String) (frm to : Int)
    (hs : SortedSeq (msgsOf st pid)) (hne : msgsOf st pid ≠ [])
    (hto : ∀ e ∈ msgsOf st pid, e.seq < to) (hfrm : frm ∉ (msgsOf st pid).map (·.seq)) :
    memReadMessages st pid frm to = .ok (some (inRange frm to (msgsOf st pid))) := by
  unfold msgsOf at *
  unfold memReadMessages
  cases h : st pid with
  | none => simp [h] at hne
  | some j =>
    simp only [h, Option.map_some, Option.getD_some] at *
    cases hm : j.messages with
    | nil => exact absurd hm hne
    | cons a l =>
      rw [hm] at hs hto hfrm
      have hlast := hto _ (List.getLast_mem (l := a :: l) (by simp))
      simp only
      rw [if_pos (by omega)]
      have hle := List.pairwise_cons.1 hs
      split
      · rename_i hge
        congr 2
        symm
        unfold inRange
        rw [List.filter_eq_self]
        intro x hx
        have h1 := hto x hx
        have h2 : a.seq ≤ x.seq := by
          rw [List.mem_cons] at hx
          rcases hx with rfl | hx
          · exact Int.le_refl _
          · exact hle.1 x hx
        simp; omega
      · congr 2
        have key : ∀ l : List Entry, SortedSeq l → (∀ e ∈ l, e.seq < to) → frm ∉ l.map (·.seq) →
            suffixAfter frm l = inRange frm to l := by
          intro l
          induction l with
          | nil => intros; rfl
          | cons b l ih =>
            intro h1 h2 h3
            have h4 := List.pairwise_cons.1 h1
            have hb := h2 b (by simp)
            simp only [List.map_cons, List.mem_cons, not_or] at h3
            by_cases hbf : frm < b.seq
            · rw [suffixAfter_of_gt]
              · symm; unfold inRange; rw [List.filter_eq_self]
                intro x hx
                have := h2 x hx
                rw [List.mem_cons] at hx
                rcases hx with rfl | hx
                · simp; omega
                · have := h4.1 x hx; simp; omega
              · intro x hx
                rw [List.mem_cons] at hx
                rcases hx with rfl | hx
                · exact hbf
                · have := h4.1 x hx; omega
            · have := ih h4.2 (fun e he => h2 e (by simp [he])) h3.2
              unfold suffixAfter inRange at *
              have h5 : ¬ frm ≤ b.seq := by omega
              rw [List.dropWhile_cons, if_pos (by simp; omega), List.filter_cons, if_neg (by simp [h5]), this]
        exact key _ hs hto hfrm

example : SortedSeq [⟨1, "T", []⟩, ⟨2, "T", []⟩, ⟨4, "T", []⟩] ∧ (3 : Int) ∉ [1, 2, 4] := by
  simp [SortedSeq]

/-- exactly when the in-memory read panics. -/
theorem C06_panic_iff (st : MemStore) (pid : String) (frm to : Int) :
    memReadMessages st pid frm to = .panic ↔
      ∃ first last, (msgsOf st pid).head? = some first ∧ (msgsOf st pid).getLast? = some last ∧
        first.seq < frm ∧ to < last.seq := by
  unfold memReadMessages msgsOf
  cases h : st pid with
  | none => simp
  | some j =>
    cases hm : j.messages with
    | nil => simp [hm]
    | cons a l =>
      simp only [Option.map_some, Option.getD_some, hm, List.head?_cons, Option.some.injEq]
      rw [List.getLast?_eq_some_getLast (by simp)]
      simp only [Option.some.injEq]
      split
      · split <;> simp <;> omega
      · split
        · split <;> simp <;> omega
        · simp; omega

theorem suffixAfter_filter (frm : Int) (l : List Entry) (h : SortedSeq l) :
    suffixAfter frm l = l.filter fun e => decide (frm < e.seq) := by
  induction l with
  | nil => rfl
  | cons b l ih =>
    have h4 := List.pairwise_cons.1 h
    by_cases hbf : frm < b.seq
    · rw [suffixAfter_of_gt]
      · symm; rw [List.filter_eq_self]
        intro x hx
        rw [List.mem_cons] at hx
        rcases hx with rfl | hx
        · simpa using hbf
        · have := h4.1 x hx; simp; omega
      · intro x hx
        rw [List.mem_cons] at hx
        rcases hx with rfl | hx
        · exact hbf
        · have := h4.1 x hx; omega
    · have := ih h4.2
      unfold suffixAfter at *
      rw [List.dropWhile_cons, if_pos (by simp; omega), List.filter_cons, if_neg (by simpa using hbf), this]

theorem takeWhile_le_filter (frm : Int) (l : List Entry) (h : SortedSeq l) :
    l.takeWhile (fun e => !(decide (e.seq > frm))) = l.filter fun e => decide (e.seq ≤ frm) := by
  induction l with
  | nil => rfl
  | cons b l ih =>
    have h4 := List.pairwise_cons.1 h
    by_cases hbf : frm < b.seq
    · rw [List.takeWhile_cons, if_neg (by simpa using hbf)]
      symm; rw [List.filter_eq_nil_iff]
      intro x hx
      rw [List.mem_cons] at hx
      rcases hx with rfl | hx
      · simpa using hbf
      · have := h4.1 x hx; simp; omega
    · rw [List.takeWhile_cons, if_pos (by simp; omega), List.filter_cons, if_pos (by simp; omega), ih h4.2]

/-- C06: exactly what the in-memory read returns when it does not panic. A range reaching the last message
returns everything if it starts at or before the first message, else what is numbered above the start
(the start itself is missed); a range ending before it returns only messages numbered *up to the
start*. -/
theorem C06_exact (st : MemStore) (pid : String) (frm to : Int) (first last : Entry)
    (hs : SortedSeq (msgsOf st pid)) (hf : (msgsOf st pid).head? = some first)
    (hl : (msgsOf st pid).getLast? = some last) :
    (last.seq ≤ to → frm ≤ first.seq → memReadMessages st pid frm to = .ok (some (msgsOf st pid))) ∧
    (last.seq ≤ to → first.seq < frm →
      memReadMessages st pid frm to = .ok (some ((msgsOf st pid).filter fun e => decide (frm < e.seq)))) ∧
    (to < last.seq → frm ≤ first.seq → frm < last.seq →
      memReadMessages st pid frm to = .ok (some ((msgsOf st pid).filter fun e => decide (e.seq ≤ frm)))) ∧
    (to < last.seq → frm ≤ first.seq → last.seq ≤ frm → memReadMessages st pid frm to = .ok (some [])) := by
  unfold memReadMessages msgsOf at *
  cases h : st pid with
  | none => simp [h] at hf
  | some j =>
    simp only [h, Option.map_some, Option.getD_some] at *
    cases hm : j.messages with
    | nil => simp [hm] at hf
    | cons a l =>
      simp only [hm, List.head?_cons, Option.some.injEq] at hf hs hl
      subst hf
      rw [List.getLast?_eq_some_getLast (by simp), Option.some.injEq] at hl
      have hmem := List.getLast_mem (l := a :: l) (by simp)
      rw [hl] at hmem
      have hmax : ∀ x ∈ a :: l, x.seq ≤ last.seq := by
        have hd := List.dropLast_concat_getLast (l := a :: l) (by simp)
        rw [hl] at hd
        intro x hx
        rw [← hd] at hs hx
        rw [List.mem_append, List.mem_singleton] at hx
        rcases hx with hx | rfl
        · exact (List.pairwise_append.1 hs).2.2 x hx last (by simp)
        · exact Int.le_refl _
      simp only [hl]
      refine ⟨fun h1 h2 => ?_, fun h1 h2 => ?_, fun h1 h2 h3 => ?_, fun h1 h2 h3 => ?_⟩
      · rw [if_pos (by omega), if_pos (by omega)]
      · rw [if_pos (by omega), if_neg (by omega), suffixAfter_filter _ _ hs]
      · rw [if_neg (by omega), if_pos (by omega), if_pos, takeWhile_le_filter _ _ hs]
        rw [List.any_eq_true]
        exact ⟨last, hmem, by simpa using h3⟩
      · rw [if_neg (by omega), if_pos (by omega), if_neg]
        rw [List.any_eq_true]
        rintro ⟨x, hx, h4⟩
        have := hmax x hx
        simp at h4; omega

example : memReadMessages (fun _ => some ⟨[], [⟨1, "T", []⟩, ⟨2, "T", []⟩, ⟨3, "T", []⟩]⟩) "x" 1 3
      = .ok (some [⟨1, "T", []⟩, ⟨2, "T", []⟩, ⟨3, "T", []⟩]) ∧
    memReadMessages (fun _ => some ⟨[], [⟨1, "T", []⟩, ⟨2, "T", []⟩, ⟨3, "T", []⟩]⟩) "x" 2 3
      = .ok (some [⟨3, "T", []⟩]) ∧
    memReadMessages (fun _ => some ⟨[], [⟨1, "T", []⟩, ⟨2, "T", []⟩, ⟨3, "T", []⟩]⟩) "x" 1 2
      = .ok (some [⟨1, "T", []⟩]) := by decide

/-- C06 on Redis: exactly the messages with numbers between the bounds, both included, in order. -/
theorem C06_redis_range (st : RedisStore) (k : String) (frm to : Int) (e : Entry) :
    (e ∈ redisReadRange st k frm (some to) ↔ e ∈ st k ∧ frm ≤ e.seq ∧ e.seq ≤ to) ∧
    (redisReadRange st k frm (some to)).Sublist (st k) := by
  refine ⟨by simp [redisReadRange], List.filter_sublist⟩

/-- reading one message: found exactly when a message with that number is stored. -/
theorem C06_read_message (st : MemStore) (pid : String) (seq : Int) :
    (∀ e, memReadMessage st pid seq = some e → e ∈ msgsOf st pid ∧ e.seq = seq) ∧
    (memReadMessage st pid seq = none → ∀ e ∈ msgsOf st pid, e.seq ≠ seq) := by
  unfold memReadMessage msgsOf
  cases h : st pid with
  | none => simp
  | some j =>
    simp only [Option.bind_some, Option.map_some, Option.getD_some]
    constructor
    · intro e he
      exact ⟨List.mem_of_find?_eq_some he, by simpa using List.find?_some he⟩
    · intro hn e he hs
      rw [List.find?_eq_none] at hn
      exact hn e he (by simp [hs])

/-! ### C07 -/

/-- C07: reading what was written gives the entry back, for every 64-bit number. -/
theorem C07_entry_roundtrip (e : Entry) (h1 : -2 ^ 63 ≤ e.seq) (h2 : e.seq < 2 ^ 63)
    (hp : (strBytes e.ptype).length < 2 ^ 64) (hb : e.bytes.length < 2 ^ 64) :
    Entry.read e.write = some e := Entry.read_write e h1 h2 hp hb

/-- C07: different entries have different bytes. -/
theorem C07_entry_injective (e e' : Entry)
    (h1 : -2 ^ 63 ≤ e.seq) (h2 : e.seq < 2 ^ 63) (h1' : -2 ^ 63 ≤ e'.seq) (h2' : e'.seq < 2 ^ 63)
    (hp : (strBytes e.ptype).length < 2 ^ 64) (hb : e.bytes.length < 2 ^ 64)
    (hp' : (strBytes e'.ptype).length < 2 ^ 64) (hb' : e'.bytes.length < 2 ^ 64)
    (h : e.write = e'.write) : e = e' := by
  have := Entry.read_write e h1 h2 hp hb
  rw [h, Entry.read_write e' h1' h2' hp' hb'] at this
  exact (Option.some.inj this).symm

example : (⟨-1, "Té", [0, 255]⟩ : Entry).write ≠ [] ∧
    Entry.read (⟨-1, "Tx", [0, 255]⟩ : Entry).write = some ⟨-1, "Tx", [0, 255]⟩ := by
  refine ⟨by decide +kernel, C07_entry_roundtrip _ ?_ ?_ ?_ ?_⟩ <;> decide +kernel

/-! ### C08 -/

/-- C08 is false on Redis: messages can come back in another order… -/
theorem C08_refuted_order : ∃ ops : List Op, ∃ pid,
    (∀ op ∈ ops, op.Honest) ∧ (View.empty.run ops).msgs = [pb, pa] ∧
    (run1 (redisStorage (plainKey "")) redis0 pid ops).recovered (redisStorage (plainKey "")) knowAll pid
      = ⟨none, some [pa, pb]⟩ :=
  ⟨[.persist pb .ok, .restart knowAll, .persist pa .ok], "x", by simp [Op.Honest], by decide +kernel, by decide +kernel⟩

/-- …and a message persisted twice can come back once. -/
theorem C08_refuted_duplicate : ∃ ops : List Op, ∃ pid,
    (∀ op ∈ ops, op.Honest) ∧ (View.empty.run ops).msgs = [pa, pa] ∧
    (run1 (redisStorage (plainKey "")) redis0 pid ops).recovered (redisStorage (plainKey "")) knowAll pid
      = ⟨none, some [pa]⟩ :=
  ⟨[.persist pa .ok, .restart knowAll, .persist pa .ok], "x", by simp [Op.Honest], by decide +kernel, by decide +kernel⟩

/-- C08, proved part: in every history that never writes a single message right after a batch or right
after a restart that replayed messages, and never trims after a single message directly following a
snapshot, Redis recovery is exact. Missing: those histories (refuted above and in `C05_redis_refuted`)
and lost acknowledgements. -/
theorem C08_redis_replay_partial (hashtags : Bool) (pre : String) (ops : List (String × Op)) (pid : String)
    (ho : ∀ op ∈ own pid ops, op.Honest) (hs : RedisSafe .empty (own pid ops) = true) (K : Known) :
    (redis0.run (redisStorage (redisKey hashtags pre)) ops).recovered (redisStorage (redisKey hashtags pre)) K pid
      = (View.empty.run (own pid ops)).seen K := by
  have hk := redisKey_ok hashtags pre
  unfold redis0
  rw [(redisIsolated hk).recovered_own]
  rw [((RedisInv.init _ pid).run1 hk (PidOk.init _) _ ho hs).recovered K, RedisFlags.view_run]
  rfl

example : RedisSafe .empty [.persist pb .ok, .persist pa .ok, .snapshot pc .ok, .trim .ok, .persist pb .ok,
    .persist pb .ok, .restart knowAll, .batch [pa, pa] .ok, .restart knowAll, .batch [pc] .ok, .snapshot pa .ok,
    .restart knowAll, .persist pb .ok] = true := by rfl

/-- an actor that only writes batches is always safe. -/
theorem RedisSafe_batches (ops : List Op) (r : RedisFlags) (he : r.edge = false)
    (h : ∀ op ∈ ops, op.isSingle = false) : RedisSafe r ops = true := by
  induction ops generalizing r with
  | nil => rfl
  | cons op ops ih =>
    have h1 := h op (by simp)
    simp only [RedisSafe, Bool.and_eq_true]
    refine ⟨?_, ih _ ?_ fun o ho => h o (by simp [ho])⟩
    · cases op with
      | persist p o => simp [Op.isSingle] at h1
      | trim o => cases o <;> simp [RedisFlags.safe, he]
      | batch ps o => rfl
      | snapshot p o => rfl
      | restart K => rfl
    · cases op with
      | persist p o => simp [Op.isSingle] at h1
      | trim o => exact he
      | batch ps o => cases o <;> simp only [RedisFlags.step] <;> try exact he
                      split <;> exact he
      | snapshot p o => cases o <;> simp [RedisFlags.step, he]
      | restart K => exact he

/-- C08/C05 on Redis hold without further conditions for actors that write with `persist_batch` only. -/
theorem C08_redis_batches_only_partial (hashtags : Bool) (pre : String) (ops : List (String × Op)) (pid : String)
    (ho : ∀ op ∈ own pid ops, op.Honest) (hs : ∀ op ∈ own pid ops, op.isSingle = false) (K : Known) :
    (redis0.run (redisStorage (redisKey hashtags pre)) ops).recovered (redisStorage (redisKey hashtags pre)) K pid
      = (View.empty.run (own pid ops)).seen K :=
  C08_redis_replay_partial hashtags pre ops pid ho (RedisSafe_batches _ _ rfl hs) K

/-- Without trims no message is ever lost on Redis and none is invented: snapshot right, same messages as
a set. -/
theorem C08_redis_nothing_lost_partial (hashtags : Bool) (pre : String) (ops : List (String × Op)) (pid : String)
    (ho : ∀ op ∈ own pid ops, op.Honest) (ht : ∀ op ∈ own pid ops, op.isTrim = false) :
    let r := (redis0.run (redisStorage (redisKey hashtags pre)) ops).recovered
      (redisStorage (redisKey hashtags pre)) knowAll pid
    r.snapshot = (View.empty.run (own pid ops)).snap ∧
    ∀ p, p ∈ r.messages.getD [] ↔ p ∈ (View.empty.run (own pid ops)).msgs := by
  have hk := redisKey_ok hashtags pre
  unfold redis0
  rw [(redisIsolated hk).recovered_own]
  have h := (RedisWeak.init (redisKey hashtags pre) pid).run1 hk (PidOk.init _) _ ho ht
  unfold Sys.recovered
  rw [loadJournal_redis]
  refine ⟨?_, ?_⟩
  · simp only [View.seen, knowAll, h.snap]
    generalize Option.map Entry.payload _ = x
    cases x <;> simp
  · intro p
    rw [h.msgs p]
    simp only [View.seen, knowAll, filter_tt]
    generalize List.map Entry.payload _ = l
    cases l <;> simp

/-! ### C09 -/

/-- C09, bounded retries: success within the limit is reported after that many attempts and the actor
keeps running. -/
theorem C09_max_attempts_ok {σ : Type} (S : Storage σ) (m : Nat) (st : σ) (j : Journal) (p : Payload)
    (fails rest : List WriteOutcome) (o : WriteOutcome) (hf : ∀ o ∈ fails, o.acked = false)
    (ho : o.acked = true) (hm : fails.length < max 1 m) :
    let c := persistCall S (.retry (.maxAttempts m)) st j p (fails ++ o :: rest)
    c.res = .ok ∧ c.attempts = fails.length + 1 ∧ c.stopped = false := by
  have h : fails = [] ∨ 1 + fails.length ≤ m := by
    cases fails with
    | nil => exact .inl rfl
    | cons a l => right; simp only [List.length_cons] at *; omega
  have := persistLoop_max_ok (attemptMsg S p) (reports_msg S p) m (st, j) 1 fails hf o ho rest h
  refine ⟨this.1, ?_, this.2.2⟩
  have := this.2.1
  show _ = _
  rw [Nat.add_comm] at this
  exact this

/-- C09: `max 1 m` failures in a row end the call with `Err`, after exactly that many attempts, and stop
the actor; nothing more is tried. -/
theorem C09_max_attempts_err {σ : Type} (S : Storage σ) (m : Nat) (st : σ) (j : Journal) (p : Payload)
    (fails rest : List WriteOutcome) (hf : ∀ o ∈ fails, o.acked = false) (hm : fails.length = max 1 m) :
    let c := persistCall S (.retry (.maxAttempts m)) st j p (fails ++ rest)
    c.res = .err ∧ c.attempts = max 1 m ∧ c.stopped = true := by
  have hne : fails ≠ [] := by rintro rfl; simp at hm; omega
  exact persistLoop_max_err (attemptMsg S p) (reports_msg S p) m (st, j) 1 fails hf rest hne (by omega)

/-- C09: never more than `max 1 m` attempts, whatever the storage does. -/
theorem C09_max_attempts_bound {σ : Type} (S : Storage σ) (m : Nat) (st : σ) (j : Journal) (p : Payload)
    (os : List WriteOutcome) :
    (persistCall S (.retry (.maxAttempts m)) st j p os).attempts ≤ max 1 m :=
  persistLoop_max_bound (attemptMsg S p) m (st, j) 1 (Nat.le_refl 1) os

/-- C09, retry until success: returns `Ok` at the first success and does not return before. -/
theorem C09_until_success {σ : Type} (S : Storage σ) (st : σ) (j : Journal) (p : Payload)
    (fails : List WriteOutcome) (hf : ∀ o ∈ fails, o.acked = false) :
    (persistCall S (.retry .untilSuccess) st j p fails).res = .pending ∧
    ∀ o rest, o.acked = true →
      let c := persistCall S (.retry .untilSuccess) st j p (fails ++ o :: rest)
      c.res = .ok ∧ c.attempts = fails.length + 1 ∧ c.stopped = false := by
  refine ⟨persistLoop_untilSuccess_pending (attemptMsg S p) (reports_msg S p) (st, j) 1 fails hf, ?_⟩
  intro o rest ho
  have := persistLoop_untilSuccess (attemptMsg S p) (reports_msg S p) (st, j) 1 fails hf o ho rest
  refine ⟨this.1, ?_, this.2.2⟩
  have := this.2.1
  rw [Nat.add_comm] at this
  exact this

/-- C09, stop policy: one attempt; a failure stops the actor and is reported. -/
theorem C09_stop_policy {σ : Type} (S : Storage σ) (st : σ) (j : Journal) (p : Payload)
    (o : WriteOutcome) (rest : List WriteOutcome) :
    let c := persistCall S .stopActor st j p (o :: rest)
    c.attempts = 1 ∧ (o.acked = true → c.res = .ok ∧ c.stopped = false) ∧
    (o.acked = false → c.res = .errStopping ∧ c.stopped = true) := by
  cases o <;> simp [persistCall, persistLoop, persistMessage, check, WriteOutcome.acked]

/-- C09 for batches and snapshots: the same bound. -/
theorem C09_batch_snapshot_bound {σ : Type} (S : Storage σ) (m : Nat) (st : σ) (j : Journal) (p : Payload)
    (ps : List Payload) (os : List WriteOutcome) :
    (persistBatchCall S (.retry (.maxAttempts m)) st j ps os).attempts ≤ max 1 m ∧
    (snapshotCall S (.retry (.maxAttempts m)) st j p os).attempts ≤ max 1 m := by
  constructor
  · unfold persistBatchCall
    split
    · simp
    · exact persistLoop_max_bound (attemptBatch S ps) m (st, j) 1 (Nat.le_refl 1) os
  · exact persistLoop_max_bound (attemptSnap S p) m (st, j) 1 (Nat.le_refl 1) os

/-- C09 for recovery: bounded retries either recover at the first success within the limit or fail after
exactly `max 1 m` attempts, stopping the actor; `on_recovery_err` runs once per failure. -/
theorem C09_recovery (m k : Nat) (rest : List Bool) :
    (k < max 1 m → recoverLoop (.retry (.maxAttempts m)) 1 (List.replicate k false ++ true :: rest)
      = (.recovered, k + 1, false, k)) ∧
    (k = max 1 m → recoverLoop (.retry (.maxAttempts m)) 1 (List.replicate k false ++ rest)
      = (.failed, max 1 m, true, k)) ∧
    recoverLoop (.retry .untilSuccess) 1 (List.replicate k false ++ true :: rest)
      = (.recovered, k + 1, false, k) ∧
    recoverLoop .stopActor 1 (false :: rest) = (.failed, 1, true, 1) := by
  refine ⟨?_, ?_, ?_, rfl⟩
  · intro h
    rw [recoverLoop_max_ok m 1 k rest (by omega), Nat.add_comm]
  · intro h
    rw [recoverLoop_max_err m 1 k rest (by omega)]
  · rw [recoverLoop_untilSuccess, Nat.add_comm]

example : (persistCall memStorage (.retry (.maxAttempts 0)) (fun _ => none) (.new "x") pa
    [.rejected, .ok]).attempts = 1 := by decide

/-! ### C10 -/

/-- C10, in-memory: whatever other actors do, an actor recovers what it would recover alone. -/
theorem C10_mem_independent (ops : List (String × Op)) (pid : String) (K : Known) :
    (mem0.run memStorage ops).recovered memStorage K pid
      = (mem0.run memStorage (ops.filter fun x => x.1 = pid)).recovered memStorage K pid := by
  have h := Isolated.Agree.run memIsolated (PidOk.init _) (PidOk.init _)
    (show memIsolated.Agree (Sys.init fun _ => none) (Sys.init fun _ => none) pid from ⟨rfl, rfl⟩) ops
  unfold Sys.recovered mem0
  rw [loadJournal_congr memIsolated h.1 K]

/-- C10, Redis, with and without hash tags and with any key prefix. -/
theorem C10_redis_independent (hashtags : Bool) (pre : String) (ops : List (String × Op)) (pid : String) (K : Known) :
    let S := redisStorage (redisKey hashtags pre)
    (redis0.run S ops).recovered S K pid
      = (redis0.run S (ops.filter fun x => x.1 = pid)).recovered S K pid := by
  have I := redisIsolated (redisKey_ok hashtags pre)
  have h := Isolated.Agree.run I (PidOk.init _) (PidOk.init _)
    (show I.Agree (Sys.init fun _ => []) (Sys.init fun _ => []) pid from ⟨rfl, rfl⟩) ops
  simp only
  unfold Sys.recovered redis0
  rw [loadJournal_congr I h.1 K]

/-- C10: the Redis keys of different ids, or of messages and snapshots, are different. -/
theorem C10_redis_keys_injective (hashtags : Bool) (pre p q t u : String)
    (ht : t = "journal" ∨ t = "snapshot") (hu : u = "journal" ∨ u = "snapshot")
    (h : redisKey hashtags pre p t = redisKey hashtags pre q u) : p = q ∧ t = u :=
  redisKey_ok hashtags pre p q t u h ht hu

/-- C10: deleting all data of one id leaves the others alone (either storage). -/
theorem C10_delete_all (st : MemStore) (rt : RedisStore) (hashtags : Bool) (pre : String) (p q : String)
    (h : q ≠ p) (t : String) (ht : t = "journal" ∨ t = "snapshot") :
    memDeleteAll st p q = st q ∧
    (redisStorage (redisKey hashtags pre)).deleteAll rt p (redisKey hashtags pre q t)
      = rt (redisKey hashtags pre q t) := by
  have hk := redisKey_ok hashtags pre
  refine ⟨MemStore.set_other _ _ h, ?_⟩
  show (RedisStore.set (RedisStore.set rt _ []) _ []) _ = _
  rw [RedisStore.set_other _ _ (hk.ne h ht (.inr rfl)), RedisStore.set_other _ _ (hk.ne h ht (.inl rfl))]

/-- ids that look alike with the separator inside. -/
example : redisKey false "p:" "a" "journal" ≠ redisKey false "p:" "a:journal" "snapshot" := by decide

/-! ### C11 -/

/-- C11: with unknown types the recovered messages are exactly the known ones of what would be recovered
with all types known; any storage content. -/
theorem C11_unknown_skipped {σ : Type} (S : Storage σ) (st : σ) (pid : String) (K : Known) :
    ((loadJournal S K st pid).2.messages.getD [])
      = ((loadJournal S knowAll st pid).2.messages.getD []).filter fun p => K.message p.ptype := by
  simp only [loadJournal, recoverSnapshot, recoverMessages, Journal.new, knowAll]
  rcases Option.eq_none_or_eq_some (S.readLatestSnapshot st pid) with h2 | ⟨e, h2⟩ <;> simp only [h2]
  · rcases Option.eq_none_or_eq_some (S.readLatestMessages st pid 0) with h3 | ⟨es, h3⟩ <;> simp only [h3]
    · simp
    · simp only [filter_map_payload, filter_tt, List.length_eq_zero_iff]
      by_cases hn : List.map Entry.payload es = [] <;> simp only [hn] <;> simp
      split <;> simp_all
  · rcases Option.eq_none_or_eq_some (S.readLatestMessages st pid e.seq) with h3 | ⟨es, h3⟩ <;> simp only [h3]
    · simp
    · simp only [filter_map_payload, filter_tt, List.length_eq_zero_iff]
      by_cases hn : List.map Entry.payload es = [] <;> simp only [hn] <;> simp
      split <;> simp_all

/-- C11: the counters after recovery do not depend on which types are known, so later numbers are the
same (C04 covers restarts with any `K`). -/
theorem C11_counters_unaffected {σ : Type} (S : Storage σ) (st : σ) (pid : String) (K K' : Known) :
    (loadJournal S K st pid).1 = (loadJournal S K' st pid).1 := by
  simp only [loadJournal, recoverSnapshot, recoverMessages, Journal.new]
  cases h2 : S.readLatestSnapshot st pid with
  | none => cases h3 : S.readLatestMessages st pid 0 <;> simp
  | some e =>
    cases h3 : S.readLatestMessages st pid e.seq <;> simp

example : ((loadJournal memStorage ⟨fun t => t == "A", fun _ => true⟩
    (fun _ => some ⟨[], [⟨1, "A", []⟩, ⟨2, "B", []⟩, ⟨3, "A", [1]⟩]⟩) "x").2.messages)
    = some [⟨"A", []⟩, ⟨"A", [1]⟩] := by decide

theorem persistLoop_stopped {α : Type} (policy : PersistPolicy) (attempt : α → WriteOutcome → α × Bool) (st : α)
    (n : Nat) (os : List WriteOutcome) :
    (persistLoop policy attempt st n os).stopped = true ↔
      ((persistLoop policy attempt st n os).res = .errStopping ∨
        (persistLoop policy attempt st n os).res = .err ∧ policy ≠ .returnErr) := by
  induction os generalizing st n with
  | nil => simp [persistLoop]
  | cons o os ih =>
    simp only [persistLoop]
    generalize attempt st o = r
    have hcheck : check policy n r.2 = (some .ok, false) ∨ check policy n r.2 = (none, false) ∨
        (check policy n r.2 = (some .err, true) ∧ policy ≠ .returnErr) ∨
        (check policy n r.2 = (some .err, false) ∧ policy = .returnErr) ∨
        check policy n r.2 = (some .errStopping, true) ∨ check policy n r.2 = (some .panicked, false) := by
      unfold check
      cases r.2 with
      | true => simp
      | false =>
        cases policy with
        | retry r =>
          cases r with
          | untilSuccess => simp [shouldRetry]
          | maxAttempts m => by_cases hm : m ≤ n <;> simp [shouldRetry, hm]
        | returnErr => simp
        | stopActor => simp
        | panic => simp
    rcases hcheck with h | h | ⟨h, hp⟩ | ⟨h, hp⟩ | h | h <;> rw [h] <;> simp [*]

/-- **C09.** Persisting stops the actor in exactly these cases: the policy says to stop it, or the
attempts allowed are used up; in both the caller is told of the failure. While the attempts go on, after a
success, and where errors are only returned, the actor is left running. -/
theorem C09_stop_exact {σ : Type} (S : Storage σ) (policy : PersistPolicy) (st : σ) (j : Journal) (p : Payload)
    (os : List WriteOutcome) :
    (persistCall S policy st j p os).stopped = true ↔
      ((persistCall S policy st j p os).res = .errStopping ∨
        (persistCall S policy st j p os).res = .err ∧ policy ≠ .returnErr) :=
  persistLoop_stopped policy _ (st, j) 1 os

theorem recoverLoop_waiting (policy : RecoveryPolicy) (n k : Nat) (hn : 1 ≤ n)
    (h : policy = .retry .untilSuccess ∨ ∃ m, policy = .retry (.maxAttempts m) ∧ (k = 0 ∨ n + k ≤ m)) :
    recoverLoop policy n (List.replicate k false) = (.pending, n + k - 1, false, k) := by
  induction k generalizing n with
  | zero => simp [recoverLoop]
  | succ k ih =>
    have hr : ∃ r, policy = .retry r ∧ shouldRetry n r = (true, false) := by
      rcases h with h | ⟨m, h, hm⟩
      · exact ⟨_, h, rfl⟩
      · exact ⟨_, h, by simp [shouldRetry]; omega⟩
    obtain ⟨r, rfl, hs⟩ := hr
    have ih' := ih (n + 1) (by omega) (by
      rcases h with h | ⟨m, h, hm⟩
      · exact .inl h
      · exact .inr ⟨m, h, by omega⟩)
    simp only [List.replicate_succ, recoverLoop, hs, ih']
    simp

/-- **C09.** While recovery is being retried the actor is not stopped, and every failed attempt has been
reported to it once; where the policy is to panic, the first failure panics without asking the actor to
stop. -/
theorem C09_recovery_waiting (policy : RecoveryPolicy) (k : Nat) (rest : List Bool)
    (h : policy = .retry .untilSuccess ∨ ∃ m, policy = .retry (.maxAttempts m) ∧ k < max 1 m) :
    recoverLoop policy 1 (List.replicate k false) = (.pending, k, false, k) ∧
    recoverLoop .panic 1 (false :: rest) = (.panicked, 1, false, 1) ∧
    ∀ p, recoverLoop p 1 (true :: rest) = (.recovered, 1, false, 0) := by
  refine ⟨?_, rfl, fun p => rfl⟩
  rw [recoverLoop_waiting policy 1 k (Nat.le_refl 1)]
  · simp
  · rcases h with h | ⟨m, h, hm⟩
    · exact .inl h
    · exact .inr ⟨m, h, by omega⟩

example : recoverLoop (.retry (.maxAttempts 4)) 1 (List.replicate 3 false) = (.pending, 3, false, 3) :=
  (C09_recovery_waiting _ 3 [] (.inr ⟨4, rfl, by decide⟩)).1

/-- **C09.** Persisting an empty batch succeeds without an attempt, whatever the policy and the storage;
the store, the journal and the actor are left as they were. -/
theorem C09_empty_batch {σ : Type} (S : Storage σ) (policy : PersistPolicy) (st : σ) (j : Journal)
    (os : List WriteOutcome) (o : WriteOutcome) :
    persistBatchCall S policy st j [] os = ⟨(st, j), .ok, 0, false⟩ ∧
    persistBatch S st j [] o = (st, j, true) := by
  simp [persistBatchCall, persistBatch]

/-- **C09.** As long as a call has not ended it has made exactly one attempt for every outcome seen. -/
theorem C09_pending_attempts {σ : Type} (S : Storage σ) (policy : PersistPolicy) (st : σ) (j : Journal)
    (p : Payload) (os : List WriteOutcome) (h : (persistCall S policy st j p os).res = .pending) :
    (persistCall S policy st j p os).attempts = os.length := by
  have key : ∀ (x : σ × Journal) n, 1 ≤ n →
      (persistLoop policy (attemptMsg S p) x n os).res = .pending →
      (persistLoop policy (attemptMsg S p) x n os).attempts = n - 1 + os.length := by
    clear h
    intro x n hn
    induction os generalizing x n with
    | nil => intro _; simp [persistLoop]
    | cons o os ih =>
      intro h
      have hne : ∀ a b, (check policy n (attemptMsg S p x o).2) = (some a, b) → a ≠ .pending := by
        intro a b hab
        unfold check at hab
        (repeat' split at hab) <;> simp_all [shouldRetry] <;> (try (intro hc; subst hc)) <;> simp_all
      unfold persistLoop at h ⊢
      simp only at h ⊢
      split at h
      · rename_i res stop hc
        exact absurd h (hne _ _ hc)
      · rename_i stop hc
        have := ih (attemptMsg S p x o).1 (n + 1) (by omega) h
        simp only [this, List.length_cons]
        omega
  have := key (st, j) 1 (Nat.le_refl 1) h
  rw [show 1 - 1 + os.length = os.length by omega] at this
  exact this

example : (persistCall memStorage (.retry .untilSuccess) (fun _ => none) (.new "x") pa
    [.rejected, .rejected]).attempts = 2 :=
  C09_pending_attempts _ _ _ _ _ _ (by decide)

end Verif.Persist
