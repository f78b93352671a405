import Verif.Persist.CopiesModel
import Verif.Persist.ActorProps
import Verif.Util

/-!
# C90: what several copies of a persistent actor make of one journal

Specifications: `Ideal` is a shared list of events; each running copy knows the list as it was when the copy was started
and what it has added itself. `InTurn` says that copies do not overlap.
-/

namespace Verif.Persist.Copies

variable {ε σ : Type}

/-- the events a command leaves in the storage, acknowledged or not. -/
def Cmd.kept : Cmd ε → List ε
  | .event e .ok => [e]
  | .event e .lostAck => [e]
  | .events es .ok => es
  | .events es .lostAck => es
  | _ => []

/-- a shared list of events and what each running copy knows of it. -/
structure Ideal (ε : Type) where
  all : List ε := []
  known : Nat → Option (List ε) := fun _ => none

/-- a copy that starts knows all; what a running copy adds is known to itself. -/
def Ideal.step (i : Ideal ε) : Op ε → Ideal ε
  | .act c (.crash _) => { i with known := fun k => if k = c then some i.all else i.known k }
  | .act c cmd =>
    match i.known c with
    | none => i
    | some l => ⟨i.all ++ Cmd.kept cmd, fun k => if k = c then some (l ++ cmd.acked) else i.known k⟩
  | .ends c => { i with known := fun k => if k = c then none else i.known k }

def Ideal.run (ops : List (Op ε)) : Ideal ε := ops.foldl Ideal.step {}

def Op.isSave : Op ε → Bool
  | .act _ cmd => cmd.isSave
  | .ends _ => false

def Op.hold (h : Option Nat) : Op ε → Option Nat
  | .act c (.crash _) => some c
  | .act _ _ => h
  | .ends c => if h = some c then none else h

/-- the copy that was started last, unless it has ended. -/
def holder (ops : List (Op ε)) : Option Nat := ops.foldl Op.hold none

/-- no copy does anything after another has been started. -/
def InTurn (ops : List (Op ε)) : Prop :=
  ∀ pre c cmd post, ops = pre ++ .act c cmd :: post → (∀ n, cmd ≠ .crash n) → holder pre = some c

/-- the same as the life of one actor. -/
def Op.cmds : Op ε → List (Cmd ε)
  | .act _ cmd => [cmd]
  | .ends _ => []

def Op.Honest : Op ε → Prop
  | .act _ cmd => cmd.Honest
  | .ends _ => True

/-! ## Copies that take no snapshots -/

theorem run_snoc {τ : Type} (S : Storage τ) (A : App ε σ) (pid : String) (w : World τ σ) (ops : List (Op ε)) (op : Op ε) :
    w.run S A pid (ops ++ [op]) = (w.run S A pid ops).step S A pid op := by
  simp [World.run, List.foldl_append]

theorem Ideal.run_snoc (ops : List (Op ε)) (op : Op ε) : Ideal.run (ops ++ [op]) = (Ideal.run ops).step op := by
  simp [Ideal.run, List.foldl_append]

/-- what the storage holds and the copies have, and the ideal. -/
structure Match (A : App ε σ) (pid : String) (w : World MemStore σ) (i : Ideal ε) : Prop where
  snaps : snapsOf w.store pid = []
  msgs : (msgsOf w.store pid).map Entry.payload = i.all.map A.enc
  copies : ∀ c, w.state c = (i.known c).map fun l => l.foldl A.app A.init
  journals : ∀ c k, w.copies.get c = some k → k.journal.pid = pid ∧ k.journal.lastSnap = none

theorem payloads_numberBatch (n : Int) (ps : List Payload) : (numberBatch n ps).map Entry.payload = ps := by
  induction ps generalizing n with
  | nil => rfl
  | cons p ps ih => simp [numberBatch, ih, Entry.payload]

theorem Match.start {A : App ε σ} (hA : A.Lawful) {pid : String} {w : World MemStore σ} {i : Ideal ε}
    (h : Match A pid w i) (c n : Nat) :
    Match A pid (w.step memStorage A pid (.act c (.crash n))) (i.step (.act c (.crash n))) := by
  have hl := loadJournal_mem A.known w.store pid
  simp only [h.snaps, List.getLast?_nil, Option.map_none, Option.getD_none, memRead, if_true, h.msgs] at hl
  have hup := crash_state hA (A := A) (v := ⟨none, i.all.map A.enc⟩) (s := i.all.foldl A.app A.init)
    ⟨A.init, i.all, rfl, rfl, rfl⟩ n
  have hw : w.step memStorage A pid (.act c (.crash n)) =
      ⟨w.store, w.copies.insert c (⟨⟨pid, lastSeq 0 (msgsOf w.store pid), none⟩, i.all.foldl A.app A.init⟩ : Copy σ)⟩ := by
    show World.start memStorage A pid w c n = _
    unfold World.start
    rw [hl]
    simp only [hup]
  rw [hw]
  refine ⟨h.snaps, h.msgs, ?_, ?_⟩
  · intro k
    simp only [World.state, Ideal.step, Assoc.get_insert]
    by_cases e : k = c
    · simp [e]
    · simp only [e, if_false]
      exact h.copies k
  · intro k x hx
    simp only [Assoc.get_insert] at hx
    split at hx
    · cases hx; exact ⟨rfl, rfl⟩
    · exact h.journals k x hx

/-- one use of a journal by a copy without snapshots. -/
theorem use_mem {A : App ε σ} {pid : String} {st : MemStore} {j : Journal} (hp : j.pid = pid) (hs : j.lastSnap = none)
    (s : σ) (cmd : Cmd ε) (hc : ∀ n, cmd ≠ .crash n) (hsave : cmd.isSave = false) :
    let r := Sys.step memStorage ⟨st, fun _ => j⟩ pid (cmd.op A s)
    snapsOf r.store pid = snapsOf st pid ∧
    (msgsOf r.store pid).map Entry.payload = (msgsOf st pid).map Entry.payload ++ (Cmd.kept cmd).map A.enc ∧
    (r.journals pid).pid = pid ∧ (r.journals pid).lastSnap = none := by
  cases cmd with
  | crash n => exact absurd rfl (hc n)
  | save o => cases hsave
  | trim o => simp [Cmd.op, Sys.step, clearOldMessages, hs, Cmd.kept, hp]
  | event e o =>
    cases o <;> simp [Cmd.op, Sys.step, Sys.setJ, persistMessage, applyWrite, WriteOutcome.stored, WriteOutcome.acked,
      memStorage, hp, hs, Cmd.kept, snapsOf_writeMessage, msgsOf_writeMessage, Entry.payload]
  | events es o =>
    by_cases he : es = []
    · subst he; cases o <;> simp [Cmd.op, Sys.step, Sys.setJ, persistBatch, Cmd.kept, hp, hs]
    · cases o <;> simp [Cmd.op, Sys.step, Sys.setJ, persistBatch, he, journalPersistBatch, applyWrite,
        WriteOutcome.stored, WriteOutcome.acked, memStorage, hp, hs, Cmd.kept, snapsOf_writeBatch, msgsOf_writeBatch,
        payloads_numberBatch]

theorem after_acked (A : App ε σ) (s : σ) (cmd : Cmd ε) : after A s cmd = cmd.acked.foldl A.app s := by
  cases cmd with
  | event e o => cases o <;> rfl
  | events es o => cases o <;> rfl
  | save o => rfl
  | trim o => rfl
  | crash n => rfl

theorem step_use (S : Storage MemStore) (A : App ε σ) (pid : String) (w : World MemStore σ) (c : Nat) (cmd : Cmd ε)
    (hc : ∀ n, cmd ≠ .crash n) : w.step S A pid (.act c cmd) = w.use S A pid c cmd := by
  cases cmd with
  | crash n => exact absurd rfl (hc n)
  | _ => rfl

theorem Ideal.step_use (i : Ideal ε) (c : Nat) (cmd : Cmd ε) (hc : ∀ n, cmd ≠ .crash n) {l : List ε}
    (hl : i.known c = some l) :
    i.step (.act c cmd) = ⟨i.all ++ Cmd.kept cmd, fun k => if k = c then some (l ++ cmd.acked) else i.known k⟩ := by
  cases cmd with
  | crash n => exact absurd rfl (hc n)
  | _ => simp [Ideal.step, hl]

theorem Ideal.step_idle (i : Ideal ε) (c : Nat) (cmd : Cmd ε) (hc : ∀ n, cmd ≠ .crash n) (hl : i.known c = none) :
    i.step (.act c cmd) = i := by
  cases cmd with
  | crash n => exact absurd rfl (hc n)
  | _ => simp [Ideal.step, hl]

theorem Match.use {A : App ε σ} {pid : String} {w : World MemStore σ} {i : Ideal ε} (h : Match A pid w i) (c : Nat)
    (cmd : Cmd ε) (hc : ∀ n, cmd ≠ .crash n) (hs : cmd.isSave = false) :
    Match A pid (w.step memStorage A pid (.act c cmd)) (i.step (.act c cmd)) := by
  rw [Copies.step_use _ _ _ _ _ _ hc]
  unfold World.use
  have hst := h.copies c
  cases hg : w.copies.get c with
  | none =>
    simp only [World.state, hg, Option.map_none] at hst
    have hk : i.known c = none := by
      cases hk : i.known c with
      | none => rfl
      | some l => rw [hk] at hst; cases hst
    rw [Ideal.step_idle i c cmd hc hk]
    exact h
  | some k =>
    simp only [World.state, hg, Option.map_some] at hst
    cases hk : i.known c with
    | none => rw [hk] at hst; cases hst
    | some l =>
      rw [hk] at hst
      simp only [Option.map_some, Option.some.injEq] at hst
      rw [Ideal.step_use i c cmd hc hk]
      obtain ⟨hp, hls⟩ := h.journals c k hg
      obtain ⟨u1, u2, u3, u4⟩ := use_mem (A := A) (st := w.store) hp hls k.state cmd hc hs
      refine ⟨by simpa using u1.trans h.snaps, ?_, ?_, ?_⟩
      · simp only [List.map_append]
        rw [u2, h.msgs]
      · intro b
        simp only [World.state, Assoc.get_insert]
        by_cases e : b = c
        · simp [e, after_acked, hst, List.foldl_append]
        · simp only [e, if_false]
          exact h.copies b
      · intro b x hx
        simp only [Assoc.get_insert] at hx
        split at hx
        · cases hx; exact ⟨u3, u4⟩
        · exact h.journals b x hx

theorem Match.ends {A : App ε σ} {pid : String} {w : World MemStore σ} {i : Ideal ε} (h : Match A pid w i) (c : Nat) :
    Match A pid (w.step memStorage A pid (.ends c)) (i.step (.ends c)) := by
  refine ⟨h.snaps, h.msgs, ?_, ?_⟩
  · intro b
    simp only [World.state, World.step, Ideal.step, Assoc.get_erase]
    by_cases e : b = c
    · simp [e]
    · simp only [e, if_false]
      exact h.copies b
  · intro b x hx
    simp only [World.step, Assoc.get_erase] at hx
    split at hx
    · cases hx
    · exact h.journals b x hx

theorem match_run {A : App ε σ} (hA : A.Lawful) (pid : String) (ops : List (Op ε)) (hs : ∀ op ∈ ops, op.isSave = false) :
    Match A pid (World.mem A pid ops) (Ideal.run ops) := by
  unfold World.mem
  induction ops using snoc_induction with
  | nil => exact ⟨rfl, rfl, fun _ => rfl, fun _ _ h => by cases h⟩
  | snoc l op ih =>
    have h := ih fun o ho => hs o (List.mem_append_left _ ho)
    have hop := hs op (List.mem_append_right _ (List.mem_singleton.mpr rfl))
    rw [run_snoc, Ideal.run_snoc]
    cases op with
    | ends c => exact h.ends c
    | act c cmd =>
      by_cases hc : ∃ n, cmd = .crash n
      · obtain ⟨n, rfl⟩ := hc
        exact h.start hA c n
      · exact h.use c cmd (fun n e => hc ⟨n, e⟩) hop

/-! ## C90 -/

/-- However many copies of an actor that takes no snapshots are run over one in-memory journal, overlapping in any way,
with writes failing in any way: each running copy's state is what the events stored before it was started and then those
of its own that were acknowledged make of the initial state; in particular a copy started now has them all, in the order
in which they were stored. -/
theorem C90_copies {A : App ε σ} (hA : A.Lawful) (pid : String) (ops : List (Op ε))
    (hs : ∀ op ∈ ops, op.isSave = false) (c : Nat) :
    (World.mem A pid ops).state c = ((Ideal.run ops).known c).map fun l => l.foldl A.app A.init :=
  (match_run hA pid ops hs).copies c

/-- The same said of a copy started after a history. -/
theorem C90_next {A : App ε σ} (hA : A.Lawful) (pid : String) (ops : List (Op ε))
    (hs : ∀ op ∈ ops, op.isSave = false) (c n : Nat) :
    (World.mem A pid (ops ++ [.act c (.crash n)])).state c = some ((Ideal.run ops).all.foldl A.app A.init) := by
  have h := C90_copies hA pid (ops ++ [.act c (.crash n)])
    (by
      intro o ho
      rcases List.mem_append.mp ho with h | h
      · exact hs o h
      · rw [List.mem_singleton.mp h]; rfl) c
  rw [h, Ideal.run_snoc]
  simp [Ideal.step]

/-- What one copy writes is not known to another that is running: its state does not change. -/
theorem C90_blind {A : App ε σ} (pid : String) (ops : List (Op ε)) (c d : Nat) (cmd : Cmd ε) (h : c ≠ d) :
    (World.mem A pid (ops ++ [.act d cmd])).state c = (World.mem A pid ops).state c := by
  unfold World.mem
  rw [run_snoc]
  generalize World.run memStorage A pid _ ops = w
  by_cases hc : ∃ n, cmd = .crash n
  · obtain ⟨n, rfl⟩ := hc
    simp only [World.step, World.start, World.state]
    split
    · simp [Assoc.get_insert, h]
    · simp [Assoc.get_erase, h]
  · rw [step_use _ _ _ _ _ _ fun n e => hc ⟨n, e⟩]
    unfold World.use
    cases hg : w.copies.get d with
    | none => rfl
    | some k => simp [World.state, Assoc.get_insert, h]

/-! ### Copies in turn -/

theorem holder_snoc (ops : List (Op ε)) (op : Op ε) : holder (ops ++ [op]) = op.hold (holder ops) := by
  simp [holder, List.foldl_append]

theorem BatchAfterSave_append (flag : Bool) (a b : List (Cmd ε)) (h : BatchAfterSave flag (a ++ b) = true) :
    BatchAfterSave flag a = true ∧ BatchAfterSave (a.foldl Cmd.flag flag) b = true := by
  induction a generalizing flag with
  | nil => exact ⟨rfl, h⟩
  | cons c a ih =>
    rw [List.cons_append, BatchAfterSave_cons, Bool.and_eq_true] at h
    obtain ⟨h1, h2⟩ := ih _ h.2
    rw [BatchAfterSave_cons, h.1, h1]
    exact ⟨rfl, h2⟩

/-- the copies and one actor that lives all their lives. -/
structure Track (A : App ε σ) (pid : String) (w : World MemStore σ) (h : Option Nat) (s : σ) (flag : Bool) : Prop where
  same : ∃ l : Live σ, Fit A pid l s flag ∧ l.sys.store = w.store ∧
    ∀ c, h = some c → w.copies.get c = some ⟨l.sys.journals pid, s⟩

theorem Track.step {A : App ε σ} (hA : A.Lawful) {pid : String} {w : World MemStore σ} {h : Option Nat} {s : σ}
    {flag : Bool} (ht : Track A pid w h s flag) (c : Nat) (cmd : Cmd ε) (hh : (∀ n, cmd ≠ .crash n) → h = some c)
    (hon : cmd.Honest) (hb : BatchAfterSave flag [cmd] = true) :
    Track A pid (w.step memStorage A pid (.act c cmd)) (some c) (cmd.acked.foldl A.app s) (Cmd.flag flag cmd) := by
  obtain ⟨l, hf, hst, hcp⟩ := ht
  have hf' := hf.step hA cmd hon hb
  refine ⟨l.step A pid cmd, hf', ?_⟩
  by_cases hc : ∃ n, cmd = .crash n
  · obtain ⟨n, rfl⟩ := hc
    have hup := hf'.up
    simp only [Live.step, hf.up, Cmd.acked, List.foldl_nil] at hup
    simp only [Sys.recovered, hst] at hup
    simp only [World.step, World.start, hup, Live.step, hf.up, Cmd.op, Sys.step, Sys.setJ, Cmd.acked, List.foldl_nil]
    refine ⟨hst, ?_⟩
    intro d hd
    cases hd
    simp [Assoc.get_insert, hst]
  · have hc' : ∀ n, cmd ≠ .crash n := fun n e => hc ⟨n, e⟩
    have hg := hcp c (hh hc')
    have hsame : ∀ op : Persist.Op, (∀ K, op ≠ .restart K) →
        (Sys.step memStorage ⟨w.store, fun _ => l.sys.journals pid⟩ pid op).store = (l.sys.step memStorage pid op).store ∧
        (Sys.step memStorage ⟨w.store, fun _ => l.sys.journals pid⟩ pid op).journals pid =
          (l.sys.step memStorage pid op).journals pid := by
      intro op hop
      rw [← hst]
      cases op with
      | restart K => exact absurd rfl (hop K)
      | _ => simp [Sys.step, Sys.setJ]
    have hop : ∀ K, cmd.op A s ≠ .restart K := by
      intro K e
      cases cmd with
      | crash n => exact hc' n rfl
      | _ => cases e
    obtain ⟨e1, e2⟩ := hsame _ hop
    have hsys : (l.step A pid cmd).sys = l.sys.step memStorage pid (cmd.op A s) := by
      simp only [Live.step, hf.up]
      cases cmd <;> rfl
    rw [step_use _ _ _ _ _ _ hc', World.use, hg, hsys]
    refine ⟨e1.symm, ?_⟩
    intro d hd
    cases hd
    simp only [Assoc.get_insert, if_true]
    rw [e2, after_acked]

theorem track_run {A : App ε σ} (hA : A.Lawful) (pid : String) (ops : List (Op ε)) (ht : InTurn ops)
    (hon : ∀ op ∈ ops, op.Honest) (hb : BatchAfterSave false (ops.flatMap Op.cmds) = true) :
    Track A pid (World.mem A pid ops) (holder ops)
      (((ops.flatMap Op.cmds).flatMap Cmd.acked).foldl A.app A.init) ((ops.flatMap Op.cmds).foldl Cmd.flag false) := by
  unfold World.mem
  induction ops using snoc_induction with
  | nil => exact ⟨Live.init A, Fit.init A pid, rfl, fun c h => by cases h⟩
  | snoc l op ih =>
    have hb' : BatchAfterSave false (l.flatMap Op.cmds ++ op.cmds) = true := by simpa using hb
    obtain ⟨hb1, hb2⟩ := BatchAfterSave_append _ _ _ hb'
    have hI := ih (fun pre c cmd post e => ht pre c cmd (post ++ [op]) (by rw [e]; simp))
      (fun o ho => hon o (List.mem_append_left _ ho)) hb1
    have hop := hon op (List.mem_append_right _ (List.mem_singleton.mpr rfl))
    rw [run_snoc, holder_snoc]
    simp only [List.flatMap_append, List.flatMap_cons, List.flatMap_nil, List.append_nil, List.foldl_append]
    cases op with
    | ends c =>
      simp only [Op.cmds, List.flatMap_nil, List.foldl_nil]
      obtain ⟨lv, hf, hst, hcp⟩ := hI
      refine ⟨lv, hf, hst, ?_⟩
      intro d hd
      simp only [Op.hold] at hd
      split at hd
      · cases hd
      · rename_i hne
        simp only [World.step, Assoc.get_erase]
        rw [if_neg (by intro e; subst e; exact hne hd)]
        exact hcp d hd
    | act c cmd =>
      have := hI.step hA c cmd (fun hc => ht l c cmd [] rfl hc) hop hb2
      simp only [Op.cmds, List.flatMap_cons, List.flatMap_nil, List.append_nil, List.foldl_cons, List.foldl_nil]
      have hh : (Op.act c cmd).hold (holder l) = some c := by
        by_cases hc : ∃ n, cmd = .crash n
        · obtain ⟨n, rfl⟩ := hc; rfl
        · have h2 := ht l c cmd [] rfl fun n e => hc ⟨n, e⟩
          cases cmd with
          | crash n => rfl
          | _ => exact h2
      rw [hh]
      exact this

/-- Where no copy does anything after another has been started, the copies are as one actor: the state of the last one
started is what all events acknowledged to any of them make of the initial state. With snapshots this needs the first
events after each of them to be written as a batch, as for one actor (`C63_refuted`). What is missing from the claim is
copies that overlap, of which it is refuted below. -/
theorem C90_handover_partial {A : App ε σ} (hA : A.Lawful) (pid : String) (ops : List (Op ε)) (ht : InTurn ops)
    (hon : ∀ op ∈ ops, op.Honest) (hb : BatchAfterSave false (ops.flatMap Op.cmds) = true) (c : Nat)
    (hc : holder ops = some c) :
    (World.mem A pid ops).state c = some (((ops.flatMap Op.cmds).flatMap Cmd.acked).foldl A.app A.init) := by
  obtain ⟨l, _, _, hcp⟩ := track_run hA pid ops ht hon hb
  simp [World.state, hcp c hc]

/-! ## Cases and refutations -/

/-- one copy after another. -/
def relay : List (Op Nat) := [.act 0 (.crash 0), .act 0 (.event 3 .ok), .ends 0, .act 1 (.crash 2),
  .act 1 (.events [1, 1] .ok), .act 1 (.save .ok), .act 2 (.crash 0), .act 2 (.events [4] .ok)]

example : holder relay = some 2 ∧ (World.mem counter "c" relay).state 2 = some 9 := by decide

theorem relay_inTurn : InTurn relay := by
  intro pre c cmd post h hc
  unfold relay at h
  rcases pre with _ | ⟨a0, _ | ⟨a1, _ | ⟨a2, _ | ⟨a3, _ | ⟨a4, _ | ⟨a5, _ | ⟨a6, _ | ⟨a7, pre⟩⟩⟩⟩⟩⟩⟩⟩ <;>
    simp only [List.nil_append, List.cons_append, List.cons.injEq, Op.act.injEq, reduceCtorEq, false_and, and_false] at h
  · exact absurd h.1.2.symm (hc 0)
  · obtain ⟨rfl, ⟨rfl, _⟩, _⟩ := h; rfl
  · obtain ⟨_, _, _, ⟨_, h⟩, _⟩ := h; exact absurd h.symm (hc 2)
  · obtain ⟨rfl, rfl, rfl, rfl, ⟨rfl, _⟩, _⟩ := h; rfl
  · obtain ⟨rfl, rfl, rfl, rfl, rfl, ⟨rfl, _⟩, _⟩ := h; rfl
  · obtain ⟨_, _, _, _, _, _, ⟨_, h⟩, _⟩ := h; exact absurd h.symm (hc 0)
  · obtain ⟨rfl, rfl, rfl, rfl, rfl, rfl, rfl, ⟨rfl, _⟩, _⟩ := h; rfl
  · obtain ⟨_, _, _, _, _, _, _, _, h⟩ := h
    exact absurd h (by simp)

example : BatchAfterSave false (relay.flatMap Op.cmds) = true := by decide

/-- two copies of a counter. -/
def pair : List (Op Nat) := [.act 0 (.crash 0), .act 1 (.crash 0)]

/-- Two running copies do not agree: each has its own events only. -/
theorem C90_disagree_refuted : ∃ ops : List (Op Nat), (∀ op ∈ ops, op.isSave = false) ∧
    (World.mem counter "c" ops).state 0 = some 3 ∧ (World.mem counter "c" ops).state 1 = some 5 ∧
    (World.mem counter "c" (ops ++ [.act 2 (.crash 0)])).state 2 = some 8 :=
  ⟨pair ++ [.act 0 (.event 3 .ok), .act 1 (.event 5 .ok)], by simp [pair, Op.isSave, Cmd.isSave], by decide, by decide,
    by decide⟩

/-- Two copies give their events the same numbers; reading the message of a number finds only the first. -/
theorem C90_numbers_refuted : ∃ ops : List (Op Nat),
    (msgsOf (World.mem counter "c" ops).store "c").map (·.seq) = [0, 0] ∧
    (memReadMessage (World.mem counter "c" ops).store "c" 0).map (·.payload) = some (counter.enc 3) :=
  ⟨pair ++ [.act 0 (.event 3 .ok), .act 1 (.event 5 .ok)], by decide, by decide⟩

/-- A snapshot loses what another copy wrote: it was taken without knowing of it, and what it stands for is counted by
the number its own copy has reached. -/
theorem C90_snapshot_refuted : ∃ ops : List (Op Nat), BatchAfterSave false (ops.flatMap Op.cmds) = true ∧
    ((ops.flatMap Op.cmds).flatMap Cmd.acked).sum = 8 ∧
    (World.mem counter "c" (ops ++ [.act 2 (.crash 0)])).state 2 = some 3 :=
  ⟨pair ++ [.act 1 (.events [5] .ok), .act 0 (.events [3] .ok), .act 0 (.save .ok)], by decide, by decide, by decide⟩

/-- A snapshot makes events count twice: those its copy wrote are behind some of higher numbers of another copy, and are
read again. -/
theorem C90_twice_refuted : ∃ ops : List (Op Nat), BatchAfterSave false (ops.flatMap Op.cmds) = true ∧
    ((ops.flatMap Op.cmds).flatMap Cmd.acked).sum = 13 ∧
    (World.mem counter "c" (ops ++ [.act 2 (.crash 0)])).state 2 = some 21 :=
  ⟨pair ++ [.act 1 (.events [0, 0, 5] .ok), .act 0 (.events [8] .ok), .act 0 (.save .ok)], by decide, by decide, by decide⟩

/-- Trimming removes what another copy wrote and no snapshot holds: it goes by the number of the trimming copy's own last
snapshot. -/
theorem C90_trim_refuted : ∃ ops : List (Op Nat), BatchAfterSave false (ops.flatMap Op.cmds) = true ∧
    (World.mem counter "c" (ops ++ [.act 2 (.crash 0)])).state 2 = some 5 ∧
    (World.mem counter "c" (ops ++ [.act 1 (.trim .ok), .act 2 (.crash 0)])).state 2 = some 0 :=
  ⟨pair ++ [.act 1 (.save .ok), .act 1 (.save .ok), .act 1 (.save .ok), .act 0 (.save .ok), .act 0 (.events [5] .ok)],
    by decide, by decide, by decide⟩

/-- Over Redis two copies that write the same event store it once: both writes are acknowledged, one is lost, with no
snapshot taken. -/
theorem C90_redis_once_refuted : ∃ ops : List (Op Nat), (∀ op ∈ ops, op.isSave = false) ∧
    ((ops.flatMap Op.cmds).flatMap Cmd.acked).sum = 6 ∧
    (World.redis counter "c" (ops ++ [.act 2 (.crash 0)])).state 2 = some 3 :=
  ⟨pair ++ [.act 0 (.event 3 .ok), .act 1 (.event 3 .ok)], by simp [pair, Op.isSave, Cmd.isSave], by decide,
    by decide +kernel⟩

end Verif.Persist.Copies
