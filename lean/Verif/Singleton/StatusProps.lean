import Verif.Singleton.StatusModel
import Verif.Singleton.ManagerSpec
import Verif.Singleton.CodecProps

/-! Properties of the status a singleton manager reports. -/

namespace Verif.Singleton.Status

open Verif.Singleton.Wire
open Verif.Remote (ReadRes)

/-! ### Specification -/

/-- nothing of the singleton is on the node: none runs, none is being started, and the manager has nothing of an earlier
one to hear. -/
def Clear (σ : Mgr) : Prop := σ.starts = 0 ∧ σ.live = [] ∧ σ.results = [] ∧ σ.ended = []

/-- the manager starts the singleton only when nothing of it is on the node, and is told once that its node is up. -/
def Orderly (sel : Nat → Bool) : Mgr → List MOp → Prop
  | _, [] => True
  | σ, op :: ops => (σ.launches sel op = true → Clear σ) ∧ (∀ l ns, op = .memberUp l ns → σ.st.isJoining = true) ∧
    Orderly sel (σ.next sel op) ops

/-! ### Lemmas -/

structure Inv (σ : Mgr) : Prop where
  one : σ.starts + σ.live.length + σ.ended.length ≤ 1
  two : σ.starts + σ.results.length ≤ 1
  rest : σ.st = .idle ∨ σ.st.isJoining = true → Clear σ
  has : σ.st.actor ≠ none → σ.starts = 0 ∧ σ.results = []

theorem inv_next (sel : Nat → Bool) {σ : Mgr} (op : MOp) (h : Inv σ) (hl : σ.launches sel op = true → Clear σ)
    (hm : ∀ l ns, op = .memberUp l ns → σ.st.isJoining = true) : Inv (σ.next sel op) := by
  obtain ⟨h1, h2, h3, h4⟩ := h
  have hz : ∀ l : List Nat, l.length = 0 → l = [] := fun l => List.length_eq_zero_iff.mp
  have he : ∀ (l : List Nat) a, a ∈ l → (l.erase a).length + 1 = l.length := by
    intro l a ha
    have := List.length_erase_of_mem ha
    have := List.length_pos_of_mem ha
    omega
  cases op with
  | memberUp l ns =>
    have := h3 (.inr (hm l ns rfl))
    obtain ⟨c1, c2, c3, c4⟩ := this
    simp only [Mgr.next, Mgr.step, Mgr.onMemberUp, Mgr.beginStarting, Mgr.startActor]
    split
    · split <;> constructor <;> simp [c1, c2, c3, c4, MState.isJoining, MState.actor]
    · constructor <;> simp [c1, c2, c3, c4, MState.isJoining, MState.actor, Clear]
  | leaderChanged n =>
    simp only [Mgr.launches, Mgr.next, Mgr.step] at hl ⊢
    split
    · exact ⟨h1, h2, h3, h4⟩
    · rename_i hj
      simp only [hj, if_false, Mgr.onLeaderChanged, Mgr.beginStarting, Mgr.startActor] at hl ⊢
      split
      · rename_i hc
        simp only [hc, and_self, if_true] at hl
        split
        · rename_i hm0
          simp only [hm0, if_true] at hl
          obtain ⟨c1, c2, c3, c4⟩ := hl (by simp)
          constructor <;> simp [c1, c2, c3, c4, MState.isJoining, MState.actor]
        · constructor <;> simp [MState.isJoining, MState.actor] <;> omega
      · exact ⟨h1, h2, h3, h4⟩
  | nodeAdded n =>
    simp only [Mgr.next, Mgr.step, Mgr.onNodeAdded]
    split
    · exact ⟨h1, h2, h3, h4⟩
    · exact ⟨h1, h2, h3, h4⟩
  | nodeRemoved n =>
    simp only [Mgr.launches, Mgr.next, Mgr.step, Mgr.onNodeRemoved] at hl ⊢
    split
    · rename_i acked hs
      simp only [hs, Mgr.checkAcks, Mgr.startActor] at hl ⊢
      split
      · rename_i hm0
        rw [if_pos hm0] at hl
        obtain ⟨c1, c2, c3, c4⟩ := hl (by simp)
        constructor <;> simp [c1, c2, c3, c4, MState.isJoining, MState.actor]
      · constructor <;> simp [MState.isJoining, MState.actor] <;> omega
    · exact ⟨h1, h2, h3, h4⟩
  | recv m =>
    cases m with
    | request n =>
      simp only [Mgr.next, Mgr.step, Mgr.recv, Mgr.onRequest]
      split
      · simp only [Mgr.beginStopping]
        split
        · exact ⟨h1, h2, h3, h4⟩
        · rename_i a ha
          have := h4 (by simp [ha])
          constructor <;> simp [MState.isJoining, MState.actor, this] <;> omega
      · simp only [Mgr.grantLease]
        split
        · rename_i p hs
          obtain ⟨c1, c2, c3, c4⟩ := h3 (.inr (by simp [hs, MState.isJoining]))
          constructor <;> simp [c1, c2, c3, c4, MState.actor, Clear]
        · exact ⟨h1, h2, h3, h4⟩
    | ack n =>
      simp only [Mgr.launches, Mgr.next, Mgr.step, Mgr.recv, Mgr.onAck] at hl ⊢
      split
      · rename_i acked hs
        simp only [hs, Mgr.checkAcks, Mgr.startActor] at hl ⊢
        split
        · rename_i hm0
          rw [if_pos hm0] at hl
          obtain ⟨c1, c2, c3, c4⟩ := hl (by simp)
          constructor <;> simp [c1, c2, c3, c4, MState.isJoining, MState.actor]
        · constructor <;> simp [MState.isJoining, MState.actor] <;> omega
      · exact ⟨h1, h2, h3, h4⟩
    | started n => exact ⟨h1, h2, h3, h4⟩
    | stopped n => exact ⟨h1, h2, h3, h4⟩
  | boot =>
    simp only [Mgr.next, Mgr.step]
    split
    · exact ⟨h1, h2, h3, h4⟩
    · rename_i hs
      refine ⟨?_, ?_, fun h => absurd (h3 h).1 hs, fun h => absurd (h4 h).1 hs⟩
      · simp only [Mgr.boot, List.length_append, List.length_cons, List.length_nil]; omega
      · simp only [Mgr.boot, List.length_append, List.length_cons, List.length_nil]; omega
  | startFails =>
    simp only [Mgr.next, Mgr.step]
    refine ⟨by dsimp only; omega, by dsimp only; omega, fun h => ?_, fun h => ?_⟩
    · obtain ⟨c1, c2, c3, c4⟩ := h3 h
      exact ⟨by simp [c1], c2, c3, c4⟩
    · obtain ⟨c1, c2⟩ := h4 h
      exact ⟨by simp [c1], c2⟩
  | started a =>
    simp only [Mgr.next, Mgr.step]
    split
    · rename_i ha
      have := he _ a ha
      simp only [Mgr.onStarted]
      refine ⟨h1, by dsimp only; omega, by simp [MState.isJoining], fun _ => ⟨by dsimp only; omega, hz _ (by dsimp only; omega)⟩⟩
    · exact ⟨h1, h2, h3, h4⟩
  | exits a child =>
    simp only [Mgr.next, Mgr.step]
    split
    · rename_i ha
      have := he _ a ha
      refine ⟨?_, h2, fun h => ?_, h4⟩
      · dsimp only
        split <;> (try simp only [List.length_append, List.length_cons, List.length_nil]) <;> omega
      · obtain ⟨c1, c2, c3, c4⟩ := h3 h
        rw [c2] at ha; cases ha
    · exact ⟨h1, h2, h3, h4⟩
  | childStopped a =>
    simp only [Mgr.next, Mgr.step]
    split
    · rename_i ha
      have := he _ a ha
      simp only [Mgr.onChildStopped]
      split
      · rename_i b n hs
        obtain ⟨c1, c2⟩ := h4 (by simp [hs, MState.actor])
        have hc : Clear { σ with ended := σ.ended.erase a, st := .idle } :=
          ⟨c1, hz _ (by dsimp only; omega), c2, hz _ (by dsimp only; omega)⟩
        have e : (({ σ with ended := σ.ended.erase a } : Mgr).grantLease n).1 = { σ with ended := σ.ended.erase a } := by
          simp [Mgr.grantLease, hs]
        simp only [e]
        refine ⟨by dsimp only; omega, h2, fun _ => hc, fun h => absurd rfl h⟩
      · refine ⟨by dsimp only; omega, h2, fun h => ?_, h4⟩
        obtain ⟨d1, d2, d3, d4⟩ := h3 h
        rw [d4] at ha; cases ha
    · exact ⟨h1, h2, h3, h4⟩

theorem inv_run (sel : Nat → Bool) {σ : Mgr} (ops : List MOp) (h : Inv σ) (ho : Orderly sel σ ops) :
    Inv (σ.run sel ops) := by
  induction ops generalizing σ with
  | nil => exact h
  | cons op ops ih => exact ih (inv_next sel op h ho.1 ho.2.1) ho.2.2

/-- the manager's instance, and those it is to hear of, were started; one that was started runs unless it is among the
given ones. -/
structure Born (σ : Mgr) (gone : List Nat) : Prop where
  live : ∀ a, a < σ.fresh → a ∈ σ.live ∨ a ∈ gone
  results : ∀ a ∈ σ.results, a < σ.fresh
  actor : ∀ a, σ.st.actor = some a → a < σ.fresh

/-- the instances that end in a run. -/
def gone (sel : Nat → Bool) : Mgr → List MOp → List Nat
  | _, [] => []
  | σ, op :: ops =>
    (match op with
      | .exits a _ => if a ∈ σ.live then [a] else []
      | _ => []) ++ gone sel (σ.next sel op) ops

theorem plain_next (sel : Nat → Bool) (σ : Mgr) (op : MOp) (h1 : op ≠ .boot) (h2 : ∀ a, op ≠ .started a)
    (h3 : ∀ a c, op ≠ .exits a c) :
    (σ.next sel op).fresh = σ.fresh ∧ (σ.next sel op).live = σ.live ∧ (σ.next sel op).results = σ.results ∧
    ∀ a, (σ.next sel op).st.actor = some a → σ.st.actor = some a := by
  cases op with
  | boot => exact absurd rfl h1
  | started a => exact absurd rfl (h2 a)
  | exits a c => exact absurd rfl (h3 a c)
  | recv m =>
    cases m <;>
    grind [Mgr.next, Mgr.step, Mgr.recv, Mgr.onRequest, Mgr.beginStopping, Mgr.grantLease, Mgr.onAck, Mgr.checkAcks,
      Mgr.startActor, MState.actor]
  | memberUp l ns => grind [Mgr.next, Mgr.step, Mgr.onMemberUp, Mgr.beginStarting, Mgr.startActor, MState.actor]
  | leaderChanged n => grind [Mgr.next, Mgr.step, Mgr.onLeaderChanged, Mgr.beginStarting, Mgr.startActor, MState.actor]
  | nodeAdded n => grind [Mgr.next, Mgr.step, Mgr.onNodeAdded]
  | nodeRemoved n => grind [Mgr.next, Mgr.step, Mgr.onNodeRemoved, Mgr.checkAcks, Mgr.startActor, MState.actor]
  | startFails => grind [Mgr.next, Mgr.step]
  | childStopped a => grind [Mgr.next, Mgr.step, Mgr.onChildStopped, Mgr.grantLease, MState.actor]

theorem born_run (sel : Nat → Bool) (ops : List MOp) : ∀ {σ : Mgr} {g : List Nat}, Born σ g →
    Born (σ.run sel ops) (g ++ gone sel σ ops) := by
  induction ops with
  | nil => intro σ g h; simpa [gone, Mgr.run] using h
  | cons op ops ih =>
    intro σ g h
    have key : Born (σ.next sel op) (g ++ (match op with
      | .exits a _ => if a ∈ σ.live then [a] else []
      | _ => [])) := by
      obtain ⟨k1, k2, k3⟩ := h
      by_cases b1 : op = .boot
      · subst b1
        simp only [Mgr.next, Mgr.step, List.append_nil]
        split
        · exact ⟨k1, k2, k3⟩
        · refine ⟨?_, ?_, ?_⟩
          · intro a ha
            simp only [Mgr.boot, List.mem_append, List.mem_singleton] at ha ⊢
            by_cases e : a = σ.fresh
            · exact .inl (.inr e)
            · rcases k1 a (by omega) with h | h
              · exact .inl (.inl h)
              · exact .inr h
          · intro a ha
            simp only [Mgr.boot, List.mem_append, List.mem_singleton] at ha ⊢
            rcases ha with ha | ha
            · have := k2 a ha; omega
            · omega
          · intro a ha
            have := k3 a ha
            simp only [Mgr.boot]; omega
      by_cases b2 : ∃ a, op = .started a
      · obtain ⟨a, rfl⟩ := b2
        simp only [Mgr.next, Mgr.step, List.append_nil]
        split
        · rename_i ha
          refine ⟨k1, fun b hb => k2 b (List.mem_of_mem_erase hb), ?_⟩
          intro b hb
          simp only [Mgr.onStarted, MState.actor, Option.some.injEq] at hb
          subst hb
          exact k2 a ha
        · exact ⟨k1, k2, k3⟩
      by_cases b3 : ∃ a c, op = .exits a c
      · obtain ⟨a, c, rfl⟩ := b3
        simp only [Mgr.next, Mgr.step]
        split
        · refine ⟨?_, k2, k3⟩
          intro b hb
          simp only [List.mem_append, List.mem_singleton]
          rcases k1 b hb with h | h
          · by_cases e : b = a
            · exact .inr (.inr e)
            · exact .inl ((List.mem_erase_of_ne e).mpr h)
          · exact .inr (.inl h)
        · simpa using ⟨k1, k2, k3⟩
      obtain ⟨e1, e2, e3, e4⟩ := plain_next sel σ op b1 (fun a e => b2 ⟨a, e⟩) (fun a c e => b3 ⟨a, c, e⟩)
      refine ⟨?_, ?_, ?_⟩
      · intro a ha
        rw [e2]; rw [e1] at ha
        rcases k1 a ha with h | h
        · exact .inl h
        · exact .inr (List.mem_append_left _ h)
      · intro a ha
        rw [e3] at ha; rw [e1]; exact k2 a ha
      · intro a ha
        rw [e1]; exact k3 a (e4 a ha)
    have := ih key
    simp only [gone, ← List.append_assoc]
    exact this

theorem gone_spec (sel : Nat → Bool) (a : Nat) : ∀ (ops : List MOp) {σ : Mgr}, a ∈ gone sel σ ops →
    ∃ pre c post, ops = pre ++ .exits a c :: post ∧ a ∈ (σ.run sel pre).live := by
  intro ops
  induction ops with
  | nil => intro σ h; cases h
  | cons op ops ih =>
    intro σ h
    simp only [gone, List.mem_append] at h
    rcases h with h | h
    · cases op with
      | exits b c =>
        dsimp only at h
        split at h
        · simp only [List.mem_singleton] at h
          subst h
          exact ⟨[], c, ops, rfl, ‹_›⟩
        · cases h
      | _ => cases h
    · obtain ⟨pre, c, post, e, hl⟩ := ih h
      exact ⟨op :: pre, c, post, by rw [e]; rfl, hl⟩

/-! ### Properties -/

/-- The status is what the manager is at, the answer is read as it was written, and asking changes nothing. -/
theorem C125_status (σ : Mgr) :
    statusRead σ = .ok (statusOf σ.st) ∧ (onGetStatus σ).1 = σ ∧
    (statusOf σ.st = .running ↔ ∃ a, σ.st = .running a) ∧ (statusOf σ.st = .stopping ↔ ∃ a n, σ.st = .stopping a n) ∧
    (statusOf σ.st = .starting ↔ ∃ l, σ.st = .starting l) ∧ (statusOf σ.st = .joining ↔ ∃ p, σ.st = .joining p) ∧
    (statusOf σ.st = .idle ↔ σ.st = .idle) := by
  refine ⟨C62_status _, rfl, ?_⟩
  cases σ.st <;> simp [statusOf]

/-- A manager reports `Running` or `Stopping` only of an instance that it has started and that runs, or has ended since. -/
theorem C125_running_partial (sel : Nat → Bool) (n : Nat) (ops : List MOp) :
    let σ := (Mgr.init n).run sel ops
    (statusOf σ.st = .running ∨ statusOf σ.st = .stopping) → ∃ a, σ.st.actor = some a ∧ a < σ.fresh ∧
      (a ∈ σ.live ∨ ∃ pre c post, ops = pre ++ .exits a c :: post ∧ a ∈ ((Mgr.init n).run sel pre).live) := by
  intro σ h
  have hb : Born σ ([] ++ gone sel (Mgr.init n) ops) :=
    born_run sel ops ⟨fun a ha => absurd ha (by simp [Mgr.init]), by simp [Mgr.init], by simp [Mgr.init, MState.actor]⟩
  have ⟨a, ha⟩ : ∃ a, σ.st.actor = some a := by
    revert h
    cases σ.st <;> simp [statusOf, MState.actor]
  refine ⟨a, ha, hb.actor a ha, ?_⟩
  rcases hb.live a (hb.actor a ha) with hl | hg
  · exact .inl hl
  · exact .inr (gone_spec sel a ops (by simpa using hg))

/-- A manager that reports `Joining` or `Idle` has nothing of the singleton on its node, provided it never starts a second
one while there is something of the first. -/
theorem C125_none_partial (sel : Nat → Bool) (n : Nat) (ops : List MOp) (ho : Orderly sel (Mgr.init n) ops) :
    let σ := (Mgr.init n).run sel ops
    (statusOf σ.st = .joining ∨ statusOf σ.st = .idle) → σ.live = [] ∧ σ.starts = 0 ∧ σ.results = [] := by
  intro σ h
  have hi : Inv σ := inv_run sel ops ⟨by simp [Mgr.init], by simp [Mgr.init], fun _ => ⟨rfl, rfl, rfl, rfl⟩,
    by simp [Mgr.init, MState.actor]⟩ ho
  have := hi.rest (by
    revert h
    cases σ.st <;> simp [statusOf, MState.isJoining])
  exact ⟨this.2.1, this.1, this.2.2.1⟩

/-- Under the same condition at most one instance runs on the node. -/
theorem C125_one_partial (sel : Nat → Bool) (n : Nat) (ops : List MOp) (ho : Orderly sel (Mgr.init n) ops) :
    ((Mgr.init n).run sel ops).live.length ≤ 1 := by
  have hi : Inv ((Mgr.init n).run sel ops) := inv_run sel ops ⟨by simp [Mgr.init], by simp [Mgr.init],
    fun _ => ⟨rfl, rfl, rfl, rfl⟩, by simp [Mgr.init, MState.actor]⟩ ho
  have := hi.one
  omega

/-- That `Running` means that the singleton runs is not so: when the instance ends by itself and the manager is told, it
goes on reporting `Running`. -/
theorem C125_dead_refuted (sel : Nat → Bool) (σ : Mgr) (a : Nat) (hs : σ.st = .running a) (hl : σ.live = [a]) :
    let τ := σ.run sel [.exits a true, .childStopped a]
    statusOf τ.st = .running ∧ τ.live = [] := by
  simp [Mgr.run, Mgr.next, Mgr.step, hl, hs, Mgr.onChildStopped, statusOf]

/-- That `Idle` means that it does not run is not so: after a repeated acknowledgement two were started, the manager stops
the second for another node, and reports `Idle` while the first runs. -/
theorem C125_idle_refuted : ∃ ops,
    let σ := (Mgr.init 1).run (fun _ => true) ops
    statusOf σ.st = .idle ∧ σ.live = [0] ∧ σ.starts = 0 ∧ σ.results = [] ∧ σ.ended = [] :=
  ⟨[.memberUp 1 [1, 2], .recv (.ack 2), .recv (.ack 2), .boot, .boot, .started 0, .started 1, .recv (.request 2),
    .exits 1 true, .childStopped 1], by decide⟩

/-- That `Starting` means that it will run is not so: after a failed start nothing is under way. -/
theorem C125_starting_refuted : ∃ ops,
    let σ := (Mgr.init 1).run (fun _ => true) ops
    statusOf σ.st = .starting ∧ Clear σ :=
  ⟨[.memberUp 1 [1], .startFails], by refine ⟨by decide, ?_⟩; unfold Clear; decide⟩

/-- Another node cannot ask: whatever bytes it sends, they are not read as `GetStatus`. -/
theorem C125_remote_refuted (b : List UInt8) : ¬ ∃ m, getStatusFromBytes b = .ok m := by
  rintro ⟨m, h⟩; cases h

/-! Cases. -/

/-- a singleton is taken over, runs, is handed on, and taken over again. -/
def handedOn : List MOp :=
  [.memberUp 1 [1, 2], .recv (.ack 2), .boot, .started 0, .recv (.request 2), .exits 0 true, .childStopped 0,
   .leaderChanged 1, .recv (.ack 2), .boot]

example : Orderly (fun _ => true) (Mgr.init 1) handedOn := by
  simp only [handedOn, Orderly, Clear]
  refine ⟨?_, ?_, ?_, ?_, ?_, ?_, ?_, ?_, ?_, ?_, ?_, ?_, ?_, ?_, ?_, ?_, ?_, ?_, ?_, ?_, trivial⟩ <;>
    first | decide | (intro l ns e; first | rfl | cases e)

example : ((List.range 11).map fun k => statusOf ((Mgr.init 1).run (fun _ => true) (handedOn.take k)).st) =
    [.joining, .starting, .starting, .starting, .running, .stopping, .stopping, .idle, .starting, .starting, .starting] := by
  decide

example : ((Mgr.init 1).run (fun _ => true) (handedOn.take 4)).st = .running 0 ∧
    ((Mgr.init 1).run (fun _ => true) (handedOn.take 4)).live = [0] := by decide

end Verif.Singleton.Status
