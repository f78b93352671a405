import Verif.Singleton.JointBooks
import Verif.Singleton.JointBeats

namespace Verif.Singleton.Joint

open Verif.Remote.OneLeader (Conf Clu Up Good)

/-- what a manager does by itself. -/
def own : JOp → Option (Nat × MOp)
  | .boot i => some (i, .boot)
  | .startFails i => some (i, .startFails)
  | .started i a => some (i, .started a)
  | .exits i a => some (i, .exits a false)
  | _ => none

/-- the kinds of steps. -/
inductive Trans (C : Conf) (w : Sys) : JOp → Sys → Prop where
  | beat (o : Remote.OneLeader.Op) :
      Trans C w (.beat o) { w with clu := w.clu.step C o, bus := w.bus ++ published C w.clu o }
  | added (i j : Nat) : Trans C w (.added i j) { w with bus := w.bus ++ [(i, .added j)] }
  | removed (i j : Nat) : Trans C w (.removed i j) { w with bus := w.bus ++ [(i, .removed j)] }
  | build (i : Nat) : Trans C w (.build i) { w with made := fun k => if k = i then true else w.made k }
  | idle (op : JOp) (h : ∀ o, op ≠ .beat o) : Trans C w op w
  | miss (i : Nat) (e : News) (hm : w.made i = false) (hin : (i, e) ∈ w.bus) :
      Trans C w (.hear i e) { w with bus := w.bus.erase (i, e) }
  | lose (i : Nat) (m : MMsg) (hm : w.made i = false) (hin : (i, m) ∈ w.cl.net) :
      Trans C w (.recv i m) { w with cl := { w.cl with net := w.cl.net.erase (i, m) } }
  | hear (i : Nat) (e : News) (ha : Up w.clu i) (hm : w.made i = true) (hin : (i, e) ∈ w.bus) :
      Trans C w (.hear i e) (({ w with bus := w.bus.erase (i, e) } : Sys).mgrStep i e.op)
  | recv (i : Nat) (m : MMsg) (ha : Up w.clu i) (hm : w.made i = true) (hin : (i, m) ∈ w.cl.net) :
      Trans C w (.recv i m) (({ w with cl := { w.cl with net := w.cl.net.erase (i, m) } } : Sys).mgrStep i (.recv m))
  | own (op : JOp) (i : Nat) (mop : MOp) (ha : Up w.clu i) (hm : w.made i = true) (ho : own op = some (i, mop)) :
      Trans C w op (w.mgrStep i mop)

theorem alive_iff (w : Sys) (i : Nat) : w.alive i = true ↔ Up w.clu i := by
  simp [Sys.alive, Up]

theorem step_trans (C : Conf) (w : Sys) (op : JOp) : Trans C w op (w.step C op) := by
  have hown : ∀ op i mop, own op = some (i, mop) →
      w.step C op = (if w.alive i && w.made i then w.mgrStep i mop else w) → (∀ o, op ≠ .beat o) →
      Trans C w op (w.step C op) := by
    intro op i mop h1 h2 h3
    rw [h2]
    split
    · rename_i h
      simp only [Bool.and_eq_true] at h
      exact .own op i mop ((alive_iff w i).1 h.1) h.2 h1
    · exact .idle op h3
  cases op with
  | beat o => exact .beat o
  | added i j =>
    simp only [Sys.step]
    split
    · exact .added i j
    · exact .idle _ (by simp)
  | removed i j =>
    simp only [Sys.step]
    split
    · exact .removed i j
    · exact .idle _ (by simp)
  | build i =>
    simp only [Sys.step]
    split
    · exact .build i
    · exact .idle _ (by simp)
  | hear i e =>
    simp only [Sys.step]
    split
    · rename_i h
      simp only [Bool.and_eq_true, List.contains_iff_mem] at h
      split
      · rename_i hm
        exact .hear i e ((alive_iff w i).1 h.1) hm h.2
      · rename_i hm
        exact .miss i e (by simpa using hm) h.2
    · exact .idle _ (by simp)
  | recv i m =>
    simp only [Sys.step]
    split
    · rename_i h
      simp only [Bool.and_eq_true, List.contains_iff_mem] at h
      split
      · rename_i hm
        exact .recv i m ((alive_iff w i).1 h.1) hm h.2
      · rename_i hm
        exact .lose i m (by simpa using hm) h.2
    · exact .idle _ (by simp)
  | boot i => exact hown _ i .boot rfl rfl (by simp)
  | startFails i => exact hown _ i .startFails rfl rfl (by simp)
  | started i a => exact hown _ i (.started a) rfl rfl (by simp)
  | exits i a => exact hown _ i (.exits a false) rfl rfl (by simp)

theorem own_plain {op : JOp} {i : Nat} {mop : MOp} (h : own op = some (i, mop)) : plain mop = true ∧
    (∀ m, mop ≠ .recv m) ∧ (∀ l ms, mop ≠ .memberUp l ms) ∧ (∀ l, mop ≠ .leaderChanged l) ∧ (∀ a, mop ≠ .childStopped a) ∧
    (∀ n, mop ≠ .nodeAdded n) ∧ (∀ a b, mop = .exits a b → op = .exits i a) := by
  cases op <;> simp [own] at h <;> obtain ⟨rfl, rfl⟩ := h <;> simp [plain]

theorem op_plain (e : News) (h : ∀ j, e ≠ .removed j) : plain e.op = true := by
  cases e <;> first | rfl | exact absurd rfl (h _)

/-- a manager that is still joining and has nothing going on goes on so until it is told that it is up. -/
theorem joining_stays {σ : Mgr} {q : Option Nat} (h : σ.st = .joining q) (h1 : σ.starts = 0) (h2 : σ.results = [])
    {op : MOp} (h3 : ∀ l ms, op ≠ .memberUp l ms) :
    (∃ q', (σ.step (fun _ => true) op).1.st = .joining q') ∧ (σ.step (fun _ => true) op).1.starts = 0 ∧
      (σ.step (fun _ => true) op).1.results = [] := by
  cases op with
  | memberUp l ms => exact absurd rfl (h3 l ms)
  | leaderChanged n => simp [Mgr.step, h, MState.isJoining, h1, h2]
  | nodeAdded n => simp only [Mgr.step, Mgr.onNodeAdded]; split <;> exact ⟨⟨q, h⟩, h1, h2⟩
  | nodeRemoved n => simp [Mgr.step, Mgr.onNodeRemoved, h, h1, h2]
  | recv m =>
    cases m <;> simp [Mgr.step, Mgr.recv, Mgr.onRequest, Mgr.onAck, Mgr.grantLease, MState.isRunning, h, h1, h2]
  | boot => simp [Mgr.step, h, h1, h2]
  | startFails => simp [Mgr.step, h, h1, h2]
  | started a => simp [Mgr.step, h, h1, h2]
  | exits a c => simp only [Mgr.step]; split <;> exact ⟨⟨q, h⟩, h1, h2⟩
  | childStopped a =>
    simp only [Mgr.step]
    split
    · simp [Mgr.onChildStopped, h, h1, h2]
    · exact ⟨⟨q, h⟩, h1, h2⟩

/-! ### A node is told once that it is up -/

def isUp (i : Nat) : Nat × News → Bool
  | (k, .memberUp _ _) => k == i
  | _ => false

theorem isUp_iff {i : Nat} {x : Nat × News} : isUp i x = true ↔ ∃ l ms, x = (i, .memberUp l ms) := by
  obtain ⟨k, e⟩ := x
  cases e <;> simp [isUp]

/-- the manager of `i` will not be told (again) that it is up. -/
def Spent (w : Sys) (i : Nat) : Prop := (w.clu.hb i).up = true ∧ w.bus.countP (isUp i) = 0

structure Ups (w : Sys) : Prop where
  news : ∀ i, 0 < w.bus.countP (isUp i) → (w.clu.hb i).up = true
  one : ∀ i, w.bus.countP (isUp i) ≤ 1
  spent : ∀ i, (∀ p, (w.cl.mgr i).st ≠ .joining p) → Spent w i
  new : ∀ i p, (w.cl.mgr i).st = .joining p → (w.cl.mgr i).starts = 0 ∧ (w.cl.mgr i).results = []

theorem spent_no {w : Sys} {i : Nat} (h : Spent w i) (l : Nat) (ms : List Nat) : (i, News.memberUp l ms) ∉ w.bus := by
  intro hin
  have := List.countP_pos_iff.2 ⟨_, hin, isUp_iff.2 ⟨l, ms, rfl⟩⟩
  rw [h.2] at this
  omega

theorem Ups.init (C : Conf) : Ups (Sys.init C) := by
  refine ⟨?_, ?_, ?_, ?_⟩
  · intro i h; simp [Sys.init] at h
  · intro i; simp [Sys.init]
  · intro i h; exact absurd rfl (h none)
  · intro i p _; exact ⟨rfl, rfl⟩

theorem countP_erase {x : Nat × News} {l : List (Nat × News)} (h : x ∈ l) (p : Nat × News → Bool) :
    l.countP p = (if p x = true then 1 else 0) + (l.erase x).countP p := by
  rw [(List.perm_cons_erase h).countP_eq, List.countP_cons, Nat.add_comm]

/-- what a step of the heartbeats means for the news that a node is up. -/
theorem published_up {C : Conf} {c : Clu} (hg : Good C c) (o : Remote.OneLeader.Op) (k : Nat) :
    ((published C c o).countP (isUp k) = 0 ∧ ((c.step C o).hb k).up = (c.hb k).up) ∨
    ((published C c o).countP (isUp k) = 1 ∧ (c.hb k).up = false ∧ ((c.step C o).hb k).up = true) := by
  by_cases hk : ticks o = some k
  · obtain ⟨es, h1, _, h3⟩ := step_tells hg o hk
    rw [h1]
    have hlc : ∀ l, isUp k (k, News.leaderChanged l) = false := fun l => rfl
    have key : ∀ σ : Remote.Hb, σ.up = (c.hb k).up → ∀ u, Tells C.env C.hb k (fun _ => c.time C k) σ es u →
        (((es.map fun e => (k, News.of e)).countP (isUp k) = 0 ∧ u = (c.hb k).up) ∨
        ((es.map fun e => (k, News.of e)).countP (isUp k) = 1 ∧ (c.hb k).up = false ∧ u = true)) := by
      intro σ hσ u hu
      cases hu with
      | nothing => exact .inl ⟨by simp, hσ⟩
      | leader us l => exact .inl ⟨by simp [News.of, isUp], hσ⟩
      | up us l _ _ _ hup => exact .inr ⟨by simp [News.of, isUp], by rw [← hσ]; exact hup, rfl⟩
    rcases h3 with ⟨rfl, h3⟩ | ⟨j, _, h3⟩ | ⟨_, h3⟩
    · exact .inl ⟨by simp, h3⟩
    · exact key (marked (c.hb k) j) rfl _ h3
    · exact key (c.hb k) rfl _ h3
  · left
    refine ⟨?_, (step_still c o k hk).1⟩
    cases ht : ticks o with
    | none => rw [published_none c o ht]; rfl
    | some i =>
      obtain ⟨es, h1, _, _⟩ := step_tells hg o ht
      rw [h1, List.countP_eq_zero]
      intro x hx
      obtain ⟨e, _, rfl⟩ := List.mem_map.1 hx
      intro hu
      obtain ⟨l, ms, he⟩ := isUp_iff.1 hu
      have hik : i = k := congrArg Prod.fst he
      exact hk (hik ▸ ht)

theorem mgrStep_cl (w : Sys) (i : Nat) (op : MOp) : (w.mgrStep i op).cl = act w.cl w.cl.net i op := rfl

theorem Spent.keep {C : Conf} {w : Sys} (hg : Good C w.clu) {i : Nat} (h : Spent w i) {op : JOp} {w' : Sys}
    (ht : Trans C w op w') : Spent w' i := by
  have her : ∀ k e, (k, e) ∈ w.bus → (w.bus.erase (k, e)).countP (isUp i) = 0 := by
    intro k e hin
    have h1 := countP_erase hin (isUp i)
    rw [h.2] at h1
    split at h1 <;> omega
  cases ht with
  | beat o =>
    rcases published_up hg o i with ⟨h1, h2⟩ | ⟨_, h2, _⟩
    · exact ⟨by simp only; rw [h2]; exact h.1, by simp only [List.countP_append, h1, h.2]⟩
    · rw [h.1] at h2; cases h2
  | added k j => exact ⟨h.1, by simp [List.countP_append, h.2, isUp]⟩
  | removed k j => exact ⟨h.1, by simp [List.countP_append, h.2, isUp]⟩
  | build k => exact h
  | idle => exact h
  | miss k e hm hin => exact ⟨h.1, her k e hin⟩
  | lose k m => exact h
  | hear k e ha hm hin => exact ⟨h.1, her k e hin⟩
  | recv k m => exact h
  | own => exact h

theorem Ups.act {w : Sys} (h : Ups w) {i : Nat} {op : MOp} (hop : ∀ l ms, op ≠ .memberUp l ms) {v : Sys}
    (hm : v.cl.mgr = (w.mgrStep i op).cl.mgr) (hs : ∀ k, Spent w k → Spent v k)
    (hn : ∀ k, 0 < v.bus.countP (isUp k) → (v.clu.hb k).up = true) (h1 : ∀ k, v.bus.countP (isUp k) ≤ 1) : Ups v := by
  refine ⟨hn, h1, ?_, ?_⟩
  · intro k hk
    rw [hm] at hk
    apply hs
    apply h.spent
    intro p hp
    by_cases e : k = i
    · subst e
      obtain ⟨a, b⟩ := h.new k p hp
      obtain ⟨q, hq⟩ := (joining_stays hp a b hop).1
      rw [mgrStep_cl, act_self] at hk
      exact hk q hq
    · rw [mgrStep_cl, act_other _ _ _ e] at hk
      exact hk p hp
  · intro k p hk
    rw [hm] at hk ⊢
    by_cases e : k = i
    · subst e
      rw [mgrStep_cl, act_self] at hk ⊢
      cases hst : (w.cl.mgr k).st with
      | joining q =>
        obtain ⟨a, b⟩ := h.new k q hst
        exact (joining_stays hst a b hop).2
      | _ =>
        exfalso
        revert hk
        generalize w.cl.mgr k = σ at *
        cases op with
        | memberUp l ms => exact absurd rfl (hop l ms)
        | leaderChanged n =>
          simp only [Mgr.step, Mgr.onLeaderChanged]
          split
          · simp [hst]
          · split
            · unfold Mgr.beginStarting; split <;> simp [Mgr.startActor]
            · simp [hst]
        | nodeAdded n => simp only [Mgr.step, Mgr.onNodeAdded]; split <;> simp [hst]
        | nodeRemoved n => simp [Mgr.step, Mgr.onNodeRemoved, hst, Mgr.checkAcks] <;> split <;> simp [Mgr.startActor]
        | recv m =>
          cases m <;> simp [Mgr.step, Mgr.recv, Mgr.onRequest, Mgr.onAck, Mgr.grantLease, Mgr.beginStopping, MState.actor,
            MState.isRunning, hst, Mgr.checkAcks] <;> split <;> simp [Mgr.startActor]
        | boot => simp only [Mgr.step]; split <;> simp [Mgr.boot, hst]
        | startFails => simp [Mgr.step, hst]
        | started a => simp only [Mgr.step]; split <;> simp [Mgr.onStarted, hst]
        | exits a c => simp only [Mgr.step]; split <;> simp [hst]
        | childStopped a =>
          simp only [Mgr.step]
          split
          · simp [Mgr.onChildStopped, hst]
          · simp [hst]
    · rw [mgrStep_cl, act_other _ _ _ e] at hk ⊢
      exact h.new k p hk

theorem Ups.step {C : Conf} {w : Sys} (hg : Good C w.clu) (h : Ups w) {op : JOp} {w' : Sys} (ht : Trans C w op w') :
    Ups w' := by
  have hs := fun k (hk : Spent w k) => hk.keep hg ht
  have her : ∀ k e, (k, e) ∈ w.bus → ∀ j, (w.bus.erase (k, e)).countP (isUp j) ≤ w.bus.countP (isUp j) := by
    intro k e hin j
    have := countP_erase hin (isUp j)
    omega
  cases ht with
  | beat o =>
    refine ⟨?_, ?_, fun k hk => hs k (h.spent k hk), h.new⟩
    · intro k hk
      rcases published_up hg o k with ⟨h1, h2⟩ | ⟨_, _, h2⟩
      · simp only [List.countP_append, h1] at hk ⊢
        rw [h2]; exact h.news k (by omega)
      · exact h2
    · intro k
      have := h.one k
      rcases published_up hg o k with ⟨h1, h2⟩ | ⟨h1, h2, _⟩
      · simp only [List.countP_append, h1]; omega
      · simp only [List.countP_append, h1]
        rcases Nat.eq_zero_or_pos (w.bus.countP (isUp k)) with h0 | h0
        · omega
        · have := h.news k h0
          rw [h2] at this; cases this
  | added i j =>
    exact ⟨fun k hk => h.news k (by simpa [List.countP_append, isUp] using hk),
      fun k => by simpa [List.countP_append, isUp] using h.one k, fun k hk => hs k (h.spent k hk), h.new⟩
  | removed i j =>
    exact ⟨fun k hk => h.news k (by simpa [List.countP_append, isUp] using hk),
      fun k => by simpa [List.countP_append, isUp] using h.one k, fun k hk => hs k (h.spent k hk), h.new⟩
  | build i => exact ⟨h.news, h.one, fun k hk => hs k (h.spent k hk), h.new⟩
  | idle => exact h
  | miss i e hm hin =>
    exact ⟨fun k hk => h.news k (Nat.lt_of_lt_of_le hk (her i e hin k)), fun k => Nat.le_trans (her i e hin k) (h.one k),
      fun k hk => hs k (h.spent k hk), h.new⟩
  | lose i m hm hin => exact ⟨h.news, h.one, fun k hk => hs k (h.spent k hk), h.new⟩
  | recv i m ha hm hin =>
    exact h.act (i := i) (op := .recv m) (by simp) rfl hs h.news h.one
  | own op i mop ha hm ho =>
    exact h.act (i := i) (op := mop) (own_plain ho).2.2.1 rfl hs h.news h.one
  | hear i e ha hm hin =>
    have hn : ∀ k, 0 < (w.bus.erase (i, e)).countP (isUp k) → (w.clu.hb k).up = true :=
      fun k hk => h.news k (Nat.lt_of_lt_of_le hk (her i e hin k))
    have h1 : ∀ k, (w.bus.erase (i, e)).countP (isUp k) ≤ 1 := fun k => Nat.le_trans (her i e hin k) (h.one k)
    by_cases hu : ∃ l ms, e = .memberUp l ms
    · obtain ⟨l, ms, rfl⟩ := hu
      have hsp : Spent (({ w with bus := w.bus.erase (i, .memberUp l ms) } : Sys).mgrStep i (News.memberUp l ms).op) i := by
        have hc := countP_erase hin (isUp i)
        rw [if_pos (isUp_iff.2 ⟨l, ms, rfl⟩)] at hc
        have := h.one i
        exact ⟨h.news i (by omega), by show (w.bus.erase (i, .memberUp l ms)).countP (isUp i) = 0; omega⟩
      refine ⟨hn, h1, ?_, ?_⟩
      · intro k hk
        by_cases e : k = i
        · subst e; exact hsp
        · apply hs
          apply h.spent
          intro p hp
          rw [mgrStep_cl, act_other _ _ _ e] at hk
          exact hk p hp
      · intro k p hk
        by_cases e : k = i
        · subst e
          exfalso
          rw [mgrStep_cl, act_self] at hk
          simp only [News.op, Mgr.step, Mgr.onMemberUp] at hk
          split at hk
          · unfold Mgr.beginStarting at hk
            split at hk <;> simp [Mgr.startActor] at hk
          · simp at hk
        · rw [mgrStep_cl, act_other _ _ _ e] at hk ⊢
          exact h.new k p hk
    · refine h.act (i := i) (op := e.op) ?_ rfl hs hn h1
      intro l ms he
      cases e with
      | memberUp l ms => exact hu ⟨l, ms, rfl⟩
      | _ => simp [News.op] at he

end Verif.Singleton.Joint
