import Verif.Singleton.JointSteps

namespace Verif.Singleton.Joint

open Verif.Remote.OneLeader (Conf Clu Up Answered Before Good)

/-! ### Single managers -/

/-- a manager that neither runs nor starts anything. -/
structure AtRest (σ : Mgr) : Prop where
  st : (∃ p, σ.st = .joining p) ∨ σ.st = .idle
  starts : σ.starts = 0
  results : σ.results = []
  live : σ.live = []

theorem rest_step {σ : Mgr} (h : AtRest σ) {op : MOp} (h1 : ∀ ms, op ≠ .memberUp σ.self ms)
    (h2 : op ≠ .leaderChanged σ.self) (h3 : ∀ a, op ≠ .childStopped a) :
    AtRest (σ.step (fun _ => true) op).1 ∧ (σ.step (fun _ => true) op).1.fresh = σ.fresh ∧
    (∀ n m, .send n m ∈ (σ.step (fun _ => true) op).2 → m = .ack σ.self) ∧
    (∀ x ∈ (σ.step (fun _ => true) op).2, (∃ n m, x = .send n m) ∨ (∃ s, op = .recv (.started s) ∧ x = .proxyRemote s) ∨
      (∃ s, op = .recv (.stopped s) ∧ x = .proxyStopping)) ∧
    (∀ s, op = .recv (.started s) → (σ.step (fun _ => true) op).2 = [.proxyRemote s]) := by
  have hnm : ∀ n, ∀ x ∈ σ.notifyManager n (.ack σ.self), x = .send n (.ack σ.self) := by
    intro n x hx
    unfold Mgr.notifyManager at hx
    split at hx
    · simpa using hx
    · simp at hx
  cases op with
  | memberUp l ms =>
    have hl : l ≠ σ.self := fun e => h1 ms (e ▸ rfl)
    simp only [Mgr.step, Mgr.onMemberUp, if_neg hl]
    have hd : ∀ x ∈ ({ σ with managers := addManagers (fun _ => true) σ.self σ.managers ms } : Mgr).dueAck, ∃ n,
        x = .send n (.ack σ.self) := by
      intro x hx
      unfold Mgr.dueAck at hx
      split at hx
      · rename_i n _
        refine ⟨n, ?_⟩
        unfold Mgr.notifyManager at hx
        split at hx
        · simpa using hx
        · simp at hx
      · simp at hx
    refine ⟨⟨.inr rfl, h.starts, h.results, h.live⟩, trivial, ?_, ?_, by simp⟩
    · intro n m hm
      obtain ⟨k, hk⟩ := hd _ hm
      cases hk; rfl
    · intro x hx
      obtain ⟨k, hk⟩ := hd _ hx
      exact .inl ⟨_, _, hk⟩
  | leaderChanged n =>
    have hn : n ≠ σ.self := fun e => h2 (e ▸ rfl)
    simp only [Mgr.step, Mgr.onLeaderChanged]
    split
    · exact ⟨h, rfl, by simp, by simp, by simp⟩
    · rw [if_neg (fun c => hn c.1)]; exact ⟨h, rfl, by simp, by simp, by simp⟩
  | nodeAdded n =>
    simp only [Mgr.step, Mgr.onNodeAdded]
    have hg : σ.greeting n = [] := by
      unfold Mgr.greeting
      rcases h.st with ⟨p, hp⟩ | hp <;> rw [hp]
    rw [hg]
    split
    · exact ⟨⟨h.st, h.starts, h.results, h.live⟩, rfl, by simp, by simp, by simp⟩
    · exact ⟨h, rfl, by simp, by simp, by simp⟩
  | nodeRemoved n =>
    have : σ.onNodeRemoved n = { σ with managers := σ.managers.filter (· ≠ n) } := by
      unfold Mgr.onNodeRemoved
      rcases h.st with ⟨p, hp⟩ | hp <;> rw [hp]
    simp only [Mgr.step]
    rw [this]
    exact ⟨⟨h.st, h.starts, h.results, h.live⟩, rfl, by simp, by simp, by simp⟩
  | recv m =>
    cases m with
    | request n =>
      have hr : σ.st.isRunning = false := by rcases h.st with ⟨p, hp⟩ | hp <;> rw [hp] <;> rfl
      simp only [Mgr.step, Mgr.recv, Mgr.onRequest, hr, Bool.false_eq_true, if_false]
      unfold Mgr.grantLease
      rcases h.st with ⟨p, hp⟩ | hp
      · rw [hp]; exact ⟨⟨.inl ⟨some n, rfl⟩, h.starts, h.results, h.live⟩, rfl, by simp, by simp, by simp⟩
      · rw [hp]
        refine ⟨h, rfl, ?_, ?_, by simp⟩
        · intro k m hm
          have := hnm n _ hm
          cases this; rfl
        · intro x hx
          exact .inl ⟨_, _, hnm n _ hx⟩
    | ack n =>
      have : σ.onAck n = σ := by unfold Mgr.onAck; rcases h.st with ⟨p, hp⟩ | hp <;> rw [hp]
      simp only [Mgr.step, Mgr.recv, this]
      exact ⟨h, trivial, by simp, by simp, by simp⟩
    | started n => exact ⟨h, rfl, by simp [Mgr.step, Mgr.recv], by simp [Mgr.step, Mgr.recv], by simp [Mgr.step, Mgr.recv]⟩
    | stopped n => exact ⟨h, rfl, by simp [Mgr.step, Mgr.recv], by simp [Mgr.step, Mgr.recv], by simp⟩
  | boot => simp only [Mgr.step, h.starts, if_true]; exact ⟨h, trivial, by simp, by simp, by simp⟩
  | startFails =>
    simp only [Mgr.step, h.starts]
    exact ⟨⟨h.st, rfl, h.results, h.live⟩, trivial, by simp, by simp, by simp⟩
  | started a =>
    simp only [Mgr.step, h.results, List.not_mem_nil, if_false]
    exact ⟨h, trivial, by simp, by simp, by simp⟩
  | exits a c =>
    simp only [Mgr.step, h.live, List.not_mem_nil, if_false]
    exact ⟨h, trivial, by simp, by simp, by simp⟩
  | childStopped a => exact absurd rfl (h3 a)

/-- a manager that runs instance `a` and has nothing else going on. -/
structure Steadfast (σ : Mgr) (a : Nat) : Prop where
  st : σ.st = .running a
  starts : σ.starts = 0
  results : σ.results = []
  live : a ∈ σ.live

theorem run_step {σ : Mgr} {a : Nat} (h : Steadfast σ a) {op : MOp} (h1 : ∀ l ms, op ≠ .memberUp l ms)
    (h2 : ∀ s, op ≠ .recv (.request s)) (h3 : ∀ c, op ≠ .exits a c) (h4 : ∀ b, op ≠ .childStopped b) :
    Steadfast (σ.step (fun _ => true) op).1 a ∧ (σ.step (fun _ => true) op).1.fresh = σ.fresh ∧
    (∀ b ∈ (σ.step (fun _ => true) op).1.live, b ∈ σ.live) ∧
    (∀ n m, .send n m ∈ (σ.step (fun _ => true) op).2 → m = .started σ.self) ∧
    (∀ n ∈ (σ.step (fun _ => true) op).1.managers, n ∈ σ.managers ∨
      .send n (.started σ.self) ∈ (σ.step (fun _ => true) op).2) ∧
    (∀ b, .stopActor b ∉ (σ.step (fun _ => true) op).2) := by
  cases op with
  | memberUp l ms => exact absurd rfl (h1 l ms)
  | leaderChanged n =>
    have : (σ.step (fun _ => true) (.leaderChanged n)) = (σ, []) := by
      simp [Mgr.step, Mgr.onLeaderChanged, h.st, MState.isJoining, MState.isRunning]
    rw [this]; exact ⟨h, rfl, fun _ hb => hb, by simp, fun _ hn => .inl hn, by simp⟩
  | nodeAdded n =>
    simp only [Mgr.step, Mgr.onNodeAdded]
    split
    · have hg : σ.greeting n = [.send n (.started σ.self)] := by unfold Mgr.greeting; rw [h.st]
      rw [hg]
      refine ⟨⟨h.st, h.starts, h.results, h.live⟩, rfl, fun _ hb => hb, by simp, ?_, by simp⟩
      intro k hk
      rcases List.mem_append.1 hk with hk | hk
      · exact .inl hk
      · rw [List.mem_singleton] at hk; subst hk; exact .inr (by simp)
    · exact ⟨h, rfl, fun _ hb => hb, by simp, fun _ hn => .inl hn, by simp⟩
  | nodeRemoved n =>
    have : σ.onNodeRemoved n = { σ with managers := σ.managers.filter (· ≠ n) } := by
      unfold Mgr.onNodeRemoved; rw [h.st]
    simp only [Mgr.step]
    rw [this]
    exact ⟨⟨h.st, h.starts, h.results, h.live⟩, rfl, fun _ hb => hb, by simp, fun k hk => .inl (List.mem_filter.1 hk).1, by simp⟩
  | recv m =>
    cases m with
    | request n => exact absurd rfl (h2 n)
    | ack n =>
      have : σ.onAck n = σ := by unfold Mgr.onAck; rw [h.st]
      simp only [Mgr.step, Mgr.recv, this]
      exact ⟨h, trivial, fun _ hb => hb, by simp, fun _ hn => .inl hn, by simp⟩
    | started n => exact ⟨h, rfl, fun _ hb => hb, by simp [Mgr.step, Mgr.recv], fun _ hn => .inl hn, by simp [Mgr.step, Mgr.recv]⟩
    | stopped n => exact ⟨h, rfl, fun _ hb => hb, by simp [Mgr.step, Mgr.recv], fun _ hn => .inl hn, by simp [Mgr.step, Mgr.recv]⟩
  | boot =>
    simp only [Mgr.step, h.starts, if_true]
    exact ⟨h, trivial, fun _ hb => hb, by simp, fun _ hn => .inl hn, by simp⟩
  | startFails =>
    simp only [Mgr.step, h.starts]
    exact ⟨⟨h.st, rfl, h.results, h.live⟩, trivial, fun _ hb => hb, by simp, fun _ hn => .inl hn, by simp⟩
  | started b =>
    simp only [Mgr.step, h.results, List.not_mem_nil, if_false]
    exact ⟨h, trivial, fun _ hb => hb, by simp, fun _ hn => .inl hn, by simp⟩
  | exits b c =>
    simp only [Mgr.step]
    have hba : a ≠ b := fun e => h3 c (e ▸ rfl)
    split
    · exact ⟨⟨h.st, h.starts, h.results, (List.mem_erase_of_ne hba).2 h.live⟩, rfl,
        fun _ hb => List.mem_of_mem_erase hb, by simp, fun _ hn => .inl hn, by simp⟩
    · exact ⟨h, rfl, fun _ hb => hb, by simp, fun _ hn => .inl hn, by simp⟩
  | childStopped b => exact absurd rfl (h4 b)

/-- what every manager keeps, whatever happens to it. -/
theorem keeps {σ : Mgr} {op : MOp} (h : ∀ a, op ≠ .childStopped a) :
    (σ.managers.Nodup → σ.self ∉ σ.managers → (σ.step (fun _ => true) op).1.self = σ.self ∧
      (σ.step (fun _ => true) op).1.managers.Nodup ∧ σ.self ∉ (σ.step (fun _ => true) op).1.managers ∧
      ∀ n s, .send n (.request s) ∈ (σ.step (fun _ => true) op).2 → s = σ.self ∧ n ≠ σ.self) := by
  intro hnd hns
  by_cases hop : plain op = true
  · have f := facts hnd hop
    refine ⟨f.self, f.nodup hnd, f.notself hns, ?_⟩
    intro n s hm
    obtain ⟨h1, h2, _⟩ := f.reqs n s hm
    exact ⟨h1, fun e => f.notself hns (e ▸ h2)⟩
  · cases op with
    | nodeRemoved n =>
      have hst : (σ.onNodeRemoved n).self = σ.self ∧ (σ.onNodeRemoved n).managers = σ.managers.filter (· ≠ n) := by
        unfold Mgr.onNodeRemoved
        split
        · unfold Mgr.checkAcks; split <;> exact ⟨rfl, rfl⟩
        · exact ⟨rfl, rfl⟩
      simp only [Mgr.step]
      refine ⟨hst.1, ?_, ?_, by simp⟩
      · rw [hst.2]; exact hnd.filter _
      · rw [hst.2]; intro hm; exact hns (List.mem_filter.1 hm).1
    | childStopped a => exact absurd rfl (h a)
    | _ => simp [plain] at hop

/-! ### All nodes but those of `R` stay at rest -/

structure Lone (R : List Nat) (w : Sys) : Prop where
  self : ∀ i, (w.cl.mgr i).self = i
  nodup : ∀ i, (w.cl.mgr i).managers.Nodup
  notself : ∀ i, i ∉ (w.cl.mgr i).managers
  rest : ∀ i, i ∉ R → AtRest (w.cl.mgr i)
  req : ∀ d s, (d, MMsg.request s) ∈ w.cl.net → s ∈ R ∧ d ≠ s
  up : ∀ i ms, i ∉ R → (i, News.memberUp i ms) ∉ w.bus
  led : ∀ i, i ∉ R → (i, News.leaderChanged i) ∉ w.bus

theorem Lone.init (C : Conf) (R : List Nat) : Lone R (Sys.init C) :=
  ⟨fun _ => rfl, fun _ => List.nodup_nil, fun _ => List.not_mem_nil, fun _ _ => ⟨.inl ⟨none, rfl⟩, rfl, rfl, rfl⟩,
    fun _ _ h => absurd h List.not_mem_nil, fun _ _ _ => List.not_mem_nil, fun _ _ => List.not_mem_nil⟩

/-- a node outside `R` is not told that it leads. -/
theorem gentle_tells {C : Conf} {R : List Nat} {w : Sys} (hg : Good C w.clu) {o : Remote.OneLeader.Op}
    (h : GentleStep C R w (.beat o)) {i l : Nat} (hi : i ∉ R)
    (he : (∃ ms, (i, News.memberUp l ms) ∈ published C w.clu o) ∨ (i, News.leaderChanged l) ∈ published C w.clu o) : l ≠ i := by
  cases ht : ticks o with
  | none =>
    rw [published_none w.clu o ht] at he
    simp at he
  | some k =>
    obtain ⟨es, h1, h2, h3⟩ := step_tells hg o ht
    rw [h1] at he
    have hki : k = i ∧ ((∃ ms, .memberUp l ms ∈ es) ∨ .leaderChanged l ∈ es) := by
      rcases he with ⟨ms, he⟩ | he
      · obtain ⟨e, h5, h6⟩ := List.mem_map.1 he
        simp only [Prod.mk.injEq] at h6
        refine ⟨h6.1, .inl ⟨ms, ?_⟩⟩
        cases e with
        | memberUp a b => simp only [News.of, News.memberUp.injEq] at h6; rw [← h6.2.1, ← h6.2.2]; exact h5
        | leaderChanged a => simp [News.of] at h6
      · obtain ⟨e, h5, h6⟩ := List.mem_map.1 he
        simp only [Prod.mk.injEq] at h6
        refine ⟨h6.1, .inr ?_⟩
        cases e with
        | memberUp a b => simp [News.of] at h6
        | leaderChanged a => simp only [News.of, News.leaderChanged.injEq] at h6; rw [← h6.2]; exact h5
    obtain ⟨rfl, hes⟩ := hki
    have key : ∀ (σ : Remote.Hb) u, Tells C.env C.hb k (fun _ => w.clu.time C k) σ es u →
        ∃ us, Remote.refreshAll C.env C.hb k (fun _ => w.clu.time C k) σ.pings (σ.nodes.map (·.2)) = some us ∧
          σ.ticked = true ∧ Remote.oldestHealthy C.env us = some l := by
      intro σ u hu
      cases hu with
      | nothing => simp at hes
      | leader us l' hus htk ho => simp at hes; subst hes; exact ⟨us, hus, htk, ho⟩
      | up us l' hus htk ho =>
        simp at hes
        have : l = l' := by omega
        subst this; exact ⟨us, hus, htk, ho⟩
    rcases h3 with ⟨rfl, _⟩ | ⟨j, rfl, h3⟩ | ⟨rfl, h3⟩
    · simp at hes
    · obtain ⟨us, hus, htk, ho⟩ := key _ _ h3
      by_cases hr : Registered w.clu k k
      · obtain ⟨q, hq1, hq2, hq3, hq4⟩ := h hi ⟨htk, hr⟩
        refine sheltered_ne (marked_sane (hg k)) hus ho ((marked_known _ j q).2 hq2) ?_ hq4
        obtain ⟨lat, rec, h7, h8⟩ := hq3
        refine ⟨lat, rec, ?_, h8⟩
        simp only [marked]
        rw [Assoc.get_erase, if_neg (by simpa using hq1)]
        exact h7
      · exact unregistered_ne (marked_sane (hg k)) hus ho (fun c => hr ((marked_known _ j k).1 c))
    · obtain ⟨us, hus, htk, ho⟩ := key _ _ h3
      by_cases hr : Registered w.clu k k
      · obtain ⟨q, _, hq2, hq3, hq4⟩ := h hi ⟨htk, hr⟩
        exact sheltered_ne (hg k) hus ho hq2 hq3 hq4
      · exact unregistered_ne (hg k) hus ho hr

theorem Lone.act {R : List Nat} {w v : Sys} (h : Lone R w) {net0 : List (Nat × MMsg)} {i : Nat} {mop : MOp}
    (hv : v.cl = act w.cl net0 i mop) (hsub : ∀ x ∈ net0, x ∈ w.cl.net) (hbus : ∀ x ∈ v.bus, x ∈ w.bus)
    (hc : ∀ a, mop ≠ .childStopped a) (hu : i ∉ R → ∀ ms, mop ≠ .memberUp i ms) (hl : i ∉ R → mop ≠ .leaderChanged i) :
    Lone R v := by
  have k := keeps (σ := w.cl.mgr i) hc (h.nodup i) (by rw [h.self i]; exact h.notself i)
  rw [h.self i] at k
  refine ⟨?_, ?_, ?_, ?_, ?_, fun j ms hj hm => h.up j ms hj (hbus _ hm), fun j hj hm => h.led j hj (hbus _ hm)⟩
  · intro j
    rw [hv]
    by_cases e : j = i
    · subst e; rw [act_self]; exact k.1
    · rw [act_other _ _ _ e]; exact h.self j
  · intro j
    rw [hv]
    by_cases e : j = i
    · subst e; rw [act_self]; exact k.2.1
    · rw [act_other _ _ _ e]; exact h.nodup j
  · intro j
    rw [hv]
    by_cases e : j = i
    · subst e; rw [act_self]; exact k.2.2.1
    · rw [act_other _ _ _ e]; exact h.notself j
  · intro j hj
    rw [hv]
    by_cases e : j = i
    · subst e; rw [act_self]
      exact (rest_step (h.rest j hj) (by rw [h.self j]; exact hu hj) (by rw [h.self j]; exact hl hj) hc).1
    · rw [act_other _ _ _ e]; exact h.rest j hj
  · intro d s hm
    rw [hv] at hm
    rcases (act_net ..).1 hm with hm | hm
    · exact h.req d s (hsub _ hm)
    · obtain ⟨rfl, h2⟩ := k.2.2.2 _ _ hm
      refine ⟨?_, h2⟩
      refine Decidable.byContradiction fun hs => ?_
      have := (rest_step (h.rest s hs) (by rw [h.self s]; exact hu hs) (by rw [h.self s]; exact hl hs) hc).2.2.1 _ _ hm
      simp at this

theorem op_child (e : News) (a : Nat) : e.op ≠ .childStopped a := by cases e <;> simp [News.op]

theorem Lone.step {C : Conf} {R : List Nat} {w : Sys} (hg : Good C w.clu) (h : Lone R w) {op : JOp} {w' : Sys}
    (ht : Trans C w op w') (hgs : GentleStep C R w op) : Lone R w' := by
  cases ht with
  | beat o =>
    refine ⟨h.self, h.nodup, h.notself, h.rest, h.req, ?_, ?_⟩
    · intro i ms hi hm
      rcases List.mem_append.1 hm with hm | hm
      · exact h.up i ms hi hm
      · exact gentle_tells hg hgs hi (.inl ⟨ms, hm⟩) rfl
    · intro i hi hm
      rcases List.mem_append.1 hm with hm | hm
      · exact h.led i hi hm
      · exact gentle_tells hg hgs hi (.inr hm) rfl
  | added k j =>
    exact ⟨h.self, h.nodup, h.notself, h.rest, h.req, fun i ms hi => by simpa using h.up i ms hi,
      fun i hi => by simpa using h.led i hi⟩
  | removed k j =>
    exact ⟨h.self, h.nodup, h.notself, h.rest, h.req, fun i ms hi => by simpa using h.up i ms hi,
      fun i hi => by simpa using h.led i hi⟩
  | build i => exact ⟨h.self, h.nodup, h.notself, h.rest, h.req, h.up, h.led⟩
  | idle => exact h
  | miss i e hm hin =>
    exact ⟨h.self, h.nodup, h.notself, h.rest, h.req, fun j ms hj hx => h.up j ms hj (List.mem_of_mem_erase hx),
      fun j hj hx => h.led j hj (List.mem_of_mem_erase hx)⟩
  | lose i m hm hin =>
    exact ⟨h.self, h.nodup, h.notself, h.rest, fun d s hx => h.req d s (List.mem_of_mem_erase hx), h.up, h.led⟩
  | hear i e ha hm hin =>
    refine h.act (i := i) (net0 := w.cl.net) (mop := e.op) rfl (fun _ hx => hx) (fun _ hx => List.mem_of_mem_erase hx)
      (op_child e) ?_ ?_
    · intro hi ms he
      cases e <;> simp [News.op] at he
      obtain ⟨rfl, rfl⟩ := he
      exact h.up _ _ hi hin
    · intro hi he
      cases e <;> simp [News.op] at he
      subst he
      exact h.led _ hi hin
  | recv i m ha hm hin =>
    exact h.act (i := i) (net0 := w.cl.net.erase (i, m)) (mop := .recv m) rfl (fun _ hx => List.mem_of_mem_erase hx)
      (fun _ hx => hx) (by simp) (by simp) (by simp)
  | own op i mop ha hm ho =>
    have hp := own_plain ho
    exact h.act (i := i) (net0 := w.cl.net) (mop := mop) rfl (fun _ hx => hx)
      (fun _ hx => hx) hp.2.2.2.2.1 (fun _ ms => hp.2.2.1 _ ms) (fun _ => hp.2.2.2.1 _)

/-! ### The nodes of `R` go on running their instances -/

structure Serving (R : List Nat) (inst : Nat → Nat) (w : Sys) : Prop where
  lone : Lone R w
  up : ∀ i ∈ R, Up w.clu i
  run : ∀ i ∈ R, Steadfast (w.cl.mgr i) (inst i)
  calm : ∀ i ∈ R, ∀ s, (i, MMsg.request s) ∉ w.cl.net

theorem step_up {C : Conf} {c : Clu} {o : Remote.OneLeader.Op} {i : Nat} (h : Up c i) (ho : o ≠ .stop i) : Up (c.step C o) i := by
  have hact : ∀ k hop, Up (c.act C k hop) i := by
    intro k hop
    unfold Clu.act
    split
    · exact h
    · exact h
  cases o with
  | pass d => exact h
  | stop j =>
    have hne : i ≠ j := fun e => ho (e ▸ rfl)
    simp only [Clu.step]
    split
    · exact h
    · unfold Up; simp only; rw [if_neg hne]; exact h
  | answer k j lat s r => simp only [Clu.step]; split <;> first | exact hact _ _ | exact h
  | missed k j p => simp only [Clu.step]; cases p <;> first | exact hact _ _ | exact h
  | tick k => exact hact _ _
  | learn k j => exact hact _ _
  | notice k j => exact hact _ _

theorem Serving.act {R : List Nat} {inst : Nat → Nat} {w v : Sys} (h : Serving R inst w) (hl : Lone R v)
    {net0 : List (Nat × MMsg)} {i : Nat} {mop : MOp}
    (hv : v.cl = Joint.act w.cl net0 i mop) (hclu : v.clu = w.clu) (hsub : ∀ x ∈ net0, x ∈ w.cl.net)
    (hc : ∀ a, mop ≠ .childStopped a) (hu : i ∈ R → ∀ l ms, mop ≠ .memberUp l ms) (hx : i ∈ R → ∀ c, mop ≠ .exits (inst i) c)
    (hu' : i ∉ R → ∀ ms, mop ≠ .memberUp i ms) (hl' : i ∉ R → mop ≠ .leaderChanged i)
    (hrec : ∀ m, mop = .recv m → (i, m) ∈ w.cl.net)
    (hstops : v.stops = w.stops ++ ((w.cl.mgr i).step (fun _ => true) mop).2.filterMap (stopsOf i)) :
    Serving R inst v ∧ (∀ k, (v.cl.mgr k).fresh = (w.cl.mgr k).fresh) ∧
      (∀ k b, b ∈ (v.cl.mgr k).live → b ∈ (w.cl.mgr k).live) ∧ v.stops = w.stops := by
  have hr := fun hi => run_step (h.run i hi) (hu hi) (fun s e => h.calm i hi s (hrec _ e)) (hx hi) hc
  have hq := fun hi => rest_step (h.lone.rest i hi) (by rw [h.lone.self i]; exact hu' hi)
    (by rw [h.lone.self i]; exact hl' hi) hc
  refine ⟨⟨hl, by rw [hclu]; exact h.up, ?_, ?_⟩, ?_, ?_, ?_⟩
  · intro k hk
    rw [hv]
    by_cases e : k = i
    · subst e; rw [act_self]; exact (hr hk).1
    · rw [act_other _ _ _ e]; exact h.run k hk
  · intro k hk s hm
    rw [hv] at hm
    rcases (act_net ..).1 hm with hm | hm
    · exact h.calm k hk s (hsub _ hm)
    · by_cases hi : i ∈ R
      · have := (hr hi).2.2.2.1 _ _ hm; simp at this
      · have := (hq hi).2.2.1 _ _ hm; simp at this
  · intro k
    rw [hv]
    by_cases e : k = i
    · subst e; rw [act_self]
      by_cases hi : k ∈ R
      · exact (hr hi).2.1
      · exact (hq hi).2.1
    · rw [act_other _ _ _ e]
  · intro k b hb
    rw [hv] at hb
    by_cases e : k = i
    · subst e; rw [act_self] at hb
      by_cases hi : k ∈ R
      · exact (hr hi).2.2.1 b hb
      · rw [(hq hi).1.live] at hb; simp at hb
    · rw [act_other _ _ _ e] at hb; exact hb
  · rw [hstops]
    have : ∀ b, .stopActor b ∉ ((w.cl.mgr i).step (fun _ => true) mop).2 := by
      by_cases hi : i ∈ R
      · exact (hr hi).2.2.2.2.2
      · intro b hb
        rcases (hq hi).2.2.2.1 _ hb with ⟨_, _, h⟩ | ⟨_, _, h⟩ | ⟨_, _, h⟩ <;> cases h
    generalize ((w.cl.mgr i).step (fun _ => true) mop).2 = xs at this
    have hx : xs.filterMap (stopsOf i) = [] := by
      rw [List.filterMap_eq_nil_iff]
      intro x hx
      cases x <;> first | rfl | exact absurd hx (this _)
    rw [hx, List.append_nil]

theorem Serving.step {C : Conf} {R : List Nat} {inst : Nat → Nat} {w : Sys} (hg : Good C w.clu) (hups : Ups w)
    (h : Serving R inst w) {op : JOp} {w' : Sys} (ht : Trans C w op w') (hgs : GentleStep C R w op)
    (hlast : Lasting R inst op) :
    Serving R inst w' ∧ (∀ k, (w'.cl.mgr k).fresh = (w.cl.mgr k).fresh) ∧
      (∀ k b, b ∈ (w'.cl.mgr k).live → b ∈ (w.cl.mgr k).live) ∧ w'.stops = w.stops := by
  have hl := h.lone.step hg ht hgs
  have hsp : ∀ i ∈ R, Spent w i := by
    intro i hi
    apply hups.spent
    intro p hp
    rw [(h.run i hi).st] at hp
    cases hp
  cases ht with
  | beat o =>
    refine ⟨⟨hl, ?_, h.run, h.calm⟩, fun _ => rfl, fun _ _ hb => hb, rfl⟩
    intro i hi
    refine step_up (h.up i hi) ?_
    rintro rfl
    exact hlast hi
  | added k j => exact ⟨⟨hl, h.up, h.run, h.calm⟩, fun _ => rfl, fun _ _ hb => hb, rfl⟩
  | removed k j => exact ⟨⟨hl, h.up, h.run, h.calm⟩, fun _ => rfl, fun _ _ hb => hb, rfl⟩
  | build i => exact ⟨⟨hl, h.up, h.run, h.calm⟩, fun _ => rfl, fun _ _ hb => hb, rfl⟩
  | idle => exact ⟨h, fun _ => rfl, fun _ _ hb => hb, rfl⟩
  | miss i e hm hin => exact ⟨⟨hl, h.up, h.run, h.calm⟩, fun _ => rfl, fun _ _ hb => hb, rfl⟩
  | lose i m hm hin =>
    exact ⟨⟨hl, h.up, h.run, fun k hk s hx => h.calm k hk s (List.mem_of_mem_erase hx)⟩, fun _ => rfl, fun _ _ hb => hb, rfl⟩
  | hear i e ha hm hin =>
    refine h.act hl (i := i) (net0 := w.cl.net) (mop := e.op) rfl rfl (fun _ hx => hx) (op_child e) ?_ ?_ ?_ ?_ ?_ rfl
    · intro hi l ms he
      cases e <;> simp [News.op] at he
      obtain ⟨rfl, rfl⟩ := he
      exact spent_no (hsp i hi) _ _ hin
    · intro _ c he; cases e <;> simp [News.op] at he
    · intro hi ms he
      cases e <;> simp [News.op] at he
      obtain ⟨rfl, rfl⟩ := he
      exact h.lone.up _ _ hi hin
    · intro hi he
      cases e <;> simp [News.op] at he
      subst he
      exact h.lone.led _ hi hin
    · intro m he; cases e <;> simp [News.op] at he
  | recv i m ha hm hin =>
    exact h.act hl (i := i) (net0 := w.cl.net.erase (i, m)) (mop := .recv m) rfl rfl (fun _ hx => List.mem_of_mem_erase hx)
      (by simp) (by simp) (by simp) (by simp) (by simp) (by rintro _ ⟨rfl⟩; exact hin) rfl
  | own op i mop ha hm ho =>
    have hp := own_plain ho
    refine h.act hl (i := i) (net0 := w.cl.net) (mop := mop) rfl rfl (fun _ hx => hx) hp.2.2.2.2.1
      (fun _ l ms => hp.2.2.1 l ms) ?_ (fun _ ms => hp.2.2.1 _ ms) (fun _ => hp.2.2.2.1 _) (fun m he => absurd he (hp.2.1 m)) rfl
    intro hi c he
    have := hp.2.2.2.2.2.2 _ _ he
    subst this
    exact hlast hi rfl

/-! ### Histories -/

theorem runFrom_append (C : Conf) (w : Sys) (xs ys : List JOp) :
    w.runFrom C (xs ++ ys) = (w.runFrom C xs).runFrom C ys := List.foldl_append ..

theorem gentle_append {C : Conf} {R : List Nat} {w : Sys} {xs ys : List JOp} :
    Gentle C R w (xs ++ ys) ↔ Gentle C R w xs ∧ Gentle C R (w.runFrom C xs) ys := by
  induction xs generalizing w with
  | nil => simp [Gentle, Sys.runFrom]
  | cons x xs ih =>
    simp only [List.cons_append, Gentle, ih, and_assoc]
    rfl

theorem step_clu {C : Conf} {w : Sys} {op : JOp} : (w.step C op).clu = (match op with
    | .beat o => w.clu.step C o
    | _ => w.clu) := by
  have ht := step_trans C w op
  generalize w.step C op = w' at ht ⊢
  cases ht with
  | beat o => rfl
  | idle op h =>
    cases op with
    | beat o => exact absurd rfl (h o)
    | _ => rfl
  | own op i mop ha hm ho => cases op <;> first | rfl | simp [own] at ho
  | _ => rfl

theorem good_step {C : Conf} (henv : ∀ t d, C.env.addOk t d = true) {w : Sys} (h : Good C w.clu) (op : JOp) :
    Good C (w.step C op).clu := by
  rw [step_clu]
  cases op with
  | beat o => exact h.step henv o
  | _ => exact h

theorem good_run {C : Conf} (henv : ∀ t d, C.env.addOk t d = true) (ops : List JOp) {w : Sys} (h : Good C w.clu) (hu : Ups w) :
    Good C (w.runFrom C ops).clu ∧ Ups (w.runFrom C ops) := by
  induction ops generalizing w with
  | nil => exact ⟨h, hu⟩
  | cons op ops ih => exact ih (good_step henv h op) (hu.step h (step_trans C w op))

theorem Lone.runFrom {C : Conf} (henv : ∀ t d, C.env.addOk t d = true) {R : List Nat} (ops : List JOp) {w : Sys}
    (hg : Good C w.clu) (h : Lone R w) (hgs : Gentle C R w ops) : Lone R (w.runFrom C ops) := by
  induction ops generalizing w with
  | nil => exact h
  | cons op ops ih => exact ih (good_step henv hg op) (h.step hg (step_trans C w op) hgs.1) hgs.2

theorem Serving.runFrom {C : Conf} (henv : ∀ t d, C.env.addOk t d = true) {R : List Nat} {inst : Nat → Nat} (ops : List JOp)
    {w : Sys} (hg : Good C w.clu) (hu : Ups w) (h : Serving R inst w) (hgs : Gentle C R w ops)
    (hlast : ∀ op ∈ ops, Lasting R inst op) :
    Serving R inst (w.runFrom C ops) ∧ (∀ k, ((w.runFrom C ops).cl.mgr k).fresh = (w.cl.mgr k).fresh) ∧
      (∀ k b, b ∈ ((w.runFrom C ops).cl.mgr k).live → b ∈ (w.cl.mgr k).live) ∧ (w.runFrom C ops).stops = w.stops := by
  induction ops generalizing w with
  | nil => exact ⟨h, fun _ => rfl, fun _ _ hb => hb, rfl⟩
  | cons op ops ih =>
    have ht := step_trans C w op
    obtain ⟨h1, h2, h3, h4⟩ := h.step hg hu ht hgs.1 (hlast op (by simp))
    obtain ⟨i1, i2, i3, i4⟩ := ih (good_step henv hg op) (hu.step hg ht) h1 hgs.2 (fun o ho => hlast o (by simp [ho]))
    exact ⟨i1, fun k => by rw [← h2 k]; exact i2 k, fun k b hb => h3 k b (i3 k b hb), by rw [← h4]; exact i4⟩

end Verif.Singleton.Joint
