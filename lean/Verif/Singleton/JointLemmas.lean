import Verif.Singleton.JointSpec
import Verif.Singleton.ClusterRun
import Verif.Remote.OneLeaderLemmas

namespace Verif.Singleton.Joint

/-- the handlers of the model: every operation of a manager but the removal of a node and the call that a child
has stopped, which never comes. -/
def plain : MOp → Bool
  | .nodeRemoved _ => false
  | .childStopped _ => false
  | _ => true

/-- what a step of a manager does, as far as needed. -/
structure Facts (σ : Mgr) (op : MOp) (p : Mgr × List MOut) : Prop where
  self : p.1.self = σ.self
  mono : ∀ n ∈ σ.managers, n ∈ p.1.managers
  nodup : σ.managers.Nodup → p.1.managers.Nodup
  notself : σ.self ∉ σ.managers → σ.self ∉ p.1.managers
  reqs : ∀ n s, .send n (.request s) ∈ p.2 → s = σ.self ∧ n ∈ p.1.managers ∧ (∃ l, p.1.st = .starting l) ∧
    ((∃ l, σ.st = .starting l) → (∀ l ms, op ≠ .memberUp l ms) → n ∉ σ.managers)
  acks : ∀ n s, .send n (.ack s) ∈ p.2 → s = σ.self ∧ n ∈ p.1.managers ∧
    ((op = .recv (.request n) ∧ σ.st.isRunning = false ∧ σ.st.isJoining = false) ∨
     (σ.st = .joining (some n) ∧ ∃ l ms, op = .memberUp l ms))
  joining : ∀ q, p.1.st = .joining q → (∃ q0, σ.st = .joining q0 ∧ (q = q0 ∨ ∃ n, op = .recv (.request n) ∧ q = some n)) ∧
    (∀ n m, .send n m ∉ p.2) ∧ ∀ l ms, op ≠ .memberUp l ms
  starting : ∀ l, p.1.st = .starting l → l = [] ∨ ∃ l0, σ.st = .starting l0 ∧ (l = l0 ∨ ∃ n, op = .recv (.ack n) ∧ l = setInsert l0 n)
  stays : ∀ l0, σ.st = .starting l0 → (∀ a, op ≠ .started a) → (∀ l ms, op ≠ .memberUp l ms) →
    ∃ l, p.1.st = .starting l ∧ (l = l0 ∨ ∃ n, op = .recv (.ack n) ∧ l = setInsert l0 n)
  starts : p.1.starts ≤ σ.starts ∨ ∃ l, p.1.st = .starting l ∧ l.length = p.1.managers.length
  fresh : p.1.fresh = σ.fresh ∨ op = .boot ∧ 0 < σ.starts
  results : ∀ a, a ∈ p.1.results → a ∈ σ.results ∨ 0 < σ.starts

theorem facts_quiet {σ : Mgr} {op : MOp} {p : Mgr × List MOut} (hp : p = (σ, []))
    (hm : ∀ l ms, op ≠ .memberUp l ms) : Facts σ op p := by
  subst hp
  exact ⟨rfl, fun _ h => h, id, id, by simp, by simp, fun q h => ⟨⟨q, h, .inl rfl⟩, by simp, hm⟩,
    fun l h => .inr ⟨l, h, .inl rfl⟩, fun l h _ _ => ⟨l, h, .inl rfl⟩, .inl (Nat.le_refl _), .inl rfl, fun _ h => .inl h⟩

theorem facts_begin {σ : Mgr} {op : MOp} (hr : ∀ l, σ.st ≠ .starting l) :
    Facts σ op σ.beginStarting := by
  unfold Mgr.beginStarting
  split
  · rename_i h0
    refine ⟨rfl, fun _ h => h, id, id, by simp, by simp, ?_, ?_, ?_, .inr ⟨[], rfl, ?_⟩, .inl rfl, fun _ h => .inl h⟩
    · intro q h; simp [Mgr.startActor] at h
    · intro l h; simp only [Mgr.startActor, MState.starting.injEq] at h; exact .inl h.symm
    · intro l h; exact absurd h (hr l)
    · simp only [Mgr.startActor, List.length_nil]; exact h0.symm
  · refine ⟨rfl, fun _ h => h, id, id, ?_, ?_, ?_, ?_, ?_, .inl (Nat.le_refl _), .inl rfl, fun _ h => .inl h⟩
    · intro n s h
      simp only [Mgr.notifyManagers, List.mem_map] at h
      obtain ⟨k, hk, e⟩ := h
      simp only [MOut.send.injEq, MMsg.request.injEq] at e
      obtain ⟨rfl, rfl⟩ := e
      exact ⟨rfl, hk, ⟨[], rfl⟩, fun ⟨l, hl⟩ _ => absurd hl (hr l)⟩
    · intro n s h
      simp only [Mgr.notifyManagers, List.mem_map] at h
      obtain ⟨k, hk, e⟩ := h
      simp at e
    · intro q h; simp at h
    · intro l h; simp only [MState.starting.injEq] at h; exact .inl h.symm
    · intro l h; exact absurd h (hr l)

theorem facts {σ : Mgr} (hnd0 : σ.managers.Nodup) {op : MOp} (hop : plain op = true) : Facts σ op (σ.step (fun _ => true) op) := by
  cases op with
  | nodeRemoved n => simp [plain] at hop
  | childStopped a => simp [plain] at hop
  | leaderChanged n =>
    simp only [Mgr.step]
    split
    · exact facts_quiet rfl (by simp)
    · unfold Mgr.onLeaderChanged
      split
      · rename_i h
        exact facts_begin (by intro l e; rw [e] at h; simp [MState.isRunning] at h)
      · exact facts_quiet rfl (by simp)
  | boot =>
    simp only [Mgr.step]
    split
    · exact facts_quiet rfl (by simp)
    · rename_i h
      exact ⟨rfl, fun _ h => h, id, id, by simp, by simp, fun q h => ⟨⟨q, h, .inl rfl⟩, by simp, by simp⟩,
        fun l h => .inr ⟨l, h, .inl rfl⟩, fun l h _ _ => ⟨l, h, .inl rfl⟩, .inl (by simp [Mgr.boot]), .inr ⟨rfl, by omega⟩,
        fun _ _ => .inr (by omega)⟩
  | startFails =>
    simp only [Mgr.step]
    exact ⟨rfl, fun _ h => h, id, id, by simp, by simp, fun q h => ⟨⟨q, h, .inl rfl⟩, by simp, by simp⟩,
      fun l h => .inr ⟨l, h, .inl rfl⟩, fun l h _ _ => ⟨l, h, .inl rfl⟩, .inl (by simp), .inl rfl, fun _ h => .inl h⟩
  | exits a c =>
    simp only [Mgr.step]
    split
    · exact ⟨rfl, fun _ h => h, id, id, by simp, by simp, fun q h => ⟨⟨q, h, .inl rfl⟩, by simp, by simp⟩,
        fun l h => .inr ⟨l, h, .inl rfl⟩, fun l h _ _ => ⟨l, h, .inl rfl⟩, .inl (Nat.le_refl _), .inl rfl, fun _ h => .inl h⟩
    · exact facts_quiet rfl (by simp)
  | started a =>
    simp only [Mgr.step]
    split
    · refine ⟨rfl, fun _ h => h, id, id, ?_, ?_, ?_, ?_, ?_, .inl (Nat.le_refl _), .inl rfl, ?_⟩
      · intro n s h; simp [Mgr.onStarted, Mgr.notifyManagers] at h
      · intro n s h; simp [Mgr.onStarted, Mgr.notifyManagers] at h
      · intro q h; simp [Mgr.onStarted] at h
      · intro l h; simp [Mgr.onStarted] at h
      · intro l _ h; exact absurd rfl (h a)
      · intro b hb; exact .inl (List.mem_of_mem_erase hb)
    · exact facts_quiet rfl (by simp)
  | nodeAdded n =>
    simp only [Mgr.step, Mgr.onNodeAdded]
    split
    · rename_i h
      refine ⟨rfl, fun _ h => List.mem_append_left _ h, ?_, ?_, ?_, ?_, ?_, ?_, ?_, .inl (Nat.le_refl _), .inl rfl, fun _ h => .inl h⟩
      · intro hn
        refine List.nodup_append.2 ⟨hn, by simp, ?_⟩
        intro x hx y hy e
        simp only [List.mem_cons, List.not_mem_nil, or_false] at hy
        subst hy; subst e
        exact h.2.2 hx
      · intro hn; simp only [List.mem_append, List.mem_cons, List.not_mem_nil, or_false]
        rintro (h' | h')
        · exact hn h'
        · exact h.1 h'.symm
      · intro k s hk
        unfold Mgr.greeting at hk
        split at hk
        · rename_i l hl
          simp only [List.mem_cons, MOut.send.injEq, MMsg.request.injEq, List.not_mem_nil, or_false] at hk
          obtain ⟨rfl, rfl⟩ := hk
          exact ⟨rfl, List.mem_append_right _ (List.mem_cons_self ..), ⟨l, hl⟩, fun _ _ => h.2.2⟩
        · simp at hk
        · simp at hk
      · intro k s hk
        unfold Mgr.greeting at hk
        split at hk <;> simp at hk
      · intro q hq
        simp only at hq
        refine ⟨⟨q, hq, .inl rfl⟩, ?_, by simp⟩
        intro k m hk
        simp only [Mgr.greeting, hq] at hk
        simp at hk
      · exact fun l h => .inr ⟨l, h, .inl rfl⟩
      · exact fun l h _ _ => ⟨l, h, .inl rfl⟩
    · exact facts_quiet rfl (by simp)
  | recv m =>
    cases m with
    | started n =>
      simp only [Mgr.step, Mgr.recv]
      exact ⟨rfl, fun _ h => h, id, id, by simp, by simp, fun q h => ⟨⟨q, h, .inl rfl⟩, by simp, by simp⟩,
        fun l h => .inr ⟨l, h, .inl rfl⟩, fun l h _ _ => ⟨l, h, .inl rfl⟩, .inl (Nat.le_refl _), .inl rfl, fun _ h => .inl h⟩
    | stopped n =>
      simp only [Mgr.step, Mgr.recv]
      exact ⟨rfl, fun _ h => h, id, id, by simp, by simp, fun q h => ⟨⟨q, h, .inl rfl⟩, by simp, by simp⟩,
        fun l h => .inr ⟨l, h, .inl rfl⟩, fun l h _ _ => ⟨l, h, .inl rfl⟩, .inl (Nat.le_refl _), .inl rfl, fun _ h => .inl h⟩
    | request n =>
      simp only [Mgr.step, Mgr.recv, Mgr.onRequest]
      split
      · unfold Mgr.beginStopping
        cases hs : σ.st.actor with
        | none => exact facts_quiet rfl (by simp)
        | some a =>
          refine ⟨rfl, fun _ h => h, id, id, ?_, ?_, ?_, ?_, ?_, .inl (Nat.le_refl _), .inl rfl, fun _ h => .inl h⟩
          · intro k s h; simp [Mgr.notifyManagers] at h
          · intro k s h; simp [Mgr.notifyManagers] at h
          · intro q h; simp at h
          · intro l h; simp at h
          · intro l h; rw [h] at hs; simp [MState.actor] at hs
      · rename_i hr
        have hr' : σ.st.isRunning = false := by simpa using hr
        unfold Mgr.grantLease
        cases hs : σ.st with
        | joining q0 =>
          refine ⟨rfl, fun _ h => h, id, id, by simp, by simp, ?_, ?_, ?_, .inl (Nat.le_refl _), .inl rfl, fun _ h => .inl h⟩
          · intro q h
            simp only [MState.joining.injEq] at h
            exact ⟨⟨q0, hs, .inr ⟨n, rfl, h.symm⟩⟩, by simp, by simp⟩
          · intro l h; simp at h
          · intro l h; rw [hs] at h; simp at h
        | _ =>
          have hj : σ.st.isJoining = false := by rw [hs]; rfl
          refine ⟨rfl, fun _ h => h, id, id, ?_, ?_, ?_, ?_, ?_, .inl (Nat.le_refl _), .inl rfl, fun _ h => .inl h⟩
          · intro k s h; simp only [Mgr.notifyManager] at h; split at h <;> simp at h
          · intro k s h
            simp only [Mgr.notifyManager] at h
            split at h
            · rename_i hn
              simp only [List.mem_cons, MOut.send.injEq, MMsg.ack.injEq, List.not_mem_nil, or_false] at h
              obtain ⟨rfl, rfl⟩ := h
              exact ⟨rfl, hn, .inl ⟨rfl, hr', hj⟩⟩
            · simp at h
          · intro q h; rw [hs] at h; simp at h
          · intro l h; rw [hs] at h hr'; simp at h <;> simp [MState.isRunning] at hr'
          · intro l h; rw [hs] at h hr'; simp at h <;> simp [MState.isRunning] at hr'
    | ack n =>
      simp only [Mgr.step, Mgr.recv, Mgr.onAck]
      cases hs : σ.st with
      | starting l0 =>
        simp only [Mgr.checkAcks]
        split
        · rename_i hlen
          refine ⟨rfl, fun _ h => h, id, id, by simp, by simp, ?_, ?_, ?_, .inr ⟨_, rfl, hlen⟩, .inl rfl, fun _ h => .inl h⟩
          · intro q h; simp [Mgr.startActor] at h
          · intro l h
            simp only [Mgr.startActor, MState.starting.injEq] at h
            exact .inr ⟨l0, hs, .inr ⟨n, rfl, h.symm⟩⟩
          · intro l h _ _
            rw [hs] at h
            cases h
            exact ⟨_, rfl, .inr ⟨n, rfl, rfl⟩⟩
        · refine ⟨rfl, fun _ h => h, id, id, by simp, by simp, ?_, ?_, ?_, .inl (Nat.le_refl _), .inl rfl, fun _ h => .inl h⟩
          · intro q h; simp at h
          · intro l h
            simp only [MState.starting.injEq] at h
            exact .inr ⟨l0, hs, .inr ⟨n, rfl, h.symm⟩⟩
          · intro l h _ _
            rw [hs] at h
            cases h
            exact ⟨_, rfl, .inr ⟨n, rfl, rfl⟩⟩
      | _ => exact facts_quiet rfl (by simp)
  | memberUp l ms =>
    simp only [Mgr.step, Mgr.onMemberUp]
    obtain ⟨hnd1, hmem⟩ := addManagers_spec (fun _ => true) σ.self σ.managers ms hnd0
    have hm := fun n (h : n ∈ σ.managers) => (hmem n).2 (.inl h)
    have hnd := fun (_ : σ.managers.Nodup) => hnd1
    generalize addManagers (fun _ => true) σ.self σ.managers ms = ns at *
    have hns : σ.self ∉ σ.managers → σ.self ∉ ns := by
      intro h h'
      rcases (hmem _).1 h' with h' | ⟨_, h', _⟩
      · exact h h'
      · exact h' rfl
    have hdue : ∀ n m, MOut.send n m ∈ ({ σ with managers := ns } : Mgr).dueAck →
        m = .ack σ.self ∧ n ∈ ns ∧ σ.st = .joining (some n) := by
      intro n m h
      unfold Mgr.dueAck at h
      split at h
      · rename_i k hk
        simp only [Mgr.notifyManager] at h
        split at h
        · rename_i hin
          simp only [List.mem_cons, MOut.send.injEq, List.not_mem_nil, or_false] at h
          obtain ⟨rfl, rfl⟩ := h
          exact ⟨rfl, hin, hk⟩
        · simp at h
      · simp at h
    have hbeg : ∀ n m, MOut.send n m ∈ ({ σ with managers := ns, st := .idle } : Mgr).beginStarting.2 →
        m = .request σ.self ∧ n ∈ ns := by
      intro n m h
      unfold Mgr.beginStarting at h
      split at h
      · simp at h
      · simp only [Mgr.notifyManagers, List.mem_map] at h
        obtain ⟨k, hk, e⟩ := h
        simp only [MOut.send.injEq] at e
        obtain ⟨rfl, rfl⟩ := e
        exact ⟨rfl, hk⟩
    have hb := facts_begin (σ := { σ with managers := ns, st := .idle }) (op := .boot) (by simp)
    have hst : ∃ l, ({ σ with managers := ns, st := .idle } : Mgr).beginStarting.1.st = .starting l ∧ l = [] := by
      unfold Mgr.beginStarting; split <;> exact ⟨[], rfl, rfl⟩
    have hman : ({ σ with managers := ns, st := .idle } : Mgr).beginStarting.1.managers = ns := by
      unfold Mgr.beginStarting; split <;> rfl
    split
    · refine ⟨hb.self, ?_, ?_, ?_, ?_, ?_, ?_, ?_, ?_, hb.starts, ?_, hb.results⟩
      · rw [hman]; exact hm
      · rw [hman]; exact hnd
      · rw [hman]; exact hns
      · intro n s h
        rcases List.mem_append.1 h with h | h
        · exact absurd (hdue _ _ h).1 (by simp)
        · obtain ⟨h1, h2⟩ := hbeg _ _ h
          cases h1
          obtain ⟨l', h3, _⟩ := hst
          refine ⟨rfl, by rw [hman]; exact h2, ⟨l', h3⟩, ?_⟩
          exact fun _ h => absurd rfl (h l ms)
      · intro n s h
        rcases List.mem_append.1 h with h | h
        · obtain ⟨h1, h2, h3⟩ := hdue _ _ h
          cases h1
          exact ⟨rfl, by rw [hman]; exact h2, .inr ⟨h3, l, ms, rfl⟩⟩
        · exact absurd (hbeg _ _ h).1 (by simp)
      · intro q h
        obtain ⟨l', h3, _⟩ := hst
        rw [h3] at h
        cases h
      · intro l' h
        obtain ⟨l'', h3, h4⟩ := hst
        rw [h3] at h
        cases h
        exact .inl h4
      · intro l0 _ _ h; exact absurd rfl (h l ms)
      · rcases hb.fresh with h | h
        · exact .inl h
        · left; unfold Mgr.beginStarting; split <;> rfl
    · refine ⟨rfl, hm, hnd, hns, ?_, ?_, ?_, ?_, ?_, .inl (Nat.le_refl _), .inl rfl, fun _ h => .inl h⟩
      · intro n s h; exact absurd (hdue _ _ h).1 (by simp)
      · intro n s h
        obtain ⟨h1, h2, h3⟩ := hdue _ _ h
        cases h1
        exact ⟨rfl, h2, .inr ⟨h3, l, ms, rfl⟩⟩
      · intro q h; simp at h
      · intro q h; simp at h
      · intro l0 _ _ h; exact absurd rfl (h l ms)

end Verif.Singleton.Joint
