import Verif.Singleton.ManagerSpec
import Verif.Singleton.ClusterSteps

namespace Verif.Singleton

variable {sel : Nat → Bool}

theorem taking_eq (s : MState) : s.taking = s.isStarting := by cases s <;> rfl

theorem Mgr.run_append (σ : Mgr) (l l' : List MOp) : σ.run sel (l ++ l') = (σ.run sel l).run sel l' := by
  simp [Mgr.run]

theorem mem_setInsert {l : List Nat} {n x : Nat} : x ∈ setInsert l n ↔ x ∈ l ∨ x = n := by
  unfold setInsert; split
  · constructor
    · exact .inl
    · rintro (h | rfl)
      · exact h
      · assumption
  · simp

theorem nodup_setInsert {l : List Nat} (h : l.Nodup) (n : Nat) : (setInsert l n).Nodup := by
  unfold setInsert; split
  · exact h
  · rename_i hx
    rw [List.nodup_append]
    refine ⟨h, by simp, ?_⟩
    intro a ha b hb
    simp only [List.mem_singleton] at hb
    subst hb; rintro rfl; exact hx ha

/-- what a manager remembers: distinct managers, the acknowledged ones among them. -/
structure Tidy (σ : Mgr) : Prop where
  nodup : σ.managers.Nodup
  nodup' : σ.st.acked.Nodup
  sub : ∀ n ∈ σ.st.acked, n ∈ σ.managers

theorem Tidy.init (n : Nat) : Tidy (Mgr.init n) := by
  constructor <;> simp [Mgr.init, MState.acked]

theorem nodup_addManagers (self : Nat) (ms ns : List Nat) (h : ms.Nodup) : (addManagers sel self ms ns).Nodup := by
  unfold addManagers
  induction ns generalizing ms with
  | nil => exact h
  | cons x ns ih =>
    simp only [List.foldl_cons]
    split
    · exact ih _ h
    · exact ih _ (nodup_setInsert h x)

theorem Tidy.checkAcks {σ : Mgr} {l : List Nat} (h1 : σ.managers.Nodup) (h2 : l.Nodup) (h3 : ∀ n ∈ l, n ∈ σ.managers) :
    Tidy (σ.checkAcks l) := by
  unfold Mgr.checkAcks Mgr.startActor
  split <;> exact ⟨h1, h2, h3⟩

theorem Tidy.of {σ τ : Mgr} (h : Tidy σ) (h1 : τ.managers = σ.managers) (h2 : τ.st.acked = σ.st.acked ∨ τ.st.acked = []) :
    Tidy τ := by
  refine ⟨h1 ▸ h.nodup, ?_, ?_⟩
  · rcases h2 with e | e
    · rw [e]; exact h.nodup'
    · rw [e]; simp
  · rcases h2 with e | e
    · rw [e, h1]; exact h.sub
    · rw [e]; simp

theorem Tidy.next {σ : Mgr} (h : Tidy σ) (op : MOp) (hk : ∀ n, op = .recv (.ack n) → n ∈ σ.managers) :
    Tidy (σ.next sel op) := by
  unfold Mgr.next
  cases op with
  | memberUp l ns =>
    have hn := nodup_addManagers (sel := sel) σ.self σ.managers ns h.nodup
    simp only [Mgr.step, Mgr.onMemberUp, Mgr.beginStarting, Mgr.startActor]
    split
    · split <;> exact ⟨hn, by simp [MState.acked], by simp [MState.acked]⟩
    · exact ⟨hn, by simp [MState.acked], by simp [MState.acked]⟩
  | leaderChanged n =>
    simp only [Mgr.step, Mgr.onLeaderChanged, Mgr.beginStarting, Mgr.startActor]
    split
    · exact h
    · split
      · split <;> exact h.of rfl (.inr rfl)
      · exact h
  | nodeAdded n =>
    simp only [Mgr.step, Mgr.onNodeAdded]
    split
    · rename_i hc
      refine ⟨?_, h.nodup', fun x hx => List.mem_append.2 (.inl (h.sub x hx))⟩
      rw [List.nodup_append]
      refine ⟨h.nodup, by simp, ?_⟩
      intro a ha b hb
      simp only [List.mem_singleton] at hb
      subst hb; rintro rfl; exact hc.2.2 ha
    · exact h
  | nodeRemoved n =>
    simp only [Mgr.step, Mgr.onNodeRemoved]
    split
    · rename_i l hl
      have h2 := h.nodup'; have h3 := h.sub
      rw [hl] at h2 h3
      refine Tidy.checkAcks (h.nodup.filter _) (h2.filter _) ?_
      intro x hx
      simp only [List.mem_filter] at hx ⊢
      exact ⟨h3 x hx.1, hx.2⟩
    · rename_i hl
      refine ⟨h.nodup.filter _, h.nodup', ?_⟩
      intro x hx
      cases hst : σ.st with
      | starting l => exact absurd hst (hl l)
      | _ => dsimp only at hx; rw [hst] at hx; simp [MState.acked] at hx
  | recv m =>
    cases m with
    | request x =>
      simp only [Mgr.step, Mgr.recv, Mgr.onRequest, Mgr.beginStopping, Mgr.grantLease]
      split
      · split
        · exact h
        · exact h.of rfl (.inr rfl)
      · split
        · exact h.of rfl (.inr rfl)
        · exact h
    | ack x =>
      simp only [Mgr.step, Mgr.recv, Mgr.onAck]
      split
      · rename_i l hl
        have h2 := h.nodup'; have h3 := h.sub
        rw [hl] at h2 h3
        refine Tidy.checkAcks h.nodup (nodup_setInsert h2 x) ?_
        intro y hy
        rcases mem_setInsert.1 hy with hy | rfl
        · exact h3 y hy
        · exact hk _ rfl
      · exact h
    | _ => exact h
  | boot => simp only [Mgr.step]; split <;> exact ⟨h.nodup, h.nodup', h.sub⟩
  | startFails => exact ⟨h.nodup, h.nodup', h.sub⟩
  | started a =>
    simp only [Mgr.step, Mgr.onStarted]
    split
    · exact h.of rfl (.inr rfl)
    · exact h
  | exits a c => simp only [Mgr.step]; split <;> exact ⟨h.nodup, h.nodup', h.sub⟩
  | childStopped a =>
    simp only [Mgr.step, Mgr.onChildStopped, Mgr.grantLease]
    split
    · split
      · split <;> exact h.of rfl (.inr rfl)
      · exact ⟨h.nodup, h.nodup', h.sub⟩
    · exact h

theorem Tidy.run {σ : Mgr} (h : Tidy σ) (ops : List MOp) (hk : σ.KnownAcks sel ops) : Tidy (σ.run sel ops) := by
  induction ops generalizing σ with
  | nil => exact h
  | cons op ops ih => exact ih (h.next op hk.1) hk.2

theorem KnownAcks.append {σ : Mgr} {l l' : List MOp} (h : σ.KnownAcks sel (l ++ l')) :
    σ.KnownAcks sel l ∧ (σ.run sel l).KnownAcks sel l' := by
  induction l generalizing σ with
  | nil => exact ⟨trivial, h⟩
  | cons op l ih => exact ⟨⟨h.1, (ih h.2).1⟩, (ih h.2).2⟩

theorem checkAcks_starts {σ : Mgr} {l : List Nat} (h : σ.starts < (σ.checkAcks l).starts) :
    l.length = σ.managers.length ∧ (σ.checkAcks l).st = .starting l ∧ (σ.checkAcks l).managers = σ.managers := by
  unfold Mgr.checkAcks Mgr.startActor at h ⊢
  split at h
  · rename_i e; rw [if_pos e]; exact ⟨e, rfl, rfl⟩
  · exact absurd h (Nat.lt_irrefl _)

theorem beginStarting_starts {σ : Mgr} (h : σ.starts < σ.beginStarting.1.starts) :
    σ.beginStarting.1.st = .starting [] ∧ σ.beginStarting.1.managers = [] := by
  unfold Mgr.beginStarting Mgr.startActor at h ⊢
  split at h
  · rename_i e; rw [if_pos e]; exact ⟨rfl, List.length_eq_zero_iff.1 e⟩
  · exact absurd h (Nat.lt_irrefl _)

/-- when a manager starts the singleton, as many nodes have acknowledged as it knows. -/
theorem launch_count {σ : Mgr} {op : MOp} (h : σ.launches sel op = true) :
    (σ.next sel op).st.isStarting = true ∧ (σ.next sel op).st.acked.length = (σ.next sel op).managers.length := by
  simp only [Mgr.launches, decide_eq_true_eq] at h
  unfold Mgr.next at h ⊢
  cases op with
  | memberUp l ns =>
    simp only [Mgr.step, Mgr.onMemberUp] at h ⊢
    split at h
    · rename_i e; rw [if_pos e]
      obtain ⟨h1, h2⟩ := beginStarting_starts (σ := { σ with managers := addManagers sel σ.self σ.managers ns, st := .idle }) h
      dsimp only at h1 h2 ⊢
      rw [h1, h2]; simp [MState.isStarting, MState.acked]
    · exact absurd h (Nat.lt_irrefl _)
  | leaderChanged n =>
    simp only [Mgr.step, Mgr.onLeaderChanged] at h ⊢
    split at h
    · exact absurd h (Nat.lt_irrefl _)
    · rename_i e; rw [if_neg e]
      split at h
      · rename_i e; rw [if_pos e]
        obtain ⟨h1, h2⟩ := beginStarting_starts h
        rw [h1, h2]; simp [MState.isStarting, MState.acked]
      · exact absurd h (Nat.lt_irrefl _)
  | nodeAdded n =>
    simp only [Mgr.step, Mgr.onNodeAdded] at h
    split at h <;> exact absurd h (Nat.lt_irrefl _)
  | nodeRemoved n =>
    simp only [Mgr.step, Mgr.onNodeRemoved] at h ⊢
    cases hst : σ.st with
    | starting l =>
      simp only [hst] at h ⊢
      obtain ⟨h1, h2, h3⟩ := checkAcks_starts (σ := { σ with st := .starting l, managers := σ.managers.filter (· ≠ n) }) h
      rw [h2, h3]
      exact ⟨rfl, h1⟩
    | _ => simp only [hst] at h; exact absurd h (Nat.lt_irrefl _)
  | recv m =>
    cases m with
    | request x =>
      simp only [Mgr.step, Mgr.recv, Mgr.onRequest, Mgr.beginStopping, Mgr.grantLease] at h
      split at h <;> (try split at h) <;> exact absurd h (Nat.lt_irrefl _)
    | ack x =>
      simp only [Mgr.step, Mgr.recv, Mgr.onAck] at h ⊢
      cases hst : σ.st with
      | starting l =>
        simp only [hst] at h ⊢
        obtain ⟨h1, h2, h3⟩ := checkAcks_starts h
        rw [h2, h3]
        exact ⟨rfl, h1⟩
      | _ => simp only [hst] at h; exact absurd h (Nat.lt_irrefl _)
    | _ => exact absurd h (Nat.lt_irrefl _)
  | boot =>
    simp only [Mgr.step, Mgr.boot] at h
    split at h
    · exact absurd h (Nat.lt_irrefl _)
    · dsimp only at h; omega
  | startFails => simp only [Mgr.step] at h; omega
  | started a =>
    simp only [Mgr.step, Mgr.onStarted] at h
    split at h <;> exact absurd h (Nat.lt_irrefl _)
  | exits a c =>
    simp only [Mgr.step] at h
    split at h <;> exact absurd h (Nat.lt_irrefl _)
  | childStopped a =>
    simp only [Mgr.step, Mgr.onChildStopped, Mgr.grantLease] at h
    split at h
    · split at h <;> (try split at h) <;> exact absurd h (Nat.lt_irrefl _)
    · exact absurd h (Nat.lt_irrefl _)

/-- When all acknowledgements come from known managers, all of them have acknowledged. -/
theorem launch_all {σ : Mgr} (h : Tidy σ) {op : MOp} (hk : ∀ n, op = .recv (.ack n) → n ∈ σ.managers)
    (hl : σ.launches sel op = true) : ∀ n ∈ (σ.next sel op).managers, n ∈ (σ.next sel op).st.acked := by
  have ht := h.next (sel := sel) op hk
  exact subset_of_length ht.nodup' ht.sub (Nat.le_of_eq (launch_count hl).2.symm)

/-- where acknowledged nodes come from. -/
theorem acked_next {σ : Mgr} {op : MOp} {n : Nat} (h : n ∈ (σ.next sel op).st.acked) :
    σ.st.isStarting = true ∧ (n ∈ σ.st.acked ∨ op = .recv (.ack n)) := by
  unfold Mgr.next at h
  have hs : ∀ {x : Nat}, x ∈ σ.st.acked → σ.st.isStarting = true := by
    intro x hx; cases hst : σ.st <;> simp_all [MState.acked, MState.isStarting]
  cases op with
  | memberUp l ns =>
    simp only [Mgr.step, Mgr.onMemberUp, Mgr.beginStarting, Mgr.startActor] at h
    split at h <;> (try split at h) <;> simp [MState.acked] at h
  | leaderChanged x =>
    simp only [Mgr.step, Mgr.onLeaderChanged, Mgr.beginStarting, Mgr.startActor] at h
    split at h
    · exact ⟨hs h, .inl h⟩
    · split at h
      · split at h <;> simp [MState.acked] at h
      · exact ⟨hs h, .inl h⟩
  | nodeAdded x =>
    simp only [Mgr.step, Mgr.onNodeAdded] at h
    split at h <;> exact ⟨hs h, .inl h⟩
  | nodeRemoved x =>
    simp only [Mgr.step, Mgr.onNodeRemoved, Mgr.checkAcks, Mgr.startActor] at h
    cases hst : σ.st with
    | starting l =>
      simp only [hst] at h
      split at h <;>
      · simp only [MState.acked, List.mem_filter] at h
        exact ⟨rfl, .inl h.1⟩
    | _ => simp only [hst, MState.acked, List.not_mem_nil] at h
  | recv m =>
    cases m with
    | request x =>
      simp only [Mgr.step, Mgr.recv, Mgr.onRequest, Mgr.beginStopping, Mgr.grantLease] at h
      split at h
      · split at h
        · exact ⟨hs h, .inl h⟩
        · simp [MState.acked] at h
      · split at h
        · simp [MState.acked] at h
        · exact ⟨hs h, .inl h⟩
    | ack x =>
      simp only [Mgr.step, Mgr.recv, Mgr.onAck, Mgr.checkAcks, Mgr.startActor] at h
      cases hst : σ.st with
      | starting l =>
        simp only [hst] at h
        split at h <;>
        · simp only [MState.acked] at h
          rcases mem_setInsert.1 h with h | rfl
          · exact ⟨rfl, .inl h⟩
          · exact ⟨rfl, .inr rfl⟩
      | _ => simp only [hst, MState.acked, List.not_mem_nil] at h
    | _ => exact ⟨hs h, .inl h⟩
  | boot => simp only [Mgr.step, Mgr.boot] at h; split at h <;> exact ⟨hs h, .inl h⟩
  | startFails => exact ⟨hs h, .inl h⟩
  | started a =>
    simp only [Mgr.step, Mgr.onStarted] at h
    split at h
    · simp [MState.acked] at h
    · exact ⟨hs h, .inl h⟩
  | exits a c => simp only [Mgr.step] at h; split at h <;> exact ⟨hs h, .inl h⟩
  | childStopped a =>
    simp only [Mgr.step, Mgr.onChildStopped, Mgr.grantLease] at h
    split at h
    · split at h
      · split at h <;> simp [MState.acked] at h
      · exact ⟨hs h, .inl h⟩
    · exact ⟨hs h, .inl h⟩

theorem acked_since {σ : Mgr} {ops : List MOp} {n : Nat} (h0 : n ∉ σ.st.acked) (h : n ∈ (σ.run sel ops).st.acked) :
    σ.AckedSince sel ops n := by
  induction ops using snoc_induction with
  | nil => exact absurd h h0
  | snoc ops op ih =>
    rw [Mgr.run_append] at h
    obtain ⟨h1, h2⟩ := acked_next (show n ∈ (Mgr.next sel (σ.run sel ops) op).st.acked from h)
    have hend : (σ.run sel (ops ++ [op])).st.taking = true := by
      rw [taking_eq, Mgr.run_append]
      revert h
      cases ((σ.run sel ops).run sel [op]).st <;> simp [MState.acked, MState.isStarting]
    by_cases hop : op = .recv (.ack n)
    · subst hop
      refine ⟨ops, [], rfl, by rw [taking_eq]; exact h1, ?_⟩
      intro q1 q2 hq
      rw [List.nil_eq_append_iff] at hq
      rw [hq.1]; exact hend
    · obtain ⟨p, q, e, hp, hq⟩ := ih (h2.resolve_right hop)
      refine ⟨p, q ++ [op], by rw [e]; simp, hp, ?_⟩
      intro q1 q2 hq'
      rcases List.eq_nil_or_concat q2 with rfl | ⟨q3, x, rfl⟩
      · rw [List.append_nil] at hq'
        rw [← hq', ← List.cons_append, ← List.append_assoc, ← e]
        exact hend
      · rw [List.concat_eq_append, ← List.append_assoc] at hq'
        exact hq q1 q3 (List.append_inj' hq' rfl).1

theorem Mgr.starting_next {σ : Mgr} {l : List Nat} (hl : σ.st = .starting l) (op : MOp) (hs : op.sameMembers = true)
    (ho : ∀ n, op ≠ .recv (.ack n)) :
    (σ.next sel op).starts ≤ σ.starts ∧ (σ.next sel op).managers = σ.managers ∧
      ((σ.next sel op).st = .starting l ∨ ∃ a ∈ σ.results, (σ.next sel op).st = .running a) ∧
      (σ.starts = 0 → σ.results = [] → (σ.next sel op).starts = 0 ∧ (σ.next sel op).results = [] ∧ (σ.next sel op).st = .starting l) := by
  unfold Mgr.next
  cases op with
  | memberUp l ns => simp [MOp.sameMembers] at hs
  | nodeAdded n => simp [MOp.sameMembers] at hs
  | nodeRemoved n => simp [MOp.sameMembers] at hs
  | leaderChanged n => simp [Mgr.step, Mgr.onLeaderChanged, hl, MState.isJoining, MState.isRunning] <;> grind
  | recv m =>
    cases m with
    | ack x => exact absurd rfl (ho x)
    | _ => simp [Mgr.step, Mgr.recv, Mgr.onRequest, Mgr.beginStopping, hl, MState.isRunning, MState.actor] <;> grind
  | boot =>
    simp only [Mgr.step]
    split
    · simp [hl] <;> grind
    · simp [Mgr.boot, hl] <;> grind
  | startFails => simp [Mgr.step, hl] <;> grind
  | started a =>
    simp only [Mgr.step]
    split
    · rename_i hm
      refine ⟨Nat.le_refl _, rfl, .inr ⟨a, hm, rfl⟩, fun _ e => ?_⟩
      rw [e] at hm; simp at hm
    · simp [hl] <;> grind
  | exits a c => simp only [Mgr.step]; split <;> simp [hl] <;> grind
  | childStopped a => simp only [Mgr.step]; split <;> simp [Mgr.onChildStopped, hl] <;> grind

theorem Mgr.running_next {σ : Mgr} {a : Nat} (hl : σ.st = .running a) (op : MOp) (hs : op.sameMembers = true)
    (hk : (σ.next sel op).st.isStopping = false) :
    (σ.next sel op).starts ≤ σ.starts ∧ ∃ b, (σ.next sel op).st = .running b := by
  unfold Mgr.next at hk ⊢
  cases op with
  | memberUp l ns => simp [MOp.sameMembers] at hs
  | nodeAdded n => simp [MOp.sameMembers] at hs
  | nodeRemoved n => simp [MOp.sameMembers] at hs
  | leaderChanged n => simp [Mgr.step, Mgr.onLeaderChanged, hl, MState.isJoining, MState.isRunning]
  | recv m =>
    cases m with
    | ack x => simp [Mgr.step, Mgr.recv, Mgr.onAck, hl]
    | request x =>
      simp [Mgr.step, Mgr.recv, Mgr.onRequest, Mgr.beginStopping, hl, MState.isRunning, MState.actor, MState.isStopping] at hk
    | _ => simp [Mgr.step, Mgr.recv, hl]
  | boot =>
    simp only [Mgr.step]
    split
    · simp [hl]
    · simp [Mgr.boot, hl]
  | startFails => simp [Mgr.step, hl]
  | started b => simp only [Mgr.step]; split <;> simp [Mgr.onStarted, hl]
  | exits a c => simp only [Mgr.step]; split <;> simp [hl]
  | childStopped a => simp only [Mgr.step]; split <;> simp [Mgr.onChildStopped, hl]

theorem launched_zero {σ : Mgr} {M l : List Nat} (ops : List MOp)
    (h : (σ.st = .starting l ∧ ∀ n ∈ M, n ∈ l) ∨ ∃ a, σ.st = .running a)
    (hs : ∀ op ∈ ops, op.sameMembers = true) (hk : σ.Keeps sel ops)
    (ha : ∀ n ∈ acks ops, n ∈ M) (hd : ∀ n ∈ acks ops, n ∉ l) : σ.launched sel ops = 0 := by
  induction ops generalizing σ with
  | nil => rfl
  | cons op ops ih =>
    have hs1 := hs op (by simp)
    have hs2 : ∀ op ∈ ops, op.sameMembers = true := fun o ho => hs o (by simp [ho])
    have hsub : ∀ n ∈ acks ops, n ∈ acks (op :: ops) := by
      intro n hn
      unfold acks at hn ⊢
      rw [List.filterMap_cons]
      split
      · exact hn
      · exact List.mem_cons_of_mem _ hn
    have hk2 : (σ.next sel op).st.isStopping = false := by
      have := hk.2
      cases ops with
      | nil => exact this
      | cons _ _ => exact this.1
    unfold Mgr.launched
    rcases h with ⟨h1, h2⟩ | ⟨a, h1⟩
    · by_cases hop : ∃ n, op = .recv (.ack n)
      · obtain ⟨n, rfl⟩ := hop
        have hn : n ∈ acks (.recv (.ack n) :: ops) := by simp [acks]
        exact absurd (h2 n (ha n hn)) (hd n hn)
      · obtain ⟨q1, q2, q3, _⟩ := Mgr.starting_next (sel := sel) h1 op hs1 fun n e => hop ⟨n, e⟩
        have : σ.launches sel op = false := by simp [Mgr.launches]; omega
        rw [this, ih ?_ hs2 hk.2 (fun n hn => ha n (hsub n hn)) (fun n hn => hd n (hsub n hn))]
        · rfl
        · rcases q3 with e | ⟨a, _, e⟩
          · exact .inl ⟨e, h2⟩
          · exact .inr ⟨a, e⟩
    · obtain ⟨q1, q2⟩ := Mgr.running_next (sel := sel) h1 op hs1 hk2
      have : σ.launches sel op = false := by simp [Mgr.launches]; omega
      rw [this, ih (.inr q2) hs2 hk.2 (fun n hn => ha n (hsub n hn)) (fun n hn => hd n (hsub n hn))]
      rfl

theorem launched_le_one {σ : Mgr} {l : List Nat} (ops : List MOp)
    (h : σ.st = .starting l) (h3 : σ.starts = 0) (h4 : σ.results = []) (hl : l.Nodup) (hsub : ∀ n ∈ l, n ∈ σ.managers)
    (hs : ∀ op ∈ ops, op.sameMembers = true) (hk : σ.Keeps sel ops)
    (ha : ∀ n ∈ acks ops, n ∈ σ.managers) (hd : ∀ n ∈ acks ops, n ∉ l) (hn : (acks ops).Nodup) : σ.launched sel ops ≤ 1 := by
  induction ops generalizing σ l with
  | nil => simp [Mgr.launched]
  | cons op ops ih =>
    have hs1 := hs op (by simp)
    have hs2 : ∀ op ∈ ops, op.sameMembers = true := fun o ho => hs o (by simp [ho])
    unfold Mgr.launched
    by_cases hop : ∃ n, op = .recv (.ack n)
    · obtain ⟨n, rfl⟩ := hop
      have hac : acks (.recv (.ack n) :: ops) = n :: acks ops := rfl
      rw [hac] at ha hd hn
      rw [List.nodup_cons] at hn
      have hnew : ∀ x ∈ acks ops, x ∉ setInsert l n := by
        intro x hx hx'
        rcases mem_setInsert.1 hx' with e | rfl
        · exact hd x (List.mem_cons_of_mem _ hx) e
        · exact hn.1 hx
      have hsub' : ∀ x ∈ setInsert l n, x ∈ σ.managers := by
        intro x hx
        rcases mem_setInsert.1 hx with e | rfl
        · exact hsub x e
        · exact ha x (by simp)
      have hnext : Mgr.next sel σ (.recv (.ack n)) = σ.checkAcks (setInsert l n) := by
        simp [Mgr.next, Mgr.step, Mgr.recv, Mgr.onAck, h]
      have hnodup := nodup_setInsert hl n
      by_cases hc : (setInsert l n).length = σ.managers.length
      · have hall : ∀ x ∈ σ.managers, x ∈ setInsert l n := subset_of_length hnodup hsub' (Nat.le_of_eq hc.symm)
        have hst : (Mgr.next sel σ (.recv (.ack n))).st = .starting (setInsert l n) := by
          rw [hnext]; unfold Mgr.checkAcks; rw [if_pos hc]; rfl
        rw [launched_zero (M := σ.managers) (l := setInsert l n) ops (.inl ⟨hst, hall⟩) hs2 hk.2
          (fun x hx => ha x (List.mem_cons_of_mem _ hx)) hnew]
        split <;> omega
      · have he : Mgr.next sel σ (.recv (.ack n)) = { σ with st := .starting (setInsert l n) } := by
          rw [hnext]; unfold Mgr.checkAcks; rw [if_neg hc]
        have hl0 : σ.launches sel (.recv (.ack n)) = false := by
          unfold Mgr.launches; rw [he]; simp
        rw [hl0]
        have := ih (σ := Mgr.next sel σ (.recv (.ack n))) (l := setInsert l n) (by rw [he]) (by rw [he]; exact h3) (by rw [he]; exact h4)
          hnodup (by rw [he]; exact hsub') hs2 hk.2 (by rw [he]; exact fun x hx => ha x (List.mem_cons_of_mem _ hx)) hnew hn.2
        simp; exact this
    · obtain ⟨q1, q2, _, q4⟩ := Mgr.starting_next (sel := sel) h op hs1 fun n e => hop ⟨n, e⟩
      obtain ⟨r1, r2, r3⟩ := q4 h3 h4
      have hac : acks (op :: ops) = acks ops := by
        unfold acks
        rw [List.filterMap_cons]
        split
        · rfl
        · rename_i x e
          split at e
          · exact absurd ⟨_, rfl⟩ hop
          · cases e
      rw [hac] at ha hd hn
      have : σ.launches sel op = false := by simp [Mgr.launches]; omega
      rw [this]
      have := ih (σ := Mgr.next sel σ op) (l := l) r3 r1 r2 hl (by rw [q2]; exact hsub) hs2 hk.2 (by rw [q2]; exact ha) hd hn
      simp; exact this

end Verif.Singleton
