import Verif.Actor.ShutdownModel

/-! Property theorems C68 (shutdown). -/

namespace Verif.Actor.Shutdown

/-- a state some execution leads to. -/
def Reachable (s : Sys) : Prop := ∃ ops, s = Sys.init.run ops

/-- `shutdown` has returned. -/
def Sys.returned (s : Sys) : Prop := s.phase = .done

instance (s : Sys) : Decidable s.returned := inferInstanceAs (Decidable (_ = _))

/-- the scheduler takes `Stop` next. -/
def Sys.stopsNext (s : Sys) : Prop := s.phase = .running ∧ s.mbox.head? = some .stop

theorem run_append (s : Sys) (a b : List Op) : s.run (a ++ b) = (s.run a).run b := by
  simp [Sys.run]

theorem Reachable.run {s : Sys} (h : Reachable s) (ops : List Op) : Reachable (s.run ops) := by
  obtain ⟨o, rfl⟩ := h
  exact ⟨o ++ ops, (run_append _ _ _).symm⟩

theorem Reachable.ind {P : Sys → Prop} (h0 : P .init) (hs : ∀ s op, P s → P (s.step op)) {s : Sys} (h : Reachable s) :
    P s := by
  obtain ⟨ops, rfl⟩ := h
  suffices ∀ s, P s → P (s.run ops) from this _ h0
  induction ops with
  | nil => exact fun s h => h
  | cons op ops ih => exact fun s h => ih _ (hs s op h)

/-! ### frame lemmas -/

@[simp] theorem phaseOf_setPhase (s : Sys) (i k : Nat) (p : Phase) :
    (s.setPhase i p).phaseOf k = if k = i then p else s.phaseOf k := by
  unfold Sys.setPhase Sys.phaseOf; by_cases h : k = i <;> simp [h]

@[simp] theorem setPhase_phase (s : Sys) (i : Nat) (p : Phase) : (s.setPhase i p).phase = s.phase := rfl
@[simp] theorem setPhase_term (s : Sys) (i : Nat) (p : Phase) : (s.setPhase i p).terminated = s.terminated := rfl
@[simp] theorem setPhase_mbox (s : Sys) (i : Nat) (p : Phase) : (s.setPhase i p).mbox = s.mbox := rfl
@[simp] theorem setPhase_reg (s : Sys) (i : Nat) (p : Phase) : (s.setPhase i p).reg = s.reg := rfl
@[simp] theorem setPhase_asked (s : Sys) (i k : Nat) (p : Phase) :
    ((s.setPhase i p).acts k).stopAsked = (s.acts k).stopAsked := by
  unfold Sys.setPhase; by_cases h : k = i <;> simp [h]
@[simp] theorem setPhase_key (s : Sys) (i k : Nat) (p : Phase) :
    ((s.setPhase i p).acts k).key = (s.acts k).key := by
  unfold Sys.setPhase; by_cases h : k = i <;> simp [h]
@[simp] theorem setPhase_tracked (s : Sys) (i k : Nat) (p : Phase) :
    ((s.setPhase i p).acts k).tracked = (s.acts k).tracked := by
  unfold Sys.setPhase; by_cases h : k = i <;> simp [h]

@[simp] theorem push_phaseOf (s : Sys) (m : SMsg) (k : Nat) : (s.push m).phaseOf k = s.phaseOf k := rfl
@[simp] theorem push_phase (s : Sys) (m : SMsg) : (s.push m).phase = s.phase := rfl
@[simp] theorem push_term (s : Sys) (m : SMsg) : (s.push m).terminated = s.terminated := rfl
@[simp] theorem push_acts (s : Sys) (m : SMsg) : (s.push m).acts = s.acts := rfl

@[simp] theorem resume_phase (s : Sys) (c : Option Nat) : (s.resume c).phase = s.phase := by
  cases c with
  | none => rfl
  | some i => simp only [Sys.resume]; split <;> rfl
@[simp] theorem resume_term (s : Sys) (c : Option Nat) : (s.resume c).terminated = s.terminated := by
  cases c with
  | none => rfl
  | some i => simp only [Sys.resume]; split <;> rfl
@[simp] theorem resume_asked (s : Sys) (c : Option Nat) (k : Nat) :
    ((s.resume c).acts k).stopAsked = (s.acts k).stopAsked := by
  cases c with
  | none => rfl
  | some i => simp only [Sys.resume]; split <;> simp
theorem resume_phaseOf (s : Sys) (c : Option Nat) (k : Nat) :
    (s.resume c).phaseOf k = s.phaseOf k ∨ s.phaseOf k = .waiting ∧ (s.resume c).phaseOf k = .busy := by
  cases c with
  | none => exact .inl rfl
  | some i =>
    simp only [Sys.resume]
    split
    · simp only [phaseOf_setPhase]
      split
      · rename_i h1 h2; subst h2; exact .inr ⟨h1, rfl⟩
      · exact .inl rfl
    · exact .inl rfl
@[simp] theorem await_phase (s : Sys) (c : Option Nat) : (s.await c).phase = s.phase := by cases c <;> rfl
@[simp] theorem await_term (s : Sys) (c : Option Nat) : (s.await c).terminated = s.terminated := by cases c <;> rfl
@[simp] theorem await_asked (s : Sys) (c : Option Nat) (k : Nat) :
    ((s.await c).acts k).stopAsked = (s.acts k).stopAsked := by
  cases c <;> simp [Sys.await]

/-! ### how one task moves -/

/-- the moves of a task; `free`: the scheduler is answering, or has just ended. -/
def ok (free : Bool) : Phase → Phase → Bool
  | .absent, .busy => true
  | .idle, .busy => true
  | .idle, .closing => true
  | .busy, .idle => true
  | .busy, .waiting => true
  | .busy, .closing => true
  | .closing, .checked => true
  | .closing, .done => true
  | .checked, .leaving => true
  | .checked, .crashed => free
  | .waiting, .busy => free
  | .leaving, .done => free
  | .leaving, .crashed => free
  | p, q => p = q

theorem ok_self (f : Bool) (p : Phase) : ok f p p = true := by cases p <;> simp [ok]

theorem ok_gone {f : Bool} {p q : Phase} (h : ok f p q = true) (hp : p.gone = true) : q.gone = true := by
  cases p <;> cases q <;> simp_all [ok, Phase.gone]

theorem ok_absent {f : Bool} {p q : Phase} (h : ok f p q = true) (hp : p ≠ .absent) : q ≠ .absent := by
  cases p <;> cases q <;> simp_all [ok]

theorem ok_needs {p q : Phase} (h : ok false p q = true) (hp : p.needsScheduler = true) : q.needsScheduler = true := by
  cases p <;> cases q <;> simp_all [ok, Phase.needsScheduler]

theorem ok_set {s : Sys} {f : Bool} {i k : Nat} {p q : Phase} (hk : s.phaseOf k = p) (h : ok f p q = true) :
    ok f (s.phaseOf i) ((s.setPhase k q).phaseOf i) = true := by
  simp only [phaseOf_setPhase]
  split
  · rename_i e; subst e; rw [hk]; exact h
  · exact ok_self _ _

theorem ok_resume {s : Sys} (c : Option Nat) (i : Nat) : ok true (s.phaseOf i) ((s.resume c).phaseOf i) = true := by
  rcases resume_phaseOf s c i with h | ⟨h1, h2⟩
  · rw [h]; exact ok_self _ _
  · rw [h1, h2]; rfl

/-- every step moves every task by one of the moves. -/
theorem ok_step (s : Sys) (op : Op) (i : Nat) :
    ok (decide (s.phase = .running ∨ (s.step op).phase = .done)) (s.phaseOf i) ((s.step op).phaseOf i) = true := by
  cases op with
  | spawn caller j key tracked =>
    simp only [Sys.step]
    split
    · rename_i hc
      obtain ⟨hj, hm, hcj⟩ := hc
      split
      · cases caller with
        | none =>
          simp only [Sys.await, push_phaseOf]
          by_cases hij : i = j
          · subst hij; simp only [hj]; simp [Sys.phaseOf, ok]
          · have : Sys.phaseOf { s with acts := fun k => if k = j then ⟨key, tracked, .busy, false⟩ else s.acts k } i = s.phaseOf i := by
              simp [Sys.phaseOf, hij]
            rw [this]; exact ok_self _ _
        | some c =>
          simp only [Sys.await, phaseOf_setPhase, push_phaseOf]
          have hcb : s.phaseOf c = .busy := by simpa [Sys.mayCall] using hm
          by_cases hic : i = c
          · subst hic; rw [if_pos rfl, hcb]; rfl
          · rw [if_neg hic]
            by_cases hij : i = j
            · subst hij; simp only [hj]; simp [Sys.phaseOf, ok]
            · have : Sys.phaseOf { s with acts := fun k => if k = j then ⟨key, tracked, .busy, false⟩ else s.acts k } i = s.phaseOf i := by
                simp [Sys.phaseOf, hij]
              rw [this]; exact ok_self _ _
      · by_cases hij : i = j
        · subst hij; simp only [hj]; simp [Sys.phaseOf, ok]
        · have : Sys.phaseOf { s with acts := fun k => if k = j then ⟨key, tracked, .busy, false⟩ else s.acts k } i = s.phaseOf i := by
            simp [Sys.phaseOf, hij]
          rw [this]; exact ok_self _ _
    · exact ok_self _ _
  | beginMsg k =>
    simp only [Sys.step]; split
    · rename_i hk; exact ok_set hk rfl
    · exact ok_self _ _
  | finish k =>
    simp only [Sys.step]; split
    · rename_i hk; exact ok_set hk rfl
    · exact ok_self _ _
  | ask k =>
    simp only [Sys.step]; split
    · rename_i hk; exact ok_set (s := s.push (.get k)) hk.1 rfl
    · exact ok_self _ _
  | quit k =>
    simp only [Sys.step]; split
    · rename_i hk; exact ok_set hk rfl
    · exact ok_self _ _
  | takeStop k =>
    simp only [Sys.step]; split
    · rename_i hk; exact ok_set hk.1 rfl
    · exact ok_self _ _
  | closed k =>
    simp only [Sys.step]; split
    · rename_i hk; split <;> exact ok_set hk rfl
    · exact ok_self _ _
  | sendDereg k =>
    simp only [Sys.step]; split
    · rename_i hk; split
      · rename_i hd; refine ok_set hk ?_; simp [ok, hd]
      · exact ok_set (s := s.push (.dereg k)) hk rfl
    · exact ok_self _ _
  | setTerminated => exact ok_self _ _
  | askStop k =>
    simp only [Sys.step]; split
    · exact ok_self _ _
    · by_cases h : i = k
      · subst h; simp only [Sys.phaseOf, if_true]; exact ok_self _ _
      · simp only [Sys.phaseOf, h, if_false]; exact ok_self _ _
  | sendStop => simp only [Sys.step]; split <;> exact ok_self _ _
  | sched =>
    generalize hs : s.step .sched = t
    simp only [Sys.step] at hs
    split at hs
    · rename_i m ms hp hm
      subst hs
      rw [decide_eq_true (Or.inl hp)]
      cases m with
      | register c j => exact ok_resume (s := { s with mbox := ms, reg := s.reg.insert (s.acts j).key j }) c i
      | get k => exact ok_resume (s := { s with mbox := ms }) (some k) i
      | dereg k =>
        simp only [Sys.handle]
        split
        · rename_i hk; exact ok_set (s := { s with mbox := ms, reg := s.reg.erase (s.acts k).key }) hk rfl
        · exact ok_self _ _
      | stop =>
        have : (Sys.handle { s with mbox := ms } .stop).phaseOf i = s.phaseOf i := by
          simp only [Sys.handle, Sys.phaseOf, Sys.askAll]; split <;> rfl
        rw [this]; exact ok_self _ _
    · subst hs; exact ok_self _ _
  | schedDone =>
    generalize hs : s.step .schedDone = t
    simp only [Sys.step] at hs
    split at hs
    · split at hs
      · subst hs
        simp only [or_true, decide_true, Sys.phaseOf, Act.released]
        split <;> simp_all [ok]
      · subst hs; exact ok_self _ _
    · subst hs; exact ok_self _ _

/-! ### ended tasks stay ended -/

theorem gone_run (s : Sys) (ops : List Op) (i : Nat) (h : (s.phaseOf i).gone = true) : ((s.run ops).phaseOf i).gone = true := by
  induction ops generalizing s with
  | nil => exact h
  | cons op ops ih => exact ih _ (ok_gone (ok_step s op i) h)

/-! ### the set of awaited actors -/

theorem phase_step (s : Sys) (op : Op) :
    (s.step op).phase = s.phase ∨ op = .sched ∧ s.stopsNext ∧ (s.step op).phase = .stopping s.reg.vals ∨
    (∃ ws, op = .schedDone ∧ s.phase = .stopping ws ∧ (s.step op).phase = .done ∧ ∀ i ∈ ws, (s.phaseOf i).gone = true) := by
  cases op with
  | spawn c j k t =>
    left; simp only [Sys.step]; split
    · split <;> simp
    · rfl
  | beginMsg k => left; simp only [Sys.step]; split <;> rfl
  | finish k => left; simp only [Sys.step]; split <;> rfl
  | ask k => left; simp only [Sys.step]; split <;> rfl
  | quit k => left; simp only [Sys.step]; split <;> rfl
  | takeStop k => left; simp only [Sys.step]; split <;> rfl
  | closed k => left; simp only [Sys.step]; split; split; all_goals rfl
  | sendDereg k => left; simp only [Sys.step]; split; split; all_goals rfl
  | setTerminated => left; rfl
  | askStop k => left; simp only [Sys.step]; split <;> rfl
  | sendStop => left; simp only [Sys.step]; split <;> rfl
  | sched =>
    simp only [Sys.step]
    split
    · rename_i m ms hp hm
      cases m with
      | register c j => left; simp [Sys.handle, hp]
      | get k => left; simp [Sys.handle, hp]
      | dereg k => left; simp only [Sys.handle]; split <;> simp [hp]
      | stop => right; left; exact ⟨trivial, ⟨hp, by simp [hm]⟩, rfl⟩
    · left; rfl
  | schedDone =>
    simp only [Sys.step]
    split
    · rename_i ws hp
      split
      · rename_i ha
        right; right; exact ⟨ws, trivial, hp, rfl, by simpa using ha⟩
      · left; rfl
    · left; rfl

theorem done_forever (s : Sys) (h : s.phase = .done) (ops : List Op) : (s.run ops).phase = .done := by
  induction ops generalizing s with
  | nil => exact h
  | cons op ops ih =>
    refine ih _ ?_
    rcases phase_step s op with h1 | ⟨_, h1, _⟩ | ⟨ws, _, h1, _⟩
    · rw [h1, h]
    · rw [h1.1] at h; cases h
    · rw [h1] at h; cases h

/-- C68: when `shutdown` returns, every actor that was registered with the scheduler when it took the
`Stop` message has ended. Every execution up to and after that moment. -/
theorem C68_returned_all_ended (s : Sys) (h : s.stopsNext) (ops : List Op) (hr : ((s.step .sched).run ops).returned)
    (i : Nat) (hi : i ∈ s.reg.vals) : (((s.step .sched).run ops).phaseOf i).gone = true := by
  have h0 : (s.step .sched).phase = .stopping s.reg.vals := by
    obtain ⟨h1, h2⟩ := h
    cases hm : s.mbox with
    | nil => simp [hm] at h2
    | cons m ms =>
      simp only [hm, List.head?_cons, Option.some.injEq] at h2
      subst h2
      simp [Sys.step, h1, hm, Sys.handle, Sys.askAll]
  generalize s.step .sched = t at *
  induction ops generalizing t with
  | nil => simp only [Sys.run, List.foldl_nil, Sys.returned] at hr; rw [hr] at h0; cases h0
  | cons op ops ih =>
    rcases phase_step t op with h1 | ⟨_, h1, _⟩ | ⟨ws, rfl, h1, h2, h3⟩
    · exact ih _ hr (h1.trans h0)
    · rw [h1.1] at h0; cases h0
    · rw [h1] at h0
      cases h0
      exact gone_run t (.schedDone :: ops) i (h3 i hi)

/-! ### when it can return -/

structure Inv (s : Sys) : Prop where
  term : SMsg.stop ∈ s.mbox ∨ s.phase ≠ .running → s.terminated = true
  asked : ∀ ws, s.phase = .stopping ws → ∀ i ∈ ws, (s.acts i).stopAsked = true ∧ s.phaseOf i ≠ .absent
  queued : ∀ c j, SMsg.register c j ∈ s.mbox → s.phaseOf j ≠ .absent
  live : ∀ j ∈ s.reg.vals, s.phaseOf j ≠ .absent

theorem term_step (s : Sys) (op : Op) (h : s.terminated = true) : (s.step op).terminated = true := by
  cases op with
  | spawn c j k t =>
    simp only [Sys.step]; split
    · split <;> simpa using h
    · exact h
  | closed k => simp only [Sys.step]; split; split; all_goals exact h
  | sendDereg k => simp only [Sys.step]; split; split; all_goals exact h
  | setTerminated => rfl
  | sched =>
    simp only [Sys.step]
    split
    · rename_i m ms hp hm
      cases m with
      | register c j => simpa [Sys.handle] using h
      | get k => simpa [Sys.handle] using h
      | dereg k => simp only [Sys.handle]; split <;> exact h
      | stop => exact h
    · exact h
  | schedDone => simp only [Sys.step]; split; split; all_goals exact h
  | _ => simp only [Sys.step]; split <;> exact h

theorem asked_step (s : Sys) (op : Op) (i : Nat) (hi : s.phaseOf i ≠ .absent) (h : (s.acts i).stopAsked = true) :
    ((s.step op).acts i).stopAsked = true := by
  cases op with
  | spawn c j k t =>
    simp only [Sys.step]; split
    · rename_i hc
      have hij : i ≠ j := by rintro rfl; exact hi hc.1
      split <;> simpa [hij] using h
    · exact h
  | closed k => simp only [Sys.step]; split; split; all_goals simpa using h
  | sendDereg k => simp only [Sys.step]; split; split; all_goals simpa using h
  | setTerminated => exact h
  | askStop k =>
    simp only [Sys.step]; split
    · exact h
    · by_cases e : i = k
      · subst e; simp
      · simpa [e] using h
  | sched =>
    simp only [Sys.step]
    split
    · rename_i m ms hp hm
      cases m with
      | register c j => simpa [Sys.handle] using h
      | get k => simpa [Sys.handle] using h
      | dereg k => simp only [Sys.handle]; split <;> simpa using h
      | stop => simp only [Sys.handle, Sys.askAll]; split <;> simp [h]
    · exact h
  | schedDone =>
    simp only [Sys.step]; split
    · split
      · simp only [Act.released]; split <;> exact h
      · exact h
    · exact h
  | _ => simp only [Sys.step]; split <;> simpa using h

/-- new messages of the scheduler. -/
theorem mbox_step (s : Sys) (op : Op) (m : SMsg) (h : m ∈ (s.step op).mbox) :
    m ∈ s.mbox ∨ (m = .stop ∧ s.terminated = true) ∨ (∃ i, m = .get i ∨ m = .dereg i) ∨
    ∃ c j k t, op = .spawn c j k t ∧ m = .register c j ∧ (s.step op).phaseOf j ≠ .absent := by
  cases op with
  | spawn c j k t =>
    simp only [Sys.step] at h ⊢
    split at h
    · rename_i hc
      rw [if_pos hc]
      split at h
      · rename_i ht
        rw [if_pos ht]
        have hm : m ∈ s.mbox ++ [.register c j] := by cases c <;> exact h
        rw [List.mem_append, List.mem_singleton] at hm
        rcases hm with hm | rfl
        · exact .inl hm
        · refine .inr (.inr (.inr ⟨c, j, k, t, rfl, rfl, ?_⟩))
          cases c with
          | none => simp [Sys.await, Sys.phaseOf, Sys.push]
          | some c =>
            have : j ≠ c := fun e => hc.2.2 (by rw [e])
            simp only [Sys.await, phaseOf_setPhase, this, if_false, push_phaseOf]
            simp [Sys.phaseOf]
      · exact .inl h
    · exact .inl h
  | ask k =>
    simp only [Sys.step] at h
    split at h
    · simp only [setPhase_mbox, Sys.push, List.mem_append, List.mem_singleton] at h
      rcases h with h | h
      · exact .inl h
      · exact .inr (.inr (.inl ⟨k, .inl h⟩))
    · exact .inl h
  | closed k => simp only [Sys.step] at h; split at h; split at h; all_goals exact .inl h
  | sendDereg k =>
    simp only [Sys.step] at h
    split at h
    · split at h
      · exact .inl h
      · simp only [setPhase_mbox, Sys.push, List.mem_append, List.mem_singleton] at h
        rcases h with h | h
        · exact .inl h
        · exact .inr (.inr (.inl ⟨k, .inr h⟩))
    · exact .inl h
  | setTerminated => exact .inl h
  | sendStop =>
    simp only [Sys.step] at h
    split at h
    · rename_i ht
      simp only [Sys.push, List.mem_append, List.mem_singleton] at h
      rcases h with h | h
      · exact .inl h
      · exact .inr (.inl ⟨h, ht.1⟩)
    · exact .inl h
  | sched =>
    simp only [Sys.step] at h
    split at h
    · rename_i m' ms hp hm
      left
      rw [hm]
      suffices m ∈ ms from List.mem_cons_of_mem _ this
      cases m' with
      | register c j =>
        cases c with
        | none => exact h
        | some c => simp only [Sys.handle, Sys.resume] at h; split at h <;> exact h
      | get k => simp only [Sys.handle, Sys.resume] at h; split at h <;> exact h
      | dereg k => simp only [Sys.handle] at h; split at h <;> exact h
      | stop => exact h
    · exact .inl h
  | schedDone =>
    simp only [Sys.step] at h
    split at h
    · split at h
      · simp at h
      · exact .inl h
    · exact .inl h
  | _ => simp only [Sys.step] at h; split at h <;> exact .inl h

theorem mem_vals_insert {m : Assoc Nat Nat} {k v x : Nat} (h : x ∈ (m.insert k v).vals) : x = v ∨ x ∈ m.vals := by
  simp only [Assoc.vals, List.mem_map] at h ⊢
  obtain ⟨p, hp, rfl⟩ := h
  rcases Assoc.mem_insert.1 hp with rfl | ⟨hp, _⟩
  · exact .inl rfl
  · exact .inr ⟨p, hp, rfl⟩

theorem mem_vals_erase {m : Assoc Nat Nat} {k x : Nat} (h : x ∈ (m.erase k).vals) : x ∈ m.vals := by
  simp only [Assoc.vals, List.mem_map] at h ⊢
  obtain ⟨p, hp, rfl⟩ := h
  exact ⟨p, (Assoc.mem_erase.1 hp).1, rfl⟩

/-- new registrations. -/
theorem reg_step (s : Sys) (op : Op) (j : Nat) (h : j ∈ (s.step op).reg.vals) :
    j ∈ s.reg.vals ∨ ∃ c, SMsg.register c j ∈ s.mbox := by
  cases op with
  | spawn c j k t =>
    simp only [Sys.step] at h
    split at h
    · split at h
      · cases c <;> exact .inl h
      · exact .inl h
    · exact .inl h
  | closed k => simp only [Sys.step] at h; split at h; split at h; all_goals exact .inl h
  | sendDereg k => simp only [Sys.step] at h; split at h; split at h; all_goals exact .inl h
  | setTerminated => exact .inl h
  | sched =>
    simp only [Sys.step] at h
    split at h
    · rename_i m' ms hp hm
      cases m' with
      | register c i =>
        have h : j ∈ (s.reg.insert (s.acts i).key i).vals := by
          cases c with
          | none => exact h
          | some c => simp only [Sys.handle, Sys.resume] at h; split at h <;> exact h
        rcases mem_vals_insert h with rfl | h
        · exact .inr ⟨c, by simp [hm]⟩
        · exact .inl h
      | get k => simp only [Sys.handle, Sys.resume] at h; split at h <;> exact .inl h
      | dereg k => simp only [Sys.handle] at h; split at h <;> exact .inl (mem_vals_erase h)
      | stop => exact .inl h
    · exact .inl h
  | schedDone => simp only [Sys.step] at h; split at h; split at h; all_goals exact .inl h
  | _ => simp only [Sys.step] at h; split at h <;> exact .inl h

theorem Inv.step {s : Sys} (h : Inv s) (op : Op) : Inv (s.step op) where
  term := by
    rintro (h1 | h1)
    · rcases mbox_step s op _ h1 with h2 | ⟨_, h2⟩ | ⟨i, h2 | h2⟩ | ⟨_, _, _, _, _, h2, _⟩
      · exact term_step s op (h.term (.inl h2))
      · exact term_step s op h2
      · cases h2
      · cases h2
      · cases h2
    · rcases phase_step s op with h2 | ⟨_, h2, _⟩ | ⟨ws, _, h2, _⟩
      · rw [h2] at h1; exact term_step s op (h.term (.inr h1))
      · exact term_step s op (h.term (.inl (List.mem_of_mem_head? (by rw [h2.2]; rfl))))
      · exact term_step s op (h.term (.inr (by rw [h2]; exact fun h => by cases h)))
  asked := by
    intro ws hw i hi
    rcases phase_step s op with h2 | ⟨rfl, h2, h3⟩ | ⟨ws, _, _, h2, _⟩
    · rw [h2] at hw
      obtain ⟨h3, h4⟩ := h.asked ws hw i hi
      exact ⟨asked_step s op i h4 h3, ok_absent (ok_step s op i) h4⟩
    · rw [h3] at hw; cases hw
      refine ⟨?_, ok_absent (ok_step s .sched i) (h.live i hi)⟩
      obtain ⟨h4, h5⟩ := h2
      cases hm : s.mbox with
      | nil => simp [hm] at h5
      | cons m ms =>
        simp only [hm, List.head?_cons, Option.some.injEq] at h5
        subst h5
        simp [Sys.step, h4, hm, Sys.handle, Sys.askAll, hi]
    · rw [h2] at hw; cases hw
  queued := by
    intro c j h1
    rcases mbox_step s op _ h1 with h2 | ⟨h2, _⟩ | ⟨i, h2 | h2⟩ | ⟨_, _, _, _, _, h2, h3⟩
    · exact ok_absent (ok_step s op j) (h.queued c j h2)
    · cases h2
    · cases h2
    · cases h2
    · cases h2; exact h3
  live := by
    intro j h1
    rcases reg_step s op j h1 with h2 | ⟨c, h2⟩
    · exact ok_absent (ok_step s op j) (h.live j h2)
    · exact ok_absent (ok_step s op j) (h.queued c j h2)

theorem Inv.of_reachable {s : Sys} (h : Reachable s) : Inv s :=
  Reachable.ind ⟨by simp [Sys.init], by simp [Sys.init], by simp [Sys.init], by simp [Sys.init, Assoc.vals]⟩
    (fun _ op h => h.step op) h

/-- C68: an awaited actor that needs the scheduler needs it forever, and `shutdown` never returns. -/
theorem C68_stuck_forever (s : Sys) (ws : List Nat) (hp : s.phase = .stopping ws) (i : Nat) (hi : i ∈ ws)
    (hn : (s.phaseOf i).needsScheduler = true) (ops : List Op) :
    ¬ (s.run ops).returned ∧ ((s.run ops).phaseOf i).needsScheduler = true := by
  induction ops generalizing s with
  | nil => exact ⟨fun h => (by rw [Sys.returned, Sys.run, List.foldl_nil, hp] at h; cases h), hn⟩
  | cons op ops ih =>
    rcases phase_step s op with h1 | ⟨_, h1, _⟩ | ⟨ws', rfl, h1, h2, h3⟩
    · refine ih (s.step op) (h1.trans hp) ?_
      have h2 := ok_step s op i
      rw [h1, hp] at h2
      exact ok_needs (by simpa using h2) hn
    · rw [h1.1] at hp; cases hp
    · rw [h1] at hp; cases hp
      have := h3 i hi
      cases hq : s.phaseOf i <;> rw [hq] at hn this <;> cases hn <;> cases this

/-- the steps that end an actor asked to stop. -/
def endOps (i : Nat) : List Op := [.finish i, .takeStop i, .closed i]

theorem setPhase_frame {s : Sys} {i k : Nat} (h : k ≠ i) (p : Phase) : (s.setPhase i p).acts k = s.acts k := by
  simp [Sys.setPhase, h]

theorem endOps_other (s : Sys) (i k : Nat) (h : k ≠ i) : (s.run (endOps i)).acts k = s.acts k := by
  have h1 : ∀ s : Sys, (s.step (.finish i)).acts k = s.acts k := by
    intro s; simp only [Sys.step]; split
    · exact setPhase_frame h _
    · rfl
  have h2 : ∀ s : Sys, (s.step (.takeStop i)).acts k = s.acts k := by
    intro s; simp only [Sys.step]; split
    · exact setPhase_frame h _
    · rfl
  have h3 : ∀ s : Sys, (s.step (.closed i)).acts k = s.acts k := by
    intro s; simp only [Sys.step]; split
    · split <;> exact setPhase_frame h _
    · rfl
  simp only [Sys.run, endOps, List.foldl_cons, List.foldl_nil, h1, h2, h3]

theorem endOps_ends (s : Sys) (i : Nat) (ht : s.terminated = true) (ha : (s.acts i).stopAsked = true)
    (hn : (s.phaseOf i).needsScheduler = false) (hb : s.phaseOf i ≠ .absent) :
    ((s.run (endOps i)).phaseOf i).gone = true := by
  simp only [Sys.run, endOps, List.foldl_cons, List.foldl_nil]
  cases hp : s.phaseOf i with
  | absent => exact absurd hp hb
  | waiting => simp [hp, Phase.needsScheduler] at hn
  | checked => simp [hp, Phase.needsScheduler] at hn
  | leaving => simp [hp, Phase.needsScheduler] at hn
  | idle => simp [Sys.step, hp, ha, ht, Phase.gone]
  | busy => simp [Sys.step, hp, ha, ht, Phase.gone]
  | closing => simp [Sys.step, hp, ht, Phase.gone]
  | done => simp [Sys.step, hp, Phase.gone]
  | crashed => simp [Sys.step, hp, Phase.gone]

theorem endOps_phase (s : Sys) (i : Nat) : (s.run (endOps i)).phase = s.phase ∧ (s.run (endOps i)).terminated = s.terminated := by
  have h1 : ∀ s : Sys, (s.step (.finish i)).phase = s.phase ∧ (s.step (.finish i)).terminated = s.terminated := by
    intro s; simp only [Sys.step]; split <;> exact ⟨rfl, rfl⟩
  have h2 : ∀ s : Sys, (s.step (.takeStop i)).phase = s.phase ∧ (s.step (.takeStop i)).terminated = s.terminated := by
    intro s; simp only [Sys.step]; split <;> exact ⟨rfl, rfl⟩
  have h3 : ∀ s : Sys, (s.step (.closed i)).phase = s.phase ∧ (s.step (.closed i)).terminated = s.terminated := by
    intro s; simp only [Sys.step]; split
    · split <;> exact ⟨rfl, rfl⟩
    · exact ⟨rfl, rfl⟩
  simp only [Sys.run, endOps, List.foldl_cons, List.foldl_nil, h1, h2, h3, and_self]

/-- C68: once the scheduler is stopping, `shutdown` can still return exactly if no awaited actor needs the
scheduler. -/
theorem C68_returns_iff (s : Sys) (hr : Reachable s) (ws : List Nat) (hp : s.phase = .stopping ws) :
    (∃ ops, (s.run ops).returned) ↔ ∀ i ∈ ws, (s.phaseOf i).needsScheduler = false := by
  constructor
  · rintro ⟨ops, h⟩ i hi
    cases hn : (s.phaseOf i).needsScheduler with
    | false => rfl
    | true => exact absurd h (C68_stuck_forever s ws hp i hi hn ops).1
  · intro hn
    have hinv := Inv.of_reachable hr
    have ht := hinv.term (.inr (by rw [hp]; exact fun h => by cases h))
    have key : ∀ (l : List Nat) (t : Sys), t.terminated = true → t.phase = s.phase →
        (∀ i ∈ ws, (t.phaseOf i).gone = true ∨ (t.acts i).stopAsked = true ∧ (t.phaseOf i).needsScheduler = false ∧ t.phaseOf i ≠ .absent) →
        (∀ i ∈ ws, i ∉ l → (t.phaseOf i).gone = true) → (∀ i ∈ l, i ∈ ws) →
        ∃ ops, (t.run ops).phase = s.phase ∧ ∀ i ∈ ws, ((t.run ops).phaseOf i).gone = true := by
      intro l
      induction l with
      | nil => intro t _ h2 _ h4 _; exact ⟨[], h2, fun i hi => h4 i hi (by simp)⟩
      | cons a l ih =>
        intro t h1 h2 h3 h4 h5
        have ha : ((t.run (endOps a)).phaseOf a).gone = true := by
          rcases h3 a (h5 a (by simp)) with h | ⟨h6, h7, h8⟩
          · exact gone_run t _ a h
          · exact endOps_ends t a h1 h6 h7 h8
        obtain ⟨ops, h6, h7⟩ := ih (t.run (endOps a)) (by rw [(endOps_phase t a).2, h1]) (by rw [(endOps_phase t a).1, h2])
          (fun i hi => by
            by_cases hia : i = a
            · subst hia; exact .inl ha
            · have := endOps_other t a i hia
              unfold Sys.phaseOf at *; rw [this]; exact h3 i hi)
          (fun i hi hil => by
            by_cases hia : i = a
            · subst hia; exact ha
            · have := endOps_other t a i hia
              unfold Sys.phaseOf at *; rw [this]; exact h4 i hi (by simp [hia, hil]))
          (fun i hi => h5 i (by simp [hi]))
        exact ⟨endOps a ++ ops, by rw [run_append]; exact h6, by rw [run_append]; exact h7⟩
    obtain ⟨ops, h1, h2⟩ := key ws s ht rfl
      (fun i hi => .inr ⟨(hinv.asked ws hp i hi).1, hn i hi, (hinv.asked ws hp i hi).2⟩)
      (fun i hi h => absurd hi h) (fun i hi => hi)
    refine ⟨ops ++ [.schedDone], ?_⟩
    rw [run_append]
    have : (s.run ops).phase = .stopping ws := h1.trans hp
    simp only [Sys.run, List.foldl_cons, List.foldl_nil, Sys.returned]
    unfold Sys.run at this h2
    simp only [Sys.step, this]
    rw [if_pos (by simpa using h2)]

/-- two actors, one inside a handler when the system is shut down: both end and `shutdown` returns. -/
example : (Sys.init.run [.spawn none 0 10 true, .spawn none 1 11 true, .sched, .sched, .finish 0, .setTerminated, .sendStop,
    .sched, .takeStop 0, .finish 1, .closed 0, .takeStop 1, .closed 1, .schedDone]).phase = .done := by decide

/-- a stopping scheduler and an actor that is not waiting. -/
example : (Sys.init.run [.spawn none 0 10 true, .sched, .setTerminated, .sendStop, .sched]).phase = .stopping [0] := by decide

/-- C68 as stated is false: an actor asks the scheduler for another actor after the scheduler took `Stop`; the
scheduler waits for the actor and the actor for the scheduler, in every continuation. -/
theorem C68_refuted_handler : ∃ ops, ∀ more, ¬ (Sys.init.run (ops ++ more)).returned := by
  refine ⟨[.spawn none 0 10 true, .sched, .setTerminated, .sendStop, .sched, .ask 0], fun more => ?_⟩
  rw [run_append]
  exact (C68_stuck_forever _ [0] (by decide) 0 (by simp) (by decide) more).1

/-- C68 as stated is false without any actor calling the scheduler: an actor stopping by itself finds the
system not terminated, then the system is terminated, then the actor deregisters. -/
theorem C68_refuted_race : ∃ ops, (∀ i, Op.ask i ∉ ops) ∧ ∀ more, ¬ (Sys.init.run (ops ++ more)).returned := by
  refine ⟨[.spawn none 0 10 true, .sched, .quit 0, .closed 0, .setTerminated, .sendStop, .sched, .sendDereg 0],
    by simp, fun more => ?_⟩
  rw [run_append]
  exact (C68_stuck_forever _ [0] (by decide) 0 (by simp) (by decide) more).1

/-- After `shutdown` has returned, an actor that was registered too late is still running, one that
replaced it in the registry left the older one running, and one that was deregistering has panicked. -/
theorem C68_survivors : 
    (∃ ops, (Sys.init.run ops).returned ∧ (Sys.init.run ops).phaseOf 1 = .idle ∧ ((Sys.init.run ops).acts 1).tracked = true) ∧
    (∃ ops, (Sys.init.run ops).returned ∧ (Sys.init.run ops).phaseOf 0 = .idle ∧ ((Sys.init.run ops).acts 0).key = 10 ∧
      ((Sys.init.run ops).acts 1).key = 10 ∧ Op.spawn none 1 10 true ∈ ops) ∧
    (∃ ops, (Sys.init.run ops).returned ∧ (Sys.init.run ops).phaseOf 0 = .crashed) :=
  ⟨⟨[.setTerminated, .sendStop, .sched, .spawn none 1 11 true, .finish 1, .schedDone], by decide⟩,
   ⟨[.spawn none 0 10 true, .sched, .finish 0, .spawn none 1 10 true, .sched, .finish 1, .setTerminated, .sendStop, .sched,
      .takeStop 1, .closed 1, .schedDone], by decide⟩,
   ⟨[.spawn none 0 10 true, .sched, .spawn none 1 10 true, .sched, .quit 0, .closed 0, .setTerminated, .sendStop, .sched,
      .sendDereg 0, .finish 1, .takeStop 1, .closed 1, .schedDone], by decide⟩⟩

/-- Once `shutdown` has returned, no actor is waiting for the scheduler, and none ever will again: a request in its
mailbox was answered with an error or ended the actor that made it. -/
theorem C68_nobody_waits (ops : List Op) (hr : (Sys.init.run ops).returned) (i : Nat) :
    (Sys.init.run ops).phaseOf i ≠ .waiting ∧ (Sys.init.run ops).phaseOf i ≠ .leaving := by
  have key : ∀ (ops : List Op) (s : Sys),
      (s.phase = .done → ∀ i, s.phaseOf i ≠ .waiting ∧ s.phaseOf i ≠ .leaving) →
      (s.run ops).phase = .done → ∀ i, (s.run ops).phaseOf i ≠ .waiting ∧ (s.run ops).phaseOf i ≠ .leaving := by
    intro ops
    induction ops with
    | nil => intro s h; exact h
    | cons op ops ih =>
      intro s h
      refine ih (s.step op) ?_
      intro hd i
      rcases phase_step s op with h1 | ⟨_, _, h1⟩ | ⟨ws, rfl, h1, h2, h3⟩
      · rw [h1] at hd
        have hi := h hd i
        have hcases : (s.step op).phaseOf i = s.phaseOf i ∨
            (s.step op).phaseOf i ≠ .waiting ∧ (s.step op).phaseOf i ≠ .leaving := by
          cases op with
          | spawn c j k t =>
            simp only [Sys.step, hd, ne_eq, not_true_eq_false, and_false, if_false]
            split
            · by_cases e : i = j <;> simp [Sys.phaseOf, e]
            · exact .inl rfl
          | beginMsg k => simp only [Sys.step]; split <;> by_cases e : i = k <;> simp [e]
          | finish k => simp only [Sys.step]; split <;> by_cases e : i = k <;> simp [e]
          | ask k => simp [Sys.step, hd]
          | quit k => simp only [Sys.step]; split <;> by_cases e : i = k <;> simp [e]
          | takeStop k => simp only [Sys.step]; split <;> by_cases e : i = k <;> simp [e]
          | closed k => simp only [Sys.step]; split <;> (try split) <;> by_cases e : i = k <;> simp [e]
          | sendDereg k => simp only [Sys.step, hd, if_true]; split <;> by_cases e : i = k <;> simp [e]
          | setTerminated => exact .inl rfl
          | askStop k =>
            left; simp only [Sys.step]; split
            · rfl
            · by_cases e : i = k <;> simp [Sys.phaseOf, e]
          | sendStop => simp [Sys.step, hd]
          | sched => simp [Sys.step, hd]
          | schedDone => simp [Sys.step, hd]
        rcases hcases with e | e
        · rw [e]; exact hi
        · exact e
      · rw [h1] at hd; cases hd
      · have hall : (ws.all fun i => (s.phaseOf i).gone) = true := List.all_eq_true.mpr h3
        have e : (s.step .schedDone).phaseOf i = (s.acts i).released.phase := by
          simp only [Sys.phaseOf] at hall
          simp [Sys.step, h1, hall, Sys.phaseOf]
        rw [e]
        unfold Act.released
        cases hp : (s.acts i).phase <;> simp [hp]
  exact key ops Sys.init (fun h => by cases h) hr i

example : (Sys.init.run [.spawn none 0 10 false, .setTerminated, .sendStop, .sched, .ask 0]).phaseOf 0 = .waiting ∧
    (Sys.init.run [.spawn none 0 10 false, .setTerminated, .sendStop, .sched, .ask 0, .schedDone]).returned ∧
    (Sys.init.run [.spawn none 0 10 false, .setTerminated, .sendStop, .sched, .ask 0, .schedDone]).phaseOf 0 = .busy := by
  decide

/-! ### the remote part -/

/-- C68: when the scheduler has ended, the remote part of `shutdown` returns at once: every actor of it that was registered
when the scheduler took `Stop` has ended, asking it to stop changes nothing, and nothing is waited for. -/
theorem C68_remote_returns (s : Sys) (h : s.stopsNext) (ops : List Op) (hr : ((s.step .sched).run ops).returned)
    (rs : List Nat) (hrs : ∀ r ∈ rs, r ∈ s.reg.vals) :
    ((s.step .sched).run ops).remoteAwaits rs = none ∧
    ∀ r ∈ rs, ((s.step .sched).run ops).step (.askStop r) = (s.step .sched).run ops := by
  have hg := fun r hm => C68_returned_all_ended s h ops hr r (hrs r hm)
  generalize (s.step .sched).run ops = t at *
  refine ⟨List.find?_eq_none.mpr fun r hm => by simp [hg r hm], fun r hm => ?_⟩
  simp [Sys.step, hg r hm]

/-- what will answer a handler that waits, and an actor that deregisters, is in the mailbox of the scheduler. -/
def Pend (s : Sys) : Prop :=
  ∀ i, (s.phaseOf i = .waiting → (∃ j, SMsg.register (some i) j ∈ s.mbox) ∨ SMsg.get i ∈ s.mbox) ∧
    (s.phaseOf i = .leaving → SMsg.dereg i ∈ s.mbox)

theorem Pend.set {s t : Sys} (h : Pend s) {k : Nat} {p : Phase} (hm : ∀ m ∈ s.mbox, m ∈ t.mbox)
    (ht : ∀ i, t.phaseOf i = if i = k then p else s.phaseOf i) (hp : p ≠ .waiting) (hq : p ≠ .leaving) : Pend t := by
  intro i
  rw [ht]
  split
  · exact ⟨fun e => absurd e hp, fun e => absurd e hq⟩
  · refine ⟨fun e => ((h i).1 e).imp (fun ⟨j, hj⟩ => ⟨j, hm _ hj⟩) (hm _), fun e => hm _ ((h i).2 e)⟩

theorem Pend.same {s t : Sys} (h : Pend s) (hm : ∀ m ∈ s.mbox, m ∈ t.mbox) (ht : ∀ i, t.phaseOf i = s.phaseOf i) : Pend t := by
  intro i
  rw [ht]
  exact ⟨fun e => ((h i).1 e).imp (fun ⟨j, hj⟩ => ⟨j, hm _ hj⟩) (hm _), fun e => hm _ ((h i).2 e)⟩

theorem Pend.step {s : Sys} (h : Pend s) (op : Op) : Pend (s.step op) := by
  cases op with
  | spawn caller j key tracked =>
    simp only [Sys.step]
    split
    · rename_i hc
      have h1 : Pend { s with acts := fun k => if k = j then ⟨key, tracked, .busy, false⟩ else s.acts k } :=
        h.set (k := j) (p := .busy) (fun _ hm => hm) (fun i => by simp only [Sys.phaseOf]; split <;> rfl) (by decide) (by decide)
      split
      · have h2 : Pend (Sys.push { s with acts := fun k => if k = j then ⟨key, tracked, .busy, false⟩ else s.acts k }
            (.register caller j)) :=
          h1.same (fun m hm => List.mem_append_left _ hm) fun _ => rfl
        cases caller with
        | none => exact h2
        | some c =>
          intro i
          have := h2 i
          simp only [Sys.await, phaseOf_setPhase, setPhase_mbox]
          split
          · rename_i e; subst e
            exact ⟨fun _ => .inl ⟨j, by simp [Sys.push]⟩, fun e => by cases e⟩
          · exact this
      · exact h1
    · exact h
  | beginMsg k => simp only [Sys.step]; split <;> first | exact h | exact h.set (fun _ hm => hm) (fun i => phaseOf_setPhase _ _ _ _) (by decide) (by decide)
  | finish k => simp only [Sys.step]; split <;> first | exact h | exact h.set (fun _ hm => hm) (fun i => phaseOf_setPhase _ _ _ _) (by decide) (by decide)
  | quit k => simp only [Sys.step]; split <;> first | exact h | exact h.set (fun _ hm => hm) (fun i => phaseOf_setPhase _ _ _ _) (by decide) (by decide)
  | takeStop k => simp only [Sys.step]; split <;> first | exact h | exact h.set (fun _ hm => hm) (fun i => phaseOf_setPhase _ _ _ _) (by decide) (by decide)
  | closed k =>
    simp only [Sys.step]; split
    · split
      · exact h.set (fun _ hm => hm) (fun i => phaseOf_setPhase _ _ _ _) (by decide) (by decide)
      · exact h.set (fun _ hm => hm) (fun i => phaseOf_setPhase _ _ _ _) (by decide) (by decide)
    · exact h
  | ask k =>
    simp only [Sys.step]; split
    · intro i
      simp only [phaseOf_setPhase, setPhase_mbox, push_phaseOf]
      split
      · rename_i e; subst e
        exact ⟨fun _ => .inr (by simp [Sys.push]), fun e => by cases e⟩
      · exact h.same (t := s.push (.get k)) (fun m hm => List.mem_append_left _ hm) (fun _ => rfl) i
    · exact h
  | sendDereg k =>
    simp only [Sys.step]; split
    · split
      · exact h.set (fun _ hm => hm) (fun i => phaseOf_setPhase _ _ _ _) (by decide) (by decide)
      · intro i
        simp only [phaseOf_setPhase, setPhase_mbox, push_phaseOf]
        split
        · rename_i e; subst e
          exact ⟨fun e => (by cases e), fun _ => by simp [Sys.push]⟩
        · exact h.same (t := s.push (.dereg k)) (fun m hm => List.mem_append_left _ hm) (fun _ => rfl) i
    · exact h
  | setTerminated => exact h
  | sendStop =>
    simp only [Sys.step]; split
    · exact h.same (fun m hm => List.mem_append_left _ hm) fun _ => rfl
    · exact h
  | askStop k =>
    simp only [Sys.step]; split
    · exact h
    · exact h.same (fun m hm => hm) fun i => by by_cases e : i = k <;> simp [Sys.phaseOf, e]
  | sched =>
    generalize hs : s.step .sched = t
    simp only [Sys.step] at hs
    split at hs
    · rename_i m ms hp hm
      subst hs
      have other : ∀ i, (s.phaseOf i = .waiting → (∃ j, m = .register (some i) j ∨ SMsg.register (some i) j ∈ ms) ∨
          m = .get i ∨ SMsg.get i ∈ ms) ∧ (s.phaseOf i = .leaving → m = .dereg i ∨ SMsg.dereg i ∈ ms) := by
        intro i
        have := h i
        rw [hm] at this
        simp only [List.mem_cons] at this
        exact ⟨fun e => (this.1 e).imp (fun ⟨j, hj⟩ => ⟨j, hj.imp Eq.symm id⟩) (fun hj => hj.imp Eq.symm id),
          fun e => (this.2 e).imp Eq.symm id⟩
      have res : ∀ (t : Sys) (c : Option Nat), t.mbox = ms → (∀ i, t.phaseOf i = s.phaseOf i) →
          (∀ i, c ≠ some i → (s.phaseOf i = .waiting → (∃ j, SMsg.register (some i) j ∈ ms) ∨ SMsg.get i ∈ ms) ∧
            (s.phaseOf i = .leaving → SMsg.dereg i ∈ ms)) → (∀ i, c = some i → s.phaseOf i = .leaving → SMsg.dereg i ∈ ms) →
          Pend (t.resume c) := by
        intro t c h1 h2 h3 h4 i
        cases c with
        | none => simp only [Sys.resume, h1, h2]; exact h3 i (by simp)
        | some k =>
          simp only [Sys.resume, h2]
          by_cases e : i = k
          · subst e
            split
            · simp
            · rename_i hw
              simp only [h1, h2]
              exact ⟨fun e => absurd e hw, h4 i rfl⟩
          · have := h3 i (by simpa using fun h => e h.symm)
            split
            · simp only [phaseOf_setPhase, e, if_false, setPhase_mbox, h1, h2]; exact this
            · simp only [h1, h2]; exact this
      cases m with
      | register c j =>
        refine res _ c rfl (fun _ => rfl) (fun i hi => ?_) (fun i _ hl => ?_)
        · obtain ⟨o1, o2⟩ := other i
          refine ⟨fun e => ?_, fun e => ?_⟩
          · rcases o1 e with ⟨j', hj | hj⟩ | hj | hj
            · simp only [SMsg.register.injEq] at hj; exact absurd hj.1 hi
            · exact .inl ⟨j', hj⟩
            · cases hj
            · exact .inr hj
          · rcases o2 e with hj | hj
            · cases hj
            · exact hj
        · rcases (other i).2 hl with hj | hj
          · cases hj
          · exact hj
      | get k =>
        refine res _ (some k) rfl (fun _ => rfl) (fun i hi => ?_) (fun i _ hl => ?_)
        · obtain ⟨o1, o2⟩ := other i
          refine ⟨fun e => ?_, fun e => ?_⟩
          · rcases o1 e with ⟨j', hj | hj⟩ | hj | hj
            · cases hj
            · exact .inl ⟨j', hj⟩
            · cases hj; exact absurd rfl hi
            · exact .inr hj
          · rcases o2 e with hj | hj
            · cases hj
            · exact hj
        · rcases (other i).2 hl with hj | hj
          · cases hj
          · exact hj
      | dereg k =>
        intro i
        obtain ⟨o1, o2⟩ := other i
        have o1' : s.phaseOf i = .waiting → (∃ j, SMsg.register (some i) j ∈ ms) ∨ SMsg.get i ∈ ms := by
          intro e
          rcases o1 e with ⟨j', hj | hj⟩ | hj | hj
          · cases hj
          · exact .inl ⟨j', hj⟩
          · cases hj
          · exact .inr hj
        simp only [Sys.handle]
        split
        · rename_i hk
          simp only [phaseOf_setPhase, setPhase_mbox]
          split
          · simp
          · rename_i e
            refine ⟨o1', fun e' => ?_⟩
            rcases o2 e' with hj | hj
            · cases hj; exact absurd rfl e
            · exact hj
        · rename_i hk
          refine ⟨o1', fun e' => ?_⟩
          rcases o2 e' with hj | hj
          · cases hj; exact absurd e' hk
          · exact hj
      | stop =>
        intro i
        obtain ⟨o1, o2⟩ := other i
        have hph : (Sys.handle { s with mbox := ms } .stop).phaseOf i = s.phaseOf i := by
          simp only [Sys.handle, Sys.phaseOf, Sys.askAll]; split <;> rfl
        rw [hph]
        refine ⟨fun e => ?_, fun e => ?_⟩
        · rcases o1 e with ⟨j', hj | hj⟩ | hj | hj
          · cases hj
          · exact .inl ⟨j', hj⟩
          · cases hj
          · exact .inr hj
        · rcases o2 e with hj | hj
          · cases hj
          · exact hj
    · subst hs; exact h
  | schedDone =>
    generalize hs : s.step .schedDone = t
    simp only [Sys.step] at hs
    split at hs
    · split at hs
      · subst hs
        intro i
        simp only [Sys.phaseOf, Act.released]
        split <;> simp_all
      · subst hs; exact h
    · subst hs; exact h

theorem Pend.of_reachable {s : Sys} (h : Reachable s) : Pend s :=
  Reachable.ind (fun i => by simp [Sys.init, Sys.phaseOf]) (fun _ op h => h.step op) h

/-- the scheduler runs and has nothing to do. -/
def Quiet (s : Sys) : Prop := Reachable s ∧ s.terminated = false ∧ s.phase = .running ∧ s.mbox = []

theorem sched_step (s : Sys) (m : SMsg) (ms : List SMsg) (hp : s.phase = .running) (hm : s.mbox = m :: ms)
    (hstop : m ≠ .stop) : (s.step .sched).mbox = ms ∧ (s.step .sched).phase = .running ∧
      (s.step .sched).terminated = s.terminated := by
  simp only [Sys.step, hp, hm]
  cases m with
  | register c j =>
    cases c with
    | none => exact ⟨rfl, rfl, rfl⟩
    | some c => simp only [Sys.handle, Sys.resume]; split <;> exact ⟨rfl, rfl, rfl⟩
  | get k => simp only [Sys.handle, Sys.resume]; split <;> exact ⟨rfl, rfl, rfl⟩
  | dereg k => simp only [Sys.handle]; split <;> exact ⟨rfl, rfl, rfl⟩
  | stop => exact absurd rfl hstop

theorem drained (s : Sys) (hr : Reachable s) (ht : s.terminated = false) :
    Quiet (s.run (List.replicate s.mbox.length .sched)) := by
  generalize hn : s.mbox.length = n
  induction n generalizing s with
  | zero =>
    have hi := Inv.of_reachable hr
    refine ⟨hr, ht, ?_, List.length_eq_zero_iff.mp hn⟩
    cases hp : s.phase with
    | running => exact hp
    | stopping ws => rw [hi.term (.inr (by simp [hp]))] at ht; cases ht
    | done => rw [hi.term (.inr (by simp [hp]))] at ht; cases ht
  | succ n ih =>
    have hi := Inv.of_reachable hr
    have hp : s.phase = .running := by
      cases hp : s.phase with
      | running => rfl
      | stopping ws => rw [hi.term (.inr (by simp [hp]))] at ht; cases ht
      | done => rw [hi.term (.inr (by simp [hp]))] at ht; cases ht
    cases hm : s.mbox with
    | nil => rw [hm] at hn; cases hn
    | cons m ms =>
      have hs : m ≠ .stop := by
        rintro rfl
        rw [hi.term (.inl (by simp [hm]))] at ht; cases ht
      obtain ⟨h1, _, h3⟩ := sched_step s m ms hp hm hs
      exact ih (s.step .sched) (hr.run [.sched]) (h3.trans ht) (by rw [h1]; simpa [hm] using hn)

/-- what happens when an actor is asked to stop while the system goes on. -/
def stopOps (i : Nat) : List Op := [.askStop i, .finish i, .takeStop i, .closed i, .sendDereg i, .sched]

theorem stopOps_ends (s : Sys) (h : Quiet s) (i : Nat) (hb : s.phaseOf i ≠ .absent) :
    Quiet (s.run (stopOps i)) ∧ ((s.run (stopOps i)).phaseOf i).gone = true := by
  obtain ⟨hr, ht, hp, hm⟩ := h
  have hpend := Pend.of_reachable hr i
  rw [hm] at hpend
  have key : ∀ t : Sys, t = s.run (stopOps i) → (t.terminated = false ∧ t.phase = .running ∧ t.mbox = []) ∧
      (t.phaseOf i).gone = true → Quiet t ∧ (t.phaseOf i).gone = true := by
    rintro t rfl ⟨⟨h1, h2, h3⟩, h4⟩
    exact ⟨⟨hr.run _, h1, h2, h3⟩, h4⟩
  refine key _ rfl ?_
  simp only [Sys.run, stopOps, List.foldl_cons, List.foldl_nil]
  unfold Sys.phaseOf at *
  cases hq : (s.acts i).phase with
  | absent => exact absurd hq hb
  | waiting => simp [hq] at hpend
  | leaving => simp [hq] at hpend
  | idle => cases htr : (s.acts i).tracked <;> simp [Sys.step, Sys.setPhase, Sys.push, Sys.handle, Sys.phaseOf, hq, ht, hp, hm, htr, Phase.gone]
  | busy => cases htr : (s.acts i).tracked <;> simp [Sys.step, Sys.setPhase, Sys.push, Sys.handle, Sys.phaseOf, hq, ht, hp, hm, htr, Phase.gone]
  | closing => cases htr : (s.acts i).tracked <;> simp [Sys.step, Sys.setPhase, Sys.push, Sys.handle, Sys.phaseOf, hq, ht, hp, hm, htr, Phase.gone]
  | checked => simp [Sys.step, Sys.setPhase, Sys.push, Sys.handle, Sys.phaseOf, hq, ht, hp, hm, Phase.gone]
  | done => simp [Sys.step, Sys.phaseOf, hq, ht, hp, hm, Phase.gone]
  | crashed => simp [Sys.step, Sys.phaseOf, hq, ht, hp, hm, Phase.gone]

/-- C68: `RemoteActorSystem::shutdown` alone, called while the system is not being shut down, can return whatever the actors
are doing: what they wait for from the scheduler comes. The system itself goes on. -/
theorem C68_remote_alone (s : Sys) (hr : Reachable s) (ht : s.terminated = false) (rs : List Nat)
    (hrs : ∀ r ∈ rs, s.phaseOf r ≠ .absent) :
    ∃ ops, (s.run ops).remoteAwaits rs = none ∧ (s.run ops).terminated = false ∧ (s.run ops).phase = .running := by
  have absent_run : ∀ (ops : List Op) (t : Sys) (i : Nat), t.phaseOf i ≠ .absent → (t.run ops).phaseOf i ≠ .absent := by
    intro ops
    induction ops with
    | nil => intro t i h; exact h
    | cons op ops ih => intro t i h; exact ih _ i (ok_absent (ok_step t op i) h)
  have key : ∀ (rs : List Nat) (t : Sys), Quiet t → (∀ r ∈ rs, t.phaseOf r ≠ .absent) →
      ∃ ops, Quiet (t.run ops) ∧ ∀ r ∈ rs, ((t.run ops).phaseOf r).gone = true := by
    intro rs
    induction rs with
    | nil => intro t hq _; exact ⟨[], hq, fun r h => by cases h⟩
    | cons a rs ih =>
      intro t hq ha
      obtain ⟨h1, h2⟩ := stopOps_ends t hq a (ha a (by simp))
      obtain ⟨ops, h3, h4⟩ := ih _ h1 fun r hm => absent_run _ t r (ha r (by simp [hm]))
      refine ⟨stopOps a ++ ops, by rw [run_append]; exact h3, fun r hm => ?_⟩
      rw [run_append]
      rcases List.mem_cons.mp hm with rfl | hm
      · exact gone_run _ ops r h2
      · exact h4 r hm
  have hq := drained s hr ht
  obtain ⟨ops, h1, h2⟩ := key rs _ hq fun r hm => absent_run _ s r (hrs r hm)
  rw [← run_append] at h1 h2
  exact ⟨_, List.find?_eq_none.mpr fun r hm => by simp [h2 r hm], h1.2.1, h1.2.2.1⟩

/-- two actors of the remote system: stopped alone, the one that waits for the scheduler gets its answer first; a third
actor runs on. Stopped by the system, nothing is left to wait for. -/
example :
    let s := Sys.init.run [.spawn none 0 10 true, .spawn none 1 11 true, .spawn none 2 12 true, .sched, .sched, .sched, .ask 1]
    s.remoteAwaits [0, 1] = some 0 ∧
    (s.run [.askStop 0, .finish 0, .takeStop 0, .closed 0, .sendDereg 0]).remoteAwaits [0, 1] = some 0 ∧
    (s.run [.askStop 0, .finish 0, .takeStop 0, .closed 0, .sendDereg 0, .sched, .sched]).remoteAwaits [0, 1] = some 1 ∧
    (s.run [.askStop 0, .finish 0, .takeStop 0, .closed 0, .sendDereg 0, .sched, .sched, .askStop 1, .finish 1, .takeStop 1,
      .closed 1, .sendDereg 1, .sched]).remoteAwaits [0, 1] = none ∧
    (s.run [.sched, .finish 0, .finish 1, .finish 2, .setTerminated, .sendStop, .sched, .takeStop 0, .takeStop 1, .takeStop 2,
      .closed 2, .closed 1, .closed 0, .schedDone]).remoteAwaits [0, 1] = none := by
  decide +kernel

end Verif.Actor.Shutdown
