import Verif.Actor.Spec

/-! # Invariants of the actor loop -/

namespace Verif.Actor

variable {S M R : Type} {B : Behav S M R} {tracked : Bool}

/-! ### Executions -/

theorem run_inv {P : St S M R → Prop} {s : S} (h0 : P (init s))
    (hs : ∀ σ inp, P σ → P (step B tracked σ inp)) (ins : List (Input M)) :
    P (run B tracked s ins) := by
  unfold run
  generalize init s = σ at h0
  induction ins generalizing σ with
  | nil => exact h0
  | cons i is ih => exact ih _ (hs _ _ h0)

theorem run_snoc (s : S) (ins : List (Input M)) (i : Input M) :
    run B tracked s (ins ++ [i]) = step B tracked (run B tracked s ins) i := by
  simp [run]

theorem run_append (s : S) (a b : List (Input M)) :
    run B tracked s (a ++ b) = b.foldl (step B tracked) (run B tracked s a) := by
  simp [run]

/-! ### Status and phase -/

def StatusOk (σ : St S M R) : Prop :=
  match σ.phase with
  | .created => σ.status = .starting
  | .looping => σ.status = .started
  | .handling _ => σ.status = .started
  | .ending => σ.status = .stopping
  | .deregistering => σ.status = .stopped
  | .gone => True

theorem statusOk_step (σ : St S M R) (inp : Input M) (h : StatusOk σ) :
    StatusOk (step B tracked σ inp) := by
  unfold StatusOk at h ⊢
  cases inp with
  | send i => simp only [step, enqueue]; cases hp : σ.phase <;> simp_all
  | tick down =>
    simp only [step, tick]
    cases hp : σ.phase with
    | created =>
      simp only
      cases hb : B.started σ.actor with
      | panic => simp [crash]
      | done s u stop => cases stop <;> simp
    | looping =>
      simp only
      cases hm : σ.mailbox with
      | nil => simp_all
      | cons i rest => simp_all
    | handling i =>
      simp only [handle]
      cases hb : i.body with
      | user m =>
        simp only
        cases hh : B.handle σ.actor m with
        | panic => simp [crash]
        | done s r stop => cases stop <;> simp_all [handled, ctxStop]
      | stop ack => simp [handled, ctxStop]
      | watch id rcv => simp_all [handled]
      | unwatch id => simp_all [handled]
      | status => simp_all [handled]
    | ending =>
      simp only
      cases hb : B.stopped σ.actor with
      | panic => simp [crash]
      | done s u stop =>
        by_cases hd : (tracked && !down) = true
        · simp [hd]
        · simp only [hd]; simp [finalise]
    | deregistering => simp_all
    | gone => simp_all
  | deregAnswer ok =>
    simp only [step]
    cases hp : σ.phase <;> simp_all
    cases ok <;> simp [crash, finalise]

theorem statusOk_run (s : S) (ins : List (Input M)) : StatusOk (run B tracked s ins) :=
  run_inv (by simp [StatusOk, init]) statusOk_step ins

/-! ### The shapes a step can have -/

/-- does handling this item ask the actor to stop? -/
def stops (B : Behav S M R) (s : S) (i : Item M) : Bool :=
  match i.body with
  | .user m =>
    match B.handle s m with
    | .done _ _ b => b
    | .panic => false
  | .stop _ => true
  | _ => false

def watchAfter (ws : List (String × Nat)) (i : Item M) : List (String × Nat) :=
  match i.body with
  | .watch id rcv => addWatcher ws id rcv
  | .unwatch id => removeWatcher ws id
  | _ => ws

def ackOf (i : Item M) : List Nat := if i.awaitsStop then [i.num] else []

inductive Step (B : Behav S M R) (tracked : Bool) (σ : St S M R) : St S M R → Prop
  | refuse (i : Item M) (h : σ.phase = .gone) :
      Step B tracked σ { σ with log := σ.log ++ [.refused i] }
  | accept (i : Item M) (h : σ.phase ≠ .gone) :
      Step B tracked σ { σ with mailbox := σ.mailbox ++ [i], log := σ.log ++ [.accepted i] }
  | idle : Step B tracked σ σ
  | startPanic (h : σ.phase = .created) (hb : B.started σ.actor = .panic) :
      Step B tracked σ (crash { σ with log := σ.log ++ [.startedHook] } none)
  | startStop (s : S) (u : Unit) (h : σ.phase = .created) (hb : B.started σ.actor = .done s u true) :
      Step B tracked σ { σ with
        actor := s, log := σ.log ++ [.startedHook], status := .stopping, phase := .ending }
  | startOk (s : S) (u : Unit) (h : σ.phase = .created) (hb : B.started σ.actor = .done s u false) :
      Step B tracked σ { σ with
        actor := s, log := σ.log ++ [.startedHook] ++ [.up], status := .started, phase := .looping,
        starter := false }
  | take (i : Item M) (rest : List (Item M)) (h : σ.phase = .looping) (hm : σ.mailbox = i :: rest) :
      Step B tracked σ { σ with
        mailbox := rest, phase := .handling i, log := σ.log ++ [.begin i] }
  | servePanic (i : Item M) (h : σ.phase = .handling i) (hs : serve B σ.actor i = none) :
      Step B tracked σ (crash σ (some i))
  | serveOk (i : Item M) (s : S) (r : Reply R) (h : σ.phase = .handling i)
      (hs : serve B σ.actor i = some (s, r)) :
      Step B tracked σ { σ with
        actor := s
        watchers := watchAfter σ.watchers i
        stopSenders := σ.stopSenders ++ ackOf i
        status := if stops B σ.actor i then .stopping else .started
        phase := if stops B σ.actor i then .ending else .looping
        log := σ.log ++ [.finish i] ++ (if i.wantsReply then [.replied i.num r] else []) }
  | stopPanic (h : σ.phase = .ending) (hb : B.stopped σ.actor = .panic) :
      Step B tracked σ (crash { σ with log := σ.log ++ [.stoppedHook] } none)
  | stopDereg (s : S) (u : Unit) (b : Bool) (h : σ.phase = .ending)
      (hb : B.stopped σ.actor = .done s u b) (ht : tracked = true) :
      Step B tracked σ { σ with
        actor := s, status := .stopped, log := σ.log ++ [.stoppedHook] ++ [.deregister],
        phase := .deregistering }
  | stopFinal (s : S) (u : Unit) (b : Bool) (h : σ.phase = .ending)
      (hb : B.stopped σ.actor = .done s u b) :
      Step B tracked σ (finalise { σ with
        actor := s, status := .stopped, log := σ.log ++ [.stoppedHook] })
  | deregOk (h : σ.phase = .deregistering) : Step B tracked σ (finalise σ)
  | deregFail (h : σ.phase = .deregistering) : Step B tracked σ (crash σ none)

theorem step_shape (σ : St S M R) (inp : Input M) (hok : StatusOk σ) :
    Step B tracked σ (step B tracked σ inp) := by
  unfold StatusOk at hok
  cases inp with
  | send i =>
    simp only [step, enqueue]
    split
    · rename_i hg; exact .refuse i hg
    · rename_i hg; exact .accept i hg
  | tick down =>
    simp only [step, tick]
    cases hp : σ.phase with
    | created =>
      simp only
      cases hb : B.started σ.actor with
      | panic => exact .startPanic hp hb
      | done s u stop =>
        cases stop with
        | true => exact .startStop s u hp hb
        | false => exact .startOk s u hp hb
    | looping =>
      simp only
      cases hm : σ.mailbox with
      | nil => exact .idle
      | cons i rest => exact .take i rest hp hm
    | handling i =>
      rw [hp] at hok
      simp only at hok
      simp only [handle]
      cases hb : i.body with
      | user m =>
        simp only
        cases hh : B.handle σ.actor m with
        | panic => exact .servePanic i hp (by simp [serve, hb, hh])
        | done s r stop =>
          have := Step.serveOk (B := B) (tracked := tracked) (σ := σ) i s (.user r) hp
            (by simp [serve, hb, hh])
          cases stop <;>
            simpa [handled, ctxStop, stops, watchAfter, ackOf, Item.awaitsStop, hb, hh, hok] using this
      | stop ack =>
        have := Step.serveOk (B := B) (tracked := tracked) (σ := σ) i σ.actor .unit hp
          (by simp [serve, hb])
        cases ack <;> simpa [handled, ctxStop, stops, watchAfter, ackOf, Item.awaitsStop, hb] using this
      | watch id rcv =>
        have := Step.serveOk (B := B) (tracked := tracked) (σ := σ) i σ.actor .unit hp
          (by simp [serve, hb])
        simpa [handled, ctxStop, stops, watchAfter, ackOf, Item.awaitsStop, hb, hok] using this
      | unwatch id =>
        have := Step.serveOk (B := B) (tracked := tracked) (σ := σ) i σ.actor .unit hp
          (by simp [serve, hb])
        simpa [handled, ctxStop, stops, watchAfter, ackOf, Item.awaitsStop, hb, hok] using this
      | status =>
        have := Step.serveOk (B := B) (tracked := tracked) (σ := σ) i σ.actor (.status .started) hp
          (by simp [serve, hb])
        simpa [handled, ctxStop, stops, watchAfter, ackOf, Item.awaitsStop, hb, hok] using this
    | ending =>
      simp only
      cases hb : B.stopped σ.actor with
      | panic => exact .stopPanic hp hb
      | done s u b =>
        simp only
        split
        · rename_i ht
          exact .stopDereg s u b hp hb (by simp_all)
        · exact .stopFinal s u b hp hb
    | deregistering => exact .idle
    | gone => exact .idle
  | deregAnswer ok =>
    simp only [step]
    cases hp : σ.phase <;> try exact .idle
    cases ok with
    | true => exact .deregOk hp
    | false => exact .deregFail hp

/-- Invariants only need to be checked against the shapes of steps. -/
theorem run_inv_shape {P : St S M R → Prop} {s : S} (h0 : P (init s))
    (hs : ∀ σ σ', StatusOk σ → P σ → Step B tracked σ σ' → P σ') (ins : List (Input M)) :
    P (run B tracked s ins) := by
  have : StatusOk (run B tracked s ins) ∧ P (run B tracked s ins) :=
    run_inv (P := fun σ => StatusOk σ ∧ P σ) ⟨by simp [StatusOk, init], h0⟩
      (fun σ inp h => ⟨statusOk_step σ inp h.1, hs _ _ h.1 h.2 (step_shape σ inp h.1)⟩) ins
  exact this.2

/-! ### Projections of the events logged at the end -/

theorem filterMap_flatMap_nil {α β γ : Type} {f : β → Option γ} {g : α → List β} (xs : List α)
    (h : ∀ x ∈ xs, (g x).filterMap f = []) : (xs.flatMap g).filterMap f = [] := by
  induction xs with
  | nil => rfl
  | cons x xs ih =>
    rw [List.flatMap_cons, List.filterMap_append, h x (by simp), ih fun y hy => h y (by simp [hy])]
    rfl

theorem filterMap_dropEvents {γ : Type} {f : Ev M R → Option γ} (hl : ∀ n, f (.lost n) = none)
    (ha : ∀ n, f (.ackLost n) = none) (i : Item M) : (dropEvents i).filterMap f = [] := by
  unfold dropEvents
  rw [List.filterMap_append, List.append_eq_nil_iff]
  constructor
  · split <;> simp [hl]
  · split <;> simp [ha]

theorem filterMap_crash {γ : Type} {f : Ev M R → Option γ} (hl : ∀ n, f (.lost n) = none)
    (ha : ∀ n, f (.ackLost n) = none) (hc : f .crashed = none) (hs : f .startFailed = none)
    (hp : f .parentTold = none) (σ : St S M R) (c : Option (Item M)) :
    (crash σ c).log.filterMap f = σ.log.filterMap f := by
  unfold crash
  have h1 : (σ.mailbox.flatMap dropEvents).filterMap f = [] :=
    filterMap_flatMap_nil _ fun i _ => filterMap_dropEvents hl ha i
  have h2 : (σ.stopSenders.map (Ev.ackLost (M := M) (R := R))).filterMap f = [] := by
    simp [List.filterMap_map, Function.comp_def, ha]
  simp only [List.filterMap_append, h1, h2, List.append_nil]
  cases c <;> cases σ.starter <;> simp [hc, hs, hp, filterMap_dropEvents hl ha]

theorem filterMap_finalise {γ : Type} {f : Ev M R → Option γ} (hl : ∀ n, f (.lost n) = none)
    (ha : ∀ n, f (.ackLost n) = none) (hk : ∀ n, f (.ack n) = none)
    (ht : ∀ a b, f (.told a b) = none) (hs : f .startFailed = none)
    (hp : f .parentTold = none) (σ : St S M R) :
    (finalise σ).log.filterMap f = σ.log.filterMap f := by
  unfold finalise
  have h1 : (σ.mailbox.flatMap dropEvents).filterMap f = [] :=
    filterMap_flatMap_nil _ fun i _ => filterMap_dropEvents hl ha i
  have h2 : (σ.stopSenders.map (Ev.ack (M := M) (R := R))).filterMap f = [] := by
    simp [List.filterMap_map, Function.comp_def, hk]
  have h3 : (σ.watchers.map (fun w => Ev.told (M := M) (R := R) w.1 w.2)).filterMap f = [] := by
    simp [List.filterMap_map, Function.comp_def, ht]
  simp only [List.filterMap_append, h1, h2, h3, List.append_nil]
  cases σ.starter <;> simp [hs, hp]

section
variable (σ : St S M R) (c : Option (Item M))

@[simp] theorem accepted_crash : accepted (crash σ c).log = accepted σ.log :=
  filterMap_crash (fun _ => rfl) (fun _ => rfl) rfl rfl rfl σ c
@[simp] theorem begun_crash : begun (crash σ c).log = begun σ.log :=
  filterMap_crash (fun _ => rfl) (fun _ => rfl) rfl rfl rfl σ c
@[simp] theorem finished_crash : finished (crash σ c).log = finished σ.log :=
  filterMap_crash (fun _ => rfl) (fun _ => rfl) rfl rfl rfl σ c
@[simp] theorem attempts_crash : attempts (crash σ c).log = attempts σ.log :=
  filterMap_crash (fun _ => rfl) (fun _ => rfl) rfl rfl rfl σ c
@[simp] theorem replies_crash : replies (crash σ c).log = replies σ.log :=
  filterMap_crash (fun _ => rfl) (fun _ => rfl) rfl rfl rfl σ c
@[simp] theorem life_crash : life (crash σ c).log = life σ.log :=
  filterMap_crash (fun _ => rfl) (fun _ => rfl) rfl rfl rfl σ c
@[simp] theorem notifications_crash : notifications (crash σ c).log = notifications σ.log :=
  filterMap_crash (fun _ => rfl) (fun _ => rfl) rfl rfl rfl σ c

@[simp] theorem accepted_finalise : accepted (finalise σ).log = accepted σ.log :=
  filterMap_finalise (fun _ => rfl) (fun _ => rfl) (fun _ => rfl) (fun _ _ => rfl) rfl rfl σ
@[simp] theorem begun_finalise : begun (finalise σ).log = begun σ.log :=
  filterMap_finalise (fun _ => rfl) (fun _ => rfl) (fun _ => rfl) (fun _ _ => rfl) rfl rfl σ
@[simp] theorem finished_finalise : finished (finalise σ).log = finished σ.log :=
  filterMap_finalise (fun _ => rfl) (fun _ => rfl) (fun _ => rfl) (fun _ _ => rfl) rfl rfl σ
@[simp] theorem attempts_finalise : attempts (finalise σ).log = attempts σ.log :=
  filterMap_finalise (fun _ => rfl) (fun _ => rfl) (fun _ => rfl) (fun _ _ => rfl) rfl rfl σ
@[simp] theorem replies_finalise : replies (finalise σ).log = replies σ.log :=
  filterMap_finalise (fun _ => rfl) (fun _ => rfl) (fun _ => rfl) (fun _ _ => rfl) rfl rfl σ
@[simp] theorem life_finalise : life (finalise σ).log = life σ.log :=
  filterMap_finalise (fun _ => rfl) (fun _ => rfl) (fun _ => rfl) (fun _ _ => rfl) rfl rfl σ

@[simp] theorem notifications_finalise :
    notifications (finalise σ).log = notifications σ.log ++ σ.watchers := by
  have h1 : notifications (σ.mailbox.flatMap (dropEvents (R := R))) = [] :=
    filterMap_flatMap_nil _ fun i _ => filterMap_dropEvents (fun _ => rfl) (fun _ => rfl) i
  have h2 : notifications (σ.stopSenders.map (Ev.ack (M := M) (R := R))) = [] := by
    simp [notifications, List.filterMap_map, Function.comp_def]
  have h3 : notifications (σ.watchers.map (fun w => Ev.told (M := M) (R := R) w.1 w.2))
      = σ.watchers := by
    simp [notifications, List.filterMap_map, Function.comp_def]
  have h4 : notifications (if σ.starter then [Ev.startFailed (M := M) (R := R)] else []) = [] := by
    split <;> rfl
  have happ : ∀ a b : List (Ev M R), notifications (a ++ b) = notifications a ++ notifications b := by
    intro a b; simp [notifications]
  simp only [finalise, happ, h1, h2, h3, h4, List.append_nil]
  simp [notifications]

@[simp] theorem phase_crash : (crash σ c).phase = .gone := rfl
@[simp] theorem phase_finalise : (finalise σ).phase = .gone := rfl
@[simp] theorem mailbox_crash : (crash σ c).mailbox = [] := rfl
@[simp] theorem mailbox_finalise : (finalise σ).mailbox = [] := rfl
end

section
variable (a b : List (Ev M R))
@[simp] theorem accepted_append : accepted (a ++ b) = accepted a ++ accepted b := by simp [accepted]
@[simp] theorem begun_append : begun (a ++ b) = begun a ++ begun b := by simp [begun]
@[simp] theorem finished_append : finished (a ++ b) = finished a ++ finished b := by simp [finished]
@[simp] theorem attempts_append : attempts (a ++ b) = attempts a ++ attempts b := by simp [attempts]
@[simp] theorem replies_append : replies (a ++ b) = replies a ++ replies b := by simp [replies]
@[simp] theorem life_append : life (a ++ b) = life a ++ life b := by simp [life]
@[simp] theorem notifications_append :
    notifications (a ++ b) = notifications a ++ notifications b := by simp [notifications]
end

theorem crashed_crash (σ : St S M R) (c : Option (Item M)) : hasCrashed (crash σ c).log := by
  simp [hasCrashed, crash]

theorem crashed_finalise (σ : St S M R) : hasCrashed (finalise σ).log ↔ hasCrashed σ.log := by
  unfold hasCrashed finalise
  have h : ∀ x : Item M, (Ev.crashed : Ev M R) ∉ dropEvents x := by
    intro x; unfold dropEvents; simp only [List.mem_append]
    rintro (h | h)
    · split at h <;> simp at h
    · split at h <;> simp at h
  cases σ.starter <;> simp [h]

end Verif.Actor
