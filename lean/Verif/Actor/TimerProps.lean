import Verif.Actor.TimerModel

/-! Property theorems C69 (timers) and C70 (scheduled notifications). -/

namespace Verif.Actor.Timer

/-! ### Specifications -/

/-- times at which ticks were sent. -/
def sends (l : List Ev) : List Nat := l.filterMap fun e => match e with | .sent t => some t | _ => none

/-- no tick is sent while one is unanswered, no answer without a tick, nothing after the end. `out`: a
tick is unanswered. -/
def Alternates : Bool → List Ev → Prop
  | _, [] => True
  | out, .sent _ :: l => out = false ∧ Alternates true l
  | out, .answered _ :: l => out = true ∧ Alternates false l
  | out, .stopped _ _ :: l => Alternates out l
  | _, .ended _ :: l => ∀ e ∈ l, ∃ t, e = .stopped t false

/-- the earliest time of the first tick. -/
def firstAt (immediately : Bool) (tick now : Nat) : Nat := if immediately then now else now + tick

/-- `n` sends fit between `first` and `now`, `tick` apart. -/
def Fits (first tick now n : Nat) : Prop := n = 0 ∨ first + (n - 1) * tick ≤ now

theorem sends_append (l m : List Ev) : sends (l ++ m) = sends l ++ sends m := by simp [sends, List.filterMap_append]

/-! ### Invariant -/

/-- what the phase says about a log (with `out` at its end, `fin` if it has ended). -/
def outEnd : Bool → List Ev → Bool
  | o, [] => o
  | _, .sent _ :: l => outEnd true l
  | _, .answered _ :: l => outEnd false l
  | o, _ :: l => outEnd o l

theorem outEnd_append (o : Bool) (l m : List Ev) : outEnd o (l ++ m) = outEnd (outEnd o l) m := by
  induction l generalizing o with
  | nil => rfl
  | cons e l ih => cases e <;> simp [outEnd, ih]

def hasEnded (l : List Ev) : Bool := l.any fun e => match e with | .ended _ => true | _ => false

theorem Alternates_append (o : Bool) (l : List Ev) (e : Ev) (h : Alternates o l)
    (he : match e with
      | .sent _ => outEnd o l = false ∧ hasEnded l = false
      | .answered _ => outEnd o l = true ∧ hasEnded l = false
      | .stopped _ r => hasEnded l = true → r = false
      | .ended _ => hasEnded l = false) : Alternates o (l ++ [e]) := by
  induction l generalizing o with
  | nil => cases e <;> simp_all [Alternates, outEnd, hasEnded]
  | cons a l ih =>
    cases a with
    | sent t =>
      refine ⟨h.1, ih true h.2 ?_⟩
      cases e <;> simpa [outEnd, hasEnded] using he
    | answered t =>
      refine ⟨h.1, ih false h.2 ?_⟩
      cases e <;> simpa [outEnd, hasEnded] using he
    | stopped t r =>
      refine ih o h ?_
      cases e <;> simpa [outEnd, hasEnded] using he
    | ended t =>
      intro x hx
      have hx : x ∈ l ++ [e] := hx
      rw [List.mem_append, List.mem_singleton] at hx
      rcases hx with hx | rfl
      · exact h x hx
      · cases x with
        | stopped t r => simp only [hasEnded, List.any_cons, Bool.true_or, forall_const] at he; exact ⟨t, by rw [he]⟩
        | _ => simp [hasEnded] at he

/-- ticks are at least a period after every earlier answer. -/
def Spaced (tick : Nat) (l : List Ev) : Prop :=
  l.Pairwise fun e f => ∀ a t, e = .answered a → f = .sent t → a + tick ≤ t

/-- the invariant. `first`: the earliest time of the first tick. -/
structure Inv (first : Nat) (s : State) : Prop where
  alt : Alternates false s.log
  out : s.phase ≠ .ended → outEnd false s.log = decide (s.phase = .awaiting)
  fin : hasEnded s.log = decide (s.phase = .ended)
  pos : 0 < s.tick
  sleep : ∀ due, s.phase = .sleeping due → first + (sends s.log).length * s.tick ≤ due ∧
    ∀ a, .answered a ∈ s.log → a + s.tick ≤ due
  ready : s.phase = .ready → first + (sends s.log).length * s.tick ≤ s.now ∧
    ∀ a, .answered a ∈ s.log → a + s.tick ≤ s.now
  rate : (sends s.log).length = 0 ∨ first + ((sends s.log).length - 1) * s.tick ≤ s.now
  some_sent : s.phase = .awaiting → 0 < (sends s.log).length
  low : ∀ t ∈ sends s.log, first ≤ t
  spaced : Spaced s.tick s.log
  answered : ∀ a, .answered a ∈ s.log → a ≤ s.now
  sig : s.signal = true → s.owner = false

theorem Inv.finish {first : Nat} {s : State} (h : Inv first s) (hp : s.phase ≠ .ended) : Inv first s.finish where
  alt := Alternates_append _ _ _ h.alt (by rw [h.fin]; simp [hp])
  out := by simp [State.finish, State.emit]
  fin := by simp [State.finish, State.emit, hasEnded]
  pos := h.pos
  sleep := by simp [State.finish, State.emit]
  ready := by simp [State.finish, State.emit]
  rate := by simpa [State.finish, State.emit, sends] using h.rate
  some_sent := by simp [State.finish, State.emit]
  low := by simpa [State.finish, State.emit, sends] using h.low
  spaced := by
    refine List.pairwise_append.2 ⟨h.spaced, by simp, ?_⟩
    intro a _ b hb x t _ hb'
    rw [List.mem_singleton] at hb; rw [hb] at hb'; cases hb'
  answered := by simpa [State.finish, State.emit] using h.answered
  sig := h.sig

theorem Inv.step {first : Nat} {s : State} (h : Inv first s) (op : Op) : Inv first (s.step op) := by
  cases op with
  | pass d =>
    refine ⟨h.alt, h.out, h.fin, h.pos, h.sleep, ?_, ?_, h.some_sent, h.low, h.spaced, ?_, h.sig⟩
    · intro hr
      obtain ⟨h1, h2⟩ := h.ready hr
      refine ⟨Nat.le_trans h1 (Nat.le_add_right _ _), fun a ha => Nat.le_trans (h2 a ha) (Nat.le_add_right _ _)⟩
    · rcases h.rate with h1 | h1
      · exact .inl h1
      · exact .inr (Nat.le_trans h1 (Nat.le_add_right _ _))
    · exact fun a ha => Nat.le_trans (h.answered a ha) (Nat.le_add_right _ _)
  | wake =>
    simp only [State.step]
    split
    · rename_i due hp
      split
      · rename_i hd
        split
        · exact h.finish (by simp [hp])
        · obtain ⟨h1, h2⟩ := h.sleep due hp
          refine ⟨h.alt, ?_, ?_, h.pos, by simp, ?_, h.rate, by simp, h.low, h.spaced, h.answered, h.sig⟩
          · intro _; have := h.out (by simp [hp]); simpa [hp] using this
          · have := h.fin; simpa [hp] using this
          · exact fun _ => ⟨Nat.le_trans h1 hd, fun a ha => Nat.le_trans (h2 a ha) hd⟩
      · exact h
    · exact h
  | fire =>
    simp only [State.step]
    split
    · rename_i hp
      split
      · obtain ⟨h1, h2⟩ := h.ready hp
        refine ⟨Alternates_append _ _ _ h.alt ?_, ?_, ?_, h.pos, ?_, ?_, ?_, ?_, ?_, ?_, ?_, h.sig⟩
        · have := h.out (by simp [hp]); have := h.fin; simp_all
        · simp [State.emit, outEnd_append, outEnd]
        · have := h.fin; simpa [State.emit, hasEnded, hp] using this
        · simp [State.emit]
        · simp [State.emit]
        · right
          have e : sends (s.log ++ [.sent s.now]) = sends s.log ++ [s.now] := by rw [sends_append]; rfl
          simp only [State.emit, e]
          simpa using h1
        · simp [State.emit, sends]
        · intro t ht
          simp only [State.emit, sends_append, List.mem_append] at ht
          rcases ht with ht | ht
          · exact h.low t ht
          · simp only [sends, List.filterMap_cons, List.filterMap_nil, List.mem_singleton] at ht
            subst ht
            exact Nat.le_trans (Nat.le_add_right _ _) h1
        · refine List.pairwise_append.2 ⟨h.spaced, by simp, ?_⟩
          intro e he b hb a t ha hb'
          rw [List.mem_singleton] at hb; rw [hb] at hb'; cases hb'
          subst ha; exact h2 a he
        · intro a ha
          simp only [State.emit, List.mem_append, List.mem_singleton] at ha
          rcases ha with ha | ha
          · exact h.answered a ha
          · cases ha
      · exact h.finish (by simp [hp])
    · exact h
  | answer =>
    simp only [State.step]
    split
    · rename_i hp
      obtain ⟨hp, _⟩ := hp
      have hn := h.some_sent hp
      refine ⟨Alternates_append _ _ _ h.alt ?_, ?_, ?_, h.pos, ?_, ?_, ?_, ?_, ?_, ?_, ?_, h.sig⟩
      · have := h.out (by simp [hp]); have := h.fin; simp_all
      · simp [State.emit, outEnd_append, outEnd]
      · have := h.fin; simpa [State.emit, hasEnded, hp] using this
      · intro due hd
        simp only [State.emit, Phase.sleeping.injEq] at hd
        subst hd
        constructor
        · have e : sends (s.log ++ [.answered s.now]) = sends s.log := by rw [sends_append]; simp [sends]
          have hr := h.rate
          simp only [State.emit, e]
          generalize (sends s.log).length = n at *
          obtain ⟨m, rfl⟩ : ∃ m, n = m + 1 := ⟨n - 1, by omega⟩
          simp only [Nat.add_sub_cancel] at hr
          rw [Nat.add_mul]
          omega
        · intro a ha
          simp only [State.emit, List.mem_append, List.mem_singleton, Ev.answered.injEq] at ha
          rcases ha with ha | rfl
          · have := h.answered a ha; show a + s.tick ≤ s.now + s.tick; omega
          · exact Nat.le_refl _
      · simp [State.emit]
      · simpa [State.emit, sends] using h.rate
      · simp [State.emit]
      · simpa [State.emit, sends] using h.low
      · refine List.pairwise_append.2 ⟨h.spaced, by simp, ?_⟩
        intro e he b hb a t ha hb'
        rw [List.mem_singleton] at hb; rw [hb] at hb'; cases hb'
      · intro a ha
        simp only [State.emit, List.mem_append, List.mem_singleton, Ev.answered.injEq] at ha
        rcases ha with ha | rfl
        · exact h.answered a ha
        · exact Nat.le_refl _
    · exact h
  | lose =>
    simp only [State.step]
    split
    · rename_i hp; exact h.finish (by simp [hp.1])
    · exact h
  | stop =>
    simp only [State.step]
    split
    · refine ⟨Alternates_append _ _ _ h.alt ?_, ?_, ?_, h.pos, ?_, ?_, ?_, ?_, ?_, ?_, ?_, by simp [State.emit]⟩
      · simp only [h.fin]; simp
      · intro hp; have := h.out hp; simpa [State.emit, outEnd_append, outEnd] using this
      · have := h.fin; simpa [State.emit, hasEnded] using this
      · intro due hd; have := h.sleep due hd; simpa [State.emit, sends] using this
      · intro hr; have := h.ready hr; simpa [State.emit, sends] using this
      · simpa [State.emit, sends] using h.rate
      · intro hr; have := h.some_sent hr; simpa [State.emit, sends] using this
      · simpa [State.emit, sends] using h.low
      · refine List.pairwise_append.2 ⟨h.spaced, by simp, ?_⟩
        intro e he b hb a t ha hb'
        rw [List.mem_singleton] at hb; rw [hb] at hb'; cases hb'
      · simpa [State.emit] using h.answered
    · exact h
  | dropTimer => exact ⟨h.alt, h.out, h.fin, h.pos, h.sleep, h.ready, h.rate, h.some_sent, h.low, h.spaced, h.answered, fun _ => rfl⟩
  | kill => exact ⟨h.alt, h.out, h.fin, h.pos, h.sleep, h.ready, h.rate, h.some_sent, h.low, h.spaced, h.answered, h.sig⟩

theorem Inv.run {first : Nat} {s : State} (h : Inv first s) (ops : List Op) : Inv first (s.run ops) := by
  induction ops generalizing s with
  | nil => exact h
  | cons op ops ih => exact ih (h.step op)

theorem Inv.start {im : Bool} {tick now : Nat} {s : State} (h : start im tick now = some s) :
    Inv (firstAt im tick now) s ∧ s.tick = tick ∧ s.now = now := by
  unfold Timer.start at h
  split at h
  · cases h
  · rename_i ht
    cases h
    refine ⟨⟨trivial, by simp [outEnd], by simp [hasEnded], by show 0 < tick; omega, ?_, by simp, by simp [sends], by simp, by simp [sends],
      List.Pairwise.nil, by simp, by simp⟩, rfl, rfl⟩
    intro due hd
    simp only [Phase.sleeping.injEq] at hd
    subst hd
    simp [sends, firstAt]

theorem step_tick (s : State) (op : Op) : (s.step op).tick = s.tick := by
  cases op <;> simp only [State.step]
  · split
    · split
      · split <;> rfl
      · rfl
    · rfl
  · split
    · split <;> rfl
    · rfl
  · split <;> rfl
  · split <;> rfl
  · split <;> rfl

theorem run_tick (s : State) (ops : List Op) : (s.run ops).tick = s.tick := by
  induction ops generalizing s with
  | nil => rfl
  | cons op ops ih => exact (ih _).trans (step_tick s op)

/-! ### C69 -/

/-- C69: a tick is sent only when the one before was answered, at least a period after that answer, never
before the first tick is due; nothing is sent once the loop has ended. Every execution. -/
theorem C69_one_at_a_time (im : Bool) (tick now : Nat) (s : State) (h : start im tick now = some s) (ops : List Op) :
    Alternates false (s.run ops).log ∧ Spaced tick (s.run ops).log ∧
    ∀ t ∈ sends (s.run ops).log, firstAt im tick now ≤ t := by
  obtain ⟨h1, h2, h3⟩ := Inv.start h
  have hi := h1.run ops
  refine ⟨hi.alt, ?_, hi.low⟩
  have := hi.spaced
  rwa [run_tick, h2] at this

/-- C69: however slow or fast the actor, `n` ticks take at least `n - 1` periods. -/
theorem C69_rate (im : Bool) (tick now : Nat) (s : State) (h : start im tick now = some s) (ops : List Op) :
    Fits (firstAt im tick now) tick (s.run ops).now (sends (s.run ops).log).length := by
  obtain ⟨h1, h2, h3⟩ := Inv.start h
  have := (h1.run ops).rate
  rwa [run_tick, h2] at this

/-- in a stopped timer: at most `b` more sends. -/
theorem quiet_run (s : State) (hs : s.signal = true) (ops : List Op) (hoff : s.owner = false) :
    (sends (s.run ops).log).length ≤ (sends s.log).length + (if s.phase = .ready then 1 else 0) := by
  induction ops generalizing s with
  | nil => exact Nat.le_add_right _ _
  | cons op ops ih =>
    have step : (s.step op).signal = true ∧ (s.step op).owner = false ∧
        (sends (s.step op).log).length + (if (s.step op).phase = .ready then 1 else 0)
          ≤ (sends s.log).length + (if s.phase = .ready then 1 else 0) := by
      cases op with
      | pass d => exact ⟨hs, hoff, Nat.le_refl _⟩
      | wake =>
        have e : s.step .wake = s ∨ s.step .wake = s.finish := by
          simp only [State.step]
          split
          · split
            · exact .inr rfl
            · exact .inl rfl
          · exact .inl rfl
        rcases e with e | e
        · rw [e]; exact ⟨hs, hoff, Nat.le_refl _⟩
        · rw [e]
          refine ⟨hs, hoff, ?_⟩
          simp [State.finish, State.emit, sends]
      | fire =>
        simp only [State.step]
        split
        · rename_i hp
          split
          · refine ⟨hs, hoff, ?_⟩
            simp [State.emit, sends]
          · refine ⟨hs, hoff, ?_⟩
            simp [State.finish, State.emit, sends]
        · rename_i hp
          exact ⟨hs, hoff, Nat.le_refl _⟩
      | answer =>
        simp only [State.step]
        split
        · refine ⟨hs, hoff, ?_⟩
          simp [State.emit, sends]
        · exact ⟨hs, hoff, Nat.le_refl _⟩
      | lose =>
        simp only [State.step]
        split
        · refine ⟨hs, hoff, ?_⟩
          simp [State.finish, State.emit, sends]
        · exact ⟨hs, hoff, Nat.le_refl _⟩
      | stop =>
        simp only [State.step, hoff, Bool.false_eq_true, if_false]
        exact ⟨hs, trivial, Nat.le_refl _⟩
      | dropTimer => exact ⟨hs, rfl, Nat.le_refl _⟩
      | kill => exact ⟨hs, hoff, Nat.le_refl _⟩
    exact Nat.le_trans (ih _ step.1 step.2.1) step.2.2

theorem ended_run (s : State) (hs : s.phase = .ended) (ops : List Op) :
    (s.run ops).phase = .ended ∧ sends (s.run ops).log = sends s.log := by
  induction ops generalizing s with
  | nil => exact ⟨hs, rfl⟩
  | cons op ops ih =>
    have step : (s.step op).phase = .ended ∧ sends (s.step op).log = sends s.log := by
      cases op with
      | stop => simp only [State.step]; split <;> simp [State.emit, sends, hs]
      | _ => simp [State.step, hs]
    obtain ⟨h1, h2⟩ := ih _ step.1
    exact ⟨h1, h2.trans step.2⟩

/-- C69: after `stop` at most one more tick is sent, and none unless the loop was just past its check for the
stop signal. `stop` returns true exactly if the loop had not ended. -/
theorem C69_stop (s : State) (ho : s.owner = true) (ops : List Op) :
    (sends ((s.step .stop).run ops).log).length ≤ (sends s.log).length + (if s.phase = .ready then 1 else 0) ∧
    (s.step .stop).log = s.log ++ [.stopped s.now (decide (s.phase ≠ .ended))] := by
  refine ⟨?_, by simp [State.step, ho, State.emit]⟩
  by_cases hp : s.phase = .ended
  · have h1 : (s.step .stop).phase = .ended := by simp [State.step, ho, State.emit, hp]
    have h2 : sends (s.step .stop).log = sends s.log := by simp [State.step, ho, State.emit, sends]
    rw [(ended_run _ h1 ops).2, h2]; exact Nat.le_add_right _ _
  · have h1 : (s.step .stop).signal = true := by simp [State.step, ho, State.emit, hp]
    have h2 : (s.step .stop).owner = false := by simp [State.step, ho, State.emit]
    have h3 : sends (s.step .stop).log = sends s.log := by simp [State.step, ho, State.emit, sends]
    have h4 : (s.step .stop).phase = s.phase := by simp [State.step, ho, State.emit]
    have := quiet_run (s.step .stop) h1 ops h2
    rwa [h3, h4] at this

/-- C69: no tick is sent to an actor that has stopped. -/
theorem C69_gone (s : State) (ha : s.alive = false) (ops : List Op) : sends (s.run ops).log = sends s.log := by
  induction ops generalizing s with
  | nil => rfl
  | cons op ops ih =>
    have step : (s.step op).alive = false ∧ sends (s.step op).log = sends s.log := by
      cases op with
      | pass d => exact ⟨ha, rfl⟩
      | wake =>
        simp only [State.step]
        split
        · split
          · split <;> simp [State.finish, State.emit, sends, ha]
          · exact ⟨ha, rfl⟩
        · exact ⟨ha, rfl⟩
      | fire => simp only [State.step]; split <;> simp [State.finish, State.emit, sends, ha]
      | answer => simp only [State.step]; split <;> simp_all
      | lose => simp only [State.step]; split <;> simp [State.finish, State.emit, sends, ha]
      | stop => simp only [State.step]; split <;> simp [State.emit, sends, ha]
      | dropTimer => exact ⟨ha, rfl⟩
      | kill => exact ⟨rfl, rfl⟩
    exact (ih _ step.1).trans step.2

/-- C69: the loop ends in a step only because it was told to stop or because its actor has stopped. -/
theorem C69_ends_only (s : State) (op : Op) (hp : s.phase ≠ .ended) (he : (s.step op).phase = .ended) :
    s.signal = true ∨ s.alive = false := by
  cases op with
  | pass d => exact absurd he hp
  | wake =>
    simp only [State.step] at he
    split at he
    · rename_i due hd
      split at he
      · split at he
        · rename_i hs; exact Or.inl hs
        · cases he
      · exact absurd he hp
    · exact absurd he hp
  | fire =>
    simp only [State.step] at he
    split at he
    · split at he
      · simp [State.emit] at he
      · rename_i ha; exact Or.inr (by simpa using ha)
    · exact absurd he hp
  | answer =>
    simp only [State.step] at he
    split at he
    · simp [State.emit] at he
    · exact absurd he hp
  | lose =>
    simp only [State.step] at he
    split at he
    · rename_i ha; exact Or.inr ha.2
    · exact absurd he hp
  | stop =>
    simp only [State.step] at he
    split at he
    · simp only [State.emit] at he; exact absurd he hp
    · exact absurd he hp
  | dropTimer => exact absurd he hp
  | kill => exact absurd he hp

/-- C69: once the actor has stopped the loop ends after at most the rest of one period, whatever it was doing. -/
theorem C69_gone_ends (s : State) (ha : s.alive = false) (d : Nat)
    (hd : ∀ due, s.phase = .sleeping due → due ≤ s.now + d) :
    (s.run [.lose, .pass d, .wake, .fire]).phase = .ended := by
  cases hp : s.phase with
  | sleeping due =>
    have h1 := hd due hp
    simp only [State.run, List.foldl_cons, List.foldl_nil]
    have e1 : s.step .lose = s := by simp [State.step, hp]
    rw [e1]
    simp only [State.step, hp, if_pos h1]
    split <;> simp [State.finish, State.emit, ha]
  | ready => simp [State.run, State.step, hp, ha, State.finish, State.emit]
  | awaiting => simp [State.run, State.step, hp, ha, State.finish, State.emit]
  | ended => simp [State.run, State.step, hp]

/-- C69: told to stop while asleep, the loop ends when the period is over, without another tick. -/
theorem C69_stop_ends (s : State) (ho : s.owner = true) (due : Nat) (hp : s.phase = .sleeping due) (d : Nat)
    (hd : due ≤ s.now + d) :
    ((s.step .stop).run [.pass d, .wake]).phase = .ended ∧
      sends ((s.step .stop).run [.pass d, .wake]).log = sends s.log := by
  simp [State.run, State.step, ho, hp, hd, State.emit, State.finish, sends]

example : (State.run ⟨5, 3, .awaiting, true, false, true, []⟩ [.lose, .kill, .lose]).phase = .ended ∧
    (State.run ⟨5, 3, .awaiting, true, false, true, []⟩ [.lose]).phase = .awaiting := by decide

/-- one round of the loop. -/
def round (tick : Nat) : List Op := [.pass tick, .wake, .fire, .answer]

/-- C69: dropping a `Timer` does not stop it: any number of ticks can follow. -/
theorem C69_drop_refuted (tick : Nat) (ht : 0 < tick) (n : Nat) : ∃ (s : State) (ops : List Op),
    start false tick 0 = some s ∧ (sends ((s.step .dropTimer).run ops).log).length = n := by
  have key : ∀ n (s : State), s.tick = tick → s.alive = true → s.signal = false → (∃ d, s.phase = .sleeping d ∧ d ≤ s.now + tick) →
      ∃ ops, (sends (s.run ops).log).length = (sends s.log).length + n := by
    intro n
    induction n with
    | zero => intro s _ _ _ _; exact ⟨[], rfl⟩
    | succ n ih =>
      rintro s h1 h2 h3 ⟨d, h4, h5⟩
      have e : s.run (round tick) = ⟨s.tick, s.now + tick, .sleeping (s.now + tick + s.tick), s.owner, s.signal, s.alive,
          s.log ++ [.sent (s.now + tick)] ++ [.answered (s.now + tick)]⟩ := by
        simp [State.run, round, State.step, h2, h3, h4, h5, State.emit]
      obtain ⟨ops, h6⟩ := ih (s.run (round tick)) (by rw [e]; exact h1) (by rw [e]; exact h2) (by rw [e]; exact h3)
        (by rw [e]; exact ⟨_, rfl, by rw [h1]; exact Nat.le_refl _⟩)
      refine ⟨round tick ++ ops, ?_⟩
      have : s.run (round tick ++ ops) = (s.run (round tick)).run ops := by simp [State.run]
      rw [this, h6, e]
      simp [sends]; omega
  obtain ⟨ops, h⟩ := key n (State.step ⟨tick, 0, .sleeping (0 + tick), true, false, true, []⟩ .dropTimer) rfl rfl rfl
    ⟨_, rfl, Nat.le_refl _⟩
  exact ⟨⟨tick, 0, .sleeping (0 + tick), true, false, true, []⟩, ops, by simp [start, Nat.ne_of_gt ht], by rw [h]; simp [State.step, sends]⟩

/-- a zero period panics in the spawned task: no timer. -/
theorem C69_zero (im : Bool) (now : Nat) : start im 0 now = none := rfl

/-- an immediate timer of period 10, an actor taking 7, stopped while the second tick is handled. -/
example : ∃ s, start true 10 100 = some s ∧
    (s.run [.wake, .fire, .pass 7, .answer, .pass 9, .wake, .pass 1, .wake, .fire, .stop, .pass 3, .answer, .pass 10, .wake]).log
      = [.sent 100, .answered 107, .sent 117, .stopped 117 true, .answered 120, .ended 130] := ⟨_, rfl, by decide⟩

/-- one tick after `stop`. -/
example : ∃ s, start true 10 100 = some s ∧ (s.run [.wake, .stop, .fire]).log = [.stopped 100 true, .sent 100] :=
  ⟨_, rfl, by decide⟩

/-! ### C70 -/

/-- C70: the message is sent at most once, and not before the delay is over. -/
theorem C70_once (delay now : Nat) (ops : List NOp) :
    ((schedule delay now).run ops).sends.length ≤ 1 ∧ ∀ t ∈ ((schedule delay now).run ops).sends, now + delay ≤ t := by
  suffices h : ∀ (n : Notify), n.due = now + delay → (n.phase = .waiting → n.sends = []) → n.sends.length ≤ 1 →
      (∀ t ∈ n.sends, now + delay ≤ t) → (n.run ops).sends.length ≤ 1 ∧ ∀ t ∈ (n.run ops).sends, now + delay ≤ t by
    exact h _ rfl (fun _ => rfl) (by simp [schedule]) (by simp [schedule])
  induction ops with
  | nil => exact fun n _ _ h1 h2 => ⟨h1, h2⟩
  | cons op ops ih =>
    intro n hd hw h1 h2
    cases op with
    | pass d => exact ih { n with now := n.now + d } hd hw h1 h2
    | cancel => exact ih { n with cancel := true } hd hw h1 h2
    | poll pick =>
      simp only [Notify.run, List.foldl_cons, Notify.step]
      split
      · rename_i hp
        have h0 := hw hp
        split
        · rename_i hdue
          split
          · exact ih { n with phase := .cancelled } hd (by simp) h1 h2
          · refine ih n.send hd (by simp [Notify.send]) (by simp [Notify.send, h0]) ?_
            intro t ht
            simp only [Notify.send, h0, List.nil_append, List.mem_singleton] at ht
            omega
        · split
          · exact ih { n with phase := .cancelled } hd (by simp) h1 h2
          · exact ih n hd hw h1 h2
      · exact ih n hd hw h1 h2

/-- C70: not cancelled, it is sent when the task is polled after the delay. -/
theorem C70_sent (delay now : Nat) (d : Nat) (hd : delay ≤ d) (pick : Bool) :
    ((schedule delay now).run [.pass d, .poll pick]).sends = [now + d] := by
  simp [Notify.run, schedule, Notify.step, Notify.send, hd]

/-- C70: cancelled before the delay is over *and polled before it is over*, it is never sent. -/
theorem C70_cancelled_partial (n : Notify) (hw : n.phase = .waiting) (hd : n.now < n.due) (pick : Bool) (ops : List NOp) :
    (n.run (.cancel :: .poll pick :: ops)).sends = n.sends := by
  have h1 : n.run (.cancel :: .poll pick :: ops) = ({ n with cancel := true, phase := .cancelled } : Notify).run ops := by
    simp [Notify.run, Notify.step, hw, Nat.not_le.2 hd]
  rw [h1]
  clear h1
  suffices h : ∀ (m : Notify), m.phase ≠ .waiting → (m.run ops).sends = m.sends by
    exact h _ (by simp)
  induction ops with
  | nil => exact fun _ _ => rfl
  | cons op ops ih =>
    intro m hm
    cases op with
    | pass d => exact ih { m with now := m.now + d } hm
    | cancel => exact ih { m with cancel := true } hm
    | poll pick =>
      simp only [Notify.run, List.foldl_cons, Notify.step, if_neg hm]
      exact ih m hm

/-- C70 as stated is false: cancelled in time, but the task is not polled until the delay is over; `select!`
then has two ready branches and may take the timer's. -/
theorem C70_cancel_refuted : ∃ ops : List NOp, (schedule 500 0).run ops = ⟨500, 500, true, .sent, [500]⟩ ∧
    ops = [.pass 499, .cancel, .pass 1, .poll true] := ⟨_, by decide, rfl⟩

end Verif.Actor.Timer
