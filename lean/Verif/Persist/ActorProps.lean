import Verif.Persist.ActorModel
import Verif.Persist.Props

/-! Property theorems C63–C66 (persistent actors). -/

namespace Verif.Persist

open Verif.Proto

/-! ### Specifications -/

/-- the events a command got acknowledged. -/
def Cmd.acked {ε : Type} : Cmd ε → List ε
  | .event e .ok => [e]
  | .events es .ok => es
  | _ => []

/-- no storage call of the command failed after having stored. -/
def Cmd.Honest {ε : Type} : Cmd ε → Prop
  | .event _ o => o ≠ .lostAck
  | .events _ o => o ≠ .lostAck
  | .save o => o ≠ .lostAck
  | _ => True

def Cmd.isSave {ε : Type} : Cmd ε → Bool
  | .save _ => true
  | _ => false

/-- Histories in which the first event written after the state was saved is written by `events` (and not
nothing). -/
def BatchAfterSave {ε : Type} : Bool → List (Cmd ε) → Bool
  | _, [] => true
  | flag, c :: cs =>
    match c with
    | .event _ .ok => !flag && BatchAfterSave flag cs
    | .events es .ok => BatchAfterSave (flag && es.isEmpty) cs
    | .save .ok => BatchAfterSave true cs
    | _ => BatchAfterSave flag cs

/-- what is read back is what was written, and the actor has handlers for what it writes. -/
structure App.Lawful {ε σ : Type} (A : App ε σ) : Prop where
  dec : ∀ e, A.dec (A.enc e) = some e
  decS : ∀ s, A.decS (A.encS s) = some s
  knownE : ∀ e, A.known.message (A.enc e).ptype = true
  knownS : ∀ s, A.known.snapshot (A.encS s).ptype = true

/-- the state the recovered snapshot and messages lead to, `none` if something does not decode. -/
def rebuilt {σ : Type} (u : User σ) (s : σ) (r : Recovered) : Option σ := do
  let s ← match r.snapshot with
    | some p => (u.snap p).map fun h => (h s).1
    | none => some s
  (r.messages.getD []).foldlM (fun s p => (u.msg p).map fun h => (h s).1) s

/-- `n` calls of a hook. -/
def times {σ : Type} (h : Hook σ) : Nat → σ → σ
  | 0, s => s
  | n + 1, s => times h n (h s).1

/-- the trace of an undisturbed recovery after `k` failed reads. -/
def fullTrace (k : Nat) (r : Recovered) : List Ev :=
  .pre :: List.replicate k .loadErr ++ (r.snapshot.toList.map .snap ++ (r.messages.getD []).map .msg) ++ [.post]

/-- the hook never asks to stop. -/
def Hook.Calm {σ : Type} (h : Hook σ) : Prop := ∀ s, (h s).2 = false

structure User.Calm {σ : Type} (u : User σ) : Prop where
  pre : Hook.Calm u.pre
  post : Hook.Calm u.post
  onErr : Hook.Calm u.onErr
  snap : ∀ p h, u.snap p = some h → Hook.Calm h
  msg : ∀ p h, u.msg p = some h → Hook.Calm h

/-! ### Lemmas about `started` -/

theorem Boot.call_trace {σ : Type} (b : Boot σ) (e : Ev) (h : Hook σ) : (b.call e h).trace = b.trace ++ [e] := rfl

theorem Boot.stop_trace {σ : Type} (b : Boot σ) : b.stop.trace = b.trace := rfl

theorem messages_none {σ : Type} (u : User σ) (ps : List Payload) (b : Boot σ)
    (h : ps.foldlM (fun s p => (u.msg p).map fun h => (h s).1) b.state = none) :
    ∃ qs p rest s, ps = qs ++ p :: rest ∧ u.msg p = none ∧
      b.messages u ps = (⟨s, true, b.trace ++ qs.map .msg ++ [.decodeErr p]⟩, false) := by
  induction ps generalizing b with
  | nil => simp at h
  | cons p ps ih =>
    cases hp : u.msg p with
    | none =>
      exact ⟨[], p, ps, (u.onErr b.state).1, rfl, hp, by
        simp [Boot.messages, Boot.payload, hp, Boot.call, Boot.stop]⟩
    | some hk =>
      simp only [List.foldlM_cons, hp, Option.map_some, Option.bind_eq_bind, Option.bind_some] at h
      obtain ⟨qs, q, rest, s, h1, h3, h4⟩ := ih (b.call (.msg p) hk) h
      refine ⟨p :: qs, q, rest, s, by simp [h1], h3, ?_⟩
      simp only [Boot.messages, Boot.payload, hp, h4]
      simp [Boot.call]

theorem messages_some {σ : Type} (u : User σ) (ps : List Payload) (b : Boot σ) (s' : σ)
    (h : ps.foldlM (fun s p => (u.msg p).map fun h => (h s).1) b.state = some s') :
    ∃ st, (b.messages u ps) = (⟨s', st, b.trace ++ ps.map .msg⟩, true) ∧ (b.stopping = true → st = true) ∧
      ((∀ p h, u.msg p = some h → Hook.Calm h) → st = b.stopping) := by
  induction ps generalizing b with
  | nil =>
    simp at h; subst h
    exact ⟨b.stopping, by simp [Boot.messages], id, fun _ => rfl⟩
  | cons p ps ih =>
    cases hp : u.msg p with
    | none => simp [hp] at h
    | some hk =>
      simp only [List.foldlM_cons, hp, Option.map_some, Option.bind_eq_bind, Option.bind_some] at h
      obtain ⟨st, h1, h2, h3⟩ := ih (b.call (.msg p) hk) h
      refine ⟨st, ?_, ?_, ?_⟩
      · simp only [Boot.messages, Boot.payload, hp, h1]
        simp [Boot.call]
      · intro hs; exact h2 (by simp [Boot.call, hs])
      · intro hc
        rw [h3 hc]
        simp [Boot.call, hc p hk hp b.state]

theorem replay_some {σ : Type} (u : User σ) (b : Boot σ) (r : Recovered) (s' : σ) (h : rebuilt u b.state r = some s') :
    ∃ st, b.replay u r = ⟨(u.post s').1, st,
        b.trace ++ (r.snapshot.toList.map .snap ++ (r.messages.getD []).map .msg) ++ [.post]⟩ ∧
      (b.stopping = true → st = true) ∧ (u.Calm → st = b.stopping) := by
  obtain ⟨sn, ms⟩ := r
  have key : ∀ (b1 : Boot σ), (ms.getD []).foldlM (fun s p => (u.msg p).map fun h => (h s).1) b1.state = some s' →
      ∃ st, b1.finish u ms = ⟨(u.post s').1, st, b1.trace ++ (ms.getD []).map .msg ++ [.post]⟩ ∧
        (b1.stopping = true → st = true) ∧ (u.Calm → st = b1.stopping) := by
    intro b1 h
    cases ms with
    | none =>
      simp at h; subst h
      refine ⟨b1.stopping || (u.post b1.state).2, by simp [Boot.finish, Boot.call], by simp +contextual, ?_⟩
      intro hc; simp [hc.post b1.state]
    | some ps =>
      obtain ⟨st, h1, h2, h3⟩ := messages_some u ps b1 s' h
      refine ⟨st || (u.post s').2, by simp [Boot.finish, h1, Boot.call], ?_, ?_⟩
      · intro hs; simp [h2 hs]
      · intro hc; rw [h3 hc.msg]; simp [hc.post s']
  cases sn with
  | none =>
    obtain ⟨st, h1, h2, h3⟩ := key b (by simpa [rebuilt] using h)
    exact ⟨st, by simpa [Boot.replay] using h1, h2, h3⟩
  | some p =>
    cases hp : u.snap p with
    | none => simp [rebuilt, hp] at h
    | some hk =>
      obtain ⟨st, h1, h2, h3⟩ := key (b.call (.snap p) hk) (by simpa [rebuilt, hp, Boot.call] using h)
      refine ⟨st, ?_, fun hs => h2 (by simp [Boot.call, hs]), ?_⟩
      · simpa [Boot.replay, Boot.payload, hp, Boot.call] using h1
      · intro hc; rw [h3 hc]; simp [Boot.call, hc.snap p hk hp b.state]

/-- replaying the recovered events `evs` and then `ev`, which does not decode. -/
def StopsAt {σ : Type} (u : User σ) (r : Recovered) (evs : List Ev) (p : Payload) : Prop :=
  ∃ ev rest, r.snapshot.toList.map Ev.snap ++ (r.messages.getD []).map Ev.msg = evs ++ ev :: rest ∧
    (ev = .snap p ∧ u.snap p = none ∨ ev = .msg p ∧ u.msg p = none)

theorem replay_none {σ : Type} (u : User σ) (b : Boot σ) (r : Recovered) (h : rebuilt u b.state r = none) :
    ∃ evs p s, b.replay u r = ⟨s, true, b.trace ++ evs ++ [.decodeErr p]⟩ ∧ StopsAt u r evs p := by
  obtain ⟨sn, ms⟩ := r
  have key : ∀ (b1 : Boot σ), (ms.getD []).foldlM (fun s p => (u.msg p).map fun h => (h s).1) b1.state = none →
      ∃ qs p rest s, ms.getD [] = qs ++ p :: rest ∧ u.msg p = none ∧
      b1.finish u ms = ⟨s, true, b1.trace ++ qs.map .msg ++ [.decodeErr p]⟩ := by
    intro b1 h
    cases ms with
    | none => simp at h
    | some ps =>
      obtain ⟨qs, p, rest, s, h1, h3, h4⟩ := messages_none u ps b1 h
      exact ⟨qs, p, rest, s, h1, h3, by simp [Boot.finish, h4]⟩
  cases sn with
  | none =>
    obtain ⟨qs, p, rest, s, h1, h3, h4⟩ := key b (by simpa [rebuilt] using h)
    exact ⟨qs.map .msg, p, s, by simpa [Boot.replay] using h4,
      .msg p, rest.map .msg, by simp [h1], .inr ⟨rfl, h3⟩⟩
  | some p =>
    cases hp : u.snap p with
    | none =>
      exact ⟨[], p, (u.onErr b.state).1, by simp [Boot.replay, Boot.payload, hp, Boot.call, Boot.stop],
        .snap p, (ms.getD []).map .msg, by simp, .inl ⟨rfl, hp⟩⟩
    | some hk =>
      obtain ⟨qs, q, rest, s, h1, h3, h4⟩ := key (b.call (.snap p) hk) (by simpa [rebuilt, hp, Boot.call] using h)
      refine ⟨.snap p :: qs.map .msg, q, s, ?_, .msg q, rest.map .msg, by simp [h1], .inr ⟨rfl, h3⟩⟩
      simpa [Boot.replay, Boot.payload, hp, Boot.call] using h4

/-- the actor after `k` failed reads of the journal. -/
def afterErrs {σ : Type} (u : User σ) : Nat → Boot σ → Boot σ
  | 0, b => b
  | k + 1, b => afterErrs u k (b.call .loadErr u.onErr)

theorem afterErrs_eq {σ : Type} (u : User σ) (k : Nat) (b : Boot σ) :
    (afterErrs u k b).state = times u.onErr k b.state ∧
    (afterErrs u k b).trace = b.trace ++ List.replicate k .loadErr ∧
    (b.stopping = true → (afterErrs u k b).stopping = true) ∧
    (u.Calm → (afterErrs u k b).stopping = b.stopping) := by
  induction k generalizing b with
  | zero => simp [afterErrs, times]
  | succ k ih =>
    obtain ⟨h1, h2, h3, h4⟩ := ih (b.call .loadErr u.onErr)
    refine ⟨h1, ?_, ?_, ?_⟩
    · simp [afterErrs, h2, Boot.call_trace, List.replicate_succ]
    · intro hs; exact h3 (by simp [Boot.call, hs])
    · intro hc; simp only [afterErrs]; rw [h4 hc]; simp [Boot.call, hc.onErr b.state]

/-- every way `load` can end. -/
theorem load_cases {σ : Type} (u : User σ) (policy : RecoveryPolicy) (r : Recovered) (b : Boot σ) (n : Nat)
    (loads : List Bool) :
    (∃ k, loads = List.replicate k false ∧ b.load u policy r n loads = .pending (afterErrs u k b)) ∨
    (∃ k rest, loads = List.replicate k false ++ true :: rest ∧
      b.load u policy r n loads = .returned ((afterErrs u k b).replay u r)) ∨
    (∃ k rest, loads = List.replicate (k + 1) false ++ rest ∧
      (b.load u policy r n loads = .panicked (afterErrs u (k + 1) b) ∨
       b.load u policy r n loads = .returned ((afterErrs u (k + 1) b).stop.call .failed u.onFailed))) := by
  induction loads generalizing b n with
  | nil => exact .inl ⟨0, rfl, rfl⟩
  | cons l ls ih =>
    cases l with
    | true => exact .inr (.inl ⟨0, ls, rfl, rfl⟩)
    | false =>
      have hrec : policy = .retry .untilSuccess ∨ (∃ m, policy = .retry (.maxAttempts m) ∧ ¬ n ≥ m) →
          b.load u policy r n (false :: ls) = (b.call .loadErr u.onErr).load u policy r (n + 1) ls := by
        rintro (rfl | ⟨m, rfl, hm⟩)
        · simp [Boot.load, shouldRetry]
        · simp [Boot.load, shouldRetry, if_neg hm]
      have step (h : b.load u policy r n (false :: ls) = (b.call .loadErr u.onErr).load u policy r (n + 1) ls) :
          (∃ k, false :: ls = List.replicate k false ∧ b.load u policy r n (false :: ls) = .pending (afterErrs u k b)) ∨
          (∃ k rest, false :: ls = List.replicate k false ++ true :: rest ∧
            b.load u policy r n (false :: ls) = .returned ((afterErrs u k b).replay u r)) ∨
          (∃ k rest, false :: ls = List.replicate (k + 1) false ++ rest ∧
            (b.load u policy r n (false :: ls) = .panicked (afterErrs u (k + 1) b) ∨
             b.load u policy r n (false :: ls) = .returned ((afterErrs u (k + 1) b).stop.call .failed u.onFailed))) := by
        rcases ih (b.call .loadErr u.onErr) (n + 1) with ⟨k, h1, h2⟩ | ⟨k, rest, h1, h2⟩ | ⟨k, rest, h1, h2⟩
        · exact Or.inl ⟨k + 1, by simp [h1, List.replicate_succ], by rw [h, h2]; rfl⟩
        · exact Or.inr (.inl ⟨k + 1, rest, by simp [h1, List.replicate_succ], by rw [h, h2]; rfl⟩)
        · refine Or.inr (.inr ⟨k + 1, rest, by simp [h1, List.replicate_succ], ?_⟩)
          rw [h]; exact h2
      cases policy with
      | stopActor => exact .inr (.inr ⟨0, ls, rfl, .inr rfl⟩)
      | panic => exact .inr (.inr ⟨0, ls, rfl, .inl rfl⟩)
      | retry rt =>
        cases rt with
        | untilSuccess => exact step (hrec (.inl rfl))
        | maxAttempts m =>
          by_cases hm : n ≥ m
          · refine .inr (.inr ⟨0, ls, rfl, .inr ?_⟩)
            simp [Boot.load, shouldRetry, if_pos hm, afterErrs]
          · exact step (hrec (.inr ⟨m, rfl, hm⟩))

/-! ### C64: start-up -/

/-- C64: a persistent actor that comes up has its snapshot and every message replayed, each once, in
order, after `pre_recovery` and before `post_recovery`. Every actor, recovery policy, pattern of read
failures and journal. -/
theorem C64_runs_only_recovered {σ : Type} (u : User σ) (policy : RecoveryPolicy) (s : σ) (loads : List Bool)
    (r : Recovered) (b : Boot σ) (h : started u policy s loads r = .returned b) (hs : b.stopping = false) :
    ∃ k rest s', loads = List.replicate k false ++ true :: rest ∧
      rebuilt u (times u.onErr k (u.pre s).1) r = some s' ∧
      b.state = (u.post s').1 ∧ b.trace = fullTrace k r := by
  unfold started at h
  rcases load_cases u policy r ((Boot.mk s false []).call .pre u.pre) 1 loads with
    ⟨k, h1, h2⟩ | ⟨k, rest, h1, h2⟩ | ⟨k, rest, h1, h2 | h2⟩
  · rw [h2] at h; cases h
  · rw [h2] at h
    obtain ⟨e1, e2, e3, e4⟩ := afterErrs_eq u k ((Boot.mk s false []).call .pre u.pre)
    generalize hb' : afterErrs u k ((Boot.mk s false []).call .pre u.pre) = b' at *
    cases hr : rebuilt u b'.state r with
    | none =>
      obtain ⟨evs, p, s', h3, _⟩ := replay_none u b' r hr
      rw [h3] at h; cases h; cases hs
    | some s' =>
      obtain ⟨st, h3, h4, h5⟩ := replay_some u b' r s' hr
      rw [h3] at h; cases h
      refine ⟨k, rest, s', h1, ?_, rfl, ?_⟩
      · rw [← hr, e1]; simp [Boot.call]
      · simp [e2, Boot.call, fullTrace]
  · rw [h2] at h; cases h
  · rw [h2] at h; cases h
    simp [Boot.call, Boot.stop] at hs

/-- C64: it does come up, if the journal can be read, everything in it decodes, and its own code does not
ask to stop. -/
theorem C64_comes_up {σ : Type} (u : User σ) (hu : u.Calm) (policy : RecoveryPolicy) (s : σ) (k m : Nat) (rest : List Bool)
    (hp : k = 0 ∨ policy = .retry .untilSuccess ∨ policy = .retry (.maxAttempts m) ∧ k < m)
    (r : Recovered) (s' : σ) (hr : rebuilt u (times u.onErr k (u.pre s).1) r = some s') :
    started u policy s (List.replicate k false ++ true :: rest) r
      = .returned ⟨(u.post s').1, false, fullTrace k r⟩ := by
  have hl : ∀ (k n : Nat) (b : Boot σ), (k = 0 ∨ policy = .retry .untilSuccess ∨ policy = .retry (.maxAttempts m) ∧ n + k ≤ m) →
      b.load u policy r n (List.replicate k false ++ true :: rest) = .returned ((afterErrs u k b).replay u r) := by
    intro k
    induction k with
    | zero => intro n b _; rfl
    | succ k ih =>
      intro n b hp
      have hc : k = 0 ∨ policy = .retry .untilSuccess ∨ policy = .retry (.maxAttempts m) ∧ n + 1 + k ≤ m := by
        rcases hp with h | h | h
        · omega
        · exact .inr (.inl h)
        · exact .inr (.inr ⟨h.1, by omega⟩)
      have := ih (n + 1) (b.call .loadErr u.onErr) hc
      rcases hp with h | h | h
      · omega
      · subst h
        simpa [List.replicate_succ, Boot.load, shouldRetry, afterErrs] using this
      · obtain ⟨rfl, h⟩ := h
        simpa [List.replicate_succ, Boot.load, shouldRetry, afterErrs, if_neg (by omega : ¬ n ≥ m)] using this
  unfold started
  rw [hl k 1 _ (by rcases hp with h | h | h
                   · exact .inl h
                   · exact .inr (.inl h)
                   · exact .inr (.inr ⟨h.1, by omega⟩))]
  obtain ⟨e1, e2, e3, e4⟩ := afterErrs_eq u k ((Boot.mk s false []).call .pre u.pre)
  generalize afterErrs u k ((Boot.mk s false []).call .pre u.pre) = b' at *
  obtain ⟨st, h3, h4, h5⟩ := replay_some u b' r s' (by rw [e1]; simpa [Boot.call] using hr)
  rw [h3, h5 hu, e4 hu]
  simp [e2, Boot.call, fullTrace, hu.pre s]

/-- C64: a payload that does not decode stops the actor: nothing after it is replayed, the error hook
hears of it, `post_recovery` does not run (or the policy had given up on reading the journal before). -/
theorem C64_undecodable_stops {σ : Type} (u : User σ) (policy : RecoveryPolicy) (s : σ) (k : Nat) (rest : List Bool)
    (r : Recovered) (b : Boot σ)
    (h : started u policy s (List.replicate k false ++ true :: rest) r = .returned b)
    (hr : rebuilt u (times u.onErr k (u.pre s).1) r = none) :
    b.stopping = true ∧
    ((∃ evs p, b.trace = .pre :: List.replicate k .loadErr ++ evs ++ [.decodeErr p] ∧ StopsAt u r evs p) ∨
     ∃ j, b.trace = .pre :: List.replicate j .loadErr ++ [.failed]) := by
  unfold started at h
  rcases load_cases u policy r ((Boot.mk s false []).call .pre u.pre) 1 (List.replicate k false ++ true :: rest) with
    ⟨k', h1, h2⟩ | ⟨k', rest', h1, h2⟩ | ⟨k', rest', h1, h2 | h2⟩
  · rw [h2] at h; cases h
  · have hk : k = k' := by
      clear h h2 hr
      induction k generalizing k' with
      | zero =>
        cases k' with
        | zero => rfl
        | succ k' => simp [List.replicate_succ] at h1
      | succ k ih =>
        cases k' with
        | zero => simp [List.replicate_succ] at h1
        | succ k' => simp [List.replicate_succ] at h1; rw [ih k' (by simpa using h1)]
    subst hk
    rw [h2] at h
    obtain ⟨e1, e2, e3, e4⟩ := afterErrs_eq u k ((Boot.mk s false []).call .pre u.pre)
    generalize afterErrs u k ((Boot.mk s false []).call .pre u.pre) = b' at *
    obtain ⟨evs, p, s', h3, h4⟩ := replay_none u b' r (by rw [e1]; simpa [Boot.call] using hr)
    rw [h3] at h; cases h
    exact ⟨rfl, .inl ⟨evs, p, by simp [e2, Boot.call_trace], h4⟩⟩
  · rw [h2] at h; cases h
  · rw [h2] at h; cases h
    obtain ⟨e1, e2, e3, e4⟩ := afterErrs_eq u (k' + 1) ((Boot.mk s false []).call .pre u.pre)
    exact ⟨by simp [Boot.call, Boot.stop], .inr ⟨k' + 1, by simp [Boot.call_trace, Boot.stop_trace, e2]⟩⟩

/-- C64: if the policy gives up on reading the journal, nothing is replayed and the actor does not run;
`on_recovery_failed` is the last thing called. -/
theorem C64_unreadable_stops {σ : Type} (u : User σ) (s : σ) (m : Nat) (rest : List Bool) (r : Recovered)
    (hm : 0 < m) :
    (∃ b, started u (.retry (.maxAttempts m)) s (List.replicate m false ++ rest) r = .returned b ∧
      b.stopping = true ∧ b.trace = .pre :: List.replicate m .loadErr ++ [.failed]) ∧
    (∃ b, started u .stopActor s (false :: rest) r = .returned b ∧
      b.stopping = true ∧ b.trace = [.pre, .loadErr, .failed]) ∧
    (∃ b, started u .panic s (false :: rest) r = .panicked b) := by
  refine ⟨?_, ⟨_, rfl, by simp [Boot.call, Boot.stop], by simp [Boot.call, Boot.stop]⟩, ⟨_, rfl⟩⟩
  have hl : ∀ (k n : Nat) (b : Boot σ), n + k = m + 1 → 0 < k →
      b.load u (.retry (.maxAttempts m)) r n (List.replicate k false ++ rest)
        = .returned ((afterErrs u k b).stop.call .failed u.onFailed) := by
    intro k
    induction k with
    | zero => intro n b _ h; omega
    | succ k ih =>
      intro n b hn _
      by_cases hk : k = 0
      · subst hk
        simp [Boot.load, shouldRetry, if_pos (by omega : n ≥ m), afterErrs]
      · have := ih (n + 1) (b.call .loadErr u.onErr) (by omega) (by omega)
        simpa [List.replicate_succ, Boot.load, shouldRetry, if_neg (by omega : ¬ n ≥ m), afterErrs] using this
  refine ⟨_, by unfold started; exact hl m 1 _ (by omega) hm, by simp [Boot.call, Boot.stop], ?_⟩
  obtain ⟨e1, e2, e3, e4⟩ := afterErrs_eq u m ((Boot.mk s false []).call .pre u.pre)
  simp [Boot.call_trace, Boot.stop_trace, e2]

/-- an actor counting what it is given; one read fails first; the second message does not decode. -/
example :
    let u : User Nat := ⟨fun s => (s, false), fun s => (s, false), fun s => (s, false), fun s => (s, false),
      fun _ => some fun s => (s + 100, false),
      fun p => if p = pb then none else some fun s => (s + 1, false)⟩
    started u (.retry .untilSuccess) 0 [false, true] ⟨some pc, some [pa, pa]⟩
      = .returned ⟨102, false, [.pre, .loadErr, .snap pc, .msg pa, .msg pa, .post]⟩ ∧
    started u (.retry .untilSuccess) 0 [true] ⟨some pc, some [pa, pb, pa]⟩
      = .returned ⟨101, true, [.pre, .snap pc, .msg pa, .decodeErr pb]⟩ ∧
    started u (.retry (.maxAttempts 2)) 0 [false, false, true] ⟨none, none⟩
      = .returned ⟨0, true, [.pre, .loadErr, .loadErr, .failed]⟩ := by decide

/-! ### C66: recovery turned off -/

/-- C66 as stated is false: an actor that turns recovery off cannot persist anything, the first attempt
panics, on any storage. -/
theorem C66_disabled_refuted {σ : Type} (S : Storage σ) (K : Known) (st : σ) (pid : String) (p : Payload) (o : WriteOutcome) :
    persistWith S st p o (journalAfter S K st pid .disabled) = none := rfl

/-- C66, the other actors: after any start-up a persist goes to the storage. -/
theorem C66_default_partial {σ : Type} (S : Storage σ) (K : Known) (st : σ) (pid : String) (p : Payload) :
    ∃ j seq, j.pid = pid ∧ j.last = seq + 1 ∧
      persistWith S st p .ok (journalAfter S K st pid .default)
        = some (S.writeMessage st pid ⟨seq, p.ptype, p.bytes⟩, j, true) := by
  have hpid : (loadJournal S K st pid).1.pid = pid := by
    simp only [loadJournal, recoverSnapshot, recoverMessages, Journal.new]
    split <;> (simp only; split <;> rfl)
  refine ⟨{ (loadJournal S K st pid).1 with last := (loadJournal S K st pid).1.last + 1 },
    (loadJournal S K st pid).1.last, hpid, rfl, ?_⟩
  simp [journalAfter, persistWith, persistMessage, WriteOutcome.acked, applyWrite, WriteOutcome.stored, hpid]

/-! ### C65: message types -/

/-- C65: if no identifier is given to two types, every registered type is read back as itself. -/
theorem C65_types_roundtrip_partial {τ : Type} [DecidableEq τ] (regs : List (τ × String))
    (hd : ∀ a b i, (a, i) ∈ regs → (b, i) ∈ regs → a = b) (m : τ) (hm : m ∈ regs.map (·.1)) :
    ∃ i, (Types.configure regs).written m = some i ∧ (Types.configure regs).readAs i = some m := by
  suffices h : ∀ (regs : List (τ × String)) (t : Types τ),
      (∀ i a, t.handlers.get i = some a → ∀ b, (b, i) ∈ regs → a = b) →
      (∀ a b i, (a, i) ∈ regs → (b, i) ∈ regs → a = b) →
      ((∃ i, t.ids.get m = some i ∧ t.handlers.get i = some m) ∨ m ∈ regs.map (·.1)) →
      ∃ i, (regs.foldl (fun t r => t.message r.1 r.2) t).ids.get m = some i ∧
        (regs.foldl (fun t r => t.message r.1 r.2) t).handlers.get i = some m by
    exact h regs .empty (by simp [Types.empty]) hd (.inr hm)
  intro regs
  induction regs with
  | nil => intro t _ _ h; simpa using h
  | cons r regs ih =>
    obtain ⟨a, i⟩ := r
    intro t h1 h2 h3
    refine ih (t.message a i) ?_ (fun x y j hx hy => h2 x y j (by simp [hx]) (by simp [hy])) ?_
    · intro j x hx y hy
      simp only [Types.message, Assoc.get_insert] at hx
      split at hx
      · rename_i e; subst e; cases hx; exact h2 a y j (by simp) (by simp [hy])
      · exact h1 j x hx y (by simp [hy])
    · by_cases hma : a = m
      · subst hma; left; exact ⟨i, by simp [Types.message, Assoc.get_insert], by simp [Types.message, Assoc.get_insert]⟩
      · rcases h3 with ⟨j, h4, h5⟩ | h3
        · left
          refine ⟨j, by simp [Types.message, Assoc.get_insert, Ne.symm hma, h4], ?_⟩
          simp only [Types.message, Assoc.get_insert]
          split
          · rename_i e; subst e
            have := h1 j m h5 a (by simp); exact absurd this.symm hma
          · exact h5
        · right; simpa [Ne.symm hma] using h3

/-- two types, one of them renamed: entries written under the old name are still read. -/
example : (Types.configure [("A", "a1"), ("B", "b"), ("A", "a2")]).written "A" = some "a2" ∧
    (Types.configure [("A", "a1"), ("B", "b"), ("A", "a2")]).readAs "a1" = some "A" ∧
    (Types.configure [("A", "a1"), ("B", "b"), ("A", "a2")]).readAs "a2" = some "A" := by decide

/-- C65 without that condition is false: nothing keeps two types from sharing an identifier, and then the
messages of one are given to the handler of the other. -/
theorem C65_collision_refuted : ∃ (regs : List (String × String)) (m i m' : _), m ≠ m' ∧
    (Types.configure regs).written m = some i ∧ (Types.configure regs).readAs i = some m' :=
  ⟨[("A", "x"), ("B", "x")], "A", "x", "B", by decide⟩

/-- C65: registering more types never makes an identifier unreadable. -/
theorem C65_still_readable {τ : Type} [DecidableEq τ] (regs more : List (τ × String)) (i : String) (m : τ)
    (h : (Types.configure regs).readAs i = some m) :
    ∃ m', (Types.configure (regs ++ more)).readAs i = some m' ∧ (m' = m ∨ (m', i) ∈ more) := by
  unfold Types.configure Types.readAs at *
  rw [List.foldl_append]
  generalize regs.foldl (fun t r => t.message r.1 r.2) Types.empty = t at h
  induction more generalizing t m with
  | nil => exact ⟨m, h, .inl rfl⟩
  | cons r more ih =>
    obtain ⟨a, j⟩ := r
    by_cases hj : j = i
    · subst hj
      obtain ⟨m', h1, h2⟩ := ih a (t.message a j) (by simp [Types.message, Assoc.get_insert])
      refine ⟨m', h1, .inr ?_⟩
      rcases h2 with rfl | h2
      · simp
      · simp [h2]
    · obtain ⟨m', h1, h2⟩ := ih m (t.message a j) (by simp [Types.message, Assoc.get_insert, Ne.symm hj, h])
      refine ⟨m', h1, ?_⟩
      rcases h2 with rfl | h2
      · exact .inl rfl
      · exact .inr (by simp [h2])

/-! ### C63: event-sourced actors -/

section
variable {ε σ : Type} {A : App ε σ}

theorem App.user_calm (A : App ε σ) : A.user.Calm := by
  constructor
  · intro s; rfl
  · intro s; rfl
  · intro s; rfl
  · intro p h hp s
    simp only [App.user, Option.map_eq_some_iff] at hp
    obtain ⟨_, _, rfl⟩ := hp; rfl
  · intro p h hp s
    simp only [App.user, Option.map_eq_some_iff] at hp
    obtain ⟨_, _, rfl⟩ := hp; rfl

/-- the view holds the actor's state. -/
def Holds (A : App ε σ) (v : View) (s : σ) : Prop :=
  ∃ (s0 : σ) (es : List ε), (match v.snap with | none => some A.init | some p => if A.known.snapshot p.ptype then A.decS p else none) = some s0 ∧
    v.msgs = es.map A.enc ∧ s = es.foldl A.app s0

theorem times_id (h : Hook σ) (hh : ∀ s, (h s).1 = s) (n : Nat) (s : σ) : times h n s = s := by
  induction n with
  | zero => rfl
  | succ n ih => simp [times, hh, ih]

theorem crash_state (hA : A.Lawful) {v : View} {s : σ} (h : Holds A v s) (n : Nat) :
    (started A.user (.retry .untilSuccess) A.init (List.replicate n false ++ [true]) (v.seen A.known)).up = some s := by
  obtain ⟨s0, es, h1, h2, h3⟩ := h
  have hf : ∀ (es : List ε) (s : σ), (es.map A.enc).foldlM (fun s p => (A.user.msg p).map fun h => (h s).1) s
      = some (es.foldl A.app s) := by
    intro es
    induction es with
    | nil => intro s; rfl
    | cons e es ih =>
      intro s
      simp only [List.map_cons, List.foldlM_cons, App.user, hA.dec, Option.map_some, Option.bind_eq_bind,
        Option.bind_some, List.foldl_cons] at ih ⊢
      exact ih _
  have hm : ((v.seen A.known).messages.getD []) = es.map A.enc := by
    simp only [View.seen, h2]
    have : (es.map A.enc).filter (fun p => A.known.message p.ptype) = es.map A.enc :=
      List.filter_eq_self.2 (by simp [hA.knownE])
    rw [this]; split <;> simp_all
  have hr : rebuilt A.user (times A.user.onErr n (A.user.pre A.init).1) (v.seen A.known) = some s := by
    rw [times_id _ (fun _ => rfl)]
    have hsn : (v.seen A.known).snapshot = v.snap.filter fun p => A.known.snapshot p.ptype := rfl
    unfold rebuilt
    rw [hm, hsn]
    cases hs : v.snap with
    | none =>
      rw [hs] at h1
      simp only [Option.some.injEq] at h1
      subst h1
      simpa [App.user, h3] using hf es A.init
    | some p =>
      rw [hs] at h1
      simp only at h1
      split at h1
      · rename_i hk
        have : A.user.snap p = some fun _ => (s0, false) := by simp [App.user, h1]
        simpa [Option.filter, hk, this, h3] using hf es s0
      · cases h1
  rw [C64_comes_up A.user A.user_calm (.retry .untilSuccess) A.init n 0 [] (.inr (.inl rfl)) _ s hr]
  simp [BootRes.up, App.user]

/-- the flag of `BatchAfterSave` after a command. -/
def Cmd.flag (flag : Bool) : Cmd ε → Bool
  | .events es .ok => flag && es.isEmpty
  | .save .ok => true
  | _ => flag

/-- what holds of a running actor: storage, view and flag agree, and the view holds the state. -/
structure Fit (A : App ε σ) (pid : String) (l : Live σ) (s : σ) (flag : Bool) : Prop where
  up : l.state = some s
  pidOk : PidOk l.sys
  view : ∃ m : MemView, MemInv l.sys pid m ∧ Holds A m.view s ∧ (m.armed = true → flag = true) ∧
    (flag = false → m.view.snap = none ∨ m.view.msgs ≠ [])

theorem Holds.add {v : View} {s : σ} (h : Holds A v s) (es : List ε) :
    Holds A { v with msgs := v.msgs ++ es.map A.enc } (es.foldl A.app s) := by
  obtain ⟨s0, es0, h1, h2, h3⟩ := h
  exact ⟨s0, es0 ++ es, h1, by simp [h2], by simp [h3]⟩

theorem Fit.step (hA : A.Lawful) {pid : String} {l : Live σ} {s : σ} {flag : Bool} (h : Fit A pid l s flag) (c : Cmd ε)
    (hc : c.Honest) (hb : BatchAfterSave flag [c] = true) :
    Fit A pid (l.step A pid c) (c.acked.foldl A.app s) (c.flag flag) := by
  obtain ⟨hup, hpid, m, hm, hh, h1, h2⟩ := h
  have hop : (c.op A s).Honest := by cases c <;> exact hc
  have hm' := hm.step hpid (c.op A s) hop
  have hp' := hpid.step (S := memStorage) pid (c.op A s)
  have hsys : (l.step A pid c).sys = l.sys.step memStorage pid (c.op A s) := by
    simp only [Live.step, hup]
    cases c <;> rfl
  refine ⟨?_, by rw [hsys]; exact hp', m.step (c.op A s), by rw [hsys]; exact hm', ?_⟩
  · cases c with
    | event e o => cases o <;> simp [Live.step, hup, Cmd.acked, WriteOutcome.acked]
    | events es o => cases o <;> simp [Live.step, hup, Cmd.acked, WriteOutcome.acked]
    | save o => cases o <;> simp [Live.step, hup, Cmd.acked]
    | trim o => simp [Live.step, hup, Cmd.acked]
    | crash n =>
      simp only [Live.step, hup, Cmd.acked, List.foldl_nil]
      rw [hm.recovered]
      exact crash_state hA hh n
  · cases c with
    | event e o =>
      cases o with
      | ok =>
        simp only [BatchAfterSave, Bool.and_true, Bool.not_eq_eq_eq_not, Bool.not_true] at hb
        have ha : m.armed = false := by
          cases hma : m.armed with
          | false => rfl
          | true => have := h1 hma; simp [hb] at this
        simp only [Cmd.op, MemView.step, ha, View.step, Cmd.acked, Cmd.flag]
        exact ⟨hh.add [e], by simp, by simp⟩
      | rejected => exact ⟨hh, h1, h2⟩
      | lostAck => exact absurd rfl hc
    | events es o =>
      cases o with
      | ok =>
        by_cases he : es = []
        · subst he
          simpa [Cmd.op, MemView.step, Cmd.acked, Cmd.flag] using ⟨hh, h1, h2⟩
        · have : ¬ es.map A.enc = [] := by simpa using he
          simp only [Cmd.op, MemView.step, if_neg this, View.step, Cmd.acked, Cmd.flag]
          refine ⟨hh.add es, by simp, fun _ => .inr ?_⟩
          simp [he]
      | rejected => exact ⟨hh, h1, h2⟩
      | lostAck => exact absurd rfl hc
    | save o =>
      cases o with
      | ok =>
        simp only [Cmd.op, MemView.step, View.step, Cmd.acked, Cmd.flag, List.foldl_nil]
        exact ⟨⟨s, [], by simp [hA.decS, hA.knownS], by simp, rfl⟩, by simp, by simp⟩
      | rejected => exact ⟨hh, h1, h2⟩
      | lostAck => exact absurd rfl hc
    | trim o => exact ⟨hh, h1, h2⟩
    | crash n =>
      simp only [Cmd.op, MemView.step, Cmd.acked, Cmd.flag, List.foldl_nil]
      refine ⟨hh, ?_, h2⟩
      intro ha
      cases hf : flag with
      | true => rfl
      | false =>
        simp only [Bool.and_eq_true, List.isEmpty_iff] at ha
        rcases h2 hf with h | h
        · simp [h] at ha
        · exact absurd ha.2 h

theorem BatchAfterSave_cons (flag : Bool) (c : Cmd ε) (cs : List (Cmd ε)) :
    BatchAfterSave flag (c :: cs) = (BatchAfterSave flag [c] && BatchAfterSave (c.flag flag) cs) := by
  cases c with
  | event e o => cases o <;> simp [BatchAfterSave, Cmd.flag]
  | events es o => cases o <;> simp [BatchAfterSave, Cmd.flag]
  | save o => cases o <;> simp [BatchAfterSave, Cmd.flag]
  | trim o => simp [BatchAfterSave, Cmd.flag]
  | crash n => simp [BatchAfterSave, Cmd.flag]

theorem Fit.run (hA : A.Lawful) {pid : String} {l : Live σ} {s : σ} {flag : Bool} (h : Fit A pid l s flag) (cs : List (Cmd ε))
    (hc : ∀ c ∈ cs, c.Honest) (hb : BatchAfterSave flag cs = true) :
    (l.run A pid cs).state = some ((cs.flatMap Cmd.acked).foldl A.app s) := by
  induction cs generalizing l s flag with
  | nil => exact h.up
  | cons c cs ih =>
    rw [BatchAfterSave_cons, Bool.and_eq_true] at hb
    have := ih (h.step hA c (hc c (by simp)) hb.1) (fun c h => hc c (by simp [h])) hb.2
    simpa [Live.run, List.foldl_append] using this

theorem Fit.init (A : App ε σ) (pid : String) : Fit A pid (Live.init A) A.init false where
  up := rfl
  pidOk := PidOk.init _
  view := ⟨.empty, MemInv.init pid, ⟨A.init, [], rfl, rfl, rfl⟩, by simp [MemView.empty], by simp [MemView.empty, View.empty]⟩

theorem BatchAfterSave_no_save (cs : List (Cmd ε)) (h : ∀ c ∈ cs, c.isSave = false) : BatchAfterSave false cs = true := by
  induction cs with
  | nil => rfl
  | cons c cs ih =>
    rw [BatchAfterSave_cons, Bool.and_eq_true]
    have hc := h c (by simp)
    have := ih fun c h' => h c (by simp [h'])
    cases c with
    | event e o => cases o <;> simpa [BatchAfterSave, Cmd.flag] using this
    | events es o => cases o <;> simpa [BatchAfterSave, Cmd.flag] using this
    | save o => simp [Cmd.isSave] at hc
    | trim o => simpa [BatchAfterSave, Cmd.flag] using this
    | crash n => simpa [BatchAfterSave, Cmd.flag] using this

/-- C63, actors that take no snapshots: whatever crashes, failed writes, trims and unreadable journals
there were, the actor's state is what its acknowledged events make of the initial state. -/
theorem C63_state_survives (hA : A.Lawful) (pid : String) (cs : List (Cmd ε))
    (hc : ∀ c ∈ cs, c.Honest) (hs : ∀ c ∈ cs, c.isSave = false) :
    ((Live.init A).run A pid cs).state = some ((cs.flatMap Cmd.acked).foldl A.app A.init) :=
  (Fit.init A pid).run hA cs hc (BatchAfterSave_no_save cs hs)

/-- C63 with snapshots, when the first events after each of them are written as a batch. -/
theorem C63_snapshots_partial (hA : A.Lawful) (pid : String) (cs : List (Cmd ε))
    (hc : ∀ c ∈ cs, c.Honest) (hb : BatchAfterSave false cs = true) :
    ((Live.init A).run A pid cs).state = some ((cs.flatMap Cmd.acked).foldl A.app A.init) :=
  (Fit.init A pid).run hA cs hc hb

end

/-- a counter: events are numbers to add, written as one byte. -/
def counter : App Nat Nat where
  init := 0
  app := (· + ·)
  enc := fun n => ⟨"add", List.replicate n 0⟩
  dec := fun p => if p.ptype = "add" then some p.bytes.length else none
  encS := fun n => ⟨"total", List.replicate n 0⟩
  decS := fun p => if p.ptype = "total" then some p.bytes.length else none
  known := ⟨fun t => t = "add", fun t => t = "total"⟩

theorem counter_lawful : counter.Lawful := by
  constructor <;> intro _ <;> simp [counter]

/-- the counter crashing repeatedly. -/
example : ((Live.init counter).run counter "c" [.event 3 .ok, .event 5 .rejected, .crash 2, .events [1, 1] .ok, .save .ok,
    .crash 0, .events [2] .ok, .trim .ok, .crash 1, .event 4 .ok, .crash 0]).state = some 11 := by decide

/-- C63 as stated is false: an event persisted singly right after a snapshot is acknowledged and applied,
and gone after the next crash. -/
theorem C63_refuted : ¬ ∀ (cs : List (Cmd Nat)), (∀ c ∈ cs, c.Honest) →
    ((Live.init counter).run counter "c" cs).state = some ((cs.flatMap Cmd.acked).foldl counter.app counter.init) := by
  intro h
  have := h [.event 3 .ok, .save .ok, .event 5 .ok, .crash 0] (by simp [Cmd.Honest])
  revert this; decide

/-- a write that failed after it was stored: the event was never applied, yet it is after the crash. -/
theorem C63_lost_ack_refuted : ∃ cs : List (Cmd Nat), (∀ c ∈ cs, c.isSave = false) ∧
    ((Live.init counter).run counter "c" cs).state = some 3 ∧
    ((Live.init counter).run counter "c" (cs ++ [.crash 0])).state = some 8 :=
  ⟨[.event 3 .ok, .event 5 .lostAck], by simp [Cmd.isSave], by decide, by decide⟩

end Verif.Persist
