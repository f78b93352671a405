import Verif.Remote.WorkerModel

/-!
# C79: joining a cluster through a seed
-/

namespace Verif.Remote

/-! ## Specification -/

/-- `k` failed attempts in a row, each followed by a pause, starting with attempt `from`. -/
def failedAttempts (start k : Nat) : List WEvent :=
  (List.range k).flatMap fun i => [.resolve (start + i), .sleep]

/-- the first attempt, counted from 1, at which the name resolves. -/
def FirstSuccess (resolves : Nat → Bool) (k : Nat) : Prop :=
  1 ≤ k ∧ resolves k = true ∧ ∀ j, 1 ≤ j → j < k → resolves j = false

/-! ## Lemmas -/

theorem failedAttempts_succ (start k : Nat) :
    failedAttempts start (k + 1) = .resolve start :: .sleep :: failedAttempts (start + 1) k := by
  unfold failedAttempts
  rw [List.range_succ_eq_map, List.flatMap_cons, List.flatMap_map]
  simp only [Nat.add_zero, List.cons_append, List.nil_append, List.cons.injEq, true_and]
  congr 1
  funext i
  simp; omega

theorem resolveLoop_success (resolves : Nat → Bool) (k start : Nat) (hlt : start + k < 12)
    (hf : ∀ j, j < k → resolves (start + j) = false) (hs : resolves (start + k) = true) :
    resolveLoop resolves start = (failedAttempts start k ++ [.resolve (start + k)], true) := by
  induction k generalizing start with
  | zero =>
    unfold resolveLoop
    rw [if_neg (by omega), if_pos (by simpa using hs)]
    simp [failedAttempts]
  | succ k ih =>
    unfold resolveLoop
    rw [if_neg (by omega), if_neg (by simpa using hf 0 (by omega))]
    rw [ih (start + 1) (by omega) (fun j hj => by rw [show start + 1 + j = start + (j + 1) by omega]; exact hf _ (by omega))
      (by rw [show start + 1 + k = start + (k + 1) by omega]; exact hs), failedAttempts_succ]
    simp only [List.cons_append, show start + 1 + k = start + (k + 1) by omega]

theorem resolveLoop_failure (resolves : Nat → Bool) (k start : Nat) (heq : start + k = 12)
    (hf : ∀ j, j < k → resolves (start + j) = false) :
    resolveLoop resolves start = (failedAttempts start k ++ [.gaveUp], false) := by
  induction k generalizing start with
  | zero =>
    unfold resolveLoop
    rw [if_pos (by omega)]
    simp [failedAttempts]
  | succ k ih =>
    unfold resolveLoop
    rw [if_neg (by omega), if_neg (by simpa using hf 0 (by omega))]
    rw [ih (start + 1) (by omega) (fun j hj => by rw [show start + 1 + j = start + (j + 1) by omega]; exact hf _ (by omega)),
      failedAttempts_succ]
    simp only [List.cons_append]

theorem start_seed (resolves : Nat → Bool) (answer : Option Bool) (w : WorkerCfg) (seed : String)
    (hw : w.seed = some seed) :
    w.start resolves answer =
      [.register w.nodeAddr, .serve w.listen w.nodeAddr] ++ discoverPeersOf resolves answer seed := by
  simp [WorkerCfg.start, hw]

/-! ## Properties -/

/-- Without a seed a worker registers itself, serves, and looks for nobody. -/
theorem C79_no_seed (resolves : Nat → Bool) (answer : Option Bool) (w : WorkerCfg) (hw : w.seed = none) :
    w.start resolves answer = [.register w.nodeAddr, .serve w.listen w.nodeAddr] := by
  simp [WorkerCfg.start, hw]

/-- With a seed whose name resolves at attempt `k` of at most eleven: it registers itself and serves first, pauses
after each failed attempt, asks discovery once, and waits for the answer. -/
theorem C79_joins (resolves : Nat → Bool) (found : Bool) (w : WorkerCfg) (seed : String) (hw : w.seed = some seed)
    (k : Nat) (hk : FirstSuccess resolves k) (hle : k ≤ 11) :
    w.start resolves (some found) =
      [.register w.nodeAddr, .serve w.listen w.nodeAddr] ++ failedAttempts 1 (k - 1) ++
        [.resolve k, .discover seed, .answered found] := by
  obtain ⟨h1, h2, h3⟩ := hk
  have hr := resolveLoop_success resolves (k - 1) 1 (by omega) (fun j hj => h3 _ (by omega) (by omega))
    (by rw [show 1 + (k - 1) = k by omega]; exact h2)
  rw [start_seed resolves _ w seed hw]
  unfold discoverPeersOf
  rw [hr, show 1 + (k - 1) = k by omega]
  simp

/-- A name that does not resolve eleven times in a row is given up: discovery is not asked. -/
theorem C79_gives_up (resolves : Nat → Bool) (answer : Option Bool) (w : WorkerCfg) (seed : String)
    (hw : w.seed = some seed) (hno : ∀ k, 1 ≤ k → k ≤ 11 → resolves k = false) :
    w.start resolves answer =
      [.register w.nodeAddr, .serve w.listen w.nodeAddr] ++ failedAttempts 1 11 ++ [.gaveUp] := by
  have hr := resolveLoop_failure resolves 11 1 rfl (fun j hj => hno _ (by omega) (by omega))
  rw [start_seed resolves _ w seed hw]
  unfold discoverPeersOf
  rw [hr]
  simp

theorem exists_first (p : Nat → Bool) (n : Nat) :
    (∃ k, 1 ≤ k ∧ k ≤ n ∧ p k = true ∧ ∀ j, 1 ≤ j → j < k → p j = false) ∨ ∀ k, 1 ≤ k → k ≤ n → p k = false := by
  induction n with
  | zero => exact Or.inr fun k h1 h2 => by omega
  | succ n ih =>
    rcases ih with ⟨k, h1, h2, h3, h4⟩ | h
    · exact Or.inl ⟨k, h1, by omega, h3, h4⟩
    · by_cases hp : p (n + 1) = true
      · exact Or.inl ⟨n + 1, by omega, by omega, hp, fun j hj1 hj2 => h j hj1 (by omega)⟩
      · refine Or.inr fun k h1 h2 => ?_
        by_cases hk : k = n + 1
        · rw [hk]; simpa using hp
        · exact h k h1 (by omega)

theorem not_mem_failedAttempts (s k : Nat) (e : WEvent) (h1 : ∀ i, e ≠ .resolve i) (h2 : e ≠ .sleep) :
    e ∉ failedAttempts s k := by
  intro h
  simp only [failedAttempts, List.mem_flatMap] at h
  obtain ⟨i, _, hi⟩ := h
  rcases List.mem_cons.1 hi with h | hi
  · exact h1 _ h
  · exact h2 (by simpa using hi)

/-- Discovery is asked exactly when the name resolves within eleven attempts, and then for the seed itself. -/
theorem C79_asks_iff (resolves : Nat → Bool) (found : Bool) (w : WorkerCfg) (seed : String)
    (hw : w.seed = some seed) (s : String) :
    .discover s ∈ w.start resolves (some found) ↔ s = seed ∧ ∃ k, 1 ≤ k ∧ k ≤ 11 ∧ resolves k = true := by
  rcases exists_first resolves 11 with ⟨k, h1, h2, h3, h4⟩ | h
  · rw [C79_joins resolves found w seed hw k ⟨h1, h3, h4⟩ h2]
    have hn := not_mem_failedAttempts 1 (k - 1) (.discover s) (by simp) (by simp)
    simp only [List.mem_append, List.mem_cons, hn]
    simp only [reduceCtorEq, WEvent.discover.injEq, false_or, or_false, List.not_mem_nil]
    exact ⟨fun h => ⟨h, k, h1, h2, h3⟩, fun h => h.1⟩
  · rw [C79_gives_up resolves _ w seed hw h]
    have hn := not_mem_failedAttempts 1 11 (.discover s) (by simp) (by simp)
    simp only [List.mem_append, List.mem_cons, hn]
    simp only [reduceCtorEq, or_false, List.not_mem_nil, false_iff]
    rintro ⟨_, k, h1, h2, h3⟩
    rw [h k h1 h2] at h3; exact absurd h3 (by simp)

/-- The address under which a worker announces itself is the external one when there is one. -/
theorem C79_address (resolves : Nat → Bool) (answer : Option Bool) (w : WorkerCfg) :
    (w.start resolves answer).head? = some (.register (match w.external with | some a => a | none => w.listen)) := by
  have : w.nodeAddr = (match w.external with | some a => a | none => w.listen) := by
    unfold WorkerCfg.nodeAddr; cases w.external <;> rfl
  rw [← this]
  unfold WorkerCfg.start
  cases w.seed with
  | none => rfl
  | some s => simp

/-- Refuted: a worker whose seed is its own address does not look for itself. It asks discovery for its own address
just as for any other. -/
theorem C79_self_seed_refuted (found : Bool) (w : WorkerCfg) (hw : w.seed = some w.nodeAddr) :
    .discover w.nodeAddr ∈ w.start (fun _ => true) (some found) :=
  (C79_asks_iff _ found w _ hw _).2 ⟨rfl, 1, by omega, by omega, rfl⟩

/-- Refuted: the caller of `start` learns whether the cluster was joined. It gets the server in all three cases: found,
not found, given up. -/
theorem C79_silent_refuted (w : WorkerCfg) (seed : String) (hw : w.seed = some seed) :
    startReturns (w.start (fun _ => true) (some true)) = true ∧
    startReturns (w.start (fun _ => true) (some false)) = true ∧
    startReturns (w.start (fun _ => false) (some true)) = true := by
  have h : ∀ b, startReturns (w.start (fun _ => true) (some b)) = true := by
    intro b
    rw [C79_joins _ b w seed hw 1 ⟨by omega, rfl, fun j h1 h2 => by omega⟩ (by omega)]
    rfl
  refine ⟨h _, h _, ?_⟩
  rw [C79_gives_up _ _ w seed hw (fun _ _ _ => rfl)]
  rfl

/-- When the discovery actor dies without answering, starting panics. -/
theorem C79_no_answer_panics (w : WorkerCfg) (seed : String) (hw : w.seed = some seed) :
    startReturns (w.start (fun _ => true) none) = false := by
  have hr := resolveLoop_success (fun _ => true) 0 1 (by omega) (fun j hj => by omega) rfl
  rw [start_seed _ _ w seed hw]
  unfold discoverPeersOf
  rw [hr]
  rfl

/-! ## Examples -/

/-- the name resolves at the third attempt. -/
example : FirstSuccess (fun k => k == 3) 3 := ⟨by omega, rfl, fun j h1 h2 => by simp; omega⟩

example : ({ listen := "0.0.0.0:1", external := some "a:1", seed := some "b:1" } : WorkerCfg).start
    (fun k => k == 2) (some true) =
    [.register "a:1", .serve "0.0.0.0:1" "a:1", .resolve 1, .sleep, .resolve 2, .discover "b:1", .answered true] := by
  decide +kernel

end Verif.Remote
