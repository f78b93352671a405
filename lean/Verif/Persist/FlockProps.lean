import Verif.Persist.FlockLemmas

/-! Property theorems C122 (copies of a persistent actor on a shared Redis that fails). -/

namespace Verif.Persist.Flock

open Verif.Persist.Shared (Method Ans Before)

variable {ε σ : Type} {A : App ε σ} {key : String → String → String} {pid : String}

theorem asked_append (ops ops' : List (Op ε)) : asked (ops ++ ops') = asked ops ++ asked ops' := by simp [asked]

/-- **C122**: Copies of a persistent actor, on any nodes, all on one Redis, with calls that get lost, fail after having
taken effect, take effect long after their caller has ended, nodes that crash, and others on the same Redis. A copy that
was not running at some time and runs later has applied a list of events in which is every event that had by that time
been reported as persisted to any copy, and every event ever reported to this copy itself; in which is nothing nobody asked
for; and nothing more often than it was asked for, however often its writing was tried. -/
theorem C122_known [DecidableEq ε] (hk : key pid "journal" ≠ key pid "snapshot") (st : RedisStore)
    (hs1 : st (key pid "journal") = []) (hs2 : st (key pid "snapshot") = []) (pre post : List (Op ε))
    (hA : Readable A (asked (pre ++ post))) (ho : Apart (keysOf key pid) (pre ++ post)) (c : Nat)
    (hoff : ((World.init st).run A key pid pre).Off c) (s : σ)
    (hup : ((World.init st).run A key pid (pre ++ post)).Runs c s) :
    ∃ l : List ε, s = l.foldl A.app A.init ∧
      (∀ e, ((World.init st).run A key pid pre).Acked e → e ∈ l) ∧
      (∀ e, (c, e) ∈ ((World.init st).run A key pid (pre ++ post)).acked → e ∈ l) ∧
      (∀ e ∈ l, e ∈ asked (pre ++ post)) ∧ ∀ e, l.count e ≤ (asked (pre ++ post)).count e := by
  rw [asked_append] at hA
  obtain ⟨W, I⟩ := (Inv.init (A := A) (key := key) (pid := pid) st).steps hk hs1 hs2 (fun _ _ h => h.elim) pre
    (fun e he => hA e (List.mem_append_left _ (by simpa using he)))
    (fun n r h => ho n r (List.mem_append_left _ h))
  have hsub := taken_asked (A := A) (key := key) (pid := pid) pre (World.init st)
  rw [run_append] at hup ⊢
  generalize (World.init st).run A key pid pre = w at *
  rw [List.nil_append] at I
  generalize taken A key pid (World.init st) pre = B at *
  have I2 : Inv A key pid st (fun d e => d = c ∧ w.Acked e) B W w :=
    ⟨I.run, I.made, I.nonneg, I.fine, I.wanted, I.safe, fun d e h => (h.2.elim fun d' h' => I.safe d' e h'), fun d => by
      by_cases hd : d = c
      · subst hd
        rw [show (w.copies d).2 = .off from hoff]
        trivial
      · have := (I.good d).mono A key pid (List.Sublist.refl _)
          (T' := fun e => (d = c ∧ w.Acked e) ∨ (d, e) ∈ w.acked) (fun e he => by
            rcases he with he | he
            · exact absurd he.1 hd
            · exact .inr he) []
        rwa [List.append_nil] at this⟩
  obtain ⟨W', I3⟩ := I2.steps hk hs1 hs2 (fun d e h => by
      obtain ⟨d', h'⟩ := h.2
      exact (hA e (List.mem_append_left _ (hsub.subset (I.wanted d' e h')))).1) post
    (fun e he => hA e (by
      rcases List.mem_append.mp he with he | he
      · exact List.mem_append_left _ (hsub.subset he)
      · exact List.mem_append_right _ he))
    (fun n r h => ho n r (List.mem_append_right _ h))
  have hsub' : (B ++ taken A key pid w post).Sublist (asked pre ++ asked post) := hsub.append (taken_asked post w)
  obtain ⟨j, hj⟩ := hup
  have g := I3.good c
  rw [hj] at g
  obtain ⟨_, l, l1, l2, l3, l4⟩ := g
  simp only [List.append_nil] at l2 l3
  refine ⟨l, l1, fun e he => l4 e (.inl ⟨rfl, he⟩), fun e he => l4 e (.inr he), ?_, fun e => ?_⟩
  · rw [asked_append]
    exact fun e he => hsub'.subset (l2 e he)
  · rw [asked_append]
    by_cases hm : e ∈ l
    · have hdec := (hA e (hsub'.subset (l2 e hm))).1
      refine Nat.le_trans List.count_le_count_map (Nat.le_trans (l3 (A.enc e)) (Nat.le_trans
        ((hsub'.map A.enc).count_le _) ?_))
      rw [List.count_eq_countP, List.count_eq_countP, List.countP_map]
      refine List.countP_mono_left fun y hy h => ?_
      have h' : A.enc y = A.enc e := by simpa using h
      have := (hA y hy).1
      rw [h', hdec] at this
      simpa using (Option.some.inj this).symm
    · rw [List.count_eq_zero.mpr hm]
      omega

/-- **C122**: Nothing is reported as persisted that nobody asked for. -/
theorem C122_asked (hk : key pid "journal" ≠ key pid "snapshot") (st : RedisStore)
    (hs1 : st (key pid "journal") = []) (hs2 : st (key pid "snapshot") = []) (ops : List (Op ε))
    (hA : Readable A (asked ops)) (ho : Apart (keysOf key pid) ops) (e : ε)
    (h : ((World.init st).run A key pid ops).Acked e) : e ∈ asked ops := by
  obtain ⟨W, I⟩ := (Inv.init (A := A) (key := key) (pid := pid) st).steps hk hs1 hs2 (fun _ _ h => h.elim) ops
    (fun e he => hA e (by simpa using he)) ho
  obtain ⟨c, hc⟩ := h
  exact (taken_asked ops (World.init st)).subset (by simpa using I.wanted c e hc)

/-- **C122**: Whatever happened before: on a node whose journal actor runs, has nothing in its mailbox and is not deleting,
a copy that does not run can be started, and when its two calls are answered it runs with all that was ever reported as
persisted. -/
theorem C122_starts [DecidableEq ε] (hk : key pid "journal" ≠ key pid "snapshot") (st : RedisStore)
    (hs1 : st (key pid "journal") = []) (hs2 : st (key pid "snapshot") = []) (ops : List (Op ε))
    (hA : Readable A (asked ops)) (ho : Apart (keysOf key pid) ops) (c n : Nat)
    (hoff : ((World.init st).run A key pid ops).Off c) (hn : n ∉ ((World.init st).run A key pid ops).sys.down)
    (hq : ∀ j ∈ ((World.init st).run A key pid ops).sys.queue, j.node ≠ n)
    (ht : ∀ j ∈ ((World.init st).run A key pid ops).sys.tasks, j.node = n → ∀ ks, j.req ≠ .delete ks) :
    ∃ l : List ε, ((World.init st).run A key pid
        (ops ++ bringUp c n ((World.init st).run A key pid ops).sys.next)).Runs c (l.foldl A.app A.init) ∧
      (∀ e, ((World.init st).run A key pid ops).Acked e → e ∈ l) ∧ (∀ e ∈ l, e ∈ asked ops) ∧
      ∀ e, l.count e ≤ (asked ops).count e := by
  obtain ⟨W, I⟩ := (Inv.init (A := A) (key := key) (pid := pid) st).steps hk hs1 hs2 (fun _ _ h => h.elim) ops
    (fun e he => hA e (by simpa using he)) ho
  obtain ⟨s, hs⟩ := brought_up hk I hs1 hs2 (fun e he => hA e ((taken_asked ops (World.init st)).subset (by simpa using he)))
    (fun _ _ h => h.elim) hoff ⟨hn, hq, ht⟩
  rw [← run_append] at hs
  have hap : Apart (keysOf key pid)
      (ops ++ bringUp c n ((World.init st).run A key pid ops).sys.next) := by
    intro m r h
    rcases List.mem_append.mp h with h | h
    · exact ho m r h
    · exact apart_bringUp _ c n _ m r h
  obtain ⟨l, h1, h2, _, h4, h5⟩ := C122_known (A := A) hk st hs1 hs2 ops
    (bringUp c n ((World.init st).run A key pid ops).sys.next)
    (by rw [asked_append, asked_bringUp, List.append_nil]; exact hA) hap c hoff s hs
  rw [asked_append, asked_bringUp, List.append_nil] at h4 h5
  exact ⟨l, h1 ▸ hs, h2, h4, h5⟩

/-- **C122**: With the keys the Redis provider makes, the two keys of an actor are different, and persistent actors with
other ids keep away from them. -/
theorem C122_keys (hashtags : Bool) (pre pid : String) :
    redisKey hashtags pre pid "journal" ≠ redisKey hashtags pre pid "snapshot" ∧
    ∀ ops : List (Op ε), (∀ n r, Op.sys (.call n r) ∈ ops → ∃ (m : Method) (pid' : String), pid' ≠ pid ∧
      r = m.req (redisKey hashtags pre) pid') → Apart (keysOf (redisKey hashtags pre) pid) ops := by
  constructor
  · intro h
    have := (redisKey_ok hashtags pre _ _ _ _ h (.inl rfl) (.inr rfl)).2
    simp at this
  · intro ops h n r hr k hk
    obtain ⟨m, pid', hp, rfl⟩ := h n r hr
    exact (Client.C117_keys hashtags pre pid pid' m).2.2 hp k hk

/-- **C122**: When a node crashes its copies do not run any more, and nothing else becomes of any copy. Of what was reported
nothing is taken back. -/
theorem C122_crash (w : World ε σ) (n c : Nat) :
    let w' := w.step A key pid (.sys (.crash n))
    ((w.copies c).1 = n → w'.Off c) ∧ ((w.copies c).1 ≠ n → w'.copies c = w.copies c) ∧ w'.acked = w.acked := by
  refine ⟨fun h => ?_, fun h => ?_, rfl⟩ <;> simp [World.step, World.redis, World.Off, h]

/-- **C122**: Whatever else happens on Redis, or to a node that does not crash, is not noticed by any copy until it hears what
came of its call; and what one copy does is nothing to the others. -/
theorem C122_apart (w : World ε σ) (c d : Nat) (hd : d ≠ c) :
    (∀ o : Shared.Op, (∀ n, o ≠ .crash n) → (w.step A key pid (.sys o)).copies c = w.copies c) ∧
    ∀ o : Op ε, (o = .hear d ∨ o = .ends d ∨ (∃ n, o = .start d n) ∨ ∃ x, o = .work d x) →
      (w.step A key pid o).copies c = w.copies c := by
  have hc : c ≠ d := fun h => hd h.symm
  have hcall : ∀ n m p, (w.call key pid d n m p).copies c = w.copies c := by
    intro n m p; simp [World.call, World.redis, World.put, hc]
  refine ⟨fun o h => ?_, ?_⟩
  · cases o <;> first | rfl | exact absurd rfl (h _)
  · rintro o (rfl | rfl | ⟨n, rfl⟩ | ⟨x, rfl⟩)
    · simp only [World.step, World.hear]
      split
      · rfl
      · split
        · rfl
        · rename_i r _
          show (w.go key pid d _ _).copies c = _
          generalize ((w.copies d).2.resume A pid r).1 = x
          cases x with
          | stay p => simp [World.go, World.put, hc]
          | call m p => exact hcall _ _ _
    · simp [World.step, World.put, hc]
    · simp only [World.step, World.start]
      split
      · exact hcall _ _ _
      · rfl
    · simp only [World.step, World.work]
      split
      · split
        · rfl
        · exact hcall _ _ _
      · rfl

/-- **C122**: For a batch without events nothing is called and nothing is waited for. -/
theorem C122_empty (w : World ε σ) (c : Nat) : w.step A key pid (.work c (.events [])) = w := by
  simp only [World.step, World.work, Work.list, List.isEmpty_nil, if_true]
  split <;> rfl

theorem runs_iff (w : World ε σ) (c : Nat) (s : σ) : w.Runs c s ↔ w.state c = some s := by
  unfold World.Runs World.state
  split
  · rename_i h; simp [h]
  · rename_i h
    constructor
    · rintro ⟨j, hj⟩; exact absurd hj (h j s)
    · intro h; cases h

/-! ## Cases and refutations -/

example : Apart (keysOf (redisKey true "app:") "c")
    [Op.work 0 (.event 3), .sys (.call 1 (Method.deleteAll.req (redisKey true "app:") "d"))] :=
  (C122_keys true "app:" "c").2 _ fun n r h => by
    simp only [List.mem_cons, List.not_mem_nil, or_false, reduceCtorEq, false_or, Op.sys.injEq, Shared.Op.call.injEq] at h
    exact ⟨.deleteAll, "d", by decide, h.2⟩

/-- the counter, stored under the id `c`. -/
def flock (A : App Nat Nat) (ops : List (Op Nat)) : World Nat Nat :=
  (World.init fun _ => []).run A (redisKey false "") "c" ops

/-- a copy on node 0 writes two events; the first attempt fails after it took effect, the second succeeds; the node
crashes. Meanwhile somebody else writes and deletes on the same Redis. -/
def troubledDay : List (Op Nat) :=
  bringUp 0 0 0 ++ [.work 0 (.events [3, 4]), .sys (.call 1 (.write "x:journal" ⟨0, "add", [0]⟩)), .sys (.handle 0),
    .sys (.exec 2), .sys (.fail 2), .hear 0, .sys (.call 1 (.delete ["x:journal"])), .sys (.handle 0), .sys (.exec 4),
    .sys (.deliver 4), .hear 0, .sys (.crash 0)]

theorem apart_small (K : List String) (ops : List (Op Nat)) (h : (ops.all fun
    | .sys (.call _ r) => r.keys.all fun k => !K.contains k
    | _ => true) = true) : Apart K ops := by
  intro n r hr k hk hK
  have h1 := List.all_eq_true.mp h _ hr
  have h2 := List.all_eq_true.mp h1 k hk
  simp [hK] at h2

theorem counter_readable (l : List Nat) : Readable counter l := fun e _ => ⟨counter_lawful.dec e, counter_lawful.knownE e⟩

/-- what an earlier version of the counter left: three events, and a snapshot of type `t` before the third. -/
def leftBehind (t : String) : RedisStore := fun k =>
  if k = redisKey false "" "c" "journal" then [⟨1, "add", [0]⟩, ⟨2, "add", [0, 0]⟩, ⟨4, "add", [0, 0, 0, 0]⟩]
  else if k = redisKey false "" "c" "snapshot" then [⟨3, t, List.replicate 10 0⟩] else []

/-- **C122**: A copy starts from the snapshot that is there and applies the events after it. A snapshot of a type that it does
not know it passes over, but it then still reads only the events after it: the others are missing. -/
theorem C122_left_behind :
    ((World.init (leftBehind "total")).run counter (redisKey false "") "c" (bringUp 0 0 0)).state 0 = some 14 ∧
    ((World.init (leftBehind "old")).run counter (redisKey false "") "c" (bringUp 0 0 0)).state 0 = some 4 := by
  decide +kernel

/-- **C122**: A copy goes on only once its call was answered or has failed. -/
theorem C122_waits {ε σ : Type} (A : App ε σ) (key : String → String → String) (pid : String) (w : World ε σ) (c : Nat)
    (h : ∀ i, (w.copies c).2.waits = some i → (∀ a, Shared.Ev.answered i a ∉ w.hist) ∧ Shared.Ev.failed i ∉ w.hist) :
    w.step A key pid (.hear c) = w := by
  have none_of : ∀ (i : Nat) (l : List Shared.Ev), (∀ a, Shared.Ev.answered i a ∉ l) → Shared.Ev.failed i ∉ l →
      outcomeOf i l = none := by
    intro i l
    induction l with
    | nil => intros; rfl
    | cons e l ih =>
      intro ha hf
      have := ih (fun a hm => ha a (List.mem_cons_of_mem _ hm)) (fun hm => hf (List.mem_cons_of_mem _ hm))
      cases e with
      | answered j a =>
        by_cases hj : j = i
        · subst hj; exact absurd List.mem_cons_self (ha a)
        · simpa [outcomeOf, hj] using this
      | failed j =>
        by_cases hj : j = i
        · subst hj; exact absurd List.mem_cons_self hf
        · simpa [outcomeOf, hj] using this
      | _ => simpa [outcomeOf] using this
  simp only [World.step, World.hear]
  cases hw : (w.copies c).2.waits with
  | none => rfl
  | some i => simp only [none_of i w.hist (h i hw).1 (h i hw).2]

/-- `C122_waits`: a copy that was started waits for the snapshot, and hears nothing before Redis has answered. -/
example : ((flock counter [.start 0 0]).copies 0).2.waits = some 0 ∧
    (flock counter [.start 0 0]).hist.all (fun e => match e with | .answered _ _ | .failed _ => false | _ => true) = true ∧
    ((flock counter [.start 0 0, .hear 0]).copies 0).2.waits = some 0 := by
  refine ⟨?_, ?_, ?_⟩ <;> decide +kernel

/-- `C122_crash`, `C122_apart`: copy 0 is on the node that crashes, copy 1 is not. -/
example : (flock counter (bringUp 0 0 0 ++ bringUp 1 2 2)).state 0 = some 0 ∧
    (flock counter (bringUp 0 0 0 ++ bringUp 1 2 2 ++ [.sys (.crash 0)])).state 0 = none ∧
    (flock counter (bringUp 0 0 0 ++ bringUp 1 2 2 ++ [.sys (.crash 0)])).state 1 = some 0 := by
  decide +kernel

/-- `C122_known` speaks of such days: a copy on another node has the two events, once. -/
example : (flock counter troubledDay).acked = [(0, 3), (0, 4)] ∧
    (flock counter (troubledDay ++ bringUp 1 2 6)).state 1 = some 7 := by
  constructor <;> decide +kernel

example : ∃ l : List Nat, 7 = l.foldl (· + ·) 0 ∧ 3 ∈ l ∧ 4 ∈ l ∧ l.count 3 ≤ 1 := by
  obtain ⟨l, h1, h2, _, _, h5⟩ := C122_known (A := counter) (C122_keys (ε := Nat) false "" "c").1 (fun _ => []) rfl rfl
    troubledDay (bringUp 1 2 6) (counter_readable _) (apart_small _ _ (by decide +kernel)) 1 rfl 7
    ((runs_iff _ _ _).mpr (by decide +kernel))
  exact ⟨l, h1, h2 3 ⟨0, by decide +kernel⟩, h2 4 ⟨0, by decide +kernel⟩, h5 3⟩

example : 3 ∈ asked troubledDay := C122_asked (A := counter) (C122_keys (ε := Nat) false "" "c").1 (fun _ => []) rfl rfl
  troubledDay (counter_readable _) (apart_small _ _ (by decide +kernel)) 3 ⟨0, by decide +kernel⟩

example : ∃ l : List Nat, (flock counter (troubledDay ++ bringUp 1 2 (flock counter troubledDay).sys.next)).Runs 1
    (l.foldl (· + ·) 0) ∧ 3 ∈ l := by
  obtain ⟨l, h1, h2, _⟩ := C122_starts (A := counter) (C122_keys (ε := Nat) false "" "c").1 (fun _ => []) rfl rfl
    troubledDay (counter_readable _) (apart_small _ _ (by decide +kernel)) 1 2 rfl (by decide +kernel) (by decide +kernel)
    (by
      have h : ((World.init fun _ => []).run counter (redisKey false "") "c" troubledDay).sys.tasks = [] := by
        decide +kernel
      rw [h]
      simp)
  exact ⟨l, h1, h2 3 ⟨0, by decide +kernel⟩⟩

/-- A write of a node that crashed can take effect when copies on other nodes already run: of two copies started after the
crash, one after the other, with nothing asked for and nothing reported in between, the first does not know the event and
the second does. -/
theorem C122_late_refuted : ∃ pre mid post : List (Op Nat), asked mid = [] ∧ asked post = [] ∧
    (flock counter (pre ++ mid)).acked = [] ∧ (flock counter (pre ++ mid ++ post)).acked = [] ∧
    (flock counter pre).sys.down = [0] ∧ (flock counter (pre ++ mid)).state 1 = some 0 ∧
    (flock counter (pre ++ mid ++ post)).state 1 = some 0 ∧ (flock counter (pre ++ mid ++ post)).state 2 = some 3 :=
  ⟨bringUp 0 0 0 ++ [.work 0 (.events [3]), .sys (.handle 0), .sys (.crash 0)], bringUp 1 1 3,
    [.sys (.exec 2)] ++ bringUp 2 2 5, rfl, rfl, by decide +kernel, by decide +kernel, by decide +kernel, by decide +kernel,
    by decide +kernel, by decide +kernel⟩

/-- one event asked of a copy, written and reported, call `i` being the next. -/
def persists (c n i e : Nat) : List (Op Nat) := [.work c (.event e)] ++ (served n i).map .sys ++ [.hear c]

/-- Copies that run do not hear of each other's events, though all is reported and nothing fails. -/
theorem C122_disagree_refuted : ∃ ops : List (Op Nat), (flock counter ops).acked = [(0, 3), (1, 5)] ∧
    (flock counter ops).state 0 = some 3 ∧ (flock counter ops).state 1 = some 5 ∧
    (flock counter (ops ++ bringUp 2 2 6)).state 2 = some 8 :=
  ⟨bringUp 0 0 0 ++ bringUp 1 1 2 ++ persists 0 0 4 3 ++ persists 1 1 5 5, by decide +kernel, by decide +kernel,
    by decide +kernel, by decide +kernel⟩

/-- The same event reported to two copies is stored once. -/
theorem C122_once_refuted : ∃ ops : List (Op Nat), (flock counter ops).acked = [(0, 3), (1, 3)] ∧
    (flock counter (ops ++ bringUp 2 2 6)).state 2 = some 3 :=
  ⟨bringUp 0 0 0 ++ bringUp 1 1 2 ++ persists 0 0 4 3 ++ persists 1 1 5 3, by decide +kernel, by decide +kernel⟩

/-- an actor that keeps the last event. -/
def register : App Nat Nat := { counter with app := fun _ n => n }

/-- Events are not applied in the order in which they were reported: the last one reported, asked for when all others had
been, comes before another for every copy started later. -/
theorem C122_order_refuted : ∃ ops : List (Op Nat), (flock register ops).acked = [(0, 5), (0, 6), (1, 7)] ∧
    (flock register (ops ++ bringUp 2 2 7)).state 2 = some 6 :=
  ⟨bringUp 0 0 0 ++ bringUp 1 1 2 ++ persists 0 0 4 5 ++ persists 0 0 5 6 ++ persists 1 1 6 7, by decide +kernel,
    by decide +kernel⟩

end Verif.Persist.Flock
