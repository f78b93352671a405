import Verif.Sharding.DurableModel
import Verif.Sharding.EntityProps
import Verif.Persist.CopiesProps
import Verif.Persist.RedisActorProps

/-!
# C93: a persistent entity keeps what was acknowledged, wherever its shard runs

The claim in full: at any time the state of a running instance of a persistent entity is what all events acknowledged so
far, to this instance and to those before it, on whatever node, make of the initial state.
-/

namespace Verif.Sharding
open Verif.Persist Verif.Persist.Copies

variable {R ε : Type}

/-! ## Words of the claim -/

/-- the commands an instance of the entity has carried out. -/
def Durable.done (w : Durable R ε) : List (Cmd ε) := w.log.flatMap Op.cmds

/-- the events acknowledged so far, in order. -/
def Durable.acked (w : Durable R ε) : List ε := w.done.flatMap Cmd.acked

def Durable.Careful (s : Nat) (f : R → Nat) (e : Nat) (σ : Durable R ε) : DurOp R ε → Prop
  | .mov op => σ.mov.Careful s f e op
  | _ => True

/-- a run that is orderly in the sense of C51 and C91. -/
def Durable.CarefulRun (s : Nat) (f : R → Nat) (e : Nat) : Durable R ε → List (DurOp R ε) → Prop
  | _, [] => True
  | σ, op :: ops => σ.Careful s f e op ∧ (σ.step s f e op).CarefulRun s f e ops

/-! ## Lemmas -/

theorem pairNo_inj {a b a' b' : Nat} (h : pairNo a b = pairNo a' b') : a = a' ∧ b = b' := by
  unfold pairNo at h
  induction a generalizing a' with
  | zero =>
    cases a' with
    | zero => exact ⟨rfl, by omega⟩
    | succ a' =>
      rw [Nat.pow_succ] at h
      have : 2 ^ a' * 2 * (2 * b' + 1) = 2 * (2 ^ a' * (2 * b' + 1)) := by ac_rfl
      omega
  | succ a ih =>
    cases a' with
    | zero =>
      rw [Nat.pow_succ] at h
      have : 2 ^ a * 2 * (2 * b + 1) = 2 * (2 ^ a * (2 * b + 1)) := by ac_rfl
      omega
    | succ a' =>
      rw [Nat.pow_succ, Nat.pow_succ] at h
      have h1 : 2 ^ a * 2 * (2 * b + 1) = 2 * (2 ^ a * (2 * b + 1)) := by ac_rfl
      have h2 : 2 ^ a' * 2 * (2 * b' + 1) = 2 * (2 ^ a' * (2 * b' + 1)) := by ac_rfl
      obtain ⟨e1, e2⟩ := ih (a' := a') (by omega)
      exact ⟨by rw [e1], e2⟩

theorem copyNo_inj {d a i d' a' i' : Nat} (h : copyNo d a i = copyNo d' a' i') : d = d' ∧ a = a' ∧ i = i' := by
  obtain ⟨h1, h2⟩ := pairNo_inj h
  exact ⟨h1, pairNo_inj h2⟩

theorem pending_iff {l : Life} {e i : Nat} :
    l.pending e i = true ↔ ∃ t ∈ l.shard.starting, t.e = e ∧ t.i = i ∧ t ∉ l.done := by
  simp [Life.pending]

def Life.Present (l : Life) (e i : Nat) : Prop := (e, i) ∈ l.live ∨ l.pending e i = true

theorem present_iff {l : Life} {e i : Nat} : l.present e i = true ↔ l.Present e i := by
  simp [Life.present, Life.Present]

theorem Life.Sound.present_unique {l : Life} {e : Nat} (h : l.Sound e) {i i' : Nat} (h1 : l.Present e i)
    (h2 : l.Present e i') : i = i' := by
  rcases h1 with h1 | h1 <;> rcases h2 with h2 | h2
  · exact h.unique h1 h2
  · obtain ⟨t, ht, he, hi, hd⟩ := pending_iff.1 h2
    rcases h.live i h1 with ⟨u, a, b, c, rfl⟩ | ⟨a, _⟩
    · exact absurd (calm_task_unique h.calm ht a he c ▸ b) hd
    · exact (calm_created_still h.calm a ht he).elim
  · obtain ⟨t, ht, he, hi, hd⟩ := pending_iff.1 h1
    rcases h.live i' h2 with ⟨u, a, b, c, rfl⟩ | ⟨a, _⟩
    · exact absurd (calm_task_unique h.calm ht a he c ▸ b) hd
    · exact (calm_created_still h.calm a ht he).elim
  · obtain ⟨t, ht, he, hi, _⟩ := pending_iff.1 h1
    obtain ⟨u, hu, he', hi', _⟩ := pending_iff.1 h2
    rw [← hi, ← hi', calm_task_unique h.calm ht hu he he']

theorem Life.Present.not_drained {l : Life} {e i : Nat} (h : l.Present e i) : ¬ l.Drained := by
  rintro ⟨h1, h2⟩
  rcases h with h | h
  · rw [h1] at h; cases h
  · obtain ⟨t, ht, _, _, hd⟩ := pending_iff.1 h
    exact hd (h2 t ht)

theorem Moving.Good.present_unique {s e : Nat} {σ : Moving R} (h : σ.Good s e) {d a i d' a' i' : Nat}
    (h1 : (σ.life d a).Present e i) (h2 : (σ.life d' a').Present e i') : d = d' ∧ a = a' ∧ i = i' := by
  obtain ⟨d₀, a₀, hal⟩ := h.alone
  have key : ∀ d a i, (σ.life d a).Present e i → (d, a) = (d₀, a₀) := by
    intro d a i hp
    by_cases hx : (d, a) = (d₀, a₀)
    · exact hx
    · exact absurd (hal d a hx).1 hp.not_drained
  have k1 := key d a i h1
  have k2 := key d' a' i' h2
  simp only [Prod.mk.injEq] at k1 k2
  obtain ⟨rfl, rfl⟩ := k1
  obtain ⟨rfl, rfl⟩ := k2
  exact ⟨rfl, rfl, (h.sound _ _).present_unique h1 h2⟩

/-- no operation but `comesUp` makes anything running. -/
theorem Life.live_step {l : Life} {op : LifeOp} {e i : Nat} (h : (e, i) ∈ (l.step op).live) :
    (e, i) ∈ l.live ∨ (op.up? e = some i ∧ l.pending e i = true) := by
  cases op with
  | comesUp t =>
    simp only [Life.step, Life.comesUp] at h
    split at h
    · rename_i hc
      rcases List.mem_append.1 h with h | h
      · exact .inl h
      · simp at h
        refine .inr ⟨?_, pending_iff.2 ⟨t, hc.1, h.1.symm, h.2.symm, hc.2⟩⟩
        simp [LifeOp.up?, h.1, h.2]
    · exact .inl h
  | take =>
    left
    simp only [Life.step, Life.take] at h
    split at h
    · cases hq : l.mail with
      | nil => rw [hq] at h; exact h
      | cons m q => rw [hq] at h; cases m <;> exact h
    · exact h
  | dies e' i' =>
    left
    simp only [Life.step, Life.dies] at h
    split at h
    · exact (List.mem_filter.1 h).1
    · exact h
  | ends e' i' =>
    left
    simp only [Life.step, Life.ends, Life.dies] at h
    split at h
    · split at h
      · exact (List.mem_filter.1 h).1
      · exact h
    · exact h
  | request r ok => left; simp only [Life.step, Life.shardStep] at h; split at h <;> exact h
  | start e' c ok => left; simp only [Life.step, Life.shardStep] at h; split at h <;> exact h
  | snapshot => left; simp only [Life.step, Life.shardStep] at h; split at h <;> exact h
  | fails t => left; simp only [Life.step, Life.fails] at h; split at h <;> exact h
  | sweep => left; simp only [Life.step, Life.sweep] at h; split at h <;> exact h

theorem Life.follow_live (s : Nat) (w w' : Sys R) (j : List JEntry) (d a : Nat) (l : Life) {p : Nat × Nat}
    (h : p ∈ (l.follow s w w' j d a).live) : p ∈ l.live := by
  unfold Life.follow at h
  split at h
  · simp [Life.boot] at h
  · unfold Life.stop at h; split at h <;> exact h
  · exact h

theorem inTurn_nil : InTurn ([] : List (Op ε)) := by
  intro pre c cmd post h
  simp at h

theorem inTurn_snoc {log : List (Op ε)} (h : InTurn log) (c : Nat) (cmd : Cmd ε)
    (hc : writes cmd = true → holder log = some c) : InTurn (log ++ [.act c cmd]) := by
  intro pre c' cmd' post hp hn
  rcases List.eq_nil_or_concat post with rfl | ⟨post', x, rfl⟩
  · have := List.append_inj' hp (by rfl)
    obtain ⟨rfl, h2⟩ := this
    simp only [List.cons.injEq, Op.act.injEq, and_true] at h2
    obtain ⟨rfl, rfl⟩ := h2
    apply hc
    cases cmd with
    | crash n => exact absurd rfl (hn n)
    | _ => rfl
  · have : log ++ [.act c cmd] = (pre ++ .act c' cmd' :: post') ++ [x] := by rw [hp]; simp
    have := List.append_inj' this (by rfl)
    exact h pre c' cmd' post' this.1 hn

/-- the copies take turns, and the instance that is running, or has read the journal, is the one whose turn it is. -/
structure Durable.Kept (s e : Nat) (w : Durable R ε) : Prop where
  good : w.mov.Good s e
  here : ∀ d a i, (d, a, i) ∈ w.reads → (w.mov.life d a).Present e i
  held : ∀ d a i, (d, a, i) ∈ w.reads → holder w.log = some (copyNo d a i)
  ready : ∀ d a i, (e, i) ∈ (w.mov.life d a).live → (d, a, i) ∈ w.reads
  turn : InTurn w.log

theorem Durable.kept_start (s e self : Nat) (nodes : List (Nat × Bool)) (journal : List Nat) :
    (Durable.start self nodes journal : Durable R ε).Kept s e where
  good := Moving.good_start s e self nodes journal
  here := by simp [Durable.start]
  held := by simp [Durable.start]
  ready := by simp [Durable.start, Moving.start]
  turn := inTurn_nil

theorem Durable.kept_step {s e : Nat} {f : R → Nat} {w : Durable R ε} (h : w.Kept s e) (op : DurOp R ε)
    (ho : w.Careful s f e op) : (w.step s f e op).Kept s e := by
  cases op with
  | mov op =>
    unfold Durable.step
    dsimp only
    split
    · rename_i hal
      exact {
        good := Moving.good_step h.good op ho
        here := by
          intro d a i hm
          exact present_iff.1 (List.mem_filter.1 hm).2
        held := by
          intro d a i hm
          exact h.held d a i (List.mem_filter.1 hm).1
        ready := by
          intro d a i hl
          refine List.mem_filter.2 ⟨?_, present_iff.2 (.inl hl)⟩
          cases op with
          | sys op => exact h.ready d a i (Life.follow_live s _ _ _ _ _ _ hl)
          | ent d' a' op =>
            simp only [Moving.step] at hl
            split at hl
            · rename_i hx
              obtain ⟨rfl, rfl⟩ := hx
              rcases Life.live_step hl with hl | ⟨hu, _⟩
              · exact h.ready d a i hl
              · simp only [Durable.allows, hu, decide_eq_true_eq] at hal
                exact hal
            · exact h.ready d a i hl
        turn := h.turn }
    · exact h
  | read d a i n =>
    unfold Durable.step
    dsimp only
    split
    · rename_i hc
      exact {
        good := h.good
        here := by
          intro d' a' i' hm
          rcases List.mem_cons.1 hm with hm | hm
          · simp only [Prod.mk.injEq] at hm
            obtain ⟨rfl, rfl, rfl⟩ := hm
            exact .inr hc.1
          · exact h.here d' a' i' hm
        held := by
          intro d' a' i' hm
          show holder (w.log ++ [_]) = _
          rw [holder_snoc]
          rcases List.mem_cons.1 hm with hm | hm
          · simp only [Prod.mk.injEq] at hm
            obtain ⟨rfl, rfl, rfl⟩ := hm
            rfl
          · obtain ⟨rfl, rfl, rfl⟩ := h.good.present_unique (.inr hc.1) (h.here d' a' i' hm)
            rfl
        ready := fun d' a' i' hl => List.mem_cons_of_mem _ (h.ready d' a' i' hl)
        turn := inTurn_snoc h.turn _ _ fun hw => by simp [writes] at hw }
    · exact h
  | use d a i cmd =>
    unfold Durable.step
    dsimp only
    split
    · rename_i hc
      exact {
        good := h.good
        here := h.here
        held := by
          intro d' a' i' hm
          show holder (w.log ++ [_]) = _
          rw [holder_snoc, h.held d' a' i' hm]
          cases cmd with
          | crash n => simp [writes] at hc
          | _ => rfl
        ready := h.ready
        turn := inTurn_snoc h.turn _ _ fun _ => h.held d a i (h.ready d a i hc.1) }
    · exact h

theorem Durable.kept_run {s e : Nat} {f : R → Nat} {w : Durable R ε} (h : w.Kept s e) (ops : List (DurOp R ε))
    (ho : w.CarefulRun s f e ops) : (w.run s f e ops).Kept s e := by
  induction ops generalizing w with
  | nil => exact h
  | cons op ops ih => exact ih (Durable.kept_step h op ho.1) ho.2

/-! ## C93 -/

/-- **C93.** Different instances of the entity, on whatever nodes and under whatever instances of the shard, are different
copies: what the theorems below say of copy `copyNo d a i` they say of that instance alone. -/
theorem C93_copies {d a i d' a' i' : Nat} : copyNo d a i = copyNo d' a' i' ↔ (d, a, i) = (d', a', i') := by
  constructor
  · intro h
    obtain ⟨rfl, rfl, rfl⟩ := copyNo_inj h
    rfl
  · rintro ⟨⟩; rfl

/-- **C93.** The journal holds back nothing but the instances of the entity that have not read it: every other operation
has the effect it has in the system of C91. -/
theorem C93_moves (s : Nat) (f : R → Nat) (e : Nat) (σ : Durable R ε) (op : MovOp R)
    (h : ∀ d a t, op = .ent d a (.comesUp t) → t.e = e → (d, a, t.i) ∈ σ.reads) :
    (σ.step s f e (.mov op)).mov = σ.mov.step s f op := by
  have : σ.allows e op = true := by
    cases op with
    | sys op => rfl
    | ent d a op =>
      cases op <;> try rfl
      rename_i t
      by_cases he : t.e = e
      · simp [Durable.allows, LifeOp.up?, he, h d a t rfl he]
      · simp [Durable.allows, LifeOp.up?, he]
  simp [Durable.step, this]

/-- **C93** in part: in orderly runs in the sense of C91 a running instance of a persistent entity has all events
acknowledged so far, to whichever instance on whichever node, however often the shard has moved. With snapshots this needs
the first events after each of them to be written as a batch, as for one actor (`C63_refuted`). What is missing from the
claim are orderly moves in the sense of C51 alone, see `C93_move_refuted`. -/
theorem C93_keeps_partial {σ : Type} {A : App ε σ} (hA : A.Lawful) (pid : String) (s : Nat) (f : R → Nat) (e self : Nat)
    (nodes : List (Nat × Bool)) (journal : List Nat) (ops : List (DurOp R ε))
    (ho : (Durable.start self nodes journal).CarefulRun s f e ops) (w : Durable R ε)
    (hw : w = (Durable.start self nodes journal).run s f e ops) (hon : ∀ cmd ∈ w.done, cmd.Honest)
    (hb : BatchAfterSave false w.done = true) {d a i : Nat} (hr : w.mov.Runs d a e i) :
    w.state A pid d a i = some (w.acked.foldl A.app A.init) := by
  have hk := Durable.kept_run (Durable.kept_start s e self nodes journal) ops ho
  rw [← hw] at hk
  refine C90_handover_partial hA pid w.log hk.turn ?_ hb _ (hk.held d a i (hk.ready d a i hr))
  intro op hop
  cases op with
  | act c cmd => exact hon cmd (List.mem_flatMap.2 ⟨_, hop, by simp [Op.cmds]⟩)
  | ends c => trivial

/-- The same over Redis, where no single event may be written right after a batch or a start that found events, see C94. -/
theorem C93_redis_partial {σ : Type} {A : App ε σ} (hA : A.Lawful) (hashtags : Bool) (pre pid : String) (s : Nat) (f : R → Nat)
    (e self : Nat) (nodes : List (Nat × Bool)) (journal : List Nat) (ops : List (DurOp R ε))
    (ho : (Durable.start self nodes journal).CarefulRun s f e ops) (w : Durable R ε)
    (hw : w = (Durable.start self nodes journal).run s f e ops) (hon : ∀ cmd ∈ w.done, cmd.Honest)
    (hb : SafeOnRedis {} w.done = true) {d a i : Nat} (hr : w.mov.Runs d a e i) :
    w.redisState hashtags pre A pid d a i = some (w.acked.foldl A.app A.init) := by
  have hk := Durable.kept_run (Durable.kept_start s e self nodes journal) ops ho
  rw [← hw] at hk
  exact C94_handover_partial hA hashtags pre pid w.log hk.turn hon hb _ (hk.held d a i (hk.ready d a i hr))

/-! ## Cases and refutations -/

/-- the operations of the system in a run. -/
def DurOp.sys? : DurOp R ε → Option (SysOp R)
  | .mov op => op.sys?
  | _ => none

/-- the run of `movedInTime` with an entity that counts: 3 on node 1, 4 on node 2. -/
def countedInTime : List (DurOp Nat Nat) :=
  moveBegins.map (fun o => .mov (.sys o)) ++
  [.mov (.ent 1 0 (.request firstRequest true)), .read 1 0 0 0, .mov (.ent 1 0 (.comesUp ⟨5, 9, 0⟩)), .mov (.ent 1 0 .take),
   .use 1 0 0 (.event 3 .ok)] ++
  (movedInTime.drop 3).dropLast.map .mov ++ [.read 2 0 0 1, .mov (.ent 2 0 (.comesUp ⟨5, 9, 0⟩)), .use 2 0 0 (.events [4] .ok)]

example : ((Durable.start 1 [] []).run 0 id 5 countedInTime).mov.Runs 2 0 5 0 ∧
    ((Durable.start 1 [] []).run 0 id 5 countedInTime).acked = [3, 4] ∧
    ((Durable.start 1 [] []).run 0 id 5 countedInTime).state counter "5" 2 0 0 = some 7 := by
  unfold Moving.Runs
  decide +kernel

def DurOp.mov? : DurOp R ε → Option (MovOp R)
  | .mov op => some op
  | _ => none

/-- every operation of the run may take place when its turn comes. -/
def Durable.allAllowed (s : Nat) (f : R → Nat) (e : Nat) : Durable R ε → List (DurOp R ε) → Bool
  | _, [] => true
  | σ, op :: ops => (match op.mov? with | some m => σ.allows e m | none => true) && (σ.step s f e op).allAllowed s f e ops

theorem Durable.careful_of_moving {s e : Nat} {f : R → Nat} {w : Durable R ε} (ops : List (DurOp R ε))
    (ha : w.allAllowed s f e ops = true) (ho : w.mov.CarefulRun s f e (ops.filterMap DurOp.mov?)) :
    w.CarefulRun s f e ops := by
  induction ops generalizing w with
  | nil => trivial
  | cons op ops ih =>
    simp only [Durable.allAllowed, Bool.and_eq_true] at ha
    cases op with
    | mov op =>
      refine ⟨ho.1, ih ha.2 ?_⟩
      have : (w.step s f e (.mov op)).mov = w.mov.step s f op := by
        have h1 : w.allows e op = true := ha.1
        simp only [Durable.step, h1, if_true]
      rw [this]
      exact ho.2
    | read d a i n =>
      refine ⟨trivial, ih ha.2 ?_⟩
      have : (w.step s f e (.read d a i n)).mov = w.mov := by
        simp only [Durable.step]
        split <;> rfl
      rw [this]
      exact ho
    | use d a i cmd =>
      refine ⟨trivial, ih ha.2 ?_⟩
      have : (w.step s f e (.use d a i cmd)).mov = w.mov := by
        simp only [Durable.step]
        split <;> rfl
      rw [this]
      exact ho

/-- a move between two lives of an entity over Redis that writes single events: the second 3 is lost, as after any restart
(`C94_equal_refuted`). -/
def countedOnRedis (n : Nat) : List (DurOp Nat Nat) := countedInTime.dropLast ++ [.use 2 0 0 (.event n .ok)]

example : ((Durable.start 1 [] []).run 0 id 5 countedInTime).redisState true "p" counter "5" 2 0 0 = some 7 ∧
    SafeOnRedis {} ((Durable.start 1 [] []).run 0 id 5 countedInTime).done = true ∧
    SafeOnRedis {} ((Durable.start 1 [] []).run 0 id 5 (countedOnRedis 3)).done = false := by decide +kernel

/-- that run meets the hypotheses of `C93_keeps_partial`. -/
example : (Durable.start 1 [] [] : Durable Nat Nat).CarefulRun 0 id 5 countedInTime ∧
    (∀ cmd ∈ ((Durable.start 1 [] []).run 0 id 5 countedInTime).done, cmd.Honest) ∧
    BatchAfterSave false ((Durable.start 1 [] []).run 0 id 5 countedInTime).done = true := by
  refine ⟨Durable.careful_of_moving _ (by decide +kernel) ?_, ?_, by decide +kernel⟩
  · have : countedInTime.filterMap DurOp.mov? = moveBegins.map .sys ++ movedInTime := rfl
    rw [this]
    exact moved_in_time_careful
  · have : ((Durable.start 1 [] []).run 0 id 5 countedInTime).done = [.crash 0, .event 3 .ok, .crash 1, .events [4] .ok] := rfl
    rw [this]
    simp [Cmd.Honest]

/-- node 1 has acknowledged the stop of the shard, node 2 has started the shard and the entity, and the instance on node 1
is still running. -/
def countedTwice (rest : List (DurOp Nat Nat)) : List (DurOp Nat Nat) :=
  (moveBegins.take 5).map (fun o => .mov (.sys o)) ++
  [.mov (.ent 1 0 (.request firstRequest true)), .read 1 0 0 0, .mov (.ent 1 0 (.comesUp ⟨5, 9, 0⟩)), .mov (.ent 1 0 .take)] ++
  (moveBegins.drop 5 ++ moveEnds).map (fun o => .mov (.sys o)) ++
  [.read 2 0 0 0, .mov (.ent 2 0 (.comesUp ⟨5, 9, 0⟩))] ++ rest

/-- Refuted: in an orderly run in the sense of C51 an event is acknowledged that the instance of the entity where its shard
runs does not have. -/
theorem C93_move_refuted :
    ∃ ops : List (DurOp Nat Nat), (Sys.start 1 [] [] : Sys Nat).OrderlyRun id 0 (ops.filterMap DurOp.sys?) ∧
      ((Durable.start 1 [] []).run 0 id 5 ops).mov.sys.Runs 0 2 0 ∧ ((Durable.start 1 [] []).run 0 id 5 ops).mov.Runs 2 0 5 0 ∧
      ((Durable.start 1 [] []).run 0 id 5 ops).acked = [3] ∧
      ((Durable.start 1 [] []).run 0 id 5 ops).state counter "5" 2 0 0 = some 0 := by
  refine ⟨countedTwice [.use 1 0 0 (.event 3 .ok)], ?_, ?_⟩
  · have : (countedTwice [.use 1 0 0 (.event 3 .ok)]).filterMap DurOp.sys? = moveBegins ++ moveEnds := rfl
    rw [this]
    exact move_orderly
  · unfold Moving.Runs Sys.Runs
    decide +kernel

/-- Refuted: and events can be lost for good. The instance on node 1, which nothing has told to stop, saves its state, which
lacks what node 2 has acknowledged; whoever reads the journal afterwards does not find it. -/
theorem C93_lost_refuted :
    ∃ ops : List (DurOp Nat Nat), (Sys.start 1 [] [] : Sys Nat).OrderlyRun id 0 (ops.filterMap DurOp.sys?) ∧
      BatchAfterSave false ((Durable.start 1 [] []).run 0 id 5 ops).done = true ∧
      ((Durable.start 1 [] []).run 0 id 5 ops).acked = [5, 3] ∧
      (World.mem counter "5" (((Durable.start 1 [] []).run 0 id 5 ops).log ++ [.act 0 (.crash 0)])).state 0 = some 3 := by
  refine ⟨countedTwice [.use 2 0 0 (.events [5] .ok), .use 1 0 0 (.events [3] .ok), .use 1 0 0 (.save .ok)], ?_, ?_⟩
  · have : (countedTwice [.use 2 0 0 (.events [5] .ok), .use 1 0 0 (.events [3] .ok), .use 1 0 0 (.save .ok)]).filterMap
      DurOp.sys? = moveBegins ++ moveEnds := rfl
    rw [this]
    exact move_orderly
  · decide +kernel

end Verif.Sharding
