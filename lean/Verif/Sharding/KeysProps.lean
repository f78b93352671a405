import Verif.Sharding.KeysModel
import Verif.Sharding.IdsProps
import Verif.Persist.CopiesProps
import Verif.Persist.Props

/-!
# C98: whose events an actor recovers

`C98_group`, `C98_own`: what happens to a persistent actor depends only on what those do that have the same key; where
nobody else has it, on what it does itself. `C98_keys`: coordinators and shards all have keys of their own, but an entity
or an actor started directly shares its journal with everything of the same id, entities of other types included, and may
share one with a shard or a coordinator.

Where keys are shared, actors that know none of each other's event names do not notice, as long as none takes a snapshot
(`C98_names_partial`, in-memory storage). With the same names each takes the other's events for its own
(`C98_entities_refuted`), and with snapshots events are lost (`C98_snapshot_refuted`) or counted twice
(`C98_twice_refuted`) whatever the names, a shard's entities included (`C98_shard_refuted`).
-/

namespace Verif.Sharding.Keys

open Verif.Persist

variable {ε σ : Type}

/-! ## Keys -/

/-- the name that the user gave, if any. -/
def Who.named : Who → Option String
  | .entity _ i => some i
  | .actor i => some i
  | _ => none

theorem dash_of_system {b : Who} (hb : b.named = none) : '-' ∈ b.key.toList := by
  cases b with
  | coordinator t => simp [Who.key, Ids.coordKey]
  | shard t s => simp [Who.key, Ids.shardKey, Ids.shardId]
  | entity t i => cases hb
  | actor i => cases hb

/-- **C98**: which actors have the same key. -/
theorem C98_keys (a b : Who) :
    (a.named = none → b.named = none → (a.key = b.key ↔ a = b)) ∧
    (∀ i j, a.named = some i → b.named = some j → (a.key = b.key ↔ i = j)) ∧
    (∀ i, a.named = some i → '-' ∉ i.toList → b.named = none → a.key ≠ b.key) := by
  refine ⟨?_, ?_, ?_⟩
  · intro ha hb
    cases a with
    | entity t i => cases ha
    | actor i => cases ha
    | coordinator t =>
      cases b with
      | entity t i => cases hb
      | actor i => cases hb
      | coordinator t' => simpa [Who.key] using (Ids.C78_journal_keys t t' 0 0).2.1
      | shard t' s => simpa [Who.key] using (Ids.C78_journal_keys t' t s 0).2.2.symm
    | shard t s =>
      cases b with
      | entity t i => cases hb
      | actor i => cases hb
      | coordinator t' => simpa [Who.key] using (Ids.C78_journal_keys t t' s 0).2.2
      | shard t' s' => simpa [Who.key] using (Ids.C78_journal_keys t t' s s').1
  · intro i j ha hb
    cases a <;> cases b <;> simp_all [Who.named, Who.key]
  · intro i ha hi hb h
    have hd := dash_of_system hb
    rw [← h] at hd
    cases a <;> simp_all [Who.named, Who.key]

/-- entities of different types with the same id. -/
example : (Who.entity "User" "1").key = (Who.entity "Order" "1").key := by decide

/-- an entity with the key of a shard. -/
example : (Who.entity "User" "Order-Shard-0").key = (Who.shard "Order" 0).key := by decide +kernel

/-! ## Different keys -/

/-- the key of the actor that does something. -/
def keyOf (cast : Nat → Role ε σ) (op : Copies.Op ε) : String := (cast (actorOf op)).who.key

section
variable {τ ν : Type} {S : Storage τ}

/-- a journal in a system of its own. -/
def lone (st : τ) (pid : String) (j : Journal) : Sys τ := ⟨st, fun p => if p = pid then j else Journal.new p⟩

theorem lone_pidOk (st : τ) (pid : String) (j : Journal) (h : j.pid = pid) : PidOk (lone st pid j) := by
  intro p
  simp only [lone]
  split
  · rename_i e; rw [e]; exact h
  · rfl

theorem lone_same (st : τ) (pid : String) (j : Journal) (op : Persist.Op) :
    (Sys.step S ⟨st, fun _ => j⟩ pid op).store = ((lone st pid j).step S pid op).store ∧
      (Sys.step S ⟨st, fun _ => j⟩ pid op).journals pid = ((lone st pid j).step S pid op).journals pid := by
  cases op <;> simp [Sys.step, Sys.setJ, lone]

/-- two worlds agree about those with the key `k`; in both, journals carry the keys of their actors. -/
structure Alike (I : Isolated S ν) (cast : Nat → Role ε σ) (k : String) (w v : Copies.World τ σ) : Prop where
  view : I.view w.store k = I.view v.store k
  copies : ∀ c, (cast c).who.key = k → w.copies.get c = v.copies.get c
  pids : ∀ c x, w.copies.get c = some x → x.journal.pid = (cast c).who.key
  pids' : ∀ c x, v.copies.get c = some x → x.journal.pid = (cast c).who.key

/-- what an actor does to the world: the store changes as by `Sys.step`, and its own entry. -/
theorem step_store (I : Isolated S ν) (cast : Nat → Role ε σ) {w : Copies.World τ σ} (op : Copies.Op ε)
    (hp : ∀ c x, w.copies.get c = some x → x.journal.pid = (cast c).who.key) :
    (∀ q, q ≠ keyOf cast op → I.view (step S cast w op).store q = I.view w.store q) ∧
      (∀ c, c ≠ actorOf op → (step S cast w op).copies.get c = w.copies.get c) ∧
      ∀ c x, (step S cast w op).copies.get c = some x → x.journal.pid = (cast c).who.key := by
  cases op with
  | ends c =>
    refine ⟨fun _ _ => rfl, fun d hd => ?_, fun d x hx => ?_⟩
    · exact (Assoc.get_erase w.copies c d).trans (if_neg hd)
    · have hx : (Assoc.erase w.copies c).get d = some x := hx
      rw [Assoc.get_erase] at hx
      split at hx
      · cases hx
      · exact hp d x hx
  | act c cmd =>
    by_cases hc : ∃ n, cmd = .crash n
    · obtain ⟨n, rfl⟩ := hc
      simp only [step, actorOf, Copies.World.step, Copies.World.start, keyOf]
      split
      · refine ⟨fun _ _ => rfl, fun d hd => ?_, fun d x hx => ?_⟩
        · simp [Assoc.get_insert, hd]
        · simp only [Assoc.get_insert] at hx
          split at hx
          · rename_i e; cases hx; rw [e]; exact loadJournal_pid _ _ _
          · exact hp d x hx
      · refine ⟨fun _ _ => rfl, fun d hd => ?_, fun d x hx => ?_⟩
        · simp [Assoc.get_erase, hd]
        · simp only [Assoc.get_erase] at hx
          split at hx
          · cases hx
          · exact hp d x hx
    · have hst : step S cast w (.act c cmd) = w.use S (cast c).app (cast c).who.key c cmd := by
        cases cmd with
        | crash n => exact absurd ⟨n, rfl⟩ hc
        | _ => rfl
      rw [hst]
      unfold Copies.World.use
      cases hg : w.copies.get c with
      | none => exact ⟨fun _ _ => rfl, fun _ _ => rfl, hp⟩
      | some x =>
        have hpc := hp c x hg
        have hl := lone_same (S := S) w.store (cast c).who.key x.journal (cmd.op (cast c).app x.state)
        have hpo := lone_pidOk w.store (cast c).who.key x.journal hpc
        refine ⟨fun q hq => ?_, fun d hd => ?_, fun d y hy => ?_⟩
        · simp only [hl.1]
          have ha : I.Agree (lone w.store (cast c).who.key x.journal) (lone w.store (cast c).who.key x.journal) q :=
            ⟨rfl, rfl⟩
          exact (ha.step_other I hpo hq (cmd.op (cast c).app x.state)).1
        · simp [Assoc.get_insert, actorOf] at hd ⊢
          simp [hd]
        · simp only [Assoc.get_insert] at hy
          split at hy
          · rename_i e
            cases hy
            simp only [hl.2]
            rw [e]
            exact (hpo.step (S := S) _ _) _
          · exact hp d y hy

theorem Alike.step {I : Isolated S ν} {cast : Nat → Role ε σ} {k : String} {w v : Copies.World τ σ}
    (h : Alike I cast k w v) (op : Copies.Op ε) (hk : keyOf cast op = k) :
    Alike I cast k (step S cast w op) (step S cast v op) := by
  have h1 := step_store I cast (w := w) op h.pids
  have h2 := step_store I cast (w := v) op h.pids'
  suffices hh : I.view (Keys.step S cast w op).store k = I.view (Keys.step S cast v op).store k ∧
      (Keys.step S cast w op).copies.get (actorOf op) = (Keys.step S cast v op).copies.get (actorOf op) by
    refine ⟨hh.1, fun c hc => ?_, h1.2.2, h2.2.2⟩
    by_cases e : c = actorOf op
    · rw [e]; exact hh.2
    · rw [h1.2.1 c e, h2.2.1 c e]; exact h.copies c hc
  cases op with
  | ends c =>
    refine ⟨h.view, ?_⟩
    show (Assoc.erase w.copies c).get c = (Assoc.erase v.copies c).get c
    simp [Assoc.get_erase]
  | act c cmd =>
    have hkc : (cast c).who.key = k := hk
    by_cases hc : ∃ n, cmd = .crash n
    · obtain ⟨n, rfl⟩ := hc
      simp only [Keys.step, actorOf, Copies.World.step, Copies.World.start]
      rw [hkc, loadJournal_congr I h.view]
      split
      · exact ⟨h.view, by simp [Assoc.get_insert]⟩
      · exact ⟨h.view, by simp [Assoc.get_erase]⟩
    · have hst : ∀ u : Copies.World τ σ, Keys.step S cast u (.act c cmd) = u.use S (cast c).app (cast c).who.key c cmd := by
        intro u
        cases cmd with
        | crash n => exact absurd ⟨n, rfl⟩ hc
        | _ => rfl
      rw [hst, hst]
      unfold Copies.World.use
      have hg := h.copies c hkc
      cases hgw : w.copies.get c with
      | none =>
        have hgv : v.copies.get c = none := by rw [← hg]; exact hgw
        simp only [hgv]
        exact ⟨h.view, by rw [actorOf, hgw, hgv]⟩
      | some x =>
        have hgv : v.copies.get c = some x := by rw [← hg]; exact hgw
        simp only [hgv]
        have hpc := h.pids c x hgw
        have hlw := lone_same (S := S) w.store (cast c).who.key x.journal (cmd.op (cast c).app x.state)
        have hlv := lone_same (S := S) v.store (cast c).who.key x.journal (cmd.op (cast c).app x.state)
        have hpv := lone_pidOk v.store (cast c).who.key x.journal hpc
        have ha : I.Agree (lone w.store (cast c).who.key x.journal) (lone v.store (cast c).who.key x.journal)
            (cast c).who.key := ⟨by rw [hkc]; exact h.view, rfl⟩
        have hs := ha.step I hpv (cmd.op (cast c).app x.state)
        refine ⟨?_, ?_⟩
        · rw [hlw.1, hlv.1, ← hkc]; exact hs.1
        · simp only [Assoc.get_insert, actorOf, if_true]
          rw [hlw.2, hlv.2, hs.2]

theorem Alike.other {I : Isolated S ν} {cast : Nat → Role ε σ} {k : String} {w v : Copies.World τ σ}
    (h : Alike I cast k w v) (op : Copies.Op ε) (hk : keyOf cast op ≠ k) : Alike I cast k (Keys.step S cast w op) v := by
  have h1 := step_store I cast (w := w) op h.pids
  refine ⟨(h1.1 k (Ne.symm hk)).trans h.view, fun c hc => ?_, h1.2.2, h.pids'⟩
  rw [h1.2.1 c (by intro e; subst e; exact hk hc)]
  exact h.copies c hc

theorem Alike.run {I : Isolated S ν} {cast : Nat → Role ε σ} {k : String} (ops : List (Copies.Op ε))
    {w v : Copies.World τ σ} (h : Alike I cast k w v) :
    Alike I cast k (Keys.run S cast w ops) (Keys.run S cast v (ops.filter fun op => keyOf cast op = k)) := by
  induction ops generalizing w v with
  | nil => exact h
  | cons op ops ih =>
    by_cases hk : keyOf cast op = k
    · simp only [Keys.run, List.filter_cons, hk, decide_true, if_true, List.foldl_cons]
      exact ih (h.step op hk)
    · simp only [Keys.run, List.filter_cons, hk, decide_false, List.foldl_cons]
      exact ih (h.other op hk)

end

/-- **C98**: the state of an actor depends on what those do that have its key, and on nothing else. In memory and over
Redis. -/
theorem C98_group (hashtags : Bool) (pre : String) (cast : Nat → Role ε σ) (ops : List (Copies.Op ε)) (c : Nat) :
    (mem cast ops).state c = (mem cast (ops.filter fun op => keyOf cast op = (cast c).who.key)).state c ∧
    (redis hashtags pre cast ops).state c
      = (redis hashtags pre cast (ops.filter fun op => keyOf cast op = (cast c).who.key)).state c := by
  constructor
  · have h : Alike memIsolated cast (cast c).who.key (⟨fun _ => none, []⟩ : Copies.World MemStore σ) ⟨fun _ => none, []⟩ :=
      ⟨rfl, fun _ _ => rfl, (by intro _ _ h; cases h), (by intro _ _ h; cases h)⟩
    have := (h.run ops).copies c rfl
    simp only [Copies.World.state, mem, this]
  · have h : Alike (redisIsolated (redisKey_ok hashtags pre)) cast (cast c).who.key
        (⟨fun _ => [], []⟩ : Copies.World RedisStore σ) ⟨fun _ => [], []⟩ :=
      ⟨rfl, fun _ _ => rfl, (by intro _ _ h; cases h), (by intro _ _ h; cases h)⟩
    have := (h.run ops).copies c rfl
    simp only [Copies.World.state, redis, this]

/-- **C98**: where nobody else has its key, an actor is as if it were alone. -/
theorem C98_own (hashtags : Bool) (pre : String) (cast : Nat → Role ε σ) (ops : List (Copies.Op ε)) (c : Nat)
    (h : ∀ op ∈ ops, actorOf op ≠ c → (cast (actorOf op)).who.key ≠ (cast c).who.key) :
    (mem cast ops).state c = (mem cast (ops.filter fun op => actorOf op = c)).state c ∧
    (redis hashtags pre cast ops).state c = (redis hashtags pre cast (ops.filter fun op => actorOf op = c)).state c := by
  have hf : (ops.filter fun op => keyOf cast op = (cast c).who.key) = ops.filter fun op => actorOf op = c := by
    apply List.filter_congr
    intro op hop
    by_cases e : actorOf op = c
    · simp [keyOf, e]
    · simp [keyOf, e, h op hop e]
  rw [← hf]
  exact C98_group hashtags pre cast ops c

/-! ## Shared keys, different names -/

/-- an actor among others with its key, and alone: it sees the same. -/
structure Deaf (K : Known) (k : String) (c : Nat) (w v : Copies.World MemStore σ) : Prop where
  snaps : snapsOf w.store k = []
  snaps' : snapsOf v.store k = []
  msgs : ((msgsOf w.store k).map Entry.payload).filter (fun p => K.message p.ptype) =
    ((msgsOf v.store k).map Entry.payload).filter (fun p => K.message p.ptype)
  state : w.state c = v.state c
  journals : ∀ d x, w.copies.get d = some x → x.journal.pid = k ∧ x.journal.lastSnap = none
  journals' : ∀ d x, v.copies.get d = some x → x.journal.pid = k ∧ x.journal.lastSnap = none

theorem seen_congr (K : Known) {l m : List Payload}
    (h : l.filter (fun p => K.message p.ptype) = m.filter (fun p => K.message p.ptype)) :
    View.seen K ⟨none, l⟩ = View.seen K ⟨none, m⟩ := by
  simp only [View.seen, h]

theorem load_nosnaps (K : Known) {st : MemStore} {k : String} (h : snapsOf st k = []) :
    (loadJournal memStorage K st k).1.pid = k ∧ (loadJournal memStorage K st k).1.lastSnap = none ∧
      (loadJournal memStorage K st k).2 = View.seen K ⟨none, (msgsOf st k).map Entry.payload⟩ := by
  have hl := loadJournal_mem K st k
  simp only [h, List.getLast?_nil, Option.map_none, Option.getD_none, memRead, if_true] at hl
  rw [hl]
  exact ⟨rfl, rfl, rfl⟩

/-- a start in a world without snapshots. -/
theorem start_nosnaps (A : App ε σ) {k : String} {w : Copies.World MemStore σ} (hs : snapsOf w.store k = [])
    (hj : ∀ d x, w.copies.get d = some x → x.journal.pid = k ∧ x.journal.lastSnap = none) (d n : Nat) :
    let w' := w.start memStorage A k d n
    w'.store = w.store ∧ (∀ b, b ≠ d → w'.state b = w.state b) ∧
    w'.state d = (started A.user (.retry .untilSuccess) A.init (List.replicate n false ++ [true])
      (View.seen A.known ⟨none, (msgsOf w.store k).map Entry.payload⟩)).up ∧
    ∀ b x, w'.copies.get b = some x → x.journal.pid = k ∧ x.journal.lastSnap = none := by
  obtain ⟨h1, h2, h3⟩ := load_nosnaps A.known hs
  simp only [Copies.World.start]
  rw [h3]
  split
  · rename_i s hup
    refine ⟨rfl, fun b hb => by simp [Copies.World.state, Assoc.get_insert, hb], by simp [Copies.World.state, Assoc.get_insert, hup], ?_⟩
    intro b x hx
    simp only [Assoc.get_insert] at hx
    split at hx
    · cases hx; exact ⟨h1, h2⟩
    · exact hj b x hx
  · rename_i hup
    refine ⟨rfl, fun b hb => by simp [Copies.World.state, Assoc.get_erase, hb], by simp [Copies.World.state, Assoc.get_erase, hup], ?_⟩
    intro b x hx
    simp only [Assoc.get_erase] at hx
    split at hx
    · cases hx
    · exact hj b x hx

/-- a use of a journal in a world without snapshots. -/
theorem use_nosnaps (A : App ε σ) {k : String} {w : Copies.World MemStore σ}
    (hj : ∀ d x, w.copies.get d = some x → x.journal.pid = k ∧ x.journal.lastSnap = none) (d : Nat) (cmd : Cmd ε)
    (hc : ∀ n, cmd ≠ .crash n) (hsave : cmd.isSave = false) :
    let w' := w.use memStorage A k d cmd
    snapsOf w'.store k = snapsOf w.store k ∧
    ((msgsOf w'.store k).map Entry.payload = (msgsOf w.store k).map Entry.payload ++
      (match w.state d with | some _ => (Copies.Cmd.kept cmd).map A.enc | none => [])) ∧
    (∀ b, b ≠ d → w'.state b = w.state b) ∧ w'.state d = (w.state d).map (fun s => Copies.after A s cmd) ∧
    ∀ b x, w'.copies.get b = some x → x.journal.pid = k ∧ x.journal.lastSnap = none := by
  unfold Copies.World.use
  cases hg : w.copies.get d with
  | none =>
    have : w.state d = none := by simp [Copies.World.state, hg]
    simp only [this]
    exact ⟨trivial, by simp, fun _ _ => trivial, rfl, hj⟩
  | some x =>
    have hw : w.state d = some x.state := by simp [Copies.World.state, hg]
    obtain ⟨hp, hl⟩ := hj d x hg
    obtain ⟨u1, u2, u3, u4⟩ := Copies.use_mem (A := A) (st := w.store) hp hl x.state cmd hc hsave
    simp only [hw]
    refine ⟨u1, u2, fun b hb => by simp [Copies.World.state, Assoc.get_insert, hb],
      by simp [Copies.World.state, Assoc.get_insert], ?_⟩
    intro b y hy
    simp only [Assoc.get_insert] at hy
    split at hy
    · cases hy; exact ⟨u3, u4⟩
    · exact hj b y hy

theorem step_cases (cast : Nat → Role ε σ) (w : Copies.World MemStore σ) (op : Copies.Op ε) :
    (∃ d, op = .ends d) ∨ (∃ d n, op = .act d (.crash n)) ∨
      ∃ d cmd, op = .act d cmd ∧ (∀ n, cmd ≠ .crash n) ∧
        step memStorage cast w op = w.use memStorage (cast d).app (cast d).who.key d cmd := by
  cases op with
  | ends d => exact .inl ⟨d, rfl⟩
  | act d cmd =>
    cases cmd with
    | crash n => exact .inr (.inl ⟨d, n, rfl⟩)
    | event e o => exact .inr (.inr ⟨d, _, rfl, by simp, rfl⟩)
    | events e o => exact .inr (.inr ⟨d, _, rfl, by simp, rfl⟩)
    | save o => exact .inr (.inr ⟨d, _, rfl, by simp, rfl⟩)
    | trim o => exact .inr (.inr ⟨d, _, rfl, by simp, rfl⟩)

theorem ends_state (w : Copies.World MemStore σ) (d b : Nat) :
    (⟨w.store, w.copies.erase d⟩ : Copies.World MemStore σ).state b = if b = d then none else w.state b := by
  simp only [Copies.World.state, Assoc.get_erase]
  split <;> rfl

theorem ends_journals {k : String} {w : Copies.World MemStore σ}
    (hj : ∀ d x, w.copies.get d = some x → x.journal.pid = k ∧ x.journal.lastSnap = none) (d : Nat) :
    ∀ b x, (w.copies.erase d).get b = some x → x.journal.pid = k ∧ x.journal.lastSnap = none := by
  intro b x hx
  rw [Assoc.get_erase] at hx
  split at hx
  · cases hx
  · exact hj b x hx

theorem Deaf.own {cast : Nat → Role ε σ} {c : Nat} {w v : Copies.World MemStore σ}
    (h : Deaf (cast c).app.known (cast c).who.key c w v) (op : Copies.Op ε) (ho : actorOf op = c)
    (hs : op.isSave = false) :
    Deaf (cast c).app.known (cast c).who.key c (step memStorage cast w op) (step memStorage cast v op) := by
  rcases step_cases cast w op with ⟨d, rfl⟩ | ⟨d, n, rfl⟩ | ⟨d, cmd, rfl, hc, hw⟩
  · refine ⟨h.snaps, h.snaps', h.msgs, ?_, ends_journals h.journals d, ends_journals h.journals' d⟩
    exact (ends_state w d c).trans ((by rw [h.state]) : _) |>.trans (ends_state v d c).symm
  · obtain rfl : d = c := ho
    obtain ⟨a1, a2, a3, a4⟩ := start_nosnaps (cast d).app h.snaps h.journals d n
    obtain ⟨b1, b2, b3, b4⟩ := start_nosnaps (cast d).app h.snaps' h.journals' d n
    show Deaf _ _ _ (w.start memStorage (cast d).app (cast d).who.key d n) (v.start memStorage (cast d).app (cast d).who.key d n)
    refine ⟨(congrArg (snapsOf · _) a1).trans h.snaps, (congrArg (snapsOf · _) b1).trans h.snaps', ?_, ?_, a4, b4⟩
    · rw [a1, b1]; exact h.msgs
    exact a3.trans ((by rw [seen_congr _ h.msgs]) : _) |>.trans b3.symm
  · obtain rfl : d = c := ho
    have hv : step memStorage cast v (.act d cmd) = v.use memStorage (cast d).app (cast d).who.key d cmd := by
      cases cmd with
      | crash n => exact absurd rfl (hc n)
      | _ => rfl
    obtain ⟨a1, a2, a3, a4, a5⟩ := use_nosnaps (cast d).app h.journals d cmd hc hs
    obtain ⟨b1, b2, b3, b4, b5⟩ := use_nosnaps (cast d).app h.journals' d cmd hc hs
    rw [hw, hv]
    refine ⟨a1.trans h.snaps, b1.trans h.snaps', ?_, ?_, a5, b5⟩
    · rw [a2, b2, h.state, List.filter_append, List.filter_append, h.msgs]
    · rw [a4, b4, h.state]

theorem Deaf.foreign {cast : Nat → Role ε σ} {c : Nat} {w v : Copies.World MemStore σ}
    (h : Deaf (cast c).app.known (cast c).who.key c w v) (op : Copies.Op ε) (ho : actorOf op ≠ c)
    (hk : keyOf cast op = (cast c).who.key) (hs : op.isSave = false)
    (hn : ∀ e, (cast c).app.known.message ((cast (actorOf op)).app.enc e).ptype = false) :
    Deaf (cast c).app.known (cast c).who.key c (step memStorage cast w op) v := by
  rcases step_cases cast w op with ⟨d, rfl⟩ | ⟨d, n, rfl⟩ | ⟨d, cmd, rfl, hc, hw⟩
  · refine ⟨h.snaps, h.snaps', h.msgs, ?_, ends_journals h.journals d, h.journals'⟩
    exact (ends_state w d c).trans ((if_neg (Ne.symm ho)).trans h.state)
  · have hk : (cast d).who.key = (cast c).who.key := hk
    obtain ⟨a1, a2, a3, a4⟩ := start_nosnaps (cast d).app (hk ▸ h.snaps) (hk ▸ h.journals) d n
    rw [hk] at a1 a2 a4
    show Deaf _ _ _ (w.start memStorage (cast d).app (cast d).who.key d n) v
    rw [hk]
    refine ⟨(congrArg (snapsOf · _) a1).trans h.snaps, h.snaps', ?_, (a2 c (Ne.symm ho)).trans h.state, a4, h.journals'⟩
    rw [a1]; exact h.msgs
  · have hk : (cast d).who.key = (cast c).who.key := hk
    obtain ⟨a1, a2, a3, a4, a5⟩ := use_nosnaps (cast d).app h.journals d cmd hc hs
    rw [hw, hk]
    refine ⟨a1.trans h.snaps, h.snaps', ?_, (a3 c (Ne.symm ho)).trans h.state, a5, h.journals'⟩
    rw [a2, List.filter_append, h.msgs]
    have : List.filter (fun p => (cast c).app.known.message p.ptype)
        (match w.state d with | some _ => (Copies.Cmd.kept cmd).map (cast d).app.enc | none => []) = [] := by
      apply List.filter_eq_nil_iff.2
      intro p hp
      split at hp
      · obtain ⟨e, _, rfl⟩ := List.mem_map.1 hp
        simp [show (cast c).app.known.message ((cast d).app.enc e).ptype = false from hn e]
      · cases hp
    rw [this, List.append_nil]

theorem Deaf.run {cast : Nat → Role ε σ} {c : Nat} (ops : List (Copies.Op ε)) {w v : Copies.World MemStore σ}
    (h : Deaf (cast c).app.known (cast c).who.key c w v)
    (hk : ∀ op ∈ ops, keyOf cast op = (cast c).who.key)
    (hs : ∀ op ∈ ops, op.isSave = false)
    (hn : ∀ op ∈ ops, actorOf op ≠ c → ∀ e, (cast c).app.known.message ((cast (actorOf op)).app.enc e).ptype = false) :
    Deaf (cast c).app.known (cast c).who.key c (Keys.run memStorage cast w ops)
      (Keys.run memStorage cast v (ops.filter fun op => actorOf op = c)) := by
  induction ops generalizing w v with
  | nil => exact h
  | cons op ops ih =>
    have hk' := fun o ho => hk o (List.mem_cons_of_mem _ ho)
    have hs' := fun o ho => hs o (List.mem_cons_of_mem _ ho)
    have hn' := fun o ho => hn o (List.mem_cons_of_mem _ ho)
    by_cases e : actorOf op = c
    · simp only [Keys.run, List.filter_cons, e, decide_true, if_true, List.foldl_cons]
      exact ih (h.own op e (hs op List.mem_cons_self)) hk' hs' hn'
    · simp only [Keys.run, List.filter_cons, e, decide_false, List.foldl_cons]
      exact ih (h.foreign op e (hk op List.mem_cons_self) (hs op List.mem_cons_self) (hn op List.mem_cons_self e))
        hk' hs' hn'

/-- **C98** (partial: in memory, without snapshots, and with different event names): an actor that shares its key with
others whose events it does not know is as if it were alone. Without these conditions it is refuted below. -/
theorem C98_names_partial (cast : Nat → Role ε σ) (ops : List (Copies.Op ε)) (c : Nat)
    (hs : ∀ op ∈ ops, keyOf cast op = (cast c).who.key → op.isSave = false)
    (hn : ∀ op ∈ ops, actorOf op ≠ c → keyOf cast op = (cast c).who.key →
      ∀ e, (cast c).app.known.message ((cast (actorOf op)).app.enc e).ptype = false) :
    (mem cast ops).state c = (mem cast (ops.filter fun op => actorOf op = c)).state c := by
  have h0 : Deaf (cast c).app.known (cast c).who.key c (⟨fun _ => none, []⟩ : Copies.World MemStore σ) ⟨fun _ => none, []⟩ :=
    ⟨rfl, rfl, rfl, rfl, (by intro _ _ h; cases h), (by intro _ _ h; cases h)⟩
  have hf : ∀ op ∈ (ops.filter fun op => keyOf cast op = (cast c).who.key),
      op ∈ ops ∧ keyOf cast op = (cast c).who.key := fun op ho => by
    obtain ⟨h1, h2⟩ := List.mem_filter.1 ho
    exact ⟨h1, of_decide_eq_true h2⟩
  have h1 := h0.run (ops.filter fun op => keyOf cast op = (cast c).who.key) (fun op ho => (hf op ho).2)
    (fun op ho => hs op (hf op ho).1 (hf op ho).2) (fun op ho he => hn op (hf op ho).1 he (hf op ho).2)
  have hff : (ops.filter fun op => keyOf cast op = (cast c).who.key).filter (fun op => actorOf op = c)
      = ops.filter fun op => actorOf op = c := by
    rw [List.filter_filter]
    apply List.filter_congr
    intro op _
    by_cases e : actorOf op = c
    · simp [keyOf, e]
    · simp [e]
  rw [hff] at h1
  rw [(C98_group false "" cast ops c).1]
  exact h1.state

/-! ## Cases and refutations -/

/-- another counter, with other names. -/
def tally : App Nat Nat where
  init := 0
  app := (· + ·)
  enc := fun n => ⟨"count", List.replicate n 0⟩
  dec := fun p => if p.ptype = "count" then some p.bytes.length else none
  encS := fun n => ⟨"sum", List.replicate n 0⟩
  decS := fun p => if p.ptype = "sum" then some p.bytes.length else none
  known := ⟨fun t => t = "count", fun t => t = "sum"⟩

theorem tally_lawful : tally.Lawful := by
  constructor <;> intro _ <;> simp [tally]

/-- a user and an order with the same number, and a user with another. -/
def pairOf (A B : App Nat Nat) : Nat → Role Nat Nat
  | 0 => ⟨.entity "User" "1", A⟩
  | 1 => ⟨.entity "Order" "1", B⟩
  | _ => ⟨.entity "User" "2", A⟩

/-- all run; the user with number 1 is started again. -/
def mixed : List (Copies.Op Nat) :=
  [.act 0 (.crash 0), .act 1 (.crash 0), .act 2 (.crash 0), .act 0 (.event 3 .ok), .act 1 (.event 5 .ok),
   .act 2 (.event 7 .ok), .act 0 (.event 1 .ok), .act 1 (.events [2, 2] .ok), .act 0 (.crash 0)]

example : (mem (pairOf counter tally) mixed).state 0 = some 4 ∧ (mem (pairOf counter tally) mixed).state 2 = some 7 := by
  decide +kernel

/-- the hypotheses of `C98_names_partial` are met. -/
example : (∀ op ∈ mixed, keyOf (pairOf counter tally) op = (pairOf counter tally 0).who.key → op.isSave = false) ∧
    (∀ op ∈ mixed, actorOf op ≠ 0 → keyOf (pairOf counter tally) op = (pairOf counter tally 0).who.key →
      ∀ e, (pairOf counter tally 0).app.known.message ((pairOf counter tally (actorOf op)).app.enc e).ptype = false) := by
  constructor
  · intro op h _; revert op; decide
  · intro op h h0 hk e
    simp only [mixed, List.mem_cons, List.not_mem_nil, or_false] at h
    rcases h with rfl | rfl | rfl | rfl | rfl | rfl | rfl | rfl | rfl <;>
      simp_all [actorOf, keyOf, pairOf, counter, tally, Who.key]

/-- the hypotheses of `C98_own` are met. -/
example : ∀ op ∈ mixed, actorOf op ≠ 2 → (pairOf counter counter (actorOf op)).who.key ≠ (pairOf counter counter 2).who.key := by
  decide +kernel

/-- Entities of two types with the same id and the same event names: a new order has what happened to the user of that
number. No snapshot is taken and no write fails. In memory and over Redis. -/
theorem C98_entities_refuted : ∃ ops : List (Copies.Op Nat),
    (ops.filter fun op => actorOf op = 1).flatMap Copies.Op.cmds = [.crash 0] ∧
    (∀ op ∈ ops, op.isSave = false ∧ op.Honest) ∧
    (mem (pairOf counter counter) ops).state 1 = some 3 ∧
    (redis false "" (pairOf counter counter) ops).state 1 = some 3 ∧
    (mem (pairOf counter counter) (ops.filter fun op => actorOf op = 1)).state 1 = some 0 :=
  ⟨[.act 0 (.crash 0), .act 0 (.event 3 .ok), .act 1 (.crash 0)], rfl,
    by intro op h; simp only [List.mem_cons, List.not_mem_nil, or_false] at h
       rcases h with rfl | rfl | rfl <;> simp [Copies.Op.isSave, Cmd.isSave, Copies.Op.Honest, Cmd.Honest],
    by decide +kernel, by decide +kernel, by decide +kernel⟩

/-- With different names, a snapshot of one entity makes the other lose its events: the number of the snapshot counts,
although its type is not known. In memory and over Redis. -/
theorem C98_snapshot_refuted : ∃ ops : List (Copies.Op Nat),
    (mem (pairOf counter tally) ops).state 0 = some 3 ∧
    (mem (pairOf counter tally) (ops ++ [.act 0 (.crash 0)])).state 0 = some 0 ∧
    (redis false "" (pairOf counter tally) (ops ++ [.act 0 (.crash 0)])).state 0 = some 0 ∧
    (mem (pairOf counter tally) ((ops ++ [Copies.Op.act 0 (.crash 0)]).filter fun op => actorOf op = 0)).state 0 = some 3 :=
  ⟨[.act 0 (.crash 0), .act 0 (.events [1, 2] .ok), .act 1 (.crash 0), .act 1 (.save .ok)], by decide +kernel,
    by decide +kernel, by decide +kernel, by decide +kernel⟩

/-- With different names, an entity that takes snapshots has events counted twice, for the other's events have higher
numbers. -/
theorem C98_twice_refuted : ∃ ops : List (Copies.Op Nat),
    (mem (pairOf counter tally) ops).state 0 = some 8 ∧
    (mem (pairOf counter tally) (ops ++ [.act 0 (.crash 0)])).state 0 = some 16 ∧
    (mem (pairOf counter tally) ((ops ++ [Copies.Op.act 0 (.crash 0)]).filter fun op => actorOf op = 0)).state 0 = some 8 :=
  ⟨[.act 0 (.crash 0), .act 1 (.crash 0), .act 1 (.events [0, 0, 5] .ok), .act 0 (.events [8] .ok), .act 0 (.save .ok)],
    by decide +kernel, by decide +kernel, by decide +kernel⟩

/-- An entity whose id is the key of a shard makes the shard forget. -/
theorem C98_shard_refuted : ∃ (cast : Nat → Role Nat Nat) (ops : List (Copies.Op Nat)),
    (cast 0).who = .shard "Order" 0 ∧ (cast 1).who = .entity "User" "Order-Shard-0" ∧
    (mem cast ops).state 0 = some 3 ∧ (mem cast (ops ++ [.act 0 (.crash 0)])).state 0 = some 0 :=
  ⟨fun n => if n = 0 then ⟨.shard "Order" 0, counter⟩ else ⟨.entity "User" "Order-Shard-0", tally⟩,
    [.act 0 (.crash 0), .act 0 (.events [1, 2] .ok), .act 1 (.crash 0), .act 1 (.save .ok)], rfl, rfl,
    by decide +kernel, by decide +kernel⟩

end Verif.Sharding.Keys
