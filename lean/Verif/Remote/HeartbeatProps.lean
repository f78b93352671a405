import Verif.Remote.HeartbeatLemmas

/-!
# C26, C27, C28: leader, node health, cluster-up
-/

namespace Verif.Remote

variable (env : Chrono) (cfg : HbConfig) (self : Nat)

/-- the nodes the registry holds. -/
def Hb.known (σ : Hb) : List HbNode := σ.nodes.map (·.2)

/-! ### C26 -/

theorem tick_cases (σ : Hb) (now : Nat → Int) :
    (σ.tick env cfg self now).crashed = true ∨
    ∃ us, refreshAll env cfg self now σ.pings (σ.nodes.map (·.2)) = some us ∧
      σ.tick env cfg self now = σ.elect env cfg us := by
  unfold Hb.tick
  split
  · left; rfl
  · rename_i us h; right; exact ⟨us, h, rfl⟩

theorem known_elect (σ : Hb) (h : NodesWF σ) (now : Nat → Int) (us : List HbNode)
    (hr : refreshAll env cfg self now σ.pings (σ.nodes.map (·.2)) = some us) (n : HbNode) :
    n ∈ (σ.elect env cfg us).known ↔ n ∈ us := by
  unfold Hb.known
  rw [elect_nodes]
  exact mem_storeAll h.uniq h.keyed (refreshAll_spec hr).1 n

/-- **C26 (ids below 2^63).** After every heartbeat but the first, in every history: the leader is the
oldest healthy node, among the nodes as just classified. The missing case is `C26_big_ids_refuted`. -/
theorem C26_leader_partial (single : Bool) (ops : List HbOp) (now : Nat → Int)
    (hticked : (Hb.run env cfg self single ops).ticked = true)
    (hself : ∃ n ∈ (Hb.run env cfg self single ops).known, n.id = self)
    (hids : ∀ n ∈ (Hb.run env cfg self single ops).known, n.id < 2 ^ 63)
    (hok : (Hb.run env cfg self single (ops ++ [.tick now])).crashed = false) :
    ∃ l, leaderOf (Hb.run env cfg self single (ops ++ [.tick now])).cell = some l ∧
      IsOldest env (Hb.run env cfg self single (ops ++ [.tick now])).known l := by
  have hwf := NodesWF.run (env := env) (cfg := cfg) (self := self) single ops
  rw [hbrun_snoc] at hok ⊢
  generalize Hb.run env cfg self single ops = σ at *
  simp only [Hb.step] at hok ⊢
  have hc : σ.crashed = false := by
    cases hcr : σ.crashed with
    | false => rfl
    | true => simp [hcr] at hok
  simp only [hc, Bool.false_eq_true, if_false] at hok ⊢
  rcases tick_cases env cfg self σ now with h | ⟨us, hr, he⟩
  · rw [h] at hok; cases hok
  · rw [he]
    obtain ⟨h1, h2, h3⟩ := refreshAll_spec hr
    obtain ⟨n, hn, hns⟩ := hself
    obtain ⟨u, hu, hur⟩ := h3 n hn
    have hh : u.status = .healthy := by
      simp only [refresh, hns, if_true, Option.some.injEq] at hur
      rw [← hur]
    rcases Option.eq_none_or_eq_some (oldestHealthy env us) with ho | ⟨l, ho⟩
    · exact absurd hh (oldest_none ho u hu)
    · have hio := oldest_some ho
      refine ⟨l, ?_, ?_⟩
      · apply elect_leader σ us hticked l ho
        obtain ⟨a, ha, rfl, _, _⟩ := hio
        obtain ⟨m, hm, hmr⟩ := h2 a ha
        rw [(refresh_id hmr).1]
        exact hids m hm
      · exact (IsOldest.congr (fun n => known_elect env cfg self σ hwf now us hr n)).2 hio

/-- **C26.** The choice depends on the nodes only, not on the order in which they are listed. -/
theorem C26_order_irrelevant (ns ns' : List HbNode) (h : ns.Perm ns') :
    oldestHealthy env ns = oldestHealthy env ns' := by
  rcases Option.eq_none_or_eq_some (oldestHealthy env ns') with h' | ⟨l, h'⟩
  · rw [h']
    rcases Option.eq_none_or_eq_some (oldestHealthy env ns) with h'' | ⟨l, h''⟩
    · exact h''
    · obtain ⟨a, ha, _, hs, _⟩ := oldest_some h''
      exact absurd hs (oldest_none h' a (h.mem_iff.1 ha))
  · rw [h', oldest_iff]
    exact (IsOldest.congr (fun n => h.mem_iff)).2 (oldest_some h')

/-- **C26.** Two nodes that agree on which nodes are healthy and when those started agree on the
leader, whatever else they know. -/
theorem C26_agree (ns ns' : List HbNode) (l l' : Nat)
    (hsame : ∀ id s, (∃ n ∈ ns, n.id = id ∧ n.startedAt = s ∧ n.status = .healthy) ↔
      (∃ n ∈ ns', n.id = id ∧ n.startedAt = s ∧ n.status = .healthy))
    (h : IsOldest env ns l) (h' : IsOldest env ns' l') : l = l' := by
  obtain ⟨a, ha, rfl, hs, hm⟩ := h
  obtain ⟨b, hb, rfl, hs', hm'⟩ := h'
  obtain ⟨a', ha', hi, hst, hss⟩ := (hsame a.id a.startedAt).1 ⟨a, ha, rfl, rfl, hs⟩
  obtain ⟨b', hb', hi', hst', hss'⟩ := (hsame b.id b.startedAt).2 ⟨b, hb, rfl, rfl, hs'⟩
  have h1 := hm b' hb' hss'
  have h2 := hm' a' ha' hss
  simp only [started, hst, hst', hi, hi'] at h1 h2
  omega

/-- **C26.** Whenever a tick announces a leader, that node is healthy according to that tick. -/
theorem C26_never_unhealthy (single : Bool) (ops : List HbOp) (now : Nat → Int) (l : Nat)
    (es : List HbEvent)
    (h : (Hb.run env cfg self single (ops ++ [.tick now])).events =
      (Hb.run env cfg self single ops).events ++ es) (hl : .leaderChanged l ∈ es) :
    ∃ n ∈ (Hb.run env cfg self single (ops ++ [.tick now])).known, n.id = l ∧ n.status = .healthy := by
  have hwf := NodesWF.run (env := env) (cfg := cfg) (self := self) single ops
  rw [hbrun_snoc] at h ⊢
  generalize Hb.run env cfg self single ops = σ at *
  simp only [Hb.step] at h ⊢
  cases hc : σ.crashed with
  | true =>
    simp only [hc, if_true] at h
    have : es = [] := by simpa using h
    simp [this] at hl
  | false =>
    simp only [hc, Bool.false_eq_true, if_false] at h ⊢
    unfold Hb.tick at h ⊢
    split at h
    · simp at h; simp [h] at hl
    · rename_i us hr
      have key : IsOldest env us l := by
        unfold Hb.elect at h
        simp only at h
        split at h
        · simp at h; simp [h] at hl
        · rename_i x hx
          have hio := oldest_some (pickNew_some hx).2.1
          have : l = x := by
            simp only [Hb.updateLeader] at h
            split at h
            · simp only [Hb.memberUp, List.append_assoc, List.append_cancel_left_eq] at h
              subst h; simpa using hl
            · simp only [List.append_cancel_left_eq] at h
              subst h; simpa using hl
          rw [this]; exact hio
      obtain ⟨a, ha, hid, hs, _⟩ := key
      exact ⟨a, (known_elect env cfg self σ hwf now us hr a).2 ha, hid, hs⟩

/-- **C26.** Everybody waiting for the next leader is answered exactly once, in order. -/
theorem C26_waiters (single : Bool) (ops : List HbOp) :
    (Hb.run env cfg self single ops).crashed = false →
    (Hb.run env cfg self single ops).answered.map (·.1) ++ (Hb.run env cfg self single ops).waiting =
      ops.filterMap fun | .onLeader w => some w | _ => none := by
  have helect : ∀ (τ : Hb) us, (τ.elect env cfg us).answered.map (·.1) ++ (τ.elect env cfg us).waiting =
      τ.answered.map (·.1) ++ τ.waiting := by
    intro τ us
    have hul : ∀ (ρ : Hb) l, (ρ.updateLeader l).answered.map (·.1) ++ (ρ.updateLeader l).waiting =
        ρ.answered.map (·.1) ++ ρ.waiting := by
      intro ρ l; simp [Hb.updateLeader, Function.comp_def]
    unfold Hb.elect
    simp only
    split
    · rfl
    · rw [hul]; split <;> rfl
  have htick : ∀ (τ : Hb) now, (τ.tick env cfg self now).answered.map (·.1) ++
      (τ.tick env cfg self now).waiting = τ.answered.map (·.1) ++ τ.waiting := by
    intro τ now
    unfold Hb.tick
    split
    · rfl
    · exact helect _ _
  have hcr : ∀ (τ : Hb) op, (τ.step env cfg self op).crashed = false → τ.crashed = false := by
    intro τ op h
    cases hc : τ.crashed with
    | false => rfl
    | true => cases op <;> simp [Hb.step, hc] at h
  induction ops using snoc_induction with
  | nil => intro _; rfl
  | snoc ops op ih =>
    rw [hbrun_snoc]
    intro h
    have hc := hcr _ _ h
    have := ih hc
    rw [List.filterMap_append, ← this]
    generalize Hb.run env cfg self single ops = σ at *
    cases op with
    | learn id s => simp [Hb.step]
    | ping id p => simp [Hb.step, hc]
    | onLeader w => simp [Hb.step, hc]
    | tick now => simp [Hb.step, hc, htick]
    | nodeTerminated id now => simp [Hb.step, hc, htick]

/-- **C26 refuted (large ids).** A leader whose id is 2^63 or more - half of the ids drawn by default -
is stored as a negative number, and read back as "no leader". -/
theorem C26_big_ids_refuted (σ : Hb) (l : Nat) (h : 2 ^ 63 ≤ l) (h' : l < 2 ^ 64) :
    leaderOf (σ.updateLeader l).cell = none := by
  have h1 : (σ.updateLeader l).cell = (l : Int) - 2 ^ 64 := by
    show asI64 l = _
    unfold asI64
    rw [if_neg (by omega)]
  rw [h1]
  unfold leaderOf
  rw [if_neg (by omega)]

/-- every further tick announces such a leader anew. -/
theorem C26_big_ids_reannounced (σ : Hb) (us : List HbNode) (l : Nat) (ht : σ.ticked = true)
    (hup : σ.up = true) (hl : IsOldest env us l) (hnone : leaderOf σ.cell = none) :
    (σ.elect env cfg us).events = σ.events ++ [.leaderChanged l] := by
  have ho := (oldest_iff us l).2 hl
  simp [Hb.elect, Hb.pickNew, ht, ho, newLeader, hnone, hup, Hb.updateLeader]

/-! ### C27 -/

/-- **C27.** A node that has answered is classified by the time since its answer and by the latency,
exactly: terminated from the termination timeout on, else unhealthy if it is too long ago or took too
long, else healthy. -/
theorem C27_answered (now : Int) (prev : NodeStatus) (lh : Option Int) (latency : Nat) (at_ : Int)
    (hclock : at_ ≤ now) (s : NodeStatus)
    (h : nodeStatus env cfg now prev lh (some (.ok latency at_)) = some s) :
    (s = .terminated ↔ (cfg.terminated : Int) ≤ now - at_) ∧
    (s = .healthy ↔ now - at_ < cfg.terminated ∧ now - at_ < cfg.unhealthy ∧ latency ≤ cfg.unhealthy) ∧
    (s ≠ .joining) := by
  simp only [nodeStatus, if_neg (show ¬ now < at_ by omega)] at h
  split at h
  · cases h; exact ⟨by simpa using ‹_›, by simp; omega, by simp⟩
  · split at h
    · cases h; exact ⟨by simp; omega, by simp; omega, by simp⟩
    · split at h
      · cases h; exact ⟨by simp; omega, by simp; omega, by simp⟩
      · cases h; exact ⟨by simp; omega, by simp; omega, by simp⟩

/-- **C27.** Without any ping result the node is joining, unless it has been reported terminated. -/
theorem C27_unpinged (now : Int) (prev : NodeStatus) (lh : Option Int) :
    nodeStatus env cfg now prev lh none =
      some (if prev = .terminated then .terminated else .joining) := by
  simp only [nodeStatus]; split <;> rfl

/-- **C27.** A node whose connection is lost is terminated. -/
theorem C27_disconnected (now : Int) (prev : NodeStatus) (lh : Option Int) :
    nodeStatus env cfg now prev lh (some .disconnected) = some .terminated := rfl

/-- **C27.** The node itself is always healthy in its own view. -/
theorem C27_self (now : Int) (pings : Assoc Nat Ping) (n : HbNode) (h : n.id = self) :
    ∃ u, refresh env cfg self now pings n = some u ∧ u.status = .healthy := by
  simp [refresh, h]

/-- The full claim for missed pings: a node heard of within the termination timeout is not terminated
by a missed ping, one not heard of for longer is. -/
def C27_missed_full : Prop :=
  ∀ (env : Chrono) (cfg : HbConfig) (now : Int) (prev : NodeStatus) (h : Int) (s : NodeStatus),
    nodeStatus env cfg now prev (some h) (some .timeout) = some s → h ≤ now →
    (s = .terminated ↔ (cfg.terminated : Int) < now - h)

/-- **C27, what really happens.** It is exactly the other way round: the test is inverted. -/
theorem C27_missed_inverted (now : Int) (prev : NodeStatus) (h : Int) (s : NodeStatus)
    (hs : nodeStatus env cfg now prev (some h) (some .timeout) = some s) :
    (s = .terminated ↔ now - h ≤ cfg.terminated) ∧ (s = .unhealthy ↔ (cfg.terminated : Int) < now - h) := by
  simp only [nodeStatus] at hs
  split at hs
  · split at hs
    · cases hs; exact ⟨by simp; omega, by simp; omega⟩
    · cases hs; exact ⟨by simp; omega, by simp; omega⟩
  · cases hs

/-- **C27.** An answered ping is remembered as the last sign of life, and anything else leaves the last one
alone. -/
theorem C27_last_heartbeat (now : Int) (n u : HbNode) (p : Option Ping)
    (h : updateNode env cfg now n p = some u) :
    (∀ latency at_, p = some (.ok latency at_) → u.lastHeartbeat = some at_ ∧ u.latency = some latency) ∧
    ((∀ latency at_, p ≠ some (.ok latency at_)) → u.lastHeartbeat = n.lastHeartbeat) ∧
    u.id = n.id ∧ u.startedAt = n.startedAt := by
  unfold updateNode at h
  obtain ⟨s, _, rfl⟩ := Option.map_eq_some_iff.1 h
  cases p with
  | none => simp [notePing]
  | some p => cases p <;> simp [notePing]

/-- **C27, over two rounds.** A ping answered at `at_`, then one missed when it is looked at at `now'`: the node
is terminated exactly if the answer is recent. -/
theorem C27_missed_after_answer (now now' : Int) (n u u' : HbNode) (latency : Nat) (at_ : Int)
    (h : updateNode env cfg now n (some (.ok latency at_)) = some u)
    (h' : updateNode env cfg now' u (some .timeout) = some u') :
    (u'.status = .terminated ↔ now' - at_ ≤ cfg.terminated) ∧ u'.lastHeartbeat = some at_ := by
  have h1 := ((C27_last_heartbeat (env := env) (cfg := cfg) now n u _ h).1 latency at_ rfl).1
  have h2 := (C27_last_heartbeat (env := env) (cfg := cfg) now' u u' _ h').2.1 (by simp)
  refine ⟨?_, by rw [h2, h1]⟩
  unfold updateNode at h'
  obtain ⟨s, hs, rfl⟩ := Option.map_eq_some_iff.1 h'
  simp only [notePing, h1] at hs
  exact (C27_missed_inverted (env := env) (cfg := cfg) now' _ at_ s hs).1

/-- **C27, the node itself.** After every heartbeat that is not a panic, the node itself is healthy in its registry and was heard
of at the time of that heartbeat, whatever was pinged or reported before. -/
theorem C27_self_seen (single : Bool) (ops : List HbOp) (now : Nat → Int)
    (hok : (Hb.run env cfg self single (ops ++ [.tick now])).crashed = false) (n : HbNode)
    (hn : n ∈ (Hb.run env cfg self single (ops ++ [.tick now])).known) (hid : n.id = self) :
    n.status = .healthy ∧ n.lastHeartbeat = some (now self) := by
  have hwf := NodesWF.run (env := env) (cfg := cfg) (self := self) single ops
  rw [hbrun_snoc] at hok hn
  generalize Hb.run env cfg self single ops = σ at *
  simp only [Hb.step] at hok hn
  have hc : σ.crashed = false := by
    cases hcr : σ.crashed with
    | false => rfl
    | true => simp [hcr] at hok
  simp only [hc, Bool.false_eq_true, if_false] at hok hn
  rcases tick_cases env cfg self σ now with h | ⟨us, hr, he⟩
  · rw [h] at hok; cases hok
  · rw [he, known_elect env cfg self σ hwf now us hr n] at hn
    obtain ⟨m, hm, hmr⟩ := (refreshAll_spec hr).2.1 n hn
    have hmid : m.id = self := by rw [← (refresh_id hmr).1]; exact hid
    simp only [refresh, hmid, if_true, Option.some.injEq] at hmr
    subst hmr
    exact ⟨rfl, rfl⟩

example : ((Hb.run ⟨0, fun _ _ => true⟩ ⟨1500000000, 30000000000, none⟩ 1 false
    [.learn 1 none, .learn 2 none, .tick fun _ => 7]).nodes.get 1).map (fun n => (n.status, n.lastHeartbeat)) =
    some (.healthy, some 7) := by decide

/-- **C27 refuted.** With the default timeouts, a node heard of one second ago is terminated by one
missed ping. -/
theorem C27_missed_refuted : ¬ C27_missed_full := by
  intro h
  have := h ⟨0, fun _ _ => true⟩ ⟨1500000000, 30000000000, none⟩ 1000000000 .healthy 0 .terminated
    (by decide) (by decide)
  simp at this

/-- **C27 refuted (one failed ping, looked at twice).** The result of a ping is kept until the next
result comes; one failed ping makes the node unhealthy at one tick and terminated at the next, however
recent its last heartbeat. -/
theorem C27_error_twice_refuted (now now' : Int) (n : HbNode)
    (hprev : n.status = .healthy) :
    ∃ u u', updateNode env cfg now n (some .err) = some u ∧ u.status = .unhealthy ∧
      updateNode env cfg now' u (some .err) = some u' ∧ u'.status = .terminated ∧
      u'.lastHeartbeat = n.lastHeartbeat := by
  refine ⟨{ n with latency := none, status := .unhealthy },
    { n with latency := none, status := .terminated }, ?_, rfl, ?_, rfl, rfl⟩ <;>
    simp [updateNode, nodeStatus, notePing, hprev]

/-- **C27 refuted (clock going back).** If the clock is set back behind the last answer of any node, the
heartbeat actor panics at the next tick and works no more. -/
theorem C27_clock_back_refuted (σ : Hb) (now : Nat → Int) (n : HbNode) (latency : Nat) (at_ : Int)
    (hc : σ.crashed = false) (hn : n ∈ σ.known) (hother : n.id ≠ self)
    (hp : σ.pings.get n.id = some (.ok latency at_)) (hback : now n.id < at_) (ops : List HbOp) :
    (ops.foldl (Hb.step env cfg self) (σ.step env cfg self (.tick now))).crashed = true := by
  have h0 : refreshAll env cfg self now σ.pings (σ.nodes.map (·.2)) = none := by
    rcases Option.eq_none_or_eq_some (refreshAll env cfg self now σ.pings (σ.nodes.map (·.2))) with h | ⟨us, h⟩
    · exact h
    · obtain ⟨u, _, hu⟩ := (refreshAll_spec h).2.2 n hn
      simp [refresh, hother, hp, updateNode, nodeStatus, hback] at hu
  have h1 : (σ.step env cfg self (.tick now)).crashed = true := by
    simp [Hb.step, hc, Hb.tick, h0]
  generalize σ.step env cfg self (.tick now) = τ at *
  induction ops generalizing τ with
  | nil => exact h1
  | cons op ops ih =>
    apply ih
    cases op <;> simp [Hb.step, h1]

/-! ### C28 -/

def isUp : HbEvent → Bool
  | .memberUp _ _ => true
  | _ => false

/-- what a step adds to the events, and the flag. -/
theorem up_step (σ : Hb) (op : HbOp) :
    ∃ es, (σ.step env cfg self op).events = σ.events ++ es ∧
      (es.countP isUp = if (σ.step env cfg self op).up && !σ.up then 1 else 0) ∧
      (σ.up = true → (σ.step env cfg self op).up = true) := by
  have htick : ∀ (τ : Hb) now, ∃ es, (τ.tick env cfg self now).events = τ.events ++ es ∧
      (es.countP isUp = if (τ.tick env cfg self now).up && !τ.up then 1 else 0) ∧
      (τ.up = true → (τ.tick env cfg self now).up = true) := by
    intro τ now
    unfold Hb.tick
    split
    · exact ⟨[], by simp, by simp, fun h => h⟩
    · rename_i us _
      unfold Hb.elect
      rcases Option.eq_none_or_eq_some (τ.pickNew env us) with hp | ⟨l, hp⟩
      · simp only [hp]
        exact ⟨[], by simp, by simp, fun h => h⟩
      · simp only [hp]
        split
        · rename_i h
          simp only [Bool.and_eq_true, Bool.not_eq_true'] at h
          refine ⟨[.memberUp l ((isort (hbLe env) us).map (·.id)), .leaderChanged l],
            by simp [Hb.updateLeader, Hb.memberUp], ?_, ?_⟩
          · simp [Hb.updateLeader, Hb.memberUp, h.1]; rfl
          · simp [h.1]
        · exact ⟨[.leaderChanged l], by simp [Hb.updateLeader], by simp [Hb.updateLeader, isUp],
            fun h => h⟩
  cases op with
  | learn id s => exact ⟨[], by simp [Hb.step], by simp [Hb.step], fun h => h⟩
  | ping id p =>
    simp only [Hb.step]
    split <;> exact ⟨[], by simp, by simp, fun h => h⟩
  | onLeader w =>
    simp only [Hb.step]
    split <;> exact ⟨[], by simp, by simp, fun h => h⟩
  | tick now =>
    simp only [Hb.step]
    split
    · exact ⟨[], by simp, by simp, fun h => h⟩
    · exact htick _ _
  | nodeTerminated id now =>
    simp only [Hb.step]
    split
    · exact ⟨[], by simp, by simp, fun h => h⟩
    · exact htick _ _

/-- **C28.** The member-up notification is published at most once, in every history. -/
theorem C28_at_most_once (single : Bool) (ops : List HbOp) :
    (Hb.run env cfg self single ops).events.countP isUp ≤ 1 := by
  suffices h : (Hb.run env cfg self single ops).events.countP isUp =
      if (Hb.run env cfg self single ops).up then 1 else 0 by
    rw [h]; split <;> simp
  induction ops using snoc_induction with
  | nil => rfl
  | snoc ops op ih =>
    rw [hbrun_snoc]
    obtain ⟨es, h1, h2, h3⟩ := up_step env cfg self (Hb.run env cfg self single ops) op
    rw [h1, List.countP_append, ih, h2]
    generalize Hb.run env cfg self single ops = σ at *
    cases hu : σ.up with
    | false => simp
    | true => simp [h3 hu]

/-- **C28 (minimum of at most one).** The members told are at least the minimum. The other minimums are
`C28_refuted`. -/
theorem C28_members_partial (single : Bool) (ops : List HbOp) (hmin : cfg.minSize.getD 0 ≤ 1) (l : Nat)
    (ms : List Nat) (h : .memberUp l ms ∈ (Hb.run env cfg self single ops).events) :
    cfg.minSize.getD 0 ≤ ms.length ∧ l ∈ ms := by
  suffices hl : ∀ e ∈ (Hb.run env cfg self single ops).events, ∀ l ms, e = .memberUp l ms → l ∈ ms by
    have := hl _ h l ms rfl
    have : 0 < ms.length := List.length_pos_of_mem this
    exact ⟨by omega, by assumption⟩
  clear h
  have htick : ∀ (τ : Hb) now, (∀ e ∈ τ.events, ∀ l ms, e = .memberUp l ms → l ∈ ms) →
      ∀ e ∈ (τ.tick env cfg self now).events, ∀ l ms, e = .memberUp l ms → l ∈ ms := by
    intro τ now hτ
    unfold Hb.tick
    split
    · exact hτ
    · rename_i us _
      unfold Hb.elect
      simp only
      split
      · exact hτ
      · rename_i l hnew
        have hold : oldestHealthy env us = some l := (pickNew_some hnew).2.1
        obtain ⟨a, ha, hid, _, _⟩ := oldest_some hold
        have hin : l ∈ (isort (hbLe env) us).map (·.id) :=
          List.mem_map.2 ⟨a, (mem_sort us a).2 ha, hid⟩
        split
        · intro e he l' ms' heq
          subst heq
          simp only [Hb.updateLeader, Hb.memberUp, List.mem_append, List.mem_singleton] at he
          rcases he with (he | he) | he
          · exact hτ _ he _ _ rfl
          · cases he; exact hin
          · cases he
        · intro e he l' ms' heq
          subst heq
          simp only [Hb.updateLeader, List.mem_append, List.mem_singleton] at he
          rcases he with he | he
          · exact hτ _ he _ _ rfl
          · cases he
  induction ops using snoc_induction with
  | nil => intro e he; simp [Hb.run, Hb.init] at he
  | snoc ops op ih =>
    rw [hbrun_snoc]
    generalize Hb.run env cfg self single ops = σ at *
    cases op with
    | learn id s => exact ih
    | ping id p => simp only [Hb.step]; split <;> exact ih
    | onLeader w => simp only [Hb.step]; split <;> exact ih
    | tick now => simp only [Hb.step]; split; exact ih; exact htick _ _ ih
    | nodeTerminated id now => simp only [Hb.step]; split; exact ih; exact htick _ _ ih

/-- The full claim. -/
def C28_full : Prop :=
  ∀ (env : Chrono) (cfg : HbConfig) (self : Nat) (single : Bool) (ops : List HbOp) (l : Nat)
    (ms : List Nat), .memberUp l ms ∈ (Hb.run env cfg self single ops).events →
    cfg.minSize.getD 0 ≤ ms.length

/-- **C28 refuted.** A node that is to wait for three members announces the cluster up at its second
heartbeat, all alone: the comparison is the wrong way round. -/
theorem C28_refuted : ¬ C28_full := by
  intro h
  have := h ⟨0, fun _ _ => true⟩ ⟨1, 2, some 3⟩ 1 false
    [.learn 1 none, .tick fun _ => 0, .tick fun _ => 1] 1 [1] (by decide)
  simp at this

/-- **C28, the other side.** A node is announced up only in a tick in which the leader changes, and only
if at most the configured minimum of other nodes have been pinged. -/
theorem C28_published_only (σ : Hb) (us : List HbNode) (h : σ.up = false)
    (h' : (σ.elect env cfg us).up = true) :
    (∃ l, oldestHealthy env us = some l ∧ leaderOf σ.cell ≠ some l) ∧
      ∀ n, cfg.minSize = some n → σ.pings.length ≤ n := by
  unfold Hb.elect at h'
  simp only at h'
  split at h'
  · simp [h] at h'
  · rename_i l hnew
    obtain ⟨_, h2, h3⟩ := pickNew_some hnew
    refine ⟨⟨l, h2, h3⟩, ?_⟩
    intro n hn
    split at h'
    · rename_i hm
      simp [minReached, hn] at hm
      exact hm.2
    · simp [h, Hb.updateLeader] at h'

/-- **C28, exactly.** When a tick announces the cluster: it was announced already, or after the first tick
the oldest healthy node is not the present leader and either no minimum is configured or at most that many
other nodes have been pinged. -/
theorem C28_announced_iff (σ : Hb) (us : List HbNode) :
    (σ.elect env cfg us).up = true ↔ σ.up = true ∨
      (σ.ticked = true ∧ (∃ l, oldestHealthy env us = some l ∧ leaderOf σ.cell ≠ some l) ∧
        ∀ n, cfg.minSize = some n → σ.pings.length ≤ n) := by
  have hmin : minReached cfg σ.pings.length = true ↔ ∀ n, cfg.minSize = some n → σ.pings.length ≤ n := by
    unfold minReached
    cases cfg.minSize <;> simp
  have hpick : ∀ l, σ.pickNew env us = some l ↔
      σ.ticked = true ∧ oldestHealthy env us = some l ∧ leaderOf σ.cell ≠ some l := by
    intro l
    refine ⟨fun h => pickNew_some h, ?_⟩
    rintro ⟨h1, h2, h3⟩
    simp [Hb.pickNew, newLeader, h1, h2, Ne.symm h3]
  unfold Hb.elect
  simp only
  cases hn : σ.pickNew env us with
  | none =>
    simp only
    refine ⟨Or.inl, ?_⟩
    rintro (h | ⟨h1, ⟨l, h2, h3⟩, _⟩)
    · exact h
    · rw [(hpick l).2 ⟨h1, h2, h3⟩] at hn; cases hn
  | some l =>
    obtain ⟨h1, h2, h3⟩ := (hpick l).1 hn
    simp only [Hb.updateLeader]
    by_cases hu : σ.up = true
    · simp [hu]
    · by_cases hm : minReached cfg σ.pings.length = true
      · have : σ.up = false := by simpa using hu
        simp only [this, hm, Bool.not_false, Bool.and_self, if_true, Hb.memberUp, true_iff]
        exact Or.inr ⟨h1, ⟨l, h2, h3⟩, hmin.1 hm⟩
      · have h4 : σ.up = false := by simpa using hu
        have h5 : minReached cfg σ.pings.length = false := by simpa using hm
        simp only [h4, h5, Bool.not_false, Bool.and_false, Bool.false_eq_true, if_false, false_or, false_iff]
        rintro ⟨_, _, h6⟩
        exact hm (hmin.2 h6)

example : (Hb.run ⟨0, fun _ _ => true⟩ ⟨10, 20, none⟩ 1 false
    [.learn 1 none, .tick fun _ => 0, .tick fun _ => 0]).up = true := by decide

/-- a state that a tick leaves as it is stays so. -/
theorem tick_fix (σ : Hb) (now : Nat → Int) (h : σ.step env cfg self (.tick now) = σ) (k : Nat) :
    (List.replicate k (HbOp.tick now)).foldl (Hb.step env cfg self) σ = σ := by
  induction k with
  | zero => rfl
  | succ k ih => rw [List.replicate_succ, List.foldl_cons, h, ih]

/-- four nodes, all answering, the leader chosen. -/
def largeCluster : List HbOp :=
  [.learn 1 (some 1), .learn 2 (some 2), .learn 3 (some 3), .learn 4 (some 4), .ping 2 (.ok 1 0),
   .ping 3 (.ok 1 0), .ping 4 (.ok 1 0), .tick fun _ => 0, .tick fun _ => 0]

/-- **C28 refuted (a cluster larger than its minimum).** Four nodes, minimum two: the leader is chosen
without the cluster being announced, and no later heartbeat announces it. -/
theorem C28_large_cluster_refuted (k : Nat) :
    let σ := Hb.run ⟨0, fun _ _ => true⟩ ⟨10, 20, some 2⟩ 1 false
      (largeCluster ++ List.replicate k (.tick fun _ => 0))
    leaderOf σ.cell = some 1 ∧ σ.up = false ∧ σ.events.countP isUp = 0 := by
  simp only [Hb.run, List.foldl_append]
  rw [tick_fix _ _ _ _ _ (by decide) k]
  decide

/-- **C28 refuted (`single_node_cluster`).** A single-node cluster starts with itself as leader, so its
leader never changes, and the cluster is never announced. -/
theorem C28_single_node_refuted (k : Nat) :
    let σ := Hb.run ⟨0, fun _ _ => true⟩ ⟨10, 20, none⟩ 1 true
      ([.learn 1 (some 1), .tick fun _ => 0, .tick fun _ => 0] ++ List.replicate k (.tick fun _ => 0))
    leaderOf σ.cell = some 1 ∧ σ.up = false ∧ σ.events = [] := by
  simp only [Hb.run, List.foldl_append]
  rw [tick_fix _ _ _ _ _ (by decide) k]
  decide

/-! Concrete cases. -/
example : oldestHealthy ⟨0, fun _ _ => true⟩ [⟨7, some 5, .healthy, none, none⟩, ⟨3, some 5, .healthy, none, none⟩,
    ⟨1, some 2, .unhealthy, none, none⟩] = some 3 := by decide
example : leaderOf (Hb.run ⟨0, fun _ _ => true⟩ ⟨10, 20, some 2⟩ 1 false largeCluster).cell = some 1 ∧
    (Hb.run ⟨0, fun _ _ => true⟩ ⟨10, 20, some 2⟩ 1 false largeCluster).ticked = true ∧
    (Hb.run ⟨0, fun _ _ => true⟩ ⟨10, 20, some 2⟩ 1 false largeCluster).crashed = false := by
  decide
example : (Hb.run ⟨0, fun _ _ => true⟩ ⟨10, 20, none⟩ (2 ^ 63) false
    [.learn (2 ^ 63) none, .tick fun _ => 0, .tick fun _ => 0, .tick fun _ => 0]).events =
    [.memberUp (2 ^ 63) [2 ^ 63], .leaderChanged (2 ^ 63), .leaderChanged (2 ^ 63)] := by decide
example : nodeStatus ⟨0, fun _ _ => true⟩ ⟨1500, 30000, none⟩ 2000 .healthy (some 1000)
    (some (.ok 10 1000)) = some .healthy := by decide

section
variable {env : Chrono} {cfg : HbConfig} {self : Nat}
/-- a leader announced at the end of a tick is the oldest healthy node of that tick. -/
theorem elect_announces (env : Chrono) (cfg : HbConfig) (σ : Hb) (us : List HbNode) (l : Nat) (es : List HbEvent)
    (h : (σ.elect env cfg us).events = σ.events ++ es) (hl : .leaderChanged l ∈ es) : IsOldest env us l := by
  unfold Hb.elect at h
  simp only at h
  split at h
  · simp at h; simp [h] at hl
  · rename_i x hx
    have hio := oldest_some (pickNew_some hx).2.1
    have : l = x := by
      simp only [Hb.updateLeader] at h
      split at h
      · simp only [Hb.memberUp, List.append_assoc, List.append_cancel_left_eq] at h
        subst h; simpa using hl
      · simp only [List.append_cancel_left_eq] at h
        subst h; simpa using hl
    rw [this]; exact hio

/-- **C27 (terminated by notice).** When the node is told that another node has terminated, that node is
terminated in its view, and is not chosen as leader. -/
theorem C27_notice (single : Bool) (ops : List HbOp) (id : Nat) (now : Nat → Int) (hid : id ≠ self)
    (hok : (Hb.run env cfg self single (ops ++ [.nodeTerminated id now])).crashed = false) (n : HbNode)
    (hn : n ∈ (Hb.run env cfg self single (ops ++ [.nodeTerminated id now])).known) (he : n.id = id) :
    n.status = .terminated ∧
      ∀ l es, (Hb.run env cfg self single (ops ++ [.nodeTerminated id now])).events =
        (Hb.run env cfg self single ops).events ++ es → .leaderChanged l ∈ es → l ≠ id := by
  have hwf := NodesWF.run (env := env) (cfg := cfg) (self := self) single ops
  rw [hbrun_snoc] at hok hn ⊢
  generalize Hb.run env cfg self single ops = σ at hok hn hwf ⊢
  have hcr : σ.crashed = false := by
    cases hc : σ.crashed with
    | false => rfl
    | true => simp [Hb.step, hc] at hok
  have hstep : σ.step env cfg self (.nodeTerminated id now) = Hb.tick env cfg self now { σ with
      nodes := σ.nodes.update id fun n => { n with status := .terminated }
      pings := σ.pings.erase id } := by
    show (if σ.crashed then σ else _) = _
    rw [if_neg (by simp [hcr])]
  rw [hstep] at hok hn ⊢
  have hwf' : NodesWF { σ with
      nodes := σ.nodes.update id fun n => { n with status := .terminated }
      pings := σ.pings.erase id } := ⟨by have h := Assoc.Uniq.update hwf.uniq id (fun n => { n with status := .terminated }); exact h, by
    intro p hp
    obtain ⟨q, hq, rfl⟩ := List.mem_map.1 hp
    have := hwf.keyed q hq
    split <;> simpa using this⟩
  have hst : ∀ q ∈ σ.nodes.update id (fun n => { n with status := .terminated }), q.2.id = id →
      q.2.status = .terminated := by
    intro q hq hqi
    obtain ⟨r, hr, rfl⟩ := List.mem_map.1 hq
    by_cases e : r.1 = id
    · simp [e]
    · exfalso
      simp only [e, if_false] at hqi
      exact e (by rw [← hwf.keyed r hr]; exact hqi)
  have hpg : (σ.pings.erase id).get id = none := by simp [Assoc.get_erase]
  generalize hτ : ({ σ with
      nodes := σ.nodes.update id fun n => { n with status := .terminated }
      pings := σ.pings.erase id } : Hb) = τ at *
  have hev : σ.events = τ.events := by rw [← hτ]
  have hst' : ∀ q ∈ τ.nodes, q.2.id = id → q.2.status = .terminated := by rw [← hτ]; exact hst
  have hpg' : τ.pings.get id = none := by rw [← hτ]; exact hpg
  rcases tick_cases env cfg self τ now with hc | ⟨us, hr, ht⟩
  · rw [hc] at hok; cases hok
  · have hus : ∀ u ∈ us, u.id = id → u.status = .terminated := by
      intro u hu hui
      obtain ⟨m, hm, hre⟩ := (refreshAll_spec hr).2.1 u hu
      have hmi : m.id = id := by rw [← hui]; exact (refresh_id hre).1.symm
      obtain ⟨q, hq, rfl⟩ := List.mem_map.1 hm
      have hs := hst' q hq hmi
      unfold refresh at hre
      rw [if_neg (by rw [hmi]; exact hid), hmi, hpg'] at hre
      simp [updateNode, notePing, nodeStatus, hs] at hre
      rw [← hre]
    rw [ht] at hn ⊢
    refine ⟨hus n ((known_elect env cfg self τ hwf' now us hr n).1 hn) he, ?_⟩
    intro l es h hl hlid
    rw [hev] at h
    obtain ⟨a, ha, hai, hah, _⟩ := elect_announces env cfg τ us l es h hl
    have := hus a ha (by rw [hai, hlid])
    rw [this] at hah
    cases hah
end

end Verif.Remote
