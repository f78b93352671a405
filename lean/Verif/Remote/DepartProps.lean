import Verif.Remote.DepartModel
import Verif.Remote.CodecProps
import Verif.Remote.HeartbeatProps

/-!
# C86: a node that leaves in good order is out at once and stays out
-/

namespace Verif.Remote
open Verif.Proto

/-! ## Specification -/

/-- the operation says something about the health of node `b`. -/
def HbOp.about (b : Nat) : HbOp → Bool
  | .ping id _ => decide (id = b)
  | .nodeTerminated id _ => decide (id = b)
  | _ => false

/-- the last thing heard of the health of `b` is `op`. -/
def LastHeard (ops : List HbOp) (b : Nat) (op : HbOp) : Prop :=
  ∃ pre post, ops = pre ++ op :: post ∧ op.about b = true ∧ ∀ x ∈ post, x.about b = false

/-- the operation is an answered ping of `b`. -/
def HbOp.answers (b : Nat) : HbOp → Bool
  | .ping id (.ok _ _) => decide (id = b)
  | _ => false

/-- the operation includes a heartbeat. -/
def HbOp.beats : HbOp → Bool
  | .tick _ => true
  | .nodeTerminated _ _ => true
  | _ => false

/-! ## Lemmas -/

section
variable {env : Chrono} {cfg : HbConfig} {self : Nat}

theorem tick_pings (σ : Hb) (now : Nat → Int) : (σ.tick env cfg self now).pings = σ.pings := by
  unfold Hb.tick
  split
  · rfl
  · unfold Hb.elect
    simp only
    split
    · rfl
    · split <;> rfl

theorem tick_crash (σ : Hb) (now : Nat → Int) (h : (σ.tick env cfg self now).crashed = false) : σ.crashed = false := by
  rcases tick_cases env cfg self σ now with h' | ⟨us, -, he⟩
  · rw [h'] at h; cases h
  · rw [he, elect_crashed] at h; exact h

theorem step_crash (σ : Hb) (op : HbOp) (h : (σ.step env cfg self op).crashed = false) : σ.crashed = false := by
  cases hc : σ.crashed with
  | false => rfl
  | true => cases op <;> simp [Hb.step, hc] at h

/-- the entry for `b` among the pings is the last thing heard of it, if that was a ping. -/
theorem pings_last (single : Bool) (ops : List HbOp) (b : Nat) (p : Ping)
    (hok : (Hb.run env cfg self single ops).crashed = false) :
    (Hb.run env cfg self single ops).pings.get b = some p ↔ LastHeard ops b (.ping b p) := by
  induction ops using snoc_induction with
  | nil =>
    constructor
    · intro h; cases h
    · rintro ⟨pre, post, h, -⟩; simp at h
  | snoc ops op ih =>
    rw [hbrun_snoc] at hok ⊢
    have hc := step_crash _ op hok
    have ih := ih hc
    generalize Hb.run env cfg self single ops = σ at *
    have keep : op.about b = false → (LastHeard (ops ++ [op]) b (.ping b p) ↔ LastHeard ops b (.ping b p)) := by
      intro ha
      constructor
      · rintro ⟨pre, post, h, h1, h2⟩
        rcases List.eq_nil_or_concat post with rfl | ⟨post', x, rfl⟩
        · rw [List.append_inj_right' h rfl |> List.singleton_inj.1] at ha
          rw [h1] at ha; cases ha
        · rw [List.concat_eq_append, ← List.cons_append, ← List.append_assoc] at h
          have e1 := List.append_inj_left' h rfl
          exact ⟨pre, post', e1, h1, fun y hy => h2 y (by simp [hy])⟩
      · rintro ⟨pre, post, rfl, h1, h2⟩
        refine ⟨pre, post ++ [op], by simp, h1, ?_⟩
        intro x hx
        rcases List.mem_append.1 hx with hx | hx
        · exact h2 x hx
        · rw [List.mem_singleton.1 hx]; exact ha
    have last : op.about b = true → (LastHeard (ops ++ [op]) b (.ping b p) ↔ op = .ping b p) := by
      intro ha
      constructor
      · rintro ⟨pre, post, h, h1, h2⟩
        rcases List.eq_nil_or_concat post with rfl | ⟨post', x, rfl⟩
        · exact List.append_inj_right' h rfl |> List.singleton_inj.1
        · rw [List.concat_eq_append, ← List.cons_append, ← List.append_assoc] at h
          have e2 := List.append_inj_right' h rfl |> List.singleton_inj.1
          have := h2 x (by simp)
          rw [← e2, ha] at this
          cases this
      · rintro rfl
        exact ⟨ops, [], rfl, ha, by simp⟩
    cases op with
    | learn id s => rw [keep rfl, ← ih]; rfl
    | onLeader w =>
      rw [keep rfl, ← ih]
      simp [Hb.step, hc]
    | tick now =>
      rw [keep rfl, ← ih]
      simp only [Hb.step, hc, Bool.false_eq_true, if_false, tick_pings]
    | ping id q =>
      simp only [Hb.step, hc, Bool.false_eq_true, if_false, Assoc.get_insert]
      by_cases e : id = b
      · subst e
        rw [last (by simp [HbOp.about])]
        simp
      · rw [keep (by simpa [HbOp.about] using e), ← ih]
        simp [Ne.symm e, e]
    | nodeTerminated id now =>
      simp only [Hb.step, hc, Bool.false_eq_true, if_false, tick_pings, Assoc.get_erase]
      by_cases e : id = b
      · subst e
        rw [last (by simp [HbOp.about])]
        simp
      · rw [keep (by simpa [HbOp.about] using e), ← ih]
        simp [Ne.symm e, e]

/-- the nodes after a heartbeat that has not crashed are the refreshed ones. -/
theorem tick_known (σ : Hb) (hwf : NodesWF σ) (now : Nat → Int) (hok : (σ.tick env cfg self now).crashed = false) (n : HbNode) :
    n ∈ (σ.tick env cfg self now).known ↔ ∃ m ∈ σ.known, refresh env cfg self (now m.id) σ.pings m = some n := by
  rcases tick_cases env cfg self σ now with h | ⟨us, hr, he⟩
  · rw [h] at hok; cases hok
  · rw [he, known_elect env cfg self σ hwf now us hr]
    obtain ⟨-, h2, h3⟩ := refreshAll_spec hr
    constructor
    · intro hn; exact h2 n hn
    · rintro ⟨m, hm, h⟩
      obtain ⟨u, hu, hu'⟩ := h3 m hm
      rw [h] at hu'
      cases hu'
      exact hu

/-- the heartbeat part of an operation that has one, with the state just before it. -/
theorem beat_split (σ : Hb) (hwf : NodesWF σ) (op : HbOp) (hb : op.beats = true) (hc : σ.crashed = false) :
    ∃ τ now, σ.step env cfg self op = τ.tick env cfg self now ∧ NodesWF τ ∧ τ.crashed = false ∧ τ.ticked = σ.ticked ∧
      τ.cell = σ.cell ∧
      (∀ b, op.about b = false → τ.pings.get b = σ.pings.get b ∧ τ.nodes.get b = σ.nodes.get b) ∧
      (∀ b, op.about b = true → τ.pings.get b = none) ∧ (∀ k, (∃ n ∈ τ.known, n.id = k) ↔ ∃ n ∈ σ.known, n.id = k) := by
  cases op with
  | learn id s => cases hb
  | ping id p => cases hb
  | onLeader w => cases hb
  | tick now =>
    refine ⟨σ, now, by simp [Hb.step, hc], hwf, hc, rfl, rfl, fun b _ => ⟨rfl, rfl⟩, ?_, fun _ => Iff.rfl⟩
    intro b h; cases h
  | nodeTerminated id now =>
    refine ⟨{ σ with
      nodes := σ.nodes.update id fun n => { n with status := .terminated }
      pings := σ.pings.erase id }, now, by simp [Hb.step, hc], ?_, hc, rfl, rfl, ?_, ?_, ?_⟩
    · refine ⟨by simpa using hwf.uniq.update id _, ?_⟩
      intro p hp
      obtain ⟨q, hq, rfl⟩ := List.mem_map.1 hp
      have := hwf.keyed q hq
      split <;> simpa using this
    · intro b hb
      have hne : id ≠ b := by simpa [HbOp.about] using hb
      simp [Assoc.get_erase, Assoc.get_update, hne, Ne.symm hne]
    · intro b hb
      have : id = b := by simpa [HbOp.about] using hb
      subst this
      simp [Assoc.get_erase]
    · intro k
      simp only [Hb.known, List.mem_map, Assoc.update]
      constructor
      · rintro ⟨n, ⟨p, ⟨q, hq, rfl⟩, rfl⟩, rfl⟩
        refine ⟨q.2, ⟨q, hq, rfl⟩, ?_⟩
        split <;> rfl
      · rintro ⟨n, ⟨q, hq, rfl⟩, rfl⟩
        refine ⟨_, ⟨_, ⟨q, hq, rfl⟩, rfl⟩, ?_⟩
        split <;> rfl

/-- the leader after a heartbeat other than the first is a healthy node. -/
theorem tick_leader (σ : Hb) (hwf : NodesWF σ) (now : Nat → Int) (ht : σ.ticked = true)
    (hself : ∃ n ∈ σ.known, n.id = self) (hids : ∀ n ∈ σ.known, n.id < 2 ^ 63)
    (hok : (σ.tick env cfg self now).crashed = false) :
    ∃ n ∈ (σ.tick env cfg self now).known, leaderOf (σ.tick env cfg self now).cell = some n.id ∧ n.status = .healthy := by
  rcases tick_cases env cfg self σ now with h | ⟨us, hr, he⟩
  · rw [h] at hok; cases hok
  · rw [he]
    obtain ⟨h1, h2, h3⟩ := refreshAll_spec hr
    obtain ⟨n, hn, hns⟩ := hself
    obtain ⟨u, hu, hur⟩ := h3 n hn
    have hh : u.status = .healthy := by
      simp only [refresh, hns, if_true, Option.some.injEq] at hur
      rw [← hur]
    rcases Option.eq_none_or_eq_some (oldestHealthy env us) with ho | ⟨l, ho⟩
    · exact absurd hh (oldest_none ho u hu)
    · obtain ⟨a, ha, hid, hs, -⟩ := oldest_some ho
      refine ⟨a, (known_elect env cfg self σ hwf now us hr a).2 ha, ?_, hs⟩
      rw [hid]
      apply elect_leader σ us ht l ho
      obtain ⟨m, hm, hmr⟩ := h2 a ha
      rw [← hid, (refresh_id hmr).1]
      exact hids m hm

/-- what makes a refreshed node healthy. -/
theorem refresh_healthy (now : Int) (pings : Assoc Nat Ping) (m n : HbNode) (hne : m.id ≠ self)
    (h : refresh env cfg self now pings m = some n) :
    n.status = .healthy ↔ ∃ lat at_, pings.get m.id = some (.ok lat at_) ∧ at_ ≤ now ∧ now - at_ < cfg.unhealthy ∧
      now - at_ < cfg.terminated ∧ lat ≤ cfg.unhealthy := by
  unfold refresh at h
  rw [if_neg hne] at h
  unfold updateNode at h
  obtain ⟨s, hs, rfl⟩ := Option.map_eq_some_iff.1 h
  show s = .healthy ↔ _
  cases hp : pings.get m.id with
  | none =>
    rw [hp] at hs
    simp only [nodeStatus] at hs
    constructor
    · rintro rfl; split at hs <;> cases hs
    · rintro ⟨_, _, h, -⟩; cases h
  | some p =>
    rw [hp] at hs
    cases p with
    | ok lat at_ =>
      simp only [nodeStatus] at hs
      constructor
      · rintro rfl
        refine ⟨lat, at_, rfl, ?_⟩
        split at hs
        · cases hs
        · split at hs
          · cases hs
          · split at hs
            · cases hs
            · split at hs
              · cases hs
              · omega
      · rintro ⟨lat', at', he, h1, h2, h3, h4⟩
        cases he
        rw [if_neg (by omega), if_neg (by omega), if_neg (by omega), if_neg (by omega)] at hs
        cases hs; rfl
    | timeout =>
      simp only [nodeStatus] at hs
      constructor
      · rintro rfl
        split at hs
        · cases hs
        · split at hs
          · split at hs <;> cases hs
          · cases hs
      · rintro ⟨_, _, h, -⟩; cases h
    | disconnected =>
      simp only [nodeStatus] at hs
      constructor
      · rintro rfl; cases hs
      · rintro ⟨_, _, h, -⟩; cases h
    | err =>
      simp only [nodeStatus] at hs
      constructor
      · rintro rfl; split at hs <;> cases hs
      · rintro ⟨_, _, h, -⟩; cases h

/-! ## Properties -/

/-- **C86.** After every heartbeat, in every history: another node is healthy exactly if the last thing heard of it is an
answer to a ping, that answer came in time and is recent enough. In particular no node is healthy of which the last thing
heard is that it has left. -/
theorem C86_healthy_iff (single : Bool) (ops : List HbOp) (now : Nat → Int) (b : Nat) (hb : b ≠ self)
    (hok : (Hb.run env cfg self single (ops ++ [.tick now])).crashed = false)
    (n : HbNode) (hn : n ∈ (Hb.run env cfg self single (ops ++ [.tick now])).known) (hid : n.id = b) :
    n.status = .healthy ↔ ∃ lat at_, LastHeard ops b (.ping b (.ok lat at_)) ∧ at_ ≤ now b ∧ now b - at_ < cfg.unhealthy ∧
      now b - at_ < cfg.terminated ∧ lat ≤ cfg.unhealthy := by
  have hwf := NodesWF.run (env := env) (cfg := cfg) (self := self) single ops
  have hl := pings_last (env := env) (cfg := cfg) (self := self) single ops b
  rw [hbrun_snoc] at hok hn
  have hc := step_crash _ _ hok
  have hstep : (Hb.run env cfg self single ops).step env cfg self (.tick now) =
      (Hb.run env cfg self single ops).tick env cfg self now := by simp [Hb.step, hc]
  rw [hstep] at hok hn
  obtain ⟨m, hm, hr⟩ := (tick_known _ hwf now hok n).1 hn
  have hmb : m.id = b := by rw [← hid]; exact (refresh_id hr).1.symm
  have := refresh_healthy (now m.id) _ m n (by rw [hmb]; exact hb) hr
  rw [this, hmb]
  constructor
  · rintro ⟨lat, at_, h, r⟩
    exact ⟨lat, at_, (hl _ hc).1 h, r⟩
  · rintro ⟨lat, at_, h, r⟩
    exact ⟨lat, at_, (hl _ hc).2 h, r⟩

/-- **C86.** A connected outgoing connection of a node that shuts down says so, as its last word; whatever it has sent
before, the session at the other end, if it has read all that without failing, then tells its heartbeat that this node
has terminated. -/
theorem C86_told (self : UInt64) (uuid : String) (accepts : String → Bool)
    (sent : List SessionEvent) (frames chunks : List Bytes) (hv : ∀ e ∈ sent, e.Valid)
    (last : SessionEvent) (hlast : parting .connected true self uuid = some last)
    (hf : (sent ++ [last]).mapM SessionEvent.write = some frames) (hsize : ∀ f ∈ frames, f.length ≤ maxFrame)
    (hne : chunks ≠ []) (hc : chunks.flatten = frames.flatMap fun f => be32 f.length ++ f)
    (log : List Effect) (hread : deliver (sessionOnReceive accepts false) [] sent = (log, .running)) (now : Nat → Int) :
    ∃ effs, receiveLoop SessionEvent.read (sessionOnReceive accepts false) [] (decodeChunks (.buf []) chunks).1 =
      (effs, .running) ∧ effs.filterMap (Effect.toHeartbeat now) =
        log.filterMap (Effect.toHeartbeat now) ++ [.nodeTerminated self.toNat now] := by
  have h1 : ∀ l : List SessionEvent, (l.map Sent.event).mapM (Sent.frame SessionEvent.write) = l.mapM SessionEvent.write := by
    intro l
    induction l with
    | nil => rfl
    | cons a l ih => simp only [List.map_cons, List.mapM_cons, ih]; rfl
  have h2 : ∀ l : List SessionEvent, Sent.events (l.map Sent.event) = l := by
    intro l
    induction l with
    | nil => rfl
    | cons a l ih => simp only [List.map_cons, Sent.events, ih]
  simp only [parting, if_true, Option.some.injEq] at hlast
  have hconn := (C20_session_connection (sessionOnReceive accepts false) ((sent ++ [last]).map Sent.event) frames chunks []
    (by rw [h1]; exact hf)
    (by
      intro e he
      obtain ⟨x, hx, hxe⟩ := List.mem_map.1 he
      cases hxe
      rcases List.mem_append.1 hx with hx | hx
      · exact hv _ hx
      · rw [List.mem_singleton.1 hx, ← hlast]; trivial)
    (by
      intro f hf
      obtain ⟨x, hx, hxe⟩ := List.mem_map.1 hf
      cases hxe)
    hsize hne hc).2
  rw [h2] at hconn
  have happ : ∀ (l : List SessionEvent) (s s' : List Effect), deliver (sessionOnReceive accepts false) s l = (s', .running) →
      deliver (sessionOnReceive accepts false) s (l ++ [last]) = (s' ++ [.nodeTerminated self], .running) := by
    intro l
    induction l with
    | nil =>
      intro s s' h
      simp only [deliver, Prod.mk.injEq, and_true] at h
      subst h
      rw [← hlast]
      rfl
    | cons a l ih =>
      intro s s' h
      simp only [deliver, List.cons_append] at h ⊢
      rcases hx : sessionOnReceive accepts false s a with _ | ⟨x, c⟩
      · rw [hx] at h; cases h
      · rw [hx] at h
        cases c
        · exact ih _ _ h
        · cases h
  refine ⟨log ++ [.nodeTerminated self], by rw [hconn]; exact happ sent [] log hread, ?_⟩
  rw [List.filterMap_append]
  rfl

/-- **C86.** From the notice on, as long as no ping of the node is reported as answered: it is not healthy after any
heartbeat, and it is not the leader after any heartbeat but the first. The missing case is `C86_revived_refuted`. -/
theorem C86_out_partial (single : Bool) (pre post : List HbOp) (b : Nat) (hb : b ≠ self) (now : Nat → Int)
    (hans : ∀ x ∈ post, x.answers b = false) (op : HbOp) (hbeat : op.beats = true) (hop : op.answers b = false)
    (hok : (Hb.run env cfg self single (pre ++ .nodeTerminated b now :: (post ++ [op]))).crashed = false) :
    (∀ n ∈ (Hb.run env cfg self single (pre ++ .nodeTerminated b now :: (post ++ [op]))).known, n.id = b →
      n.status ≠ .healthy) ∧
    ((Hb.run env cfg self single (pre ++ .nodeTerminated b now :: post)).ticked = true →
      (∃ n ∈ (Hb.run env cfg self single (pre ++ .nodeTerminated b now :: post)).known, n.id = self) →
      (∀ n ∈ (Hb.run env cfg self single (pre ++ .nodeTerminated b now :: post)).known, n.id < 2 ^ 63) →
      leaderOf (Hb.run env cfg self single (pre ++ .nodeTerminated b now :: (post ++ [op]))).cell ≠ some b) := by
  have hassoc : pre ++ .nodeTerminated b now :: (post ++ [op]) = (pre ++ .nodeTerminated b now :: post) ++ [op] := by simp
  rw [hassoc, hbrun_snoc] at hok ⊢
  have hwf := NodesWF.run (env := env) (cfg := cfg) (self := self) single (pre ++ .nodeTerminated b now :: post)
  have hc := step_crash _ op hok
  have hnot : ∀ lat at_, (Hb.run env cfg self single (pre ++ .nodeTerminated b now :: post)).pings.get b ≠ some (.ok lat at_) := by
    intro lat at_ h
    obtain ⟨p1, p2, he, h1, h2⟩ := (pings_last single _ b _ hc).1 h
    rcases List.append_eq_append_iff.1 he with ⟨c, rfl, hc2⟩ | ⟨c, rfl, hc2⟩
    · cases c with
      | nil => simp at hc2
      | cons x c =>
        simp only [List.cons_append, List.cons.injEq] at hc2
        have := hans (.ping b (.ok lat at_)) (by rw [hc2.2]; simp)
        simp [HbOp.answers] at this
    · cases c with
      | nil => simp at hc2
      | cons x c =>
        simp only [List.cons_append, List.cons.injEq] at hc2
        have := h2 (.nodeTerminated b now) (by rw [hc2.2]; simp)
        simp [HbOp.about] at this
  generalize Hb.run env cfg self single (pre ++ .nodeTerminated b now :: post) = σ at *
  obtain ⟨τ, nw, hs, hwf', -, htk, -, hk1, hk2, hk3⟩ := beat_split (env := env) (cfg := cfg) (self := self) σ hwf op hbeat hc
  rw [hs] at hok ⊢
  have hpb : ∀ lat at_, τ.pings.get b ≠ some (.ok lat at_) := by
    intro lat at_ h
    cases ha : op.about b with
    | false => rw [(hk1 b ha).1] at h; exact hnot _ _ h
    | true => rw [hk2 b ha] at h; cases h
  have hun : ∀ n ∈ (τ.tick env cfg self nw).known, n.id = b → n.status ≠ .healthy := by
    intro n hn hid hh
    obtain ⟨m, hm, hr⟩ := (tick_known _ hwf' nw hok n).1 hn
    have hmb : m.id = b := by rw [← hid]; exact (refresh_id hr).1.symm
    obtain ⟨lat, at_, h, -⟩ := (refresh_healthy (nw m.id) _ m n (by rw [hmb]; exact hb) hr).1 hh
    rw [hmb] at h
    exact hpb _ _ h
  refine ⟨hun, ?_⟩
  intro ht hself hids hl
  have hids' : ∀ n ∈ τ.known, n.id < 2 ^ 63 := by
    intro n hn
    obtain ⟨n', hn', e⟩ := (hk3 n.id).1 ⟨n, hn, rfl⟩
    rw [← e]
    exact hids n' hn'
  obtain ⟨n, hn, h1, h2⟩ := tick_leader τ hwf' nw (by rw [htk]; exact ht) ((hk3 self).2 hself) hids' hok
  rw [hl] at h1
  exact hun n hn (by simpa using h1.symm) h2

/-- **C86.** The connections that are not in use say nothing: the leaving node says its last word exactly through the
connections that are established, and only if the system itself is shut down. -/
theorem C86_parting_iff (st : CState) (terminated : Bool) (self : UInt64) (uuid : String) :
    (∃ e, parting st terminated self uuid = some e) ↔ st = .connected ∧ terminated = true := by
  cases st <;> cases terminated <;> simp [parting]

end

/-- The chrono of the cases: no additions out of range. -/
def departEnv : Chrono := ⟨-1000, fun _ _ => true⟩
def departCfg : HbConfig := ⟨1500, 30000, none⟩

/-- what node 1 hears before and after node 2, the older one, leaves at time 1000: the report of an answer that came at
990 is late by one message. -/
def lateOps : List HbOp :=
  [.learn 1 (some 50), .learn 2 (some 10), .ping 2 (.ok 5 500), .tick fun _ => 510, .tick fun _ => 520,
    .nodeTerminated 2 fun _ => 1000, .ping 2 (.ok 5 990), .tick fun _ => 1020]

/-- Refuted: a node that has left stays out. The report of an answered ping that was on its way arrives after the
notice; the node that has left is healthy again, and even the leader again. -/
theorem C86_revived_refuted :
    (Hb.run departEnv departCfg 1 false lateOps).known.map (fun n => (n.id, n.status)) = [(1, .healthy), (2, .healthy)] ∧
    leaderOf (Hb.run departEnv departCfg 1 false (lateOps.take 6)).cell = some 1 ∧
    leaderOf (Hb.run departEnv departCfg 1 false lateOps).cell = some 2 := by decide

/-! ## Cases -/

-- node 2 leads, leaves, and is out
example : leaderOf (Hb.run departEnv departCfg 1 false (lateOps.take 5)).cell = some 2 ∧
    (Hb.run departEnv departCfg 1 false (lateOps.take 6)).known.map (fun n => (n.id, n.status)) =
      [(1, .healthy), (2, .terminated)] := by decide

-- its connection breaks, and it stays out
example : (Hb.run departEnv departCfg 1 false (lateOps.take 6 ++ [.ping 2 .disconnected, .tick fun _ => 1500])).known.map
    (fun n => (n.id, n.status)) = [(1, .healthy), (2, .terminated)] := by decide

example : parting .connected true 2 "id" = some (.ping { messageId := "id", nodeId := 2, systemTerminated := true }) := rfl
example : deliver (sessionOnReceive (fun _ => true) false) [] [.ping { messageId := "a", nodeId := 2 },
    .ping { messageId := "b", nodeId := 2, systemTerminated := true }] = ([.pong "a", .nodeTerminated 2], .running) := by
  decide

end Verif.Remote
