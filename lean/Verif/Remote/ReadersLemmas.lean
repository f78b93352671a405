import Verif.Remote.ReadersSpec

/-! # Lemmas about reading tasks -/

namespace Verif.Remote.Readers
open Verif.Proto Verif.Proto.Network Verif.Remote

theorem ofTimestamp_none (t : Timestamp) : Time.ofTimestamp t = none ↔ NoTime t := by
  have h1 := t.nanos.toInt_lt
  have h2 := t.nanos.le_toInt
  simp only [Time.ofTimestamp, NoTime]
  split <;> simp <;> omega

theorem fromProto_none (n : RemoteNode) : Node.fromProto n = none ↔ NoNode n := by
  simp only [Node.fromProto, NoNode]
  split
  · rename_i h; simp [h]
  · rename_i t h; simp [h, ofTimestamp_none]

theorem fromIdentity_none (e : NodeIdentity) : Node.fromIdentity e = none ↔ ∃ t, e.nodeStartedAt = some t ∧ NoTime t := by
  simp only [Node.fromIdentity]
  split
  · rename_i h; simp [h]
  · rename_i t h; simp [h, ofTimestamp_none]

theorem mapM_none {α β : Type} (f : α → Option β) (l : List α) : l.mapM f = none ↔ ∃ x ∈ l, f x = none := by
  induction l with
  | nil => simp
  | cons a l ih =>
    rw [List.mapM_cons]
    cases h : f a with
    | none => simp [h]
    | some b =>
      cases h' : l.mapM f with
      | none => simp [h, ih.mp h']
      | some bs =>
        have : ¬ ∃ x ∈ l, f x = none := fun hx => by rw [ih.mpr hx] at h'; cases h'
        simp only [List.mem_cons, exists_eq_or_imp, h, this]
        simp

theorem shakenAt_none (t : Option Timestamp) : shakenAt t = none ↔ ∃ x, t = some x ∧ NoTime x := by
  cases t <;> simp [shakenAt, ofTimestamp_none]

theorem errFromProto_none (x : Network.ActorRefErr) : ActorRefErr.fromProto x = none ↔ NoError x := by
  have e3 : x.errType = 3 ↔ x.errType.toInt = 3 := by rw [← Int32.toInt_inj]; rfl
  have e4 : x.errType = 4 ↔ x.errType.toInt = 4 := by rw [← Int32.toInt_inj]; rfl
  rw [NoError, e3, e4]
  simp only [ActorRefErr.fromProto]
  generalize x.errType.toInt = n
  generalize x.serializationError.toInt = a
  generalize x.deserializationError.toInt = b
  split <;> simp
  · split <;> simp
    simp only [imp_false] at *
    omega
  · split <;> simp
    simp only [imp_false] at *
    omega
  · simp only [imp_false] at *
    omega

theorem bind_none (o : Option Network.ActorRefErr) :
    (o.bind ActorRefErr.fromProto) = none ↔ ∀ x, o = some x → NoError x := by
  cases o <;> simp [errFromProto_none]

/-! ### Sessions -/

theorem session_panic (f : Bytes) : SessionEvent.read f = .panic ↔ SessionGarbled f := by
  have hp : ∀ {α : Type} (mk : α → SessionEvent) (o : Option α), parseInto mk o = .panic ↔ o = none := by
    intro α mk o; cases o <;> simp [parseInto]
  constructor
  · intro h
    cases f with
    | nil => simp [SessionEvent.read] at h
    | cons tag b =>
      simp only [SessionEvent.read] at h
      have ht : tag = UInt8.ofNat tag.toNat := by simp
      split at h <;> rename_i hn <;> (try rw [hp] at h) <;> (try rw [hn] at ht)
      · rw [ht]; exact .identify b h
      · rw [ht]; exact .handshake b h
      · rw [ht]; exact .ping b h
      · rw [ht]; exact .pong b h
      · rw [ht]; exact .create b h
      · rw [ht]; exact .find b h
      · rw [ht]; exact .notify b h
      · rw [ht]; exact .register b h
      · rw [ht]; exact .publish b h
      · rw [ht]; exact .result b h
      · rw [ht]; exact .err b h
      · cases h
  · intro h
    cases h <;> rename_i h <;> simp [SessionEvent.read, h, parseInto]

theorem client_panic (f : Bytes) : ClientEvent.read f = .panic ↔ ClientGarbled f := by
  have hp : ∀ {α : Type} (mk : α → ClientEvent) (o : Option α), parseInto mk o = .panic ↔ o = none := by
    intro α mk o; cases o <;> simp [parseInto]
  constructor
  · intro h
    cases f with
    | nil => simp [ClientEvent.read] at h
    | cons tag b =>
      simp only [ClientEvent.read] at h
      have ht : tag = UInt8.ofNat tag.toNat := by simp
      split at h <;> rename_i hn <;> (try rw [hp] at h) <;> (try rw [hn] at ht)
      · rw [ht]; exact .identity b h
      · rw [ht]; exact .handshake b h
      · rw [ht]; exact .result b h
      · rw [ht]; exact .err b h
      · rw [ht]; exact .ping b h
      · rw [ht]; exact .pong b h
      · cases h
  · intro h
    cases h <;> rename_i h <;> simp [ClientEvent.read, h, parseInto]

/-- which bytes an event was read from. -/
def FromSession (f : Bytes) : SessionEvent → Prop
  | .identify e => ∃ b, f = 0 :: b ∧ IdentifyEvent.read b = some e
  | .handshake e => ∃ b, f = 1 :: b ∧ SessionHandshake.read b = some e
  | .result e => ∃ b, f = 2 :: b ∧ ClientResult.read b = some e
  | .err e => ∃ b, f = 3 :: b ∧ ClientErr.read b = some e
  | .ping e => ∃ b, f = 4 :: b ∧ PingEvent.read b = some e
  | .pong e => ∃ b, f = 5 :: b ∧ PongEvent.read b = some e
  | .createActor e => ∃ b, f = 6 :: b ∧ CreateActorEvent.read b = some e
  | .findActor e => ∃ b, f = 7 :: b ∧ FindActorEvent.read b = some e
  | .registerActor e => ∃ b, f = 8 :: b ∧ ActorAddress.read b = some e
  | .notifyActor e => ∃ b, f = 9 :: b ∧ MessageRequest.read b = some e
  | .streamPublish e => ∃ b, f = 10 :: b ∧ StreamPublishEvent.read b = some e
  | .raft _ => False

def FromClient (f : Bytes) : ClientEvent → Prop
  | .handshake e => ∃ b, f = 1 :: b ∧ ClientHandshake.read b = some e
  | .result e => ∃ b, f = 2 :: b ∧ ClientResult.read b = some e
  | .err e => ∃ b, f = 3 :: b ∧ ClientErr.read b = some e
  | .ping e => ∃ b, f = 4 :: b ∧ PingEvent.read b = some e
  | .pong e => ∃ b, f = 5 :: b ∧ PongEvent.read b = some e
  | .identity e => ∃ b, f = 12 :: b ∧ NodeIdentity.read b = some e

theorem session_ok (f : Bytes) (e : SessionEvent) : SessionEvent.read f = .ok e ↔ FromSession f e := by
  have hp : ∀ {α : Type} (mk : α → SessionEvent) (o : Option α), parseInto mk o = .ok e ↔ ∃ a, o = some a ∧ mk a = e := by
    intro α mk o; cases o <;> simp [parseInto]
  constructor
  · intro h
    cases f with
    | nil => simp [SessionEvent.read] at h
    | cons tag b =>
      simp only [SessionEvent.read] at h
      have ht : tag = UInt8.ofNat tag.toNat := by simp
      split at h <;> rename_i hn <;> (try rw [hp] at h; obtain ⟨a, h, rfl⟩ := h) <;> (try rw [hn] at ht) <;>
        first
        | exact ⟨b, by rw [ht]; rfl, h⟩
        | cases h
  · intro h
    cases e <;> simp only [FromSession] at h <;>
      first
      | (obtain ⟨b, rfl, h⟩ := h; simp [SessionEvent.read, h, parseInto])
      | cases h

theorem client_ok (f : Bytes) (e : ClientEvent) : ClientEvent.read f = .ok e ↔ FromClient f e := by
  have hp : ∀ {α : Type} (mk : α → ClientEvent) (o : Option α), parseInto mk o = .ok e ↔ ∃ a, o = some a ∧ mk a = e := by
    intro α mk o; cases o <;> simp [parseInto]
  constructor
  · intro h
    cases f with
    | nil => simp [ClientEvent.read] at h
    | cons tag b =>
      simp only [ClientEvent.read] at h
      have ht : tag = UInt8.ofNat tag.toNat := by simp
      split at h <;> rename_i hn <;> (try rw [hp] at h; obtain ⟨a, h, rfl⟩ := h) <;> (try rw [hn] at ht) <;>
        first
        | exact ⟨b, by rw [ht]; rfl, h⟩
        | cases h
  · intro h
    cases e <;> simp only [FromClient] at h <;>
      (obtain ⟨b, rfl, h⟩ := h; simp [ClientEvent.read, h, parseInto])

theorem handle_dead (uuid : String → Bool) (σ : SessionEnd) (ht : σ.task = .reading) (e : SessionEvent) :
    (σ.handle uuid e).task = .dead ↔ pongFails σ e = true ∨ sessionOnReceive uuid σ.down σ.effects e = none := by
  simp only [SessionEnd.handle]
  split
  · rename_i h; simp [h]
  · rename_i h
    rcases sessionOnReceive uuid σ.down σ.effects e with _ | ⟨l, _ | _⟩ <;> simp [ht, h]

theorem pongFails_iff (σ : SessionEnd) (e : SessionEvent) : pongFails σ e = true ↔
    σ.up = false ∧ σ.down = false ∧ ∃ p, e = .ping p ∧ p.systemTerminated = false := by
  cases e <;> simp [pongFails]
  grind

/-- events a session panics at. -/
def Panics (uuid : String → Bool) : SessionEvent → Prop
  | .findActor e => uuid e.messageId = false
  | .result e => uuid e.messageId = false
  | .err e => uuid e.messageId = false ∨ ∀ x, e.error = some x → NoError x
  | _ => False

theorem onReceive_none (uuid : String → Bool) (down : Bool) (l : List Effect) (e : SessionEvent) :
    sessionOnReceive uuid down l e = none ↔ Panics uuid e := by
  cases e <;> simp only [sessionOnReceive, Panics]
  case err e =>
    rw [← bind_none]
    split
    · rename_i h; simp [h]
    · rename_i h; simp [h]
  case ping e =>
    split
    · simp
    · split <;> simp
  case registerActor e => split <;> simp
  all_goals simp

theorem step_dead (uuid : String → Bool) (σ : SessionEnd) (ht : σ.task = .reading) (f : Bytes) :
    (σ.step uuid (.arrive (.frame f))).task = .dead ↔
      SessionGarbled f ∨ ∃ e, FromSession f e ∧ (pongFails σ e = true ∨ Panics uuid e) := by
  simp only [SessionEnd.step, ht, if_true, SessionEnd.arrive, ← session_ok, ← session_panic]
  cases SessionEvent.read f with
  | rejected => simp [ht]
  | panic => simp
  | ok e => simp [handle_dead _ _ ht, onReceive_none]

theorem sessionFatal_iff (uuid : String → Bool) (f : Bytes) : SessionFatal (fun s => uuid s = true) f ↔
    SessionGarbled f ∨ ∃ e, FromSession f e ∧ Panics uuid e := by
  constructor
  · intro h
    cases h with
    | garbled _ h => exact .inl h
    | result b e h h' => exact .inr ⟨.result e, ⟨b, rfl, h⟩, by simpa [Panics] using h'⟩
    | err b e h h' => exact .inr ⟨.err e, ⟨b, rfl, h⟩, .inl (by simpa using h')⟩
    | find b e h h' => exact .inr ⟨.findActor e, ⟨b, rfl, h⟩, by simpa [Panics] using h'⟩
    | noError b e h h' => exact .inr ⟨.err e, ⟨b, rfl, h⟩, .inr h'⟩
  · rintro (h | ⟨e, hf, hp⟩)
    · exact .garbled f h
    · cases e <;> simp only [Panics] at hp
      · obtain ⟨b, rfl, hb⟩ := hf; exact .find b _ hb (by simpa using hp)
      · obtain ⟨b, rfl, hb⟩ := hf; exact .result b _ hb (by simpa using hp)
      · obtain ⟨b, rfl, hb⟩ := hf
        rcases hp with hp | hp
        · exact .err b _ hb (by simpa using hp)
        · exact .noError b _ hb hp

/-! ### Clients -/

section
variable {U W : Type} [DecidableEq U]

/-- events a client panics at. -/
def PanicsClient (parse : String → Option U) (σ : ClientEnd U W) : ClientEvent → Prop
  | .identity e => σ.intro = .awaited ∧ ((∃ t, e.nodeStartedAt = some t ∧ NoTime t) ∨ ∃ n ∈ e.peers, NoNode n)
  | .handshake e => (∃ t, e.nodeStartedAt = some t ∧ NoTime t) ∨ ∃ n ∈ e.nodes, n.nodeId ≠ e.nodeId ∧ NoNode n
  | .result e => parse e.messageId = none
  | .err e => parse e.messageId = none ∨
      ((∃ u w, parse e.messageId = some u ∧ (u, w) ∈ σ.rpc.pending) ∧ ∀ x, e.error = some x → NoError x)
  | .pong e => parse e.messageId = none
  | .ping _ => False

omit [DecidableEq U] in
theorem die_task (σ : ClientEnd U W) : σ.die.task = .dead := rfl

theorem onReply_dead (parse : String → Option U) (σ : ClientEnd U W) (ht : σ.task = .reading) (id : String) (good : Bool)
    (e : ClientEvent) : (σ.onReply parse id good e).task = .dead ↔
      parse id = none ∨ (good = false ∧ ∃ u w, parse id = some u ∧ (u, w) ∈ σ.rpc.pending) := by
  simp only [ClientEnd.onReply]
  cases hp : parse id with
  | none => simp [die_task]
  | some u =>
    simp only
    split
    · rename_i h
      simp only [ht, reduceCtorEq, false_iff, Option.some.injEq]
      rintro (h1 | ⟨rfl, v, w, rfl, hm⟩)
      · cases h1
      · simp at h; exact h _ _ hm rfl
    · rename_i h
      simp at h
      simp only [die_task, true_iff]
      refine .inr ⟨h.1, u, ?_⟩
      obtain ⟨w, hw⟩ := h.2
      exact ⟨w, rfl, hw⟩

theorem clientHandle_dead (parse : String → Option U) (σ : ClientEnd U W) (ht : σ.task = .reading) (e : ClientEvent) :
    (σ.handle parse e).task = .dead ↔ PanicsClient parse σ e := by
  cases e with
  | identity e =>
    simp only [ClientEnd.handle, ClientEnd.onIdentity, PanicsClient]
    rw [← fromIdentity_none]
    have hm := mapM_none Node.fromProto e.peers
    simp only [fromProto_none] at hm
    rw [← hm]
    split
    · rename_i hi
      split
      · rename_i h1 h2; simp [h1, h2, ht]
      · rename_i h1
        simp only [die_task, true_iff, hi, true_and]
        cases h2 : Node.fromIdentity e with
        | none => exact .inl rfl
        | some n =>
          cases h3 : e.peers.mapM Node.fromProto with
          | none => exact .inr rfl
          | some ps => exact absurd h3 (h1 n ps h2)
    · rename_i hi; simp [ht, hi]
  | handshake e =>
    simp only [ClientEnd.handle, ClientEnd.onHandshake, PanicsClient]
    rw [← shakenAt_none]
    have hm := mapM_none Node.fromProto (e.nodes.filter fun n => n.nodeId ≠ e.nodeId)
    simp only [fromProto_none, List.mem_filter, decide_eq_true_eq, and_assoc] at hm
    rw [← hm]
    split
    · rename_i h1 h2
      rw [h1, h2]
      simp only [ClientEnd.tell]
      split <;> simp [ht]
    · rename_i h1
      simp only [die_task, true_iff]
      cases h2 : shakenAt e.nodeStartedAt with
      | none => exact .inl rfl
      | some n =>
        cases h3 : (e.nodes.filter fun n => n.nodeId ≠ e.nodeId).mapM Node.fromProto with
        | none => exact .inr rfl
        | some ps => exact absurd h3 (h1 n ps h2)
  | result e => simp [ClientEnd.handle, PanicsClient, onReply_dead _ _ ht]
  | err e =>
    simp only [ClientEnd.handle, PanicsClient, onReply_dead _ _ ht]
    rw [← bind_none]
    cases e.error.bind ActorRefErr.fromProto <;> simp
  | ping e => simp [ClientEnd.handle, PanicsClient, ht]
  | pong e => simp [ClientEnd.handle, PanicsClient, onReply_dead _ _ ht]

theorem clientStep_dead (parse : String → Option U) (σ : ClientEnd U W) (ht : σ.task = .reading) (f : Bytes) :
    (σ.step parse (.arrive (.frame f))).task = .dead ↔
      ClientGarbled f ∨ ∃ e, FromClient f e ∧ PanicsClient parse σ e := by
  simp only [ClientEnd.step, ht, if_true, ClientEnd.arrive, ← client_ok, ← client_panic]
  cases ClientEvent.read f with
  | rejected => simp [ht]
  | panic => simp [die_task]
  | ok e => simp [clientHandle_dead _ _ ht]

omit [DecidableEq U] in
theorem clientFatal_iff (parse : String → Option U) (σ : ClientEnd U W) (f : Bytes) :
    ClientFatal (fun s => ∃ u, parse s = some u) (fun s => ∃ u w, parse s = some u ∧ (u, w) ∈ σ.rpc.pending)
      (σ.intro = .awaited) f ↔ ClientGarbled f ∨ ∃ e, FromClient f e ∧ PanicsClient parse σ e := by
  have hn : ∀ s, ¬ (∃ u, parse s = some u) ↔ parse s = none := by intro s; cases parse s <;> simp
  constructor
  · intro h
    cases h with
    | garbled _ h => exact .inl h
    | result b e h h' => exact .inr ⟨.result e, ⟨b, rfl, h⟩, (hn _).mp h'⟩
    | err b e h h' => exact .inr ⟨.err e, ⟨b, rfl, h⟩, .inl ((hn _).mp h')⟩
    | pong b e h h' => exact .inr ⟨.pong e, ⟨b, rfl, h⟩, (hn _).mp h'⟩
    | noError b e h hw h' => exact .inr ⟨.err e, ⟨b, rfl, h⟩, .inr ⟨hw, h'⟩⟩
    | shakenTime b e t h h1 h2 => exact .inr ⟨.handshake e, ⟨b, rfl, h⟩, .inl ⟨t, h1, h2⟩⟩
    | shakenNode b e n h h1 h2 h3 => exact .inr ⟨.handshake e, ⟨b, rfl, h⟩, .inr ⟨n, h1, h2, h3⟩⟩
    | identityTime b e t h hf h1 h2 => exact .inr ⟨.identity e, ⟨b, rfl, h⟩, hf, .inl ⟨t, h1, h2⟩⟩
    | identityPeer b e n h hf h1 h2 => exact .inr ⟨.identity e, ⟨b, rfl, h⟩, hf, .inr ⟨n, h1, h2⟩⟩
  · rintro (h | ⟨e, hf, hp⟩)
    · exact .garbled f h
    · cases e <;> simp only [PanicsClient] at hp
      · obtain ⟨b, rfl, hb⟩ := hf
        obtain ⟨hi, ⟨t, h1, h2⟩ | ⟨n, h1, h2⟩⟩ := hp
        · exact .identityTime b _ t hb hi h1 h2
        · exact .identityPeer b _ n hb hi h1 h2
      · obtain ⟨b, rfl, hb⟩ := hf
        obtain ⟨t, h1, h2⟩ | ⟨n, h1, h2, h3⟩ := hp
        · exact .shakenTime b _ t hb h1 h2
        · exact .shakenNode b _ n hb h1 h2 h3
      · obtain ⟨b, rfl, hb⟩ := hf; exact .result b _ hb ((hn _).mpr hp)
      · obtain ⟨b, rfl, hb⟩ := hf
        rcases hp with hp | hp
        · exact .err b _ hb ((hn _).mpr hp)
        · exact .noError b _ hb hp.1 hp.2
      · obtain ⟨b, rfl, hb⟩ := hf; exact .pong b _ hb ((hn _).mpr hp)

end

/-! ### Runs -/

theorem session_run_append (uuid : String → Bool) (σ : SessionEnd) (a b : List SessionOp) :
    σ.run uuid (a ++ b) = (σ.run uuid a).run uuid b := by simp [SessionEnd.run]

theorem client_run_append {U W : Type} [DecidableEq U] (parse : String → Option U) (σ : ClientEnd U W)
    (a b : List (ClientOp U W)) : σ.run parse (a ++ b) = (σ.run parse a).run parse b := by simp [ClientEnd.run]

variable {U W : Type} [DecidableEq U]

theorem arrive_cases (uuid : String → Bool) (σ : SessionEnd) (a : Arrival) :
    (∃ l, σ.arrive uuid a = { σ with effects := l }) ∨
    (∃ l, σ.arrive uuid a = { σ with effects := l, task := .closed, stops := σ.stops + 1 }) ∨
    σ.arrive uuid a = { σ with task := .dead } := by
  cases a with
  | lost => exact .inr (.inl ⟨σ.effects, rfl⟩)
  | frame f =>
    simp only [SessionEnd.arrive]
    cases hr : SessionEvent.read f with
    | rejected => exact .inl ⟨σ.effects, rfl⟩
    | panic => exact .inr (.inr rfl)
    | ok e =>
      simp only [SessionEnd.handle]
      split
      · exact .inr (.inr rfl)
      · rcases hq : sessionOnReceive uuid σ.down σ.effects e with _ | ⟨l, _ | _⟩
        · exact .inr (.inr rfl)
        · exact .inl ⟨l, rfl⟩
        · exact .inr (.inl ⟨l, rfl⟩)

theorem sessionStep_stops (uuid : String → Bool) (σ : SessionEnd) (h : σ.stops = if σ.task = .closed then 1 else 0)
    (o : SessionOp) : (σ.step uuid o).stops = if (σ.step uuid o).task = .closed then 1 else 0 := by
  cases o with
  | stopped => exact h
  | terminate => exact h
  | arrive a =>
    by_cases ht : σ.task = .reading
    · have hs : σ.step uuid (.arrive a) = σ.arrive uuid a := if_pos ht
      rw [hs]
      rcases arrive_cases uuid σ a with ⟨l, e⟩ | ⟨l, e⟩ | e <;> rw [e] <;> simp_all
    · have hs : σ.step uuid (.arrive a) = σ := if_neg ht
      rw [hs]; exact h

theorem session_hung (uuid : String → Bool) (ops : List SessionOp) : (SessionEnd.run uuid {} ops).task ≠ .hung := by
  have : ∀ (ops : List SessionOp) (σ : SessionEnd), σ.task ≠ .hung → (σ.run uuid ops).task ≠ .hung := by
    intro ops
    induction ops with
    | nil => exact fun σ h => h
    | cons o ops ih =>
      intro σ h
      refine ih (σ.step uuid o) ?_
      cases o with
      | stopped => exact h
      | terminate => exact h
      | arrive a =>
        by_cases ht : σ.task = .reading
        · have hs : σ.step uuid (.arrive a) = σ.arrive uuid a := if_pos ht
          rw [hs]
          rcases arrive_cases uuid σ a with ⟨l, e⟩ | ⟨l, e⟩ | e <;> rw [e]
          · exact h
          · simp
          · simp
        · have hs : σ.step uuid (.arrive a) = σ := if_neg ht
          rw [hs]; exact h
  exact this ops {} (by simp)

/-- what holds of a client's end at any time. -/
structure Sound (σ : ClientEnd U W) : Prop where
  told : σ.told = if σ.task = .closed then 1 else 0
  intro : σ.task = .closed ∨ σ.task = .dead → σ.intro ≠ .awaited
  hung : σ.task = .hung → σ.intro = .awaited

omit [DecidableEq U] in
theorem Sound.die {σ : ClientEnd U W} (h : Sound σ) (ht : σ.task = .reading) : Sound σ.die := by
  have := h.told
  rw [ht] at this
  refine ⟨by simpa [ClientEnd.die] using this, fun _ => ?_, by simp [ClientEnd.die]⟩
  simp only [ClientEnd.die]
  split <;> simp_all

omit [DecidableEq U] in
theorem Sound.tell {σ τ : ClientEnd U W} (h : Sound σ) (ht : σ.task = .reading) (hτ : σ.intro ≠ .awaited → Sound τ) :
    Sound (σ.tell τ) := by
  simp only [ClientEnd.tell]
  split
  · rename_i hi
    have := h.told
    rw [ht] at this
    exact ⟨by simpa using this, by simp, fun _ => hi⟩
  · rename_i hi
    exact hτ hi

theorem Sound.onReply {σ : ClientEnd U W} (h : Sound σ) (ht : σ.task = .reading) (parse : String → Option U) (id : String)
    (good : Bool) (e : ClientEvent) : Sound (σ.onReply parse id good e) := by
  have h' : Sound { σ with rpc := σ.rpc.onClientEvent parse e } := ⟨h.told, h.intro, h.hung⟩
  simp only [ClientEnd.onReply]
  split
  · exact h'.die ht
  · split
    · exact h'
    · exact h'.die ht

theorem Sound.handle {σ : ClientEnd U W} (h : Sound σ) (ht : σ.task = .reading) (parse : String → Option U)
    (e : ClientEvent) : Sound (σ.handle parse e) := by
  cases e with
  | identity e =>
    simp only [ClientEnd.handle, ClientEnd.onIdentity]
    split
    · split
      · exact ⟨h.told, fun _ => by simp, fun hh => by rw [ht] at hh; cases hh⟩
      · exact h.die ht
    · exact h
  | handshake e =>
    simp only [ClientEnd.handle, ClientEnd.onHandshake]
    split
    · exact h.tell ht fun _ => ⟨h.told, h.intro, h.hung⟩
    · exact h.die ht
  | result e => exact h.onReply ht parse _ _ _
  | err e => exact h.onReply ht parse _ _ _
  | ping e => exact h
  | pong e => exact h.onReply ht parse _ _ _

theorem Sound.step {σ : ClientEnd U W} (h : Sound σ) (parse : String → Option U) (o : ClientOp U W) :
    Sound (σ.step parse o) := by
  cases o with
  | other o => exact ⟨h.told, h.intro, h.hung⟩
  | arrive a =>
    simp only [ClientEnd.step]
    split
    · rename_i ht
      cases a with
      | lost =>
        have := h.told
        rw [ht] at this
        exact h.tell ht fun hi => ⟨by simpa using this, fun _ => hi, by simp⟩
      | frame f =>
        simp only [ClientEnd.arrive]
        split
        · exact h
        · exact h.die ht
        · exact h.handle ht parse _
    · exact h

theorem noTime_own {t : Option Timestamp} (h : OwnTime t) : ¬ ∃ x, t = some x ∧ NoTime x := by
  rintro ⟨x, rfl, hx⟩
  obtain ⟨y, hy, rfl⟩ := h x rfl
  rw [← ofTimestamp_none, Time.ofTimestamp_toTimestamp y hy] at hx
  cases hx

end Verif.Remote.Readers
