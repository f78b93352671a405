import Verif.Remote.ReadersLemmas
import Verif.Remote.RpcLemmas

/-!
# C121: A connection that is no longer read is known to have ended

Specifications: `SessionFatal`, `ClientFatal`, `OwnSession`, `OwnClient` (`ReadersSpec`).
-/

namespace Verif.Remote.Readers
open Verif.Proto Verif.Proto.Network Verif.Remote

variable {U W : Type} [DecidableEq U]

/-! ### What ends a reading task by a panic -/

/-- **C121.** Exactly these frames end the reading task of a session by a panic: those whose bytes are not the message they
announce; results, errors and searches whose id is none; errors that carry no error this version knows; and a ping that is
to be answered when the session actor is gone. -/
theorem C121_session_fatal (uuid : String → Bool) (σ : SessionEnd) (ht : σ.task = .reading) (f : Bytes) :
    (σ.step uuid (.arrive (.frame f))).task = .dead ↔
      SessionFatal (fun s => uuid s = true) f ∨
      (σ.up = false ∧ σ.down = false ∧ ∃ b p, f = 4 :: b ∧ PingEvent.read b = some p ∧ p.systemTerminated = false) := by
  rw [step_dead _ _ ht, sessionFatal_iff]
  constructor
  · rintro (h | ⟨e, h, hp | hp⟩)
    · exact .inl (.inl h)
    · obtain ⟨h1, h2, p, rfl, h3⟩ := (pongFails_iff σ e).mp hp
      obtain ⟨b, rfl, hb⟩ := h
      exact .inr ⟨h1, h2, b, p, rfl, hb, h3⟩
    · exact .inl (.inr ⟨e, h, hp⟩)
  · rintro ((h | ⟨e, h, hp⟩) | ⟨h1, h2, b, p, rfl, hb, h3⟩)
    · exact .inl h
    · exact .inr ⟨e, h, .inr hp⟩
    · exact .inr ⟨.ping p, ⟨b, rfl, hb⟩, .inl ((pongFails_iff σ _).mpr ⟨h1, h2, p, rfl, h3⟩)⟩

/-- **C121.** And exactly these that of a client: those whose bytes are not the message they announce; replies whose id is
none; an error for a request that waits, if it is none this version knows; a handshake with a time that is none, or with
another node that has one; and an identity like that, if it is the first. -/
theorem C121_client_fatal (parse : String → Option U) (σ : ClientEnd U W) (ht : σ.task = .reading) (f : Bytes) :
    (σ.step parse (.arrive (.frame f))).task = .dead ↔
      ClientFatal (fun s => ∃ u, parse s = some u) (fun s => ∃ u w, parse s = some u ∧ (u, w) ∈ σ.rpc.pending)
        (σ.intro = .awaited) f := by
  rw [clientStep_dead _ _ ht, clientFatal_iff]

/-! ### Who is told -/

/-- **C121.** A session is asked to stop once if its reading task has left its loop, and not at all otherwise. -/
theorem C121_session_told (uuid : String → Bool) (ops : List SessionOp) :
    let σ := SessionEnd.run uuid {} ops
    σ.stops = if σ.task = .closed then 1 else 0 := by
  intro σ
  have : ∀ (ops : List SessionOp) (σ : SessionEnd), σ.stops = (if σ.task = .closed then 1 else 0) →
      (σ.run uuid ops).stops = if (σ.run uuid ops).task = .closed then 1 else 0 := by
    intro ops
    induction ops with
    | nil => exact fun σ h => h
    | cons o ops ih => exact fun σ h => ih _ (sessionStep_stops uuid σ h o)
  exact this ops {} rfl

/-- **C121.** A client handles `Disconnected` once if its reading task has ended in good order, and not at all otherwise; and
if the task has ended in either way, the client does not wait to be introduced. The task hangs only if it does. -/
theorem C121_client_told (parse : String → Option U) (ops : List (ClientOp U W)) :
    let σ := ClientEnd.run parse ({} : ClientEnd U W) ops
    (σ.told = if σ.task = .closed then 1 else 0) ∧ (σ.task = .closed ∨ σ.task = .dead → σ.intro ≠ .awaited) ∧
    (σ.task = .hung → σ.intro = .awaited) := by
  intro σ
  have : ∀ (ops : List (ClientOp U W)) (σ : ClientEnd U W), Sound σ → Sound (σ.run parse ops) := by
    intro ops
    induction ops with
    | nil => exact fun σ h => h
    | cons o ops ih => exact fun σ h => ih _ (h.step parse o)
  have h := this ops {} ⟨rfl, by simp, by simp⟩
  exact ⟨h.told, h.intro, h.hung⟩

/-! ### After the end -/

/-- **C121.** When the task of a session has ended, nothing that arrives has any effect, for ever, and the session is told
nothing further. -/
theorem C121_session_over (uuid : String → Bool) (σ : SessionEnd) (ht : σ.task ≠ .reading) (more : List SessionOp) :
    (σ.run uuid more).task = σ.task ∧ (σ.run uuid more).effects = σ.effects ∧ (σ.run uuid more).stops = σ.stops ∧
    (.stopped ∉ more → (σ.run uuid more).up = σ.up) := by
  induction more generalizing σ with
  | nil => exact ⟨rfl, rfl, rfl, fun _ => rfl⟩
  | cons o more ih =>
    have hs : (σ.step uuid o).task = σ.task ∧ (σ.step uuid o).effects = σ.effects ∧ (σ.step uuid o).stops = σ.stops ∧
        (o ≠ .stopped → (σ.step uuid o).up = σ.up) := by
      cases o with
      | stopped => exact ⟨rfl, rfl, rfl, fun h => absurd rfl h⟩
      | terminate => exact ⟨rfl, rfl, rfl, fun _ => rfl⟩
      | arrive a => simp [SessionEnd.step, ht]
    obtain ⟨h1, h2, h3, h4⟩ := ih (σ.step uuid o) (by rw [hs.1]; exact ht)
    refine ⟨h1.trans hs.1, h2.trans hs.2.1, h3.trans hs.2.2.1, fun hm => ?_⟩
    simp only [List.mem_cons, not_or] at hm
    exact (h4 hm.2).trans (hs.2.2.2 fun h => hm.1 h.symm)

/-- **C121.** When the task of a client has ended, nothing that arrives has any effect, for ever: the client is given and
told nothing, and the table of requests is what is done to it by other ways. -/
theorem C121_client_over (parse : String → Option U) (σ : ClientEnd U W) (ht : σ.task ≠ .reading)
    (more : List (ClientOp U W)) :
    (σ.run parse more).task = σ.task ∧ (σ.run parse more).given = σ.given ∧ (σ.run parse more).told = σ.told ∧
    (σ.run parse more).rpc = (others more).foldl (Rpc.step parse) σ.rpc := by
  induction more generalizing σ with
  | nil => exact ⟨rfl, rfl, rfl, rfl⟩
  | cons o more ih =>
    cases o with
    | arrive a =>
      have hs : σ.step parse (.arrive a) = σ := by simp [ClientEnd.step, ht]
      have := ih σ ht
      simp only [ClientEnd.run, List.foldl_cons, hs] at this ⊢
      exact this
    | other o => exact ih (σ.step parse (.other o)) ht

/-- **C121.** A client that has been told who it is connected to, or that nobody will tell it, is never told again: its
introduction stays what it is, whatever arrives and however the reading ends. -/
theorem C121_introduced_once (parse : String → Option U) (σ : ClientEnd U W) (hi : σ.intro ≠ .awaited)
    (more : List (ClientOp U W)) : (σ.run parse more).intro = σ.intro := by
  have hd : ∀ τ : ClientEnd U W, τ.intro ≠ .awaited → τ.die.intro = τ.intro := by
    intro τ h; simp [ClientEnd.die, h]
  have hr : ∀ (τ : ClientEnd U W) id good e, τ.intro ≠ .awaited → (τ.onReply parse id good e).intro = τ.intro := by
    intro τ id good e h
    simp only [ClientEnd.onReply]
    split
    · exact hd _ h
    · split
      · rfl
      · exact hd _ h
  have hs : ∀ (o : ClientOp U W) (τ : ClientEnd U W), τ.intro ≠ .awaited → (τ.step parse o).intro = τ.intro := by
    intro o τ h
    cases o with
    | other o => rfl
    | arrive a =>
      simp only [ClientEnd.step]
      split
      · cases a with
        | lost => simp [ClientEnd.arrive, ClientEnd.tell, h]
        | frame bs =>
          simp only [ClientEnd.arrive]
          split
          · rfl
          · exact hd _ h
          · rename_i e _
            cases e with
            | identity e => simp [ClientEnd.handle, ClientEnd.onIdentity, h]
            | handshake e =>
              simp only [ClientEnd.handle, ClientEnd.onHandshake]
              split
              · simp [ClientEnd.tell, h]
              · exact hd _ h
            | result e => exact hr _ _ _ _ h
            | err e => exact hr _ _ _ _ h
            | ping e => rfl
            | pong e => exact hr _ _ _ _ h
      · rfl
  induction more generalizing σ with
  | nil => rfl
  | cons o more ih =>
    have h1 := hs o σ hi
    exact (ih (σ.step parse o) (by rw [h1]; exact hi)).trans h1

/-- **C121.** A node that is shutting down takes leave at the next ping, and at no ping before: the session is asked to stop,
twice, and the connection is no longer read. -/
theorem C121_shut_down (uuid : String → Bool) (ops : List SessionOp) (b : Bytes) (p : PingEvent)
    (ht : (SessionEnd.run uuid {} ops).task = .reading) (hp : PingEvent.read b = some p) :
    let σ := SessionEnd.run uuid {} ops
    let τ := SessionEnd.run uuid {} (ops ++ [.arrive (.frame (4 :: b))])
    (τ.task = .closed ↔ .terminate ∈ ops) ∧
    (.terminate ∈ ops → τ.effects = σ.effects ++ [.stopSelf] ∧ τ.stops = 1) := by
  have hd : ∀ (ops : List SessionOp) (σ : SessionEnd), (σ.run uuid ops).down = true ↔ σ.down = true ∨ .terminate ∈ ops := by
    intro ops
    induction ops with
    | nil => simp [SessionEnd.run]
    | cons o ops ih =>
      intro σ
      have : (σ.step uuid o).down = true ↔ σ.down = true ∨ o = .terminate := by
        cases o with
        | stopped => simp [SessionEnd.step]
        | terminate => simp [SessionEnd.step]
        | arrive a =>
          simp only [SessionEnd.step]
          split
          · cases a with
            | lost => simp [SessionEnd.arrive]
            | frame bs =>
              simp only [SessionEnd.arrive]
              split <;> try simp
              simp only [SessionEnd.handle]
              split <;> try simp
              split <;> simp
          · simp
      show ((σ.step uuid o).run uuid ops).down = true ↔ _
      rw [ih, this, List.mem_cons]
      constructor
      · rintro ((h | rfl) | h) <;> simp [*]
      · rintro (h | rfl | h) <;> simp [*]
  intro σ τ
  have hτ : τ = σ.step uuid (.arrive (.frame (4 :: b))) := by
    simp only [τ, session_run_append]; rfl
  have hs : σ.stops = 0 := by
    have := C121_session_told uuid ops
    simpa [ht] using this
  have hr : SessionEvent.read (4 :: b) = .ok (.ping p) := (session_ok _ _).mpr ⟨b, rfl, hp⟩
  have hdn : σ.down = true ↔ .terminate ∈ ops := by simpa using hd ops {}
  rw [hτ, ← hdn]
  have ht' : σ.task = .reading := ht
  simp only [SessionEnd.step, ht', if_true, SessionEnd.arrive, hr, SessionEnd.handle]
  cases hdd : σ.down with
  | true => simp [pongFails, hdd, sessionOnReceive, hs]
  | false =>
    simp only [pongFails, hdd, sessionOnReceive]
    split
    · simp
    · cases p.systemTerminated <;> simp [ht']

example :
    let uuid := fun s => s = "7"
    (SessionEnd.run uuid {} ([.arrive (.frame [4]), .terminate] ++ [.arrive (.frame [4])])).task = .closed ∧
    (SessionEnd.run uuid {} [.arrive (.frame [4]), .terminate]).task = .reading ∧
    PingEvent.read [] = some {} := by
  decide +kernel

/-! ### While nothing fatal arrives -/

/-- **C121.** What a client of this version writes ends no session's task. -/
theorem C121_own_session (uuid : String → Bool) (e : SessionEvent) (ho : OwnSession (fun s => uuid s = true) e)
    (hv : e.Valid) (f : Bytes) (hw : e.write = some f) (hs : f.length < 2 ^ 32) :
    ¬ SessionFatal (fun s => uuid s = true) f := by
  have hr := C20_session_event_roundtrip e f hv hw hs
  rw [sessionFatal_iff]
  rintro (h | ⟨e', h, hp⟩)
  · rw [(session_panic f).mpr h] at hr; cases hr
  · rw [(session_ok f e').mpr h] at hr
    injection hr with hr
    subst hr
    cases e' <;> simp only [OwnSession, Panics] at ho hp
    · simp [ho] at hp
    · simp [ho] at hp
    · obtain ⟨h1, x, h2⟩ := ho
      rcases hp with hp | hp
      · simp [h1] at hp
      · have := hp _ h2
        rw [← errFromProto_none, C21_error_roundtrip] at this
        cases this

omit [DecidableEq U] in
/-- **C121.** What a session of this version writes ends no client's task. -/
theorem C121_own_client (parse : String → Option U) (σ : ClientEnd U W) (e : ClientEvent)
    (ho : OwnClient (fun s => ∃ u, parse s = some u) e) (hv : e.Valid) (f : Bytes) (hw : e.write = some f)
    (hs : f.length < 2 ^ 32) :
    ¬ ClientFatal (fun s => ∃ u, parse s = some u) (fun s => ∃ u w, parse s = some u ∧ (u, w) ∈ σ.rpc.pending)
        (σ.intro = .awaited) f := by
  have hr := C20_client_event_roundtrip e f hv hw hs
  rw [clientFatal_iff]
  rintro (h | ⟨e', h, hp⟩)
  · rw [(client_panic f).mpr h] at hr; cases hr
  · rw [(client_ok f e').mpr h] at hr
    injection hr with hr
    subst hr
    cases e' <;> simp only [OwnClient, PanicsClient] at ho hp
    · obtain ⟨_, h1 | ⟨n, h1, h2⟩⟩ := hp
      · exact noTime_own ho.1 h1
      · exact noTime_own (ho.2 n h1) h2
    · obtain h1 | ⟨n, h1, _, h2⟩ := hp
      · exact noTime_own ho.1 h1
      · exact noTime_own (ho.2 n h1) h2
    · simp [hp] at ho
    · obtain ⟨⟨u, h1⟩, x, h2⟩ := ho
      rcases hp with hp | ⟨_, hp⟩
      · rw [h1] at hp; cases hp
      · have := hp _ h2
        rw [← errFromProto_none, C21_error_roundtrip] at this
        cases this
    · simp [hp] at ho

/-- **C121 (partial), sessions.** If no fatal frame arrives, a connection that is no longer read is known to have ended, or
its session is gone. Missing: fatal frames (`C121_session_refuted`). -/
theorem C121_session_partial (uuid : String → Bool) (ops : List SessionOp)
    (ho : ∀ f, .arrive (.frame f) ∈ ops → ¬ SessionFatal (fun s => uuid s = true) f) :
    Known (SessionEnd.run uuid {} ops) := by
  have hd : ∀ (ops : List SessionOp) (σ : SessionEnd), (σ.task = .dead → σ.up = false) →
      (∀ f, .arrive (.frame f) ∈ ops → ¬ SessionFatal (fun s => uuid s = true) f) →
      (σ.run uuid ops).task = .dead → (σ.run uuid ops).up = false := by
    intro ops
    induction ops with
    | nil => exact fun σ h _ => h
    | cons o ops ih =>
      intro σ h ho
      refine ih (σ.step uuid o) ?_ fun f hf => ho f (List.mem_cons_of_mem _ hf)
      cases o with
      | stopped => exact fun _ => rfl
      | terminate => exact h
      | arrive a =>
        by_cases ht : σ.task = .reading
        · intro hdd
          have hup : (σ.step uuid (.arrive a)).up = σ.up := by
            simp only [SessionEnd.step, ht, if_true]
            rcases arrive_cases uuid σ a with ⟨l, e⟩ | ⟨l, e⟩ | e <;> rw [e]
          rw [hup]
          cases a with
          | lost => simp [SessionEnd.step, ht, SessionEnd.arrive] at hdd
          | frame f =>
            rcases (C121_session_fatal uuid σ ht f).mp hdd with hf | hf
            · exact absurd hf (ho f (by simp))
            · exact hf.1
        · have hs : σ.step uuid (.arrive a) = σ := by simp [SessionEnd.step, ht]
          rw [hs]; exact h
  have h1 : (SessionEnd.run uuid {} ops).stops = if (SessionEnd.run uuid {} ops).task = .closed then 1 else 0 :=
    C121_session_told uuid ops
  have h2 := hd ops {} (by simp) ho
  simp only [Known]
  cases ht : (SessionEnd.run uuid {} ops).task with
  | reading => exact .inl rfl
  | closed => rw [ht] at h1; exact .inr (.inl h1)
  | dead => exact .inr (.inr (h2 ht))
  | hung => exact absurd ht (session_hung uuid ops)

/-- **C121 (partial), clients.** If all that arrives comes from sessions of this version, a connection that is no longer read
is known to have ended, once the client has been introduced. Missing: other frames (`C121_client_refuted`), and what comes
before the introduction (`C121_early_refuted`). -/
theorem C121_client_partial (parse : String → Option U) (ops : List (ClientOp U W))
    (ho : ∀ f, .arrive (.frame f) ∈ ops → ∃ e : ClientEvent, OwnClient (fun s => ∃ u, parse s = some u) e ∧ e.Valid ∧
      e.write = some f ∧ f.length < 2 ^ 32) :
    let σ := ClientEnd.run parse ({} : ClientEnd U W) ops
    σ.task = .reading ∨ (σ.task = .closed ∧ σ.told = 1) ∨ σ.intro = .awaited := by
  intro σ
  have hd : ∀ (ops : List (ClientOp U W)) (σ : ClientEnd U W), σ.task ≠ .dead →
      (∀ f, .arrive (.frame f) ∈ ops → ∃ e : ClientEvent, OwnClient (fun s => ∃ u, parse s = some u) e ∧ e.Valid ∧
        e.write = some f ∧ f.length < 2 ^ 32) → (σ.run parse ops).task ≠ .dead := by
    intro ops
    induction ops with
    | nil => exact fun σ h _ => h
    | cons o ops ih =>
      intro σ h ho
      refine ih (σ.step parse o) ?_ fun f hf => ho f (List.mem_cons_of_mem _ hf)
      cases o with
      | other o => exact h
      | arrive a =>
        by_cases ht : σ.task = .reading
        · cases a with
          | lost =>
            simp only [ClientEnd.step, ht, if_true, ClientEnd.arrive, ClientEnd.tell]
            split <;> simp
          | frame f =>
            rw [ne_eq, C121_client_fatal parse σ ht f]
            obtain ⟨e, h1, h2, h3, h4⟩ := ho f (by simp)
            exact C121_own_client parse σ e h1 h2 f h3 h4
        · have hs : σ.step parse (.arrive a) = σ := by simp [ClientEnd.step, ht]
          rw [hs]; exact h
  obtain ⟨h1, -, h3⟩ : (σ.told = if σ.task = .closed then 1 else 0) ∧ (σ.task = .closed ∨ σ.task = .dead → _) ∧
      (σ.task = .hung → σ.intro = .awaited) := C121_client_told parse ops
  have h2 := hd ops {} (by simp) ho
  cases ht : σ.task with
  | reading => exact .inl rfl
  | closed => rw [ht] at h1; exact .inr (.inl ⟨rfl, h1⟩)
  | dead => exact absurd ht h2
  | hung => exact .inr (.inr (h3 ht))

/-! ### What a client is given -/

/-- **C121.** The client gets the first identity as the other node wrote it, and no second one. -/
theorem C121_introduced (parse : String → Option U) (σ : ClientEnd U W) (ht : σ.task = .reading) (n : Node)
    (peers : List Node) (hn : n.Valid) (hp : ∀ p ∈ peers, p.Valid) (e : NodeIdentity) (he : e.nodeId = n.id ∧
      e.addr = n.addr ∧ e.nodeTag = n.tag ∧ e.nodeStartedAt = n.startedAt.map Time.toTimestamp ∧
      e.attributes = n.attributes ∧ e.peers = peers.map Node.toProto) (hv : e.Ok) (f : Bytes)
    (hw : (ClientEvent.identity e).write = some f) (hs : f.length < 2 ^ 32) :
    let σ' := σ.step parse (.arrive (.frame f))
    σ'.task = .reading ∧ σ'.rpc = σ.rpc ∧
    σ'.given = (if σ.intro = .awaited then σ.given ++ [.identity n peers e.capabilities] else σ.given) ∧
    σ'.intro = (if σ.intro = .awaited then .made else σ.intro) := by
  obtain ⟨h1, h2, h3, h4, h5, h6⟩ := he
  have hr := C20_client_event_roundtrip (.identity e) f hv hw hs
  have hi : Node.fromIdentity e = some n := by
    obtain ⟨id, addr, tag, st, attrs⟩ := n
    have := Node.fromProto_toProto _ hn
    simp only [Node.fromProto, Node.toProto] at this
    simp only at h1 h2 h3 h4 h5
    simp only [Node.fromIdentity, h1, h2, h3, h4, h5]
    exact this
  have hps : e.peers.mapM Node.fromProto = some peers := by rw [h6]; exact mapM_fromProto peers hp
  intro σ'
  have : σ' = σ.onIdentity e := by
    simp only [σ', ClientEnd.step, ht, if_true, ClientEnd.arrive, hr, ClientEnd.handle]
  rw [this, ClientEnd.onIdentity, hi, hps]
  split
  · simp [ht]
  · simp [ht]

/-- **C121.** And every handshake after it as the other node wrote it, without that node itself. -/
theorem C121_shaken (parse : String → Option U) (σ : ClientEnd U W) (ht : σ.task = .reading) (hi : σ.intro ≠ .awaited)
    (at' : Option Time)
    (known : List Node) (ha : ∀ t, at' = some t → t.Valid) (hk : ∀ n ∈ known, n.Valid) (e : ClientHandshake)
    (he : e.nodeStartedAt = at'.map Time.toTimestamp ∧ e.nodes = known.map Node.toProto) (hv : e.Ok) (f : Bytes)
    (hw : (ClientEvent.handshake e).write = some f) (hs : f.length < 2 ^ 32) :
    let σ' := σ.step parse (.arrive (.frame f))
    σ'.task = .reading ∧ σ'.rpc = σ.rpc ∧ σ'.intro = σ.intro ∧
    σ'.given = σ.given ++ [.handshake e.nodeId e.nodeTag at' (known.filter fun n => n.id ≠ e.nodeId)] := by
  have hr := C20_client_event_roundtrip (.handshake e) f hv hw hs
  have h1 : shakenAt e.nodeStartedAt = some at' := by
    rw [he.1]
    cases at' with
    | none => rfl
    | some t => simp [shakenAt, Time.ofTimestamp_toTimestamp t (ha t rfl)]
  have h2 : (e.nodes.filter fun n => n.nodeId ≠ e.nodeId).mapM Node.fromProto =
      some (known.filter fun n => n.id ≠ e.nodeId) := by
    rw [he.2, List.filter_map]
    exact mapM_fromProto _ fun n hn => hk n ((List.mem_filter.mp hn).1)
  intro σ'
  have : σ' = σ.onHandshake e := by
    simp only [σ', ClientEnd.step, ht, if_true, ClientEnd.arrive, hr, ClientEnd.handle]
  rw [this, ClientEnd.onHandshake, h1, h2]
  simp only [ClientEnd.tell, if_neg hi]
  exact ⟨ht, trivial, trivial, trivial⟩

/-- **C121.** While the task reads, the table of requests is treated as C19 has it: by every frame that can be read, and by
no other. -/
theorem C121_table (parse : String → Option U) (σ : ClientEnd U W) (ht : σ.task = .reading) (f : Bytes) :
    (σ.step parse (.arrive (.frame f))).rpc = match ClientEvent.read f with
      | .ok e => σ.rpc.step parse (.clientEvent e)
      | _ => σ.rpc := by
  simp only [ClientEnd.step, ht, if_true, ClientEnd.arrive]
  cases hr : ClientEvent.read f with
  | rejected => rfl
  | panic => rfl
  | ok e =>
    have hreply : ∀ id good e, (σ.onReply parse id good e).rpc = σ.rpc.onClientEvent parse e := by
      intro id good e
      simp only [ClientEnd.onReply]
      split
      · rfl
      · split <;> rfl
    cases e with
    | identity e => 
      simp only [ClientEnd.handle, ClientEnd.onIdentity]
      split
      · split <;> rfl
      · rfl
    | handshake e =>
      simp only [ClientEnd.handle, ClientEnd.onHandshake, ClientEnd.tell]
      split
      · split <;> rfl
      · rfl
    | result e => exact hreply _ _ _
    | err e => exact hreply _ _ _
    | ping e => rfl
    | pong e => exact hreply _ _ _

/-! ### Refuted -/

/-- **C121 refuted, sessions.** One fatal frame, from whatever peer, and a running session is never told: whatever arrives
later, it stays up, is not asked to stop, and nothing that arrives has any effect any more. -/
theorem C121_session_refuted (uuid : String → Bool) (ops more : List SessionOp) (f : Bytes)
    (ht : (SessionEnd.run uuid {} ops).task = .reading) (hu : (SessionEnd.run uuid {} ops).up = true)
    (hf : SessionFatal (fun s => uuid s = true) f) (hm : .stopped ∉ more) :
    let σ := SessionEnd.run uuid {} (ops ++ .arrive (.frame f) :: more)
    ¬ Known σ ∧ σ.up = true ∧ σ.stops = 0 ∧ σ.effects = (SessionEnd.run uuid {} ops).effects := by
  intro σ
  have hd := (C121_session_fatal uuid _ ht f).mpr (.inl hf)
  have hσ : σ = ((SessionEnd.run uuid {} ops).step uuid (.arrive (.frame f))).run uuid more := by
    simp only [σ, session_run_append]; rfl
  have hs : (SessionEnd.run uuid {} ops).stops = if (SessionEnd.run uuid {} ops).task = .closed then 1 else 0 :=
    C121_session_told uuid ops
  rw [ht] at hs
  generalize SessionEnd.run uuid {} ops = τ at *
  have hall : (τ.step uuid (.arrive (.frame f))) = { τ with task := .dead } := by
    simp only [SessionEnd.step, ht, if_true] at hd ⊢
    rcases arrive_cases uuid τ (.frame f) with ⟨l, e⟩ | ⟨l, e⟩ | e <;> rw [e] at hd ⊢
    · rw [ht] at hd; cases hd
    · cases hd
  rw [hall] at hσ
  obtain ⟨h1, h2, h3, h4⟩ := C121_session_over uuid { τ with task := .dead } (by simp) more
  rw [← hσ] at h1 h2 h3 h4
  have h3' : σ.stops = 0 := by rw [h3]; simpa using hs
  have h4' : σ.up = true := (h4 hm).trans hu
  refine ⟨?_, h4', h3', h2⟩
  rintro (h | h | h)
  · rw [h] at h1; cases h1
  · omega
  · rw [h] at h4'; cases h4'

/-- **C121 refuted, clients.** One fatal frame to a client that has been introduced, and it is never told: it stays connected
as far as it knows, and whoever waits for a reply that comes on this connection, pings included, waits for ever. -/
theorem C121_client_refuted (parse : String → Option U) (ops more : List (ClientOp U W)) (f : Bytes)
    (ht : (ClientEnd.run parse ({} : ClientEnd U W) ops).task = .reading)
    (hf : let τ := ClientEnd.run parse ({} : ClientEnd U W) ops
      ClientFatal (fun s => ∃ u, parse s = some u) (fun s => ∃ u w, parse s = some u ∧ (u, w) ∈ τ.rpc.pending)
        (τ.intro = .awaited) f) :
    let σ := ClientEnd.run parse ({} : ClientEnd U W) (ops ++ .arrive (.frame f) :: more)
    σ.task = .dead ∧ σ.told = 0 ∧
    σ.rpc = (others more).foldl (Rpc.step parse) (ClientEnd.run parse ({} : ClientEnd U W) (ops ++ [.arrive (.frame f)])).rpc := by
  intro σ
  have hd := (C121_client_fatal parse _ ht f).mpr hf
  have hτ : (ClientEnd.run parse ({} : ClientEnd U W) ops).step parse (.arrive (.frame f)) =
      ClientEnd.run parse ({} : ClientEnd U W) (ops ++ [.arrive (.frame f)]) := by
    rw [client_run_append]; rfl
  rw [hτ] at hd
  have hσ : σ = (ClientEnd.run parse ({} : ClientEnd U W) (ops ++ [.arrive (.frame f)])).run parse more := by
    simp only [σ]
    rw [← client_run_append, List.append_assoc]; rfl
  have ht2 : (ClientEnd.run parse ({} : ClientEnd U W) (ops ++ [.arrive (.frame f)])).told =
      if (ClientEnd.run parse ({} : ClientEnd U W) (ops ++ [.arrive (.frame f)])).task = .closed then 1 else 0 :=
    (C121_client_told parse _).1
  rw [hd] at ht2
  obtain ⟨h1, _, h3, h4⟩ := C121_client_over parse _ (by rw [hd]; simp) more
  rw [← hσ] at h1 h3 h4
  exact ⟨h1.trans hd, h3.trans ht2, h4⟩

/-- **C121 refuted, early.** If the connection ends before the client has been introduced, or a handshake of this version
comes first, the client and the task wait for each other: whatever arrives later, the client is neither introduced nor told,
and does not learn that it waits in vain. (Had the frame been garbled, it would have.) -/
theorem C121_early_refuted (parse : String → Option U) (ops more : List (ClientOp U W)) (a : Arrival)
    (ht : (ClientEnd.run parse ({} : ClientEnd U W) ops).task = .reading)
    (hi : (ClientEnd.run parse ({} : ClientEnd U W) ops).intro = .awaited)
    (ha : a = .lost ∨ ∃ (e : ClientHandshake) (f : Bytes), a = .frame f ∧ OwnClient (fun s => ∃ u, parse s = some u) (.handshake e) ∧
      e.Ok ∧ (ClientEvent.handshake e).write = some f ∧ f.length < 2 ^ 32) :
    let σ := ClientEnd.run parse ({} : ClientEnd U W) (ops ++ .arrive a :: more)
    σ.task = .hung ∧ σ.intro = .awaited ∧ σ.told = 0 ∧ σ.given = (ClientEnd.run parse ({} : ClientEnd U W) ops).given := by
  intro σ
  have hσ : σ = ((ClientEnd.run parse ({} : ClientEnd U W) ops).step parse (.arrive a)).run parse more := by
    simp only [σ, client_run_append]; rfl
  have htold : (ClientEnd.run parse ({} : ClientEnd U W) ops).told =
      if (ClientEnd.run parse ({} : ClientEnd U W) ops).task = .closed then 1 else 0 := (C121_client_told parse ops).1
  have hs : Sound σ := by
    obtain ⟨h1, h2, h3⟩ := C121_client_told parse (W := W) (ops ++ .arrive a :: more)
    exact ⟨h1, h2, h3⟩
  rw [ht] at htold
  generalize ClientEnd.run parse ({} : ClientEnd U W) ops = τ at *
  have hall : τ.step parse (.arrive a) = { τ with task := .hung } := by
    simp only [ClientEnd.step, ht, if_true]
    rcases ha with rfl | ⟨e, f, rfl, ho, hv, hw, hl⟩
    · simp [ClientEnd.arrive, ClientEnd.tell, hi]
    · have hr := C20_client_event_roundtrip (.handshake e) f hv hw hl
      have hnd := C121_own_client parse τ (.handshake e) ho hv f hw hl
      rw [← C121_client_fatal parse τ ht f] at hnd
      simp only [ClientEnd.step, ht, if_true, ClientEnd.arrive, hr, ClientEnd.handle, ClientEnd.onHandshake] at hnd ⊢
      split
      · simp [ClientEnd.tell, hi]
      · rename_i h1
        exfalso
        apply hnd
        split
        · rename_i h2 h3; exact absurd h3 (h1 _ _ h2)
        · rfl
  rw [hall] at hσ
  obtain ⟨h1, h2, h3, _⟩ := C121_client_over parse { τ with task := .hung } (by simp) more
  rw [← hσ] at h1 h2 h3
  exact ⟨h1, hs.hung h1, h3.trans htold, h2⟩

/-- **C121 refuted, waiting.** A caller who waits when such a frame has come waits for ever, whatever arrives on the
connection, its own answer included, and whatever else is asked. -/
theorem C121_waits_refuted (parse : String → Option U) (ops more : List (ClientOp U W)) (f : Bytes)
    (ht : (ClientEnd.run parse ({} : ClientEnd U W) ops).task = .reading)
    (hf : let τ := ClientEnd.run parse ({} : ClientEnd U W) ops
      ClientFatal (fun s => ∃ u, parse s = some u) (fun s => ∃ u w, parse s = some u ∧ (u, w) ∈ τ.rpc.pending)
        (τ.intro = .awaited) f)
    (u : U) (w : W) (hw : (u, w) ∈ (ClientEnd.run parse ({} : ClientEnd U W) (ops ++ [.arrive (.frame f)])).rpc.pending)
    (hm : ∀ o ∈ others more, ∃ u' w', o = .request u' w' ∧ u' ≠ u) :
    (u, w) ∈ (ClientEnd.run parse ({} : ClientEnd U W) (ops ++ .arrive (.frame f) :: more)).rpc.pending := by
  rw [(C121_client_refuted parse ops more f ht hf).2.2]
  have : ∀ (l : List (RpcOp U W)) (ρ : Rpc U W), (u, w) ∈ ρ.pending →
      (∀ o ∈ l, ∃ u' w', o = .request u' w' ∧ u' ≠ u) → (u, w) ∈ (l.foldl (Rpc.step parse) ρ).pending := by
    intro l
    induction l with
    | nil => exact fun ρ h _ => h
    | cons o l ih =>
      intro ρ h hl
      refine ih _ ?_ fun o ho => hl o (List.mem_cons_of_mem _ ho)
      obtain ⟨u', w', rfl, hne⟩ := hl o (by simp)
      exact (push_pending ρ u' u w' w).mpr (.inr ⟨fun h => hne h.symm, h⟩)
  exact this _ _ hw hm

/-- **C121 refuted, versions.** The frame need not be garbled. An error of a kind that a newer version may have added, well
formed and for a request that was made, ends the reading at either end. -/
theorem C121_newer_refuted (ids waiting : String → Prop) (first : Prop) (e : ClientErr) (x : Network.ActorRefErr)
    (he : e.error = some x) (hx : 11 < x.errType.toInt) (f : Bytes) (hs : f.length < 2 ^ 32) :
    ((SessionEvent.err e).write = some f → SessionFatal ids f) ∧
    ((ClientEvent.err e).write = some f → waiting e.messageId → ClientFatal ids waiting first f) := by
  have hn : ∀ y, e.error = some y → NoError y := by
    intro y hy
    rw [he] at hy
    injection hy with hy
    subst hy
    exact .inl (by omega)
  refine ⟨fun hw => ?_, fun hw hwait => ?_⟩
  · have hr := C20_session_event_roundtrip (.err e) f trivial hw hs
    obtain ⟨b, rfl, hb⟩ := (session_ok f _).mp hr
    exact .noError b e hb hn
  · have hr := C20_client_event_roundtrip (.err e) f trivial hw hs
    obtain ⟨b, rfl, hb⟩ := (client_ok f _).mp hr
    exact .noError b e hb hwait hn

/-! ### Cases -/

section Cases

/-- in the cases, the ids are two. -/
def numeral (s : String) : Option Nat := if s = "7" then some 7 else if s = "5" then some 5 else none

/-- an error of a kind beyond those known, for request 7. -/
def newerErr : ClientErr := { messageId := "7", error := some { errType := 12 } }

/-- the frame it makes. -/
def newerFrame : Bytes := [3, 10, 1, 55, 18, 2, 8, 12]

/-- the result of request 7. -/
def resultFrame : Bytes := [2, 10, 1, 55, 18, 1, 9]

/-- a client that has been introduced and made requests 5 and 7. -/
def busy : List (ClientOp Nat String) :=
  [.arrive (.frame (12 :: NodeIdentity.write { nodeId := 3, addr := "b" })), .other (.request 7 "x"), .other (.request 5 "y")]

-- `C121_session_fatal`: each way, and a ping to a session that is gone
example : (SessionEnd.run (fun s => (numeral s).isSome) {} [.arrive (.frame [4, 255])]).task = .dead := by decide +kernel
example : (SessionEnd.run (fun s => (numeral s).isSome) {} [.arrive (.frame newerFrame)]).task = .dead := by decide +kernel
example : (SessionEnd.run (fun s => (numeral s).isSome) {} [.arrive (.frame [2, 10, 1, 97])]).task = .dead := by
  decide +kernel
example : (SessionEnd.run (fun s => (numeral s).isSome) {} [.stopped, .arrive (.frame [4])]).task = .dead := by
  decide +kernel
example : (SessionEnd.run (fun s => (numeral s).isSome) {} [.arrive (.frame [4]), .arrive (.frame [99, 1])]).task
    = .reading := by decide +kernel

-- `C121_client_fatal`: the error kills if it is waited for, and only then
example : (ClientEnd.run numeral ({} : ClientEnd Nat String) (busy ++ [.arrive (.frame newerFrame)])).task = .dead := by
  decide +kernel
example : (ClientEnd.run numeral ({} : ClientEnd Nat String) [.arrive (.frame newerFrame)]).task = .reading := by
  decide +kernel

-- `C121_session_told`, `C121_session_over`, `C121_session_refuted`
example : (SessionEnd.run (fun s => (numeral s).isSome) {} [.arrive .lost, .arrive (.frame [4])]).stops = 1 := by
  decide +kernel
example : ¬ Known (SessionEnd.run (fun s => (numeral s).isSome) {} [.arrive (.frame newerFrame), .arrive .lost]) := by
  rw [Known]; decide +kernel

-- `C121_client_told`, `C121_client_over`: before the introduction the client learns of it, afterwards it does not
example : let σ := ClientEnd.run numeral ({} : ClientEnd Nat String) [.arrive (.frame [3, 255])]
    (σ.task, σ.intro, σ.told) = (.dead, .dropped, 0) := by decide +kernel
example : let σ := ClientEnd.run numeral ({} : ClientEnd Nat String) (busy ++ [.arrive (.frame [3, 255]), .arrive .lost])
    (σ.task, σ.intro, σ.told) = (.dead, .made, 0) := by decide +kernel

-- `C121_client_refuted`, `C121_waits_refuted`: the answer has come, and 7 still waits; without the frame it does not
example : (ClientEnd.run numeral ({} : ClientEnd Nat String)
    (busy ++ .arrive (.frame [3, 255]) :: [.arrive (.frame resultFrame)])).rpc.pending = [(5, "y"), (7, "x")] := by
  decide +kernel
example : (ClientEnd.run numeral ({} : ClientEnd Nat String) (busy ++ [.arrive (.frame resultFrame)])).rpc.pending
    = [(5, "y")] := by decide +kernel

-- `C121_own_session`, `C121_own_client`, the partial theorems: such frames are written
example : (SessionEvent.result { messageId := "7", result := [9] }).write = some resultFrame ∧
    OwnSession (fun s => (numeral s).isSome = true) (.result { messageId := "7", result := [9] }) := by
  simp only [OwnSession]; decide +kernel
example : (ClientEvent.result { messageId := "7", result := [9] }).write = some resultFrame ∧
    OwnClient (fun s => ∃ u, numeral s = some u) (.result { messageId := "7", result := [9] }) :=
  ⟨by decide +kernel, 7, by decide +kernel⟩

-- `C121_early_refuted`: the identity comes too late
example :
    let shake : ClientOp Nat String := .arrive (.frame (1 :: ClientHandshake.write { nodeId := 3 }))
    let σ := ClientEnd.run numeral {} (shake :: busy)
    (σ.task, σ.intro, σ.told, σ.given) = (.hung, .awaited, 0, []) := by decide +kernel

-- `C121_newer_refuted`
example : (SessionEvent.err newerErr).write = some newerFrame ∧ (11 : Int) < (12 : Int32).toInt := by decide +kernel

-- `C121_introduced`, `C121_shaken`, `C121_table`
example : (ClientEnd.run numeral ({} : ClientEnd Nat String) busy).given
    = [.identity { id := 3, addr := "b", tag := "", startedAt := none, attributes := [] } [] none] := by decide +kernel
example : (ClientEnd.run numeral ({} : ClientEnd Nat String)
    (busy ++ [.arrive (.frame (1 :: ClientHandshake.write { nodeId := 3, nodes := [{ nodeId := 3 }, { nodeId := 4, addr := "c" }] }))])).given.drop 1
    = [.handshake 3 "" none [{ id := 4, addr := "c", tag := "", startedAt := none, attributes := [] }]] := by
  decide +kernel

end Cases

end Verif.Remote.Readers
