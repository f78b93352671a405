import Verif.Remote.CodecLemmas

/-!
# Properties of the remote codec (C20, C21, C36)
-/

namespace Verif.Remote
open Verif.Proto Verif.Proto.Network

/-! ### Specification -/

/-- map fields have distinct keys, as every `HashMap` does. -/
def SessionEvent.Valid : SessionEvent → Prop
  | .handshake e => e.Ok
  | _ => True

def ClientEvent.Valid : ClientEvent → Prop
  | .identity e => e.Ok
  | .handshake e => e.Ok
  | _ => True

/-- the tags a session (server side) knows. -/
def sessionTags : List Nat := [0, 1, 2, 3, 4, 5, 6, 7, 8, 9, 10]

/-- the tags a client knows. -/
def clientTags : List Nat := [1, 2, 3, 4, 5, 12]

/-- what one side puts on a connection: an event, or junk that is not an event frame. -/
inductive Sent (E : Type) where
  | event (e : E)
  | junk (f : Bytes)

/-- the events among what was sent. -/
def Sent.events {E : Type} : List (Sent E) → List E
  | [] => []
  | .event e :: r => e :: Sent.events r
  | .junk _ :: r => Sent.events r

/-- the frame of a sent thing. -/
def Sent.frame {E : Type} (write : E → Option Bytes) : Sent E → Option Bytes
  | .event e => write e
  | .junk f => some f

/-- a receiver given events one after the other until it closes or panics. -/
def deliver {σ E : Type} (onReceive : σ → E → Option (σ × Bool)) : σ → List E → σ × LoopEnd
  | s, [] => (s, .running)
  | s, e :: es =>
    match onReceive s e with
    | none => (s, .panicked)
    | some (s', true) => (s', .closed)
    | some (s', false) => deliver onReceive s' es

/-! ### C20 -/

/-- Every event a client writes is read by the session as the same event. -/
theorem C20_session_event_roundtrip (e : SessionEvent) (bs : Bytes) (hv : e.Valid)
    (hw : e.write = some bs) (hs : bs.length < 2 ^ 32) : SessionEvent.read bs = .ok e := by
  cases e <;> simp only [SessionEvent.write, Option.some.injEq, reduceCtorEq] at hw <;> subst hw <;>
    simp only [List.length_cons] at hs <;> simp only [SessionEvent.read]
  case identify e => simp [IdentifyEvent.read_write e (by omega), parseInto]
  case ping e => simp [PingEvent.read_write e (by omega), parseInto]
  case pong e => simp [PongEvent.read_write e (by omega), parseInto]
  case handshake e => simp [SessionHandshake.read_write e hv (by omega), parseInto]
  case notifyActor e => simp [MessageRequest.read_write e (by omega), parseInto]
  case createActor e => simp [CreateActorEvent.read_write e (by omega), parseInto]
  case registerActor e => simp [ActorAddress.read_write e (by omega), parseInto]
  case findActor e => simp [FindActorEvent.read_write e (by omega), parseInto]
  case streamPublish e => simp [StreamPublishEvent.read_write e (by omega), parseInto]
  case result e => simp [ClientResult.read_write e (by omega), parseInto]
  case err e => simp [ClientErr.read_write e (by omega), parseInto]

/-- Every event a session writes is read by the client as the same event. -/
theorem C20_client_event_roundtrip (e : ClientEvent) (bs : Bytes) (hv : e.Valid)
    (hw : e.write = some bs) (hs : bs.length < 2 ^ 32) : ClientEvent.read bs = .ok e := by
  cases e <;> simp only [ClientEvent.write, Option.some.injEq] at hw <;> subst hw <;>
    simp only [List.length_cons] at hs <;> simp only [ClientEvent.read]
  case identity e => simp [NodeIdentity.read_write e hv (by omega), parseInto]
  case handshake e => simp [ClientHandshake.read_write e hv (by omega), parseInto]
  case ping e => simp [PingEvent.read_write e (by omega), parseInto]
  case pong e => simp [PongEvent.read_write e (by omega), parseInto]
  case result e => simp [ClientResult.read_write e (by omega), parseInto]
  case err e => simp [ClientErr.read_write e (by omega), parseInto]

/-- Exactly the Raft event cannot be written by a client; a session can write every event. -/
theorem C20_unwritable (e : SessionEvent) : e.write = none ↔ ∃ r, e = .raft r := by
  cases e <;> simp [SessionEvent.write]

theorem C20_client_always_writable (e : ClientEvent) : ∃ bs, e.write = some bs := by
  cases e <;> simp [ClientEvent.write]

theorem parseInto_ne {α β : Type} {mk : α → β} {o : Option α} : parseInto mk o ≠ .rejected := by
  cases o <;> simp [parseInto]

/-- A frame is rejected exactly when it is empty or its first byte is not a known tag. -/
theorem C20_session_rejects (bs : Bytes) :
    SessionEvent.read bs = .rejected ↔ bs = [] ∨ ∃ t r, bs = t :: r ∧ t.toNat ∉ sessionTags := by
  cases bs with
  | nil => simp [SessionEvent.read]
  | cons t r =>
    simp only [SessionEvent.read, sessionTags]
    split <;> simp_all [parseInto_ne]

theorem C20_client_rejects (bs : Bytes) :
    ClientEvent.read bs = .rejected ↔ bs = [] ∨ ∃ t r, bs = t :: r ∧ t.toNat ∉ clientTags := by
  cases bs with
  | nil => simp [ClientEvent.read]
  | cons t r =>
    simp only [ClientEvent.read, clientTags]
    split <;> simp_all [parseInto_ne]

/-- Two different events never share an encoding. -/
theorem C20_session_injective (e e' : SessionEvent) (bs : Bytes) (hv : e.Valid) (hv' : e'.Valid)
    (hw : e.write = some bs) (hw' : e'.write = some bs) (hs : bs.length < 2 ^ 32) : e = e' := by
  have h1 := C20_session_event_roundtrip e bs hv hw hs
  have h2 := C20_session_event_roundtrip e' bs hv' hw' hs
  rw [h1] at h2; injection h2

/-- the receive loop over frames = the receiver given the events, junk frames not counting. -/
theorem loop_eq_deliver {σ E : Type} (read : Bytes → ReadRes E) (write : E → Option Bytes)
    (onReceive : σ → E → Option (σ × Bool)) (sent : List (Sent E)) (frames : List Bytes)
    (hf : sent.mapM (Sent.frame write) = some frames)
    (hread : ∀ e bs, .event e ∈ sent → write e = some bs → read bs = .ok e)
    (hjunk : ∀ f, .junk f ∈ sent → read f = .rejected) (s : σ) :
    receiveLoop read onReceive s frames = deliver onReceive s (Sent.events sent) := by
  induction sent generalizing frames s with
  | nil => simp at hf; subst hf; rfl
  | cons x xs ih =>
    simp only [List.mapM_cons, Option.bind_eq_bind, Option.pure_def, Option.bind_eq_some_iff,
      Option.some.injEq] at hf
    obtain ⟨f, h1, fs, h2, rfl⟩ := hf
    have ih' := ih fs h2 (fun e bs he hw => hread e bs (by simp [he]) hw)
      (fun f he => hjunk f (by simp [he]))
    cases x with
    | junk g =>
      simp only [Sent.frame, Option.some.injEq] at h1
      subst h1
      simp only [receiveLoop, hjunk g (by simp), Sent.events, ih']
    | event e =>
      simp only [Sent.frame] at h1
      simp only [receiveLoop, hread e f (by simp) h1, Sent.events, deliver]
      rcases onReceive s e with _ | ⟨s', c⟩
      · rfl
      · cases c
        · exact ih' s'
        · rfl

/-- **C20.** Whatever a client sends — any events, with frames that are empty or carry unknown tags in
between — and however the connection cuts the bytes into chunks, the session's receiver is given
exactly the events, unchanged and in order. -/
theorem C20_session_connection {σ : Type} (onReceive : σ → SessionEvent → Option (σ × Bool))
    (sent : List (Sent SessionEvent)) (frames chunks : List Bytes) (s : σ)
    (hf : sent.mapM (Sent.frame SessionEvent.write) = some frames)
    (hv : ∀ e, .event e ∈ sent → e.Valid)
    (hjunk : ∀ f, .junk f ∈ sent → f = [] ∨ ∃ t r, f = t :: r ∧ t.toNat ∉ sessionTags)
    (hsize : ∀ f ∈ frames, f.length ≤ maxFrame) (hne : chunks ≠ [])
    (hc : chunks.flatten = frames.flatMap fun f => be32 f.length ++ f) :
    (decodeChunks (.buf []) chunks).1 = frames ∧
    receiveLoop SessionEvent.read onReceive s (decodeChunks (.buf []) chunks).1 =
      deliver onReceive s (Sent.events sent) := by
  have h1 : (decodeChunks (.buf []) chunks).1 = frames := by
    rw [decodeChunks_eq]
    split
    · exact absurd rfl hne
    · simp only [Dec.feed, List.nil_append, hc, drain_frames frames hsize]
  refine ⟨h1, ?_⟩
  rw [h1]
  have hmem : ∀ (x : Sent SessionEvent) f, x ∈ sent → x.frame SessionEvent.write = some f →
      f ∈ frames := by
    clear hc h1 hsize hjunk hv
    induction sent generalizing frames with
    | nil => intro x f hx; simp at hx
    | cons y ys ih =>
      simp only [List.mapM_cons, Option.bind_eq_bind, Option.pure_def, Option.bind_eq_some_iff,
        Option.some.injEq] at hf
      obtain ⟨g, h1, fs, h2, rfl⟩ := hf
      intro x f hx hxf
      rcases List.mem_cons.1 hx with rfl | hx
      · rw [h1] at hxf; simp at hxf; simp [hxf]
      · exact List.mem_cons_of_mem _ (ih _ h2 x f hx hxf)
  refine loop_eq_deliver _ _ _ sent frames hf ?_ ?_ s
  · intro e bs he hw
    have := hsize bs (hmem _ _ he hw)
    exact C20_session_event_roundtrip e bs (hv e he) hw
      (Nat.lt_of_le_of_lt this (by decide))
  · intro f he
    exact (C20_session_rejects f).2 (hjunk f he)

/-- the same for the other direction. -/
theorem C20_client_connection {σ : Type} (onReceive : σ → ClientEvent → Option (σ × Bool))
    (sent : List (Sent ClientEvent)) (frames chunks : List Bytes) (s : σ)
    (hf : sent.mapM (Sent.frame ClientEvent.write) = some frames)
    (hv : ∀ e, .event e ∈ sent → e.Valid)
    (hjunk : ∀ f, .junk f ∈ sent → f = [] ∨ ∃ t r, f = t :: r ∧ t.toNat ∉ clientTags)
    (hsize : ∀ f ∈ frames, f.length ≤ maxFrame) (hne : chunks ≠ [])
    (hc : chunks.flatten = frames.flatMap fun f => be32 f.length ++ f) :
    (decodeChunks (.buf []) chunks).1 = frames ∧
    receiveLoop ClientEvent.read onReceive s (decodeChunks (.buf []) chunks).1 =
      deliver onReceive s (Sent.events sent) := by
  have h1 : (decodeChunks (.buf []) chunks).1 = frames := by
    rw [decodeChunks_eq]
    split
    · exact absurd rfl hne
    · simp only [Dec.feed, List.nil_append, hc, drain_frames frames hsize]
  refine ⟨h1, ?_⟩
  rw [h1]
  have hmem : ∀ (x : Sent ClientEvent) f, x ∈ sent → x.frame ClientEvent.write = some f →
      f ∈ frames := by
    clear hc h1 hsize hjunk hv
    induction sent generalizing frames with
    | nil => intro x f hx; simp at hx
    | cons y ys ih =>
      simp only [List.mapM_cons, Option.bind_eq_bind, Option.pure_def, Option.bind_eq_some_iff,
        Option.some.injEq] at hf
      obtain ⟨g, h1, fs, h2, rfl⟩ := hf
      intro x f hx hxf
      rcases List.mem_cons.1 hx with rfl | hx
      · rw [h1] at hxf; simp at hxf; simp [hxf]
      · exact List.mem_cons_of_mem _ (ih _ h2 x f hx hxf)
  refine loop_eq_deliver _ _ _ sent frames hf ?_ ?_ s
  · intro e bs he hw
    have := hsize bs (hmem _ _ he hw)
    exact C20_client_event_roundtrip e bs (hv e he) hw
      (Nat.lt_of_le_of_lt this (by decide))
  · intro f he
    exact (C20_client_rejects f).2 (hjunk f he)

/-- A case that meets the hypotheses of `C20_session_connection`: a ping, an empty frame, a frame with
the unused tag 11 and a registration, arriving cut in two chunks. -/
example :
    let p : PingEvent := { messageId := "m", nodeId := 7, systemTerminated := true }
    let a : ActorAddress := { actorId := "x", nodeId := some { value := 3 } }
    let sent : List (Sent SessionEvent) :=
      [.event (.ping p), .junk [], .junk [11, 1], .event (.registerActor a)]
    let frames := [4 :: p.write, [], [11, 1], 8 :: a.write]
    let all := frames.flatMap fun f => be32 f.length ++ f
    sent.mapM (Sent.frame SessionEvent.write) = some frames ∧
    (∀ f ∈ frames, f.length ≤ maxFrame) ∧
    [all.take 9, all.drop 9].flatten = all := by
  refine ⟨by decide +kernel, by decide +kernel, by simp⟩

/-- Not covered by the claim, and worth knowing: a frame with a known tag and a body that is not valid
protobuf is neither delivered nor rejected — the receive task panics, so the frames after it are lost
and the receiver is not told that the connection is gone. -/
theorem C20_malformed_body_panics :
    SessionEvent.read [9, 255] = .panic ∧
    receiveLoop SessionEvent.read (fun (s : Nat) _ => some (s + 1, false)) 0
      [[9, 255], 4 :: (PingEvent.write {})] = (0, .panicked) := by
  decide +kernel

/-- **C20.** The framing: a frame is refused for sending exactly when it is longer than eight mebibytes; and
whatever frames are sent, however the connection cuts their bytes into chunks, exactly those frames come out,
with nothing left over. -/
theorem C20_framing (frames chunks : List Bytes) :
    (∀ f, encodeFrame f = none ↔ 8388608 < f.length) ∧
    ∀ sent, frames.mapM encodeFrame = some sent → chunks ≠ [] → chunks.flatten = sent.flatten →
      decodeChunks (.buf []) chunks = (frames, .buf []) := by
  have hiff : ∀ f, encodeFrame f = none ↔ 8388608 < f.length := by
    intro f
    have hm : maxFrame = 8388608 := rfl
    unfold encodeFrame
    rw [hm]
    split <;> simp <;> omega
  refine ⟨hiff, ?_⟩
  intro sent hs hne hc
  have hboth : (∀ f ∈ frames, f.length ≤ maxFrame) ∧
      sent.flatten = frames.flatMap fun f => be32 f.length ++ f := by
    clear hc
    induction frames generalizing sent with
    | nil => simp at hs; subst hs; simp
    | cons f fs ih =>
      simp only [List.mapM_cons, Option.bind_eq_bind, Option.pure_def, Option.bind_eq_some_iff,
        Option.some.injEq] at hs
      obtain ⟨e, he, es, hes, rfl⟩ := hs
      obtain ⟨i1, i2⟩ := ih es hes
      unfold encodeFrame at he
      split at he
      · rename_i hle
        injection he with he
        subst he
        refine ⟨?_, by simp [i2]⟩
        intro g hg
        rcases List.mem_cons.1 hg with rfl | hg
        · exact hle
        · exact i1 g hg
      · cases he
  rw [decodeChunks_eq]
  split
  · exact absurd rfl hne
  · simp only [Dec.feed, List.nil_append, hc, hboth.2, drain_frames frames hboth.1]

example : decodeChunks (.buf []) [[0, 0, 0], [2, 7], [8, 0, 0, 0, 0]] = ([[7, 8], []], .buf []) :=
  (C20_framing _ _).2 [[0, 0, 0, 2, 7, 8], [0, 0, 0, 0]] (by decide) (by decide) (by decide)

/-! ### C21 -/

/-- **C21.** The conversion to the wire error and back is the identity. -/
theorem C21_error_roundtrip (e : ActorRefErr) : ActorRefErr.fromProto e.toProto = some e := by
  cases e with
  | serialisation x => cases x <;> rfl
  | deserialisation x => cases x <;> rfl
  | _ => rfl

/-- An error sent to another node (for a request id) arrives there as the same error for the same
request. -/
theorem C21_error_arrives (messageId : String) (e : ActorRefErr) (bs : Bytes)
    (hw : (errEvent messageId e).write = some bs) (hs : bs.length < 2 ^ 32) :
    ∃ ev, SessionEvent.read bs = .ok ev ∧ receivedErr ev = some (messageId, e) := by
  refine ⟨_, C20_session_event_roundtrip (errEvent messageId e) bs trivial hw hs, ?_⟩
  simp [receivedErr, errEvent, C21_error_roundtrip]

/-- Different errors look different on the wire. -/
theorem C21_injective (e e' : ActorRefErr) (h : e.toProto = e'.toProto) : e = e' := by
  have h1 := C21_error_roundtrip e
  rw [h, C21_error_roundtrip e'] at h1
  exact (Option.some.inj h1).symm

example : receivedErr (errEvent "id" (.notSupported "a" "Msg" "Act")) =
    some ("id", .notSupported "a" "Msg" "Act") := by decide

/-! ### C36 -/

/-- what the types guarantee about an event's nodes. -/
def ClusterEvent.Valid : ClusterEvent → Prop
  | .nodeAdded n => n.Valid
  | .nodeRemoved n => n.Valid
  | .memberUp _ ns => ∀ n ∈ ns, n.Valid
  | .leaderChanged _ => True

/-- **C36.** Every cluster event written by one node is read by the other as the same event. -/
theorem C36_cluster_event_roundtrip (e : ClusterEvent) (bs : Bytes) (hv : e.Valid)
    (hw : e.write = some bs) (hs : bs.length < 2 ^ 32) : ClusterEvent.read bs = .ok e := by
  cases e with
  | nodeAdded n =>
    simp only [ClusterEvent.write, Option.some.injEq] at hw; subst hw
    simp only [List.length_cons] at hs
    have hr := NewNodeEvent.read_write { node := some n.toProto }
      (by intro x hx; injection hx with hx; subst hx; exact hv.2) (by omega)
    simp [ClusterEvent.read, hr, nodeEvent, Node.fromProto_toProto n hv, parseInto]
  | nodeRemoved n =>
    simp only [ClusterEvent.write, Option.some.injEq] at hw; subst hw
    simp only [List.length_cons] at hs
    have hr := NodeRemovedEvent.read_write { node := some n.toProto }
      (by intro x hx; injection hx with hx; subst hx; exact hv.2) (by omega)
    simp [ClusterEvent.read, hr, nodeEvent, Node.fromProto_toProto n hv, parseInto]
  | leaderChanged id =>
    simp only [ClusterEvent.write, Option.some.injEq] at hw; subst hw
    simp only [List.length_cons] at hs
    simp [ClusterEvent.read, LeaderChangedEvent.read_write { nodeId := id } (by omega), parseInto]
  | memberUp l ns =>
    simp only [ClusterEvent.write, Option.some.injEq] at hw; subst hw
    simp only [List.length_cons] at hs
    have hr := MemberUpEvent.read_write { leaderId := l, nodes := ns.map Node.toProto }
      (by
        intro x hx
        obtain ⟨n, hn, rfl⟩ := List.mem_map.1 hx
        exact (hv n hn).2) (by omega)
    simp only [ClusterEvent.read]
    simp [hr, mapM_fromProto ns hv, parseInto]

/-- every cluster event can be written. -/
theorem C36_always_writable (e : ClusterEvent) : ∃ bs, e.write = some bs := by
  cases e <;> simp [ClusterEvent.write]

/-- Frames that are empty or carry an unknown tag are rejected, and only those. -/
theorem C36_rejects (bs : Bytes) :
    ClusterEvent.read bs = .rejected ↔ bs = [] ∨ ∃ t r, bs = t :: r ∧ 3 < t.toNat := by
  cases bs with
  | nil => simp [ClusterEvent.read]
  | cons t r =>
    simp only [ClusterEvent.read]
    split
    · split <;> simp_all [parseInto_ne, nodeEvent]
    · split <;> simp_all [parseInto_ne, nodeEvent]
    · simp_all [parseInto_ne]
    · split <;> simp_all [parseInto_ne]
    · simp_all; omega

/-- a node with a start time before the epoch and attributes meets the hypotheses. -/
example : (ClusterEvent.memberUp 9 [⟨1, "h:1", "t", some ⟨-5, 999999999⟩, [("a", "b"), ("c", "")]⟩,
    ⟨2, "", "", none, []⟩]).Valid := by
  intro n hn
  simp at hn
  rcases hn with rfl | rfl
  · refine ⟨?_, by simp [MapOk]⟩
    intro t ht; injection ht with ht; subst ht; simp [Time.Valid]
  · exact ⟨by simp, by simp [MapOk]⟩

end Verif.Remote
