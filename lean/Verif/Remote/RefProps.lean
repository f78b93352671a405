import Verif.Remote.RefModel
import Verif.Remote.HandlerProps
import Verif.Remote.ConfigProps

/-!
# C81: sending to a remote actor gives what sending to it locally gives
-/

namespace Verif.Remote
open Verif.Proto Verif.Proto.Network

section
variable {M R U W : Type} [DecidableEq U]

/-! ## Specification -/

/-- a message type whose encodings can be read back. -/
structure MsgType.Lawful (mt : MsgType M R) : Prop where
  message : ∀ m bs, mt.asBytes m = .ok bs → mt.fromBytes bs = .ok m
  result : ∀ r bs, mt.writeResult r = .ok bs → mt.readResult bs = .ok r

/-- Two nodes that can talk about message type `m` of actor type `a`: different nodes, built with the same registrations,
the type has a name, and ids can be read back. -/
structure Talk (n : NodeEnv U) (h : Host M R) (mt : MsgType M R) (a m : Nat) : Prop where
  distinct : n.self ≠ h.self
  regs : ∃ tn ops, Built tn ops n.cfg ∧ Built tn ops h.cfg
  named : ∃ name, n.cfg.handlerName a m = some name
  same : h.types (a, m) = mt
  ids : ∀ u, n.parse (n.print u) = some u

/-- the frame of a reply is within the limit of the encoding. -/
def Reply.Fits : Reply → Prop
  | .onSession e => ∀ bs, e.write = some bs → bs.length < 2 ^ 32
  | .toNode _ e => ∀ bs, e.write = some bs → bs.length < 2 ^ 32
  | _ => True

/-- the frames of this exchange are within the limit of the encoding. -/
def Fits (n : NodeEnv U) (h : Host M R) (mt : MsgType M R) (a m : Nat) (id : String) (msg : M) (u : U)
    (wants : Bool) : Prop :=
  ∀ bs ev frame, mt.asBytes msg = .ok bs → createRequest n a m id bs u wants = .ok ev → ev.write = some frame →
    frame.length < 2 ^ 32 ∧ ∀ r ∈ (h.receive n frame).2, r.Fits

/-! ## Lemmas -/

/-- what the waiting caller is given for an outcome at the other node. -/
def answerOf : Except ActorRefErr Bytes → Answer
  | .ok bs => .ok bs
  | .error e => .err e

theorem reply_says (n : NodeEnv U) (hids : ∀ u, n.parse (n.print u) = some u) (σ : Rpc U W) (r : Reply) (u : U)
    (o : Except ActorRefErr Bytes) (hs : r.says = some (n.print u, o)) (hfit : r.Fits)
    (hto : ∀ k e, r = .toNode k e → k = n.self) (hloc : ∀ mid e, r ≠ .completeLocal mid e) :
    n.reply σ r = σ.answer u (answerOf o) := by
  cases r with
  | completeLocal mid e => exact absurd rfl (hloc mid e)
  | panicked => simp [Reply.says] at hs
  | onSession e =>
    cases e with
    | result e =>
      simp only [Reply.says, Option.some.injEq, Prod.mk.injEq] at hs
      obtain ⟨h1, rfl⟩ := hs
      have hw : (ClientEvent.result e).write = some (2 :: e.write) := rfl
      have hr := C20_client_event_roundtrip (.result e) _ trivial hw (hfit _ hw)
      simp only [NodeEnv.reply, hw, Option.map_some, hr, Rpc.onClientEvent, h1, hids, answerOf]
    | _ => simp [Reply.says] at hs
  | toNode k e =>
    cases e with
    | err e =>
      simp only [Reply.says, Option.map_eq_some_iff, Prod.mk.injEq] at hs
      obtain ⟨x, hx, h1, rfl⟩ := hs
      have hk := hto _ _ rfl
      have hw : (SessionEvent.err e).write = some (3 :: e.write) := rfl
      have hr := C20_session_event_roundtrip (.err e) _ trivial hw (hfit _ hw)
      simp only [NodeEnv.reply, hk, if_true, hw, Option.map_some, hr, Rpc.onSessionEvent, hx, h1, hids, answerOf]
    | _ => simp [Reply.says] at hs

theorem answer_push (σ : Rpc U W) (u : U) (w : W) (ans : Answer) (hu : ∀ p ∈ σ.pending, p.1 ≠ u) :
    (σ.push u w).answer u ans = ⟨σ.pending, σ.done ++ [(u, w, ans)]⟩ := by
  have h1 : σ.pending.filter (fun p => p.1 ≠ u) = σ.pending :=
    List.filter_eq_self.2 (fun p hp => by simpa using hu p hp)
  have h2 : σ.pending.filter (fun p => p.1 = u) = [] :=
    List.filter_eq_nil_iff.2 (fun p hp => by simpa using hu p hp)
  simp only [Rpc.push, h1, h2, List.map_nil, List.append_nil, Rpc.answer, List.find?_cons, decide_true,
    List.filter_cons, ne_eq, not_true_eq_false, decide_false, Bool.false_eq_true, if_false]

/-- the request of this exchange. -/
def requestOf (n : NodeEnv U) (name id : String) (bs : Bytes) (u : U) (wants : Bool) : MessageRequest :=
  { messageId := n.print u, handlerType := name, actorId := id, message := bs, requiresResponse := wants,
    originNodeId := n.self }

omit [DecidableEq U] in
theorem receive_request (n : NodeEnv U) (h : Host M R) (mt : MsgType M R) (a m : Nat) (t : Talk n h mt a m)
    (id : String) (bs : Bytes) (u : U) (wants : Bool) (name : String) (hn : n.cfg.handlerName a m = some name) :
    ∃ frame, createRequest n a m id bs u wants = .ok (.notifyActor (requestOf n name id bs u wants)) ∧
      (SessionEvent.notifyActor (requestOf n name id bs u wants)).write = some frame ∧
      (frame.length < 2 ^ 32 → h.receive n frame =
        ((handleAttempt (behavOf mt) (h.find id) id bs 1).delivered.flatMap (fun p => (localSend p.1 p.2).1),
         sessionHandleMessage n.norm h.self h.handlers (h.find id) (requestOf n name id bs u wants))) ∧
      h.handlers name = some (behavOf mt) := by
  obtain ⟨tn, ops, hb, hb'⟩ := t.regs
  have hm := C77_name_leads_back tn ops n.cfg h.cfg hb hb' a m name hn
  have hh : h.handlers name = some (behavOf mt) := by
    unfold Host.handlers
    rw [hm, Option.map_some, t.same]
  refine ⟨9 :: (requestOf n name id bs u wants).write, ?_, rfl, ?_, hh⟩
  · unfold createRequest createHeader
    rw [hn]
    rfl
  · intro hl
    have hr := C20_session_event_roundtrip (.notifyActor (requestOf n name id bs u wants)) _ trivial rfl hl
    unfold Host.receive
    rw [hr]
    simp only [requestOf, hh]

/-- the exchange ends with exactly the outcome at the other node, for exactly this caller. -/
theorem exchange_outcome (n : NodeEnv U) (h : Host M R) (mt : MsgType M R) (a m : Nat) (t : Talk n h mt a m)
    (id : String) (msg : M) (bs : Bytes) (u : U) (w : W) (σ : Rpc U W) (hu : ∀ p ∈ σ.pending, p.1 ≠ u)
    (hbs : mt.asBytes msg = .ok bs) (hfit : Fits n h mt a m id msg u true) :
    exchange n h mt a m id msg u w σ =
      ((handleAttempt (behavOf mt) (h.find id) id bs 1).delivered.flatMap (fun p => (localSend p.1 p.2).1),
       ⟨σ.pending, σ.done ++ [(u, w, answerOf (recv (handleAttempt (behavOf mt) (h.find id) id bs 1).sent))]⟩,
       none) := by
  obtain ⟨name, hn⟩ := t.named
  obtain ⟨frame, hc, hw, hrec, hh⟩ := receive_request n h mt a m t id bs u true name hn
  obtain ⟨hl, hrf⟩ := hfit bs _ frame hbs hc hw
  have hrec := hrec hl
  have hnorm : n.norm (requestOf n name id bs u true).messageId = some (n.print u) := by
    simp [NodeEnv.norm, requestOf, t.ids]
  obtain ⟨r, hr1, hr2, hr3⟩ := C35_one_reply n.norm h.self h.handlers (h.find id)
    (requestOf n name id bs u true) (n.print u) hnorm rfl
  have hloc : ∀ mid e, r ≠ .completeLocal mid e := by
    intro mid e hre
    subst hre
    unfold sessionHandleMessage sessionReply at hr1
    split at hr1
    · split at hr1 <;> (try split at hr1) <;> simp at hr1
    · rw [hnorm] at hr1
      simp only [notifyRpcErr, List.cons.injEq, and_true] at hr1
      split at hr1
      · rename_i heq
        exact t.distinct heq
      · cases hr1
  have hsays : r.says = some (n.print u, recv (handleAttempt (behavOf mt) (h.find id) id bs 1).sent) := by
    rw [hr2]
    simp only [requestOf, hh, handleMessage]
  have hmem : r ∈ (h.receive n frame).2 := by rw [hrec]; simp only; rw [hr1]; simp
  unfold exchange remoteSend
  rw [hbs]
  simp only [hc, hw]
  rw [hrec]
  simp only [hr1, List.foldl_cons, List.foldl_nil]
  rw [reply_says n t.ids _ r u _ hsays (hrf r hmem) (fun k e hk => hr3 k e hk) hloc, answer_push σ u w _ hu]

/-! ## Properties -/

/-- **C81.** Sending to an actor of another node whose mailbox is open gives what sending to it on its own node gives:
the same message is put into its mailbox, the same number of times, and the caller gets the same result - also if the
actor dies over the message. No other caller is affected. -/
theorem C81_send (n : NodeEnv U) (h : Host M R) (mt : MsgType M R) (hl : mt.Lawful) (a m : Nat) (t : Talk n h mt a m)
    (id : String) (msg : M) (u : U) (w : W) (σ : Rpc U W) (hu : ∀ p ∈ σ.pending, p.1 ≠ u)
    (hfit : Fits n h mt a m id msg u true) (k : Nat) (x : Target M R) (hf : FoundAt (h.find id) k x)
    (hopen : x.isOpen = true) (henc : ∃ bs, mt.asBytes msg = .ok bs)
    (hres : ∀ r, x.handle msg = some r → ∃ bs, mt.writeResult r = .ok bs) :
    ∃ ans, exchange n h mt a m id msg u w σ =
        ((localSend x msg).1, ⟨σ.pending, σ.done ++ [(u, w, ans)]⟩, none) ∧
      readAnswer mt ans = (localSend x msg).2 := by
  obtain ⟨bs, hbs⟩ := henc
  rw [exchange_outcome n h mt a m t id msg bs u w σ hu hbs hfit]
  obtain ⟨h1, h2, h3, h4⟩ := hf
  rw [handleAttempt_found (behavOf mt) (h.find id) id bs k x h2 h3 1 (by omega) h1 h4]
  have hd : (behavOf mt).decode bs = .ok msg := hl.message msg bs hbs
  unfold deliverTo
  simp only [hd]
  cases hx : x.handle msg with
  | none =>
    have hs : (behavOf mt).send x msg = .error .resultChannelClosed := by
      simp [behavOf, localSend, hopen, hx]
    simp only [hs]
    exact ⟨.err .resultChannelClosed, by simp [recv, answerOf], by simp [readAnswer, localSend, hopen, hx]⟩
  | some r =>
    obtain ⟨rb, hrb⟩ := hres r hx
    have hs : (behavOf mt).send x msg = .ok r := by simp [behavOf, localSend, hopen, hx]
    have he : (behavOf mt).encode r = .ok rb := hrb
    simp only [hs, he]
    exact ⟨.ok rb, by simp [recv, answerOf], by simp [readAnswer, localSend, hopen, hx, hl.result r rb hrb]⟩

/-- **C81.** An actor that is not there: nothing is delivered and the caller is told which actor was not found. -/
theorem C81_missing (n : NodeEnv U) (h : Host M R) (mt : MsgType M R) (a m : Nat) (t : Talk n h mt a m)
    (id : String) (msg : M) (u : U) (w : W) (σ : Rpc U W) (hu : ∀ p ∈ σ.pending, p.1 ≠ u)
    (hfit : Fits n h mt a m id msg u true) (hf : Missing (h.find id)) (henc : ∃ bs, mt.asBytes msg = .ok bs) :
    exchange n h mt a m id msg u w σ = ([], ⟨σ.pending, σ.done ++ [(u, w, .err (.notFound id))]⟩, none) ∧
    readAnswer mt (.err (.notFound id)) = .error (.notFound id) := by
  obtain ⟨bs, hbs⟩ := henc
  rw [exchange_outcome n h mt a m t id msg bs u w σ hu hbs hfit,
    handleAttempt_missing (behavOf mt) (h.find id) id bs 1 (by omega) (by omega) hf]
  simp [recv, answerOf, readAnswer]

/-- **C81.** A message that cannot be encoded, or whose type has no name, leaves the node alone: nothing is sent or
delivered, and the caller is told why. -/
theorem C81_unsendable (n : NodeEnv U) (h : Host M R) (mt : MsgType M R) (a m : Nat) (id : String) (msg : M) (u : U)
    (w : W) (σ : Rpc U W) :
    (∀ e, mt.asBytes msg = .error e →
      exchange n h mt a m id msg u w σ = ([], σ, some (.serialisation e)) ∧
      exchangeNotify n h mt a m id msg u = ([], .error (.serialisation e))) ∧
    (∀ bs, mt.asBytes msg = .ok bs → n.cfg.handlerName a m = none →
      exchange n h mt a m id msg u w σ =
        ([], σ.push u w, some (.notSupported id (n.messageName m) (n.actorName a))) ∧
      exchangeNotify n h mt a m id msg u = ([], .error (.notSupported id (n.messageName m) (n.actorName a)))) := by
  constructor
  · intro e he
    simp [exchange, exchangeNotify, remoteSend, remoteNotify, he]
  · intro bs hbs hn
    simp [exchange, exchangeNotify, remoteSend, remoteNotify, hbs, createRequest, createHeader, hn]

/-- **C81.** A result that cannot be encoded is reported as such; the actor has handled the message all the same. -/
theorem C81_result_lost (n : NodeEnv U) (h : Host M R) (mt : MsgType M R) (hl : mt.Lawful) (a m : Nat)
    (t : Talk n h mt a m) (id : String) (msg : M) (u : U) (w : W) (σ : Rpc U W) (hu : ∀ p ∈ σ.pending, p.1 ≠ u)
    (hfit : Fits n h mt a m id msg u true) (k : Nat) (x : Target M R) (hf : FoundAt (h.find id) k x)
    (hopen : x.isOpen = true) (henc : ∃ bs, mt.asBytes msg = .ok bs) (r : R) (hx : x.handle msg = some r)
    (e : WrapErr) (he : mt.writeResult r = .error e) :
    exchange n h mt a m id msg u w σ =
      ([msg], ⟨σ.pending, σ.done ++ [(u, w, .err (.serialisation e))]⟩, none) := by
  obtain ⟨bs, hbs⟩ := henc
  rw [exchange_outcome n h mt a m t id msg bs u w σ hu hbs hfit]
  obtain ⟨h1, h2, h3, h4⟩ := hf
  rw [handleAttempt_found (behavOf mt) (h.find id) id bs k x h2 h3 1 (by omega) h1 h4]
  have hd : (behavOf mt).decode bs = .ok msg := hl.message msg bs hbs
  have hs : (behavOf mt).send x msg = .ok r := by simp [behavOf, localSend, hopen, hx]
  have he' : (behavOf mt).encode r = .error e := he
  simp [deliverTo, hd, hs, he', recv, answerOf, localSend, hopen, hx]

omit [DecidableEq U] in
/-- **C81.** A notification to an actor of another node is put into its mailbox as it would be locally, once, and the call
succeeds. -/
theorem C81_notify (n : NodeEnv U) (h : Host M R) (mt : MsgType M R) (hl : mt.Lawful) (a m : Nat)
    (t : Talk n h mt a m) (id : String) (msg : M) (u : U) (hfit : Fits n h mt a m id msg u false)
    (k : Nat) (x : Target M R) (hf : FoundAt (h.find id) k x) (hopen : x.isOpen = true)
    (henc : ∃ bs, mt.asBytes msg = .ok bs) :
    exchangeNotify n h mt a m id msg u = localNotify x msg := by
  obtain ⟨bs, hbs⟩ := henc
  obtain ⟨name, hn⟩ := t.named
  obtain ⟨frame, hc, hw, hrec, hh⟩ := receive_request n h mt a m t id bs u false name hn
  obtain ⟨hlen, -⟩ := hfit bs _ frame hbs hc hw
  obtain ⟨h1, h2, h3, h4⟩ := hf
  have hd : (behavOf mt).decode bs = .ok msg := hl.message msg bs hbs
  unfold exchangeNotify remoteNotify
  rw [hbs]
  simp only [hc, hw]
  rw [hrec hlen, handleAttempt_found (behavOf mt) (h.find id) id bs k x h2 h3 1 (by omega) h1 h4]
  unfold deliverTo
  simp only [hd, localNotify, hopen, if_true]
  cases hx : x.handle msg with
  | none => simp [behavOf, localSend, hopen, hx]
  | some r =>
    cases hwr : mt.writeResult r <;> simp [behavOf, localSend, hopen, hx, hwr]

/-! ## Where the two differ -/

/-- **C81 refuted (closed mailbox).** An actor that is found but stops before the message arrives: locally the caller is
told that the reference is no longer valid and may send again; remotely it is told that the result channel was closed, as
if the actor had begun to handle the message. Neither puts anything into the mailbox. -/
theorem C81_closed_refuted (n : NodeEnv U) (h : Host M R) (mt : MsgType M R) (hl : mt.Lawful) (a m : Nat)
    (t : Talk n h mt a m) (id : String) (msg : M) (u : U) (w : W) (σ : Rpc U W) (hu : ∀ p ∈ σ.pending, p.1 ≠ u)
    (hfit : Fits n h mt a m id msg u true) (k : Nat) (x : Target M R) (hf : FoundAt (h.find id) k x)
    (hclosed : x.isOpen = false) (henc : ∃ bs, mt.asBytes msg = .ok bs) :
    exchange n h mt a m id msg u w σ =
      ([], ⟨σ.pending, σ.done ++ [(u, w, .err .resultChannelClosed)]⟩, none) ∧
    localSend x msg = ([], .error .invalidRef) := by
  obtain ⟨bs, hbs⟩ := henc
  rw [exchange_outcome n h mt a m t id msg bs u w σ hu hbs hfit]
  obtain ⟨h1, h2, h3, h4⟩ := hf
  rw [handleAttempt_found (behavOf mt) (h.find id) id bs k x h2 h3 1 (by omega) h1 h4]
  have hd : (behavOf mt).decode bs = .ok msg := hl.message msg bs hbs
  have hs : (behavOf mt).send x msg = .error .invalidRef := by simp [behavOf, localSend, hclosed]
  simp [deliverTo, hd, hs, recv, answerOf, localSend, hclosed]

omit [DecidableEq U] in
/-- **C81 refuted (notifications to nobody).** Notifying an actor of another node succeeds although the actor does not
exist; locally a reference to an actor that is gone is an error. -/
theorem C81_notify_missing_refuted (n : NodeEnv U) (h : Host M R) (mt : MsgType M R) (a m : Nat)
    (t : Talk n h mt a m) (id : String) (msg : M) (u : U) (hfit : Fits n h mt a m id msg u false)
    (hf : Missing (h.find id)) (henc : ∃ bs, mt.asBytes msg = .ok bs) (x : Target M R) (hx : x.isOpen = false) :
    exchangeNotify n h mt a m id msg u = ([], .ok ()) ∧ localNotify x msg = ([], .error .invalidRef) := by
  obtain ⟨bs, hbs⟩ := henc
  obtain ⟨name, hn⟩ := t.named
  obtain ⟨frame, hc, hw, hrec, hh⟩ := receive_request n h mt a m t id bs u false name hn
  obtain ⟨hlen, -⟩ := hfit bs _ frame hbs hc hw
  refine ⟨?_, by simp [localNotify, hx]⟩
  unfold exchangeNotify remoteNotify
  rw [hbs]
  simp only [hc, hw]
  rw [hrec hlen, handleAttempt_missing (behavOf mt) (h.find id) id bs 1 (by omega) (by omega) hf]
  simp

omit [DecidableEq U] in
/-- **C81 refuted (notifications want no answer).** A message type that leaves `write_remote_result` at its default can be
sent as a notification; the actor handles it, and then an error is sent back for an id nobody waits for (which leaves an
entry in the request table of the node with the actor, `C19_responder_keeps_entries`). -/
theorem C81_notify_reply_refuted (n : NodeEnv U) (h : Host M R) (mt : MsgType M R) (hl : mt.Lawful) (a m : Nat)
    (t : Talk n h mt a m) (id : String) (msg : M) (bs : Bytes) (hbs : mt.asBytes msg = .ok bs) (u : U)
    (hfit : Fits n h mt a m id msg u false) (k : Nat) (x : Target M R) (hf : FoundAt (h.find id) k x)
    (hopen : x.isOpen = true) (r : R) (hx : x.handle msg = some r)
    (hdef : ∀ r, mt.writeResult r = .error .notTransmittable) :
    ∃ ev frame, remoteNotify n mt a m id msg u = .ok ev ∧ ev.write = some frame ∧
      h.receive n frame = ([msg], [.toNode n.self
        (.err { messageId := n.print u, error := some (ActorRefErr.serialisation .notTransmittable).toProto })]) := by
  obtain ⟨name, hn⟩ := t.named
  obtain ⟨frame, hc, hw, hrec, hh⟩ := receive_request n h mt a m t id bs u false name hn
  obtain ⟨hlen, -⟩ := hfit bs _ frame hbs hc hw
  obtain ⟨h1, h2, h3, h4⟩ := hf
  refine ⟨_, frame, by unfold remoteNotify; rw [hbs]; exact hc, hw, ?_⟩
  rw [hrec hlen]
  have hatt := handleAttempt_found (behavOf mt) (h.find id) id bs k x h2 h3 1 (by omega) h1 h4
  have hd : (behavOf mt).decode bs = .ok msg := hl.message msg bs hbs
  have hs : (behavOf mt).send x msg = .ok r := by simp [behavOf, localSend, hopen, hx]
  have he' : (behavOf mt).encode r = .error .notTransmittable := hdef r
  have hdel : deliverTo (behavOf mt) x bs = ([(x, msg)], some (.error (.serialisation .notTransmittable))) := by
    simp [deliverTo, hd, hs, he']
  rw [hatt, hdel]
  have hne : ¬ n.self = h.self := t.distinct
  simp only [sessionHandleMessage, requestOf, hh, handleMessage, hatt, hdel, recv, Option.getD_some, sessionReply,
    NodeEnv.norm, t.ids, Option.map_some, notifyRpcErr, hne, if_false]
  simp [localSend, hopen, hx]

end

/-! ## A concrete case -/

namespace RefExample

/-- numbers below 256 as messages and results. -/
def byteMsg : MsgType Nat Nat where
  asBytes m := if m < 256 then .ok [UInt8.ofNat m] else .error .serializationErr
  fromBytes
    | [b] => .ok b.toNat
    | _ => .error .deserializationErr
  writeResult r := if r < 256 then .ok [UInt8.ofNat r] else .error .serializationErr
  readResult
    | [b] => .ok b.toNat
    | _ => .error .deserializationErr

def regs : List CfgOp := [.handler 7 8 "A.M"]

def cfg : Config := (CfgBuilder.addAll (fun _ => "") regs).build [("A.M", (7, 8))] []

def caller : NodeEnv Bool where
  self := 1
  cfg := cfg
  print b := if b then "1" else "0"
  parse s := if s = "1" then some true else if s = "0" then some false else none
  actorName _ := "A"
  messageName _ := "M"

/-- an actor that answers with the successor and dies over the message 13. -/
def actor : Target Nat Nat := ⟨true, fun m => if m = 13 then none else some (m + 1)⟩

/-- found at the third lookup. -/
def host : Host Nat Nat where
  self := 2
  cfg := cfg
  types _ := byteMsg
  find id k := if id = "a" ∧ 3 ≤ k then some actor else none

theorem lawful : byteMsg.Lawful := by
  constructor
  · intro m bs h
    simp only [byteMsg] at h ⊢
    split at h
    · rename_i hm
      injection h with h
      subst h
      simp [UInt8.toNat_ofNat_of_lt' hm]
    · cases h
  · intro m bs h
    simp only [byteMsg] at h ⊢
    split at h
    · rename_i hm
      injection h with h
      subst h
      simp [UInt8.toNat_ofNat_of_lt' hm]
    · cases h

theorem talk : Talk caller host byteMsg 7 8 where
  distinct := by decide
  regs := ⟨fun _ => "", regs, .mk _ _ (.refl _) (.refl _), .mk _ _ (.refl _) (.refl _)⟩
  named := ⟨"A.M", by decide⟩
  same := rfl
  ids u := by cases u <;> decide

theorem fits : Fits caller host byteMsg 7 8 "a" 4 true true := by
  intro bs ev frame h1 h2 h3
  have e1 : bs = [4] := by
    have : byteMsg.asBytes 4 = .ok [4] := rfl
    rw [this] at h1
    injection h1 with h1
    exact h1.symm
  subst e1
  have e2 : ev = .notifyActor (requestOf caller "A.M" "a" [4] true true) := by
    have : createRequest caller 7 8 "a" [4] true true =
        .ok (.notifyActor (requestOf caller "A.M" "a" [4] true true)) := rfl
    rw [this] at h2
    injection h2 with h2
    exact h2.symm
  subst e2
  have e3 : frame = 9 :: (requestOf caller "A.M" "a" [4] true true).write := by
    injection h3 with h3
    exact h3.symm
  subst e3
  refine ⟨by decide +kernel, ?_⟩
  have : (host.receive caller (9 :: (requestOf caller "A.M" "a" [4] true true).write)).2 =
      [.onSession (.result { messageId := "1", result := [5] })] := by decide +kernel
  rw [this]
  intro r hr
  simp only [List.mem_singleton] at hr
  subst hr
  intro bs hbs
  injection hbs with hbs
  subst hbs
  decide +kernel

example : ∃ ans, exchange caller host byteMsg 7 8 "a" 4 true "me" ⟨[(false, "other")], []⟩ =
      ([4], ⟨[(false, "other")], [(true, "me", ans)]⟩, none) ∧ readAnswer byteMsg ans = .ok 5 :=
  C81_send caller host byteMsg lawful 7 8 talk "a" 4 true "me" ⟨[(false, "other")], []⟩
    (by intro p hp; simp at hp; subst hp; decide) fits 3 actor
    ⟨by decide, by decide, by simp [host], by intro j h1 h2; simp [host]; omega⟩ rfl ⟨[4], rfl⟩
    (by intro r hr; simp [actor] at hr; subst hr; exact ⟨[5], rfl⟩)

end RefExample

end Verif.Remote
