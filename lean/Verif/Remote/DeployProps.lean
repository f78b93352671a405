import Verif.Remote.DeployModel
import Verif.Remote.RefProps

/-!
# C83: deploying starts exactly the actor asked for, and the caller learns the outcome
-/

namespace Verif.Remote
open Verif.Proto Verif.Proto.Network

section
variable {Rc A U W : Type} [DecidableEq U]

/-! ## Specification -/

/-- `a` is what the factory registered (last) for type name `ty` makes of `recipe`, and it can be started as `id`. -/
def Made (tn : Nat → String) (ops : List CfgOp) (c : Creator Rc A) (ty id : String) (recipe : Rc) (a : A) : Prop :=
  ∃ af, lastFactory tn ty ops = some af ∧ (c.factories af).create recipe = some a ∧ c.starts id a = true

/-- the node was built with `ops`, and the factory it has for `ty` reads the recipes the caller writes. -/
structure Agrees (tn : Nat → String) (ops : List CfgOp) (c : Creator Rc A) (rw : Rc → Option Bytes) (ty : String) :
    Prop where
  built : Built tn ops c.cfg
  recipes : ∀ af r bs, lastFactory tn ty ops = some af → rw r = some bs → (c.factories af).read bs = some r

/-- addresses with this id are within the limit of the encoding. -/
def AddressFits (c : Creator Rc A) (id : String) : Prop :=
  (ActorAddress.write { actorId := id, nodeId := some { value := c.self } }).length < 2 ^ 32

/-! ## Lemmas -/

theorem handle_found (c : Creator Rc A) (id ty : String) (raw : Bytes) (h : (c.found id).isSome = true) :
    c.handle (some id) ty raw = (none, .error .actorExists) := by
  simp [Creator.handle, h]

theorem handle_exact (tn : Nat → String) (ops : List CfgOp) (c : Creator Rc A) (rw : Rc → Option Bytes) (ty : String)
    (hag : Agrees tn ops c rw ty) (id : Option String) (recipe : Rc) (raw : Bytes) (hraw : rw recipe = some raw)
    (hnew : id.bind c.found = none) :
    (lastFactory tn ty ops = none ∧ c.handle id ty raw = (none, .error .actorNotSupported)) ∨
    ((∃ af, lastFactory tn ty ops = some af) ∧ (¬ ∃ a, Made tn ops c ty (id.getD c.freshId) recipe a) ∧
      c.handle id ty raw = (none, .error .actorUnavailable)) ∨
    ∃ a, Made tn ops c ty (id.getD c.freshId) recipe a ∧
      c.handle id ty raw = (some (id.getD c.freshId, a),
        .ok (ActorAddress.write { actorId := id.getD c.freshId, nodeId := some { value := c.self } })) := by
  have hf : c.cfg.actorHandler ty = lastFactory tn ty ops := C77_factory_exact tn ops c.cfg hag.built ty
  unfold Creator.handle
  rw [hnew, hf]
  cases hl : lastFactory tn ty ops with
  | none => exact .inl ⟨rfl, rfl⟩
  | some af =>
    have hr := hag.recipes af recipe raw hl hraw
    simp only [Option.isSome_none, Bool.false_eq_true, if_false, Factory.make, hr]
    cases hcr : (c.factories af).create recipe with
    | none =>
      refine .inr (.inl ⟨⟨af, rfl⟩, ?_, rfl⟩)
      rintro ⟨a, af', h1, h2, -⟩
      rw [hl] at h1
      cases h1
      rw [hcr] at h2
      cases h2
    | some a =>
      by_cases hs : c.starts (id.getD c.freshId) a = true
      · exact .inr (.inr ⟨a, ⟨af, hl, hcr, hs⟩, by simp [hs]⟩)
      · refine .inr (.inl ⟨⟨af, rfl⟩, ?_, by simp [hs]⟩)
        rintro ⟨a', af', h1, h2, h3⟩
        rw [hl] at h1
        cases h1
        rw [hcr] at h2
        cases h2
        exact hs h3

theorem make_id (f : Factory Rc A) (starts : String → A → Bool) (id : String) (raw : Bytes) (s : String × A)
    (h : f.make starts id raw = some s) : s.1 = id := by
  unfold Factory.make at h
  split at h
  · cases h
  · split at h
    · cases h
    · split at h
      · cases h; rfl
      · cases h

/-- an error means that nothing was started; otherwise the bytes are those of the address. -/
theorem handle_shape (c : Creator Rc A) (id : Option String) (ty : String) (raw : Bytes) :
    (∃ e, c.handle id ty raw = (none, .error e)) ∨
    ∃ a, c.handle id ty raw = (some (id.getD c.freshId, a),
      .ok (ActorAddress.write { actorId := id.getD c.freshId, nodeId := some { value := c.self } })) := by
  unfold Creator.handle
  split
  · exact .inl ⟨_, rfl⟩
  · split
    · exact .inl ⟨_, rfl⟩
    · split
      · exact .inl ⟨_, rfl⟩
      · rename_i af _ s hs
        have := make_id _ _ _ _ _ hs
        obtain ⟨i, a⟩ := s
        simp only at this
        subst this
        exact .inr ⟨a, rfl⟩

theorem deployLocal_some (c : Creator Rc A) (rw : Rc → Option Bytes) (ty id : String) (recipe : Rc) (raw : Bytes)
    (h : rw recipe = some raw) : deployLocal c rw ty id recipe =
      ((c.handle (some id) ty raw).1, localOutcome (c.handle (some id) ty raw).2) := by
  simp [deployLocal, h]

theorem deployLocal_none (c : Creator Rc A) (rw : Rc → Option Bytes) (ty id : String) (recipe : Rc)
    (h : rw recipe = none) : deployLocal c rw ty id recipe = (none, .done (.error .recipeSerializationErr)) := by
  simp [deployLocal, h]

theorem localOutcome_address (c : Creator Rc A) (id : String) (h : AddressFits c id) :
    localOutcome (.ok (ActorAddress.write { actorId := id, nodeId := some { value := c.self } })) =
      .done (.ok (id, c.self)) := by
  have := ActorAddress.read_write { actorId := id, nodeId := some { value := c.self } } h
  simp only [localOutcome]
  rw [this]
  rfl

/-! ## Properties -/

/-- **C83.** Deploying on the own node always returns. It succeeds exactly if the id was not found and the factory
registered for the type makes an actor of the recipe that can be started; then exactly this actor has been started,
under this id, and the reference names the id and the node. -/
theorem C83_local (tn : Nat → String) (ops : List CfgOp) (c : Creator Rc A) (rw : Rc → Option Bytes) (ty id : String)
    (hag : Agrees tn ops c rw ty) (hfit : AddressFits c id) (recipe : Rc) :
    (∃ a, c.found id = none ∧ (rw recipe).isSome = true ∧ Made tn ops c ty id recipe a ∧
      deployLocal c rw ty id recipe = (some (id, a), .done (.ok (id, c.self)))) ∨
    ((c.found id ≠ none ∨ rw recipe = none ∨ ¬ ∃ a, Made tn ops c ty id recipe a) ∧
      ∃ e, deployLocal c rw ty id recipe = (none, .done (.error e))) := by
  cases hraw : rw recipe with
  | none => exact .inr ⟨.inr (.inl rfl), _, deployLocal_none c rw ty id recipe hraw⟩
  | some raw =>
    rw [deployLocal_some c rw ty id recipe raw hraw]
    cases hfd : c.found id with
    | some k =>
      rw [handle_found c id ty raw (by simp [hfd])]
      exact .inr ⟨.inl (by simp), _, rfl⟩
    | none =>
      rcases handle_exact tn ops c rw ty hag (some id) recipe raw hraw hfd with ⟨h1, h2⟩ | ⟨-, h1, h2⟩ | ⟨a, h1, h2⟩
      · rw [h2]
        refine .inr ⟨.inr (.inr ?_), _, rfl⟩
        rintro ⟨a, af, h3, -⟩
        rw [h1] at h3
        cases h3
      · rw [h2]
        exact .inr ⟨.inr (.inr h1), _, rfl⟩
      · rw [h2]
        refine .inl ⟨a, rfl, rfl, h1, ?_⟩
        simp only [Option.getD_some]
        rw [localOutcome_address c id hfit]

/-- **C83.** The error says why, the first reason in this order: the recipe cannot be written, the id is taken, no
factory for the type, the factory or the start failed. -/
theorem C83_local_reason (tn : Nat → String) (ops : List CfgOp) (c : Creator Rc A) (rw : Rc → Option Bytes)
    (ty id : String) (hag : Agrees tn ops c rw ty) (recipe : Rc) :
    (rw recipe = none → deployLocal c rw ty id recipe = (none, .done (.error .recipeSerializationErr))) ∧
    (rw recipe ≠ none → c.found id ≠ none → deployLocal c rw ty id recipe = (none, .done (.error .actorExists))) ∧
    (rw recipe ≠ none → c.found id = none → lastFactory tn ty ops = none →
      deployLocal c rw ty id recipe = (none, .done (.error .actorNotSupported))) ∧
    (rw recipe ≠ none → c.found id = none → lastFactory tn ty ops ≠ none → (¬ ∃ a, Made tn ops c ty id recipe a) →
      deployLocal c rw ty id recipe = (none, .done (.error .actorUnavailable))) := by
  cases hraw : rw recipe with
  | none => exact ⟨fun _ => deployLocal_none c rw ty id recipe hraw, fun h => absurd rfl h, fun h => absurd rfl h,
      fun h => absurd rfl h⟩
  | some raw =>
    rw [deployLocal_some c rw ty id recipe raw hraw]
    refine ⟨fun h => by simp at h, fun _ hf => ?_, fun _ hf hl => ?_, fun _ hf hl hm => ?_⟩
    · rw [handle_found c id ty raw (Option.isSome_iff_ne_none.2 hf)]
      rfl
    · rcases handle_exact tn ops c rw ty hag (some id) recipe raw hraw hf with ⟨-, h2⟩ | ⟨⟨af, h1⟩, -⟩ | ⟨a, ⟨af, h1, -⟩, -⟩
      · rw [h2]; rfl
      · rw [hl] at h1; cases h1
      · rw [hl] at h1; cases h1
    · rcases handle_exact tn ops c rw ty hag (some id) recipe raw hraw hf with ⟨h1, -⟩ | ⟨-, -, h2⟩ | ⟨a, h1, -⟩
      · exact absurd h1 hl
      · rw [h2]; rfl
      · exact absurd ⟨a, h1⟩ hm

/-- the frame of a deployment. -/
def createFrame (n : NodeEnv U) (ty id : String) (raw : Bytes) (u : U) : Bytes :=
  6 :: CreateActorEvent.write { messageId := n.print u, actorId := id, actorType := ty, recipe := raw }

omit [DecidableEq U] in
theorem createFrame_write (n : NodeEnv U) (ty id : String) (raw : Bytes) (u : U) :
    (SessionEvent.createActor { messageId := n.print u, actorId := id, actorType := ty, recipe := raw }).write =
      some (createFrame n ty id raw u) := rfl

/-- the frames of this exchange are within the limit of the encoding. -/
def DeployFits (n : NodeEnv U) (c : Creator Rc A) (ty id : String) (raw : Bytes) (u : U) : Prop :=
  (createFrame n ty id raw u).length < 2 ^ 32 ∧
  ∀ ev bs, (c.receive n.norm (createFrame n ty id raw u)).2 = some ev → ev.write = some bs → bs.length < 2 ^ 32

theorem deployRemote_outcome (n : NodeEnv U) (hids : ∀ u, n.parse (n.print u) = some u) (c : Creator Rc A)
    (rw : Rc → Option Bytes) (ty id : String) (recipe : Rc) (raw : Bytes) (hraw : rw recipe = some raw) (u : U) (w : W)
    (σ : Rpc U W) (hu : ∀ p ∈ σ.pending, p.1 ≠ u) (hd : ∀ d ∈ σ.done, d.1 ≠ u) (hfit : DeployFits n c ty id raw u) :
    deployRemote n (some c) rw ty id recipe u w σ =
      let r := c.handle (if id = "" then none else some id) ty raw
      match r.2 with
      | .error _ => (r.1, σ.push u w, .waiting)
      | .ok bs => (r.1, ⟨σ.pending, σ.done ++ [(u, w, .ok bs)]⟩, .done ((readAddress (.ok bs)).map refOf)) := by
  let ce : CreateActorEvent := { messageId := n.print u, actorId := id, actorType := ty, recipe := raw }
  have hread := C20_session_event_roundtrip (.createActor ce) _ trivial (createFrame_write n ty id raw u) hfit.1
  have hrec : c.receive n.norm (createFrame n ty id raw u) =
      ((c.handle (if id = "" then none else some id) ty raw).1,
        match (c.handle (if id = "" then none else some id) ty raw).2 with
        | .error _ => none
        | .ok bs => some (.result { messageId := n.print u, result := bs })) := by
    unfold Creator.receive
    rw [hread]
    simp only
    have hn : n.norm ce.messageId = some (n.print u) := by simp [NodeEnv.norm, ce, hids]
    rw [hn]
    rfl
  have hf2 := hfit.2
  unfold deployRemote
  simp only [hraw, createFrame_write]
  rw [hrec] at hf2 ⊢
  cases h2 : (c.handle (if id = "" then none else some id) ty raw).2 with
  | error e => simp
  | ok bs =>
    simp only [h2] at hf2
    have hrep : n.reply (σ.push u w) (.onSession (.result { messageId := n.print u, result := bs })) =
        ⟨σ.pending, σ.done ++ [(u, w, .ok bs)]⟩ := by
      rw [reply_says n hids _ (.onSession (.result { messageId := n.print u, result := bs })) u (.ok bs) rfl
        (fun b hb => hf2 _ b rfl hb) (fun k e h => by cases h) (fun mid e h => by cases h)]
      exact answer_push σ u w _ hu
    simp only [hrep]
    have : (σ.done ++ [(u, w, Answer.ok bs)]).find? (fun d => d.1 = u) = some (u, w, .ok bs) := by
      rw [List.find?_append, List.find?_eq_none.2 (fun d hd' => by simpa using hd d hd')]
      simp
    rw [this]

/-- **C83.** Deploying on another node has the effect that deploying there directly would have; if that succeeds the
caller gets the same reference and its request is finished. -/
theorem C83_remote (n : NodeEnv U) (hids : ∀ u, n.parse (n.print u) = some u) (c : Creator Rc A)
    (rw : Rc → Option Bytes) (ty id : String) (hid : id ≠ "") (recipe : Rc) (u : U) (w : W)
    (σ : Rpc U W) (hu : ∀ p ∈ σ.pending, p.1 ≠ u) (hd : ∀ d ∈ σ.done, d.1 ≠ u)
    (hfit : ∀ raw, rw recipe = some raw → DeployFits n c ty id raw u) (haddr : AddressFits c id) :
    (deployRemote n (some c) rw ty id recipe u w σ).1 = (deployLocal c rw ty id recipe).1 ∧
    (∀ ref, (deployLocal c rw ty id recipe).2 = .done (.ok ref) →
      (deployRemote n (some c) rw ty id recipe u w σ).2.2 = .done (.ok ref) ∧
      ∃ bs, (deployRemote n (some c) rw ty id recipe u w σ).2.1 = ⟨σ.pending, σ.done ++ [(u, w, .ok bs)]⟩) := by
  cases hraw : rw recipe with
  | none => simp [deployRemote, deployLocal, hraw]
  | some raw =>
    rw [deployRemote_outcome n hids c rw ty id recipe raw hraw u w σ hu hd (hfit raw hraw), if_neg hid,
      deployLocal_some c rw ty id recipe raw hraw]
    rcases handle_shape c (some id) ty raw with ⟨e, he⟩ | ⟨a, ha⟩
    · rw [he]
      exact ⟨rfl, fun ref h => by simp [localOutcome] at h⟩
    · rw [ha]
      simp only [Option.getD_some]
      rw [localOutcome_address c id haddr]
      refine ⟨trivial, fun ref h => ⟨?_, _, rfl⟩⟩
      rw [← h]
      have hr := ActorAddress.read_write { actorId := id, nodeId := some { value := c.self } } haddr
      simp only [readAddress, hr, Except.map]
      rfl

/-- **C83 refuted (silence), for every failure.** Whenever a deployment fails on the other node, for any reason, no answer
is sent: the caller waits for ever and its entry stays in the request table. -/
theorem C83_silent_refuted (n : NodeEnv U) (hids : ∀ u, n.parse (n.print u) = some u) (c : Creator Rc A)
    (rw : Rc → Option Bytes) (ty id : String) (hid : id ≠ "") (recipe : Rc) (u : U) (w : W)
    (σ : Rpc U W) (hu : ∀ p ∈ σ.pending, p.1 ≠ u) (hd : ∀ d ∈ σ.done, d.1 ≠ u)
    (hfit : ∀ raw, rw recipe = some raw → DeployFits n c ty id raw u) (e : RemoteActorErr)
    (he : e ≠ .recipeSerializationErr)
    (hfail : (deployLocal c rw ty id recipe).2 = .done (.error e)) :
    deployRemote n (some c) rw ty id recipe u w σ = (none, σ.push u w, .waiting) := by
  cases hraw : rw recipe with
  | none =>
    rw [deployLocal_none c rw ty id recipe hraw] at hfail
    simp only [Deploy.done.injEq, Except.error.injEq] at hfail
    exact absurd hfail.symm he
  | some raw =>
    rw [deployRemote_outcome n hids c rw ty id recipe raw hraw u w σ hu hd (hfit raw hraw), if_neg hid]
    rw [deployLocal_some c rw ty id recipe raw hraw] at hfail
    rcases handle_shape c (some id) ty raw with ⟨e, he⟩ | ⟨a, ha⟩
    · rw [he]
    · rw [ha] at hfail
      simp only [localOutcome] at hfail
      split at hfail <;> cases hfail

/-- **C83 refuted (no client).** Deploying on a node this one has no client for is not answered either: `NodeUnreachable`
exists but is never returned. -/
theorem C83_unreachable_refuted (n : NodeEnv U) (rw : Rc → Option Bytes) (ty id : String) (recipe : Rc) (raw : Bytes)
    (hraw : rw recipe = some raw) (u : U) (w : W) (σ : Rpc U W) :
    deployRemote n (none : Option (Creator Rc A)) rw ty id recipe u w σ = (none, σ.push u w, .waiting) := by
  simp [deployRemote, hraw]

/-- **C83 refuted (own node).** The reference returned by a deployment on the own node cannot be used: it is a remote
reference to this node, for which there is no client, so a message sent through it is written nowhere and its sender
waits for ever. -/
theorem C83_own_node_refuted (c : Creator Rc A) (rw : Rc → Option Bytes) (ty id : String) (recipe : Rc)
    (ref : String × UInt64) (haddr : AddressFits c id)
    (hok : (deployLocal c rw ty id recipe).2 = .done (.ok ref))
    (n : NodeEnv U) (hself : n.self = c.self) (clients : UInt64 → Bool) (hno : clients n.self = false)
    {M R : Type} (mt : MsgType M R) (a m : Nat) (msg : M) (bs : Bytes) (hbs : mt.asBytes msg = .ok bs)
    (name : String) (hn : n.cfg.handlerName a m = some name) (u : U) (w : W) (σ : Rpc U W) :
    sendVia clients n mt a m ref msg u w σ = (σ.push u w, .ok none) := by
  have href : ref = (id, c.self) := by
    cases hraw : rw recipe with
    | none => rw [deployLocal_none c rw ty id recipe hraw] at hok; simp at hok
    | some raw =>
      rw [deployLocal_some c rw ty id recipe raw hraw] at hok
      rcases handle_shape c (some id) ty raw with ⟨e, he⟩ | ⟨a, ha⟩
      · rw [he] at hok; simp [localOutcome] at hok
      · rw [ha] at hok
        simp only [Option.getD_some] at hok
        rw [localOutcome_address c id haddr] at hok
        simpa using hok.symm
  subst href
  simp [sendVia, remoteSend, hbs, createRequest, createHeader, hn, ← hself, hno]

/-- **C83 refuted (empty id).** An empty id is kept by a deployment on the own node but silently replaced by a new one on
another node, without asking whether it is taken. -/
theorem C83_empty_id_refuted (n : NodeEnv U) (hids : ∀ u, n.parse (n.print u) = some u) (c : Creator Rc A)
    (rw : Rc → Option Bytes) (ty : String) (recipe : Rc) (raw : Bytes) (hraw : rw recipe = some raw) (u : U) (w : W)
    (σ : Rpc U W) (hu : ∀ p ∈ σ.pending, p.1 ≠ u) (hd : ∀ d ∈ σ.done, d.1 ≠ u)
    (hfit : DeployFits n c ty "" raw u) (id : String) (a : A)
    (hst : (deployRemote n (some c) rw ty "" recipe u w σ).1 = some (id, a)) : id = c.freshId := by
  rw [deployRemote_outcome n hids c rw ty "" recipe raw hraw u w σ hu hd hfit, if_pos rfl] at hst
  rcases handle_shape c none ty raw with ⟨e, he⟩ | ⟨b, hb⟩
  · rw [he] at hst; cases hst
  · rw [hb] at hst; cases hst; rfl

end

/-! ## Example -/

namespace DeployExample

def ops : List CfgOp := [.actor 7 1, .handler 7 2 "chat.join"]
def tn : Nat → String := fun _ => "chat"

/-- a node with one factory, whose actors are numbers and whose recipes are one byte long. -/
def node : Creator Nat Nat where
  self := 3
  cfg := (CfgBuilder.addAll tn ops).build (CfgBuilder.addAll tn ops).handlers (CfgBuilder.addAll tn ops).actors
  factories _ := ⟨fun n => if n < 256 then some [n.toUInt8] else none,
    fun b => b.head?.map UInt8.toNat, fun r => if r = 9 then none else some (r + 100)⟩
  found id := if id = "room-1" then some 4 else none
  starts _ _ := true
  freshId := "fresh"

def caller : NodeEnv Nat where
  self := 1
  cfg := node.cfg
  print n := if n = 5 then "5" else toString n
  parse s := if s = "5" then some 5 else s.toNat?
  actorName _ := "chat"
  messageName _ := "join"

def write (n : Nat) : Option Bytes := if n < 256 then some [n.toUInt8] else none

example : Built tn ops node.cfg := .mk _ _ (.refl _) (.refl _)

example : Made tn ops node "chat" "room-2" 5 105 ∧ ¬ ∃ a, Made tn ops node "chat" "room-2" 9 a := by
  refine ⟨⟨(7, 1), by decide, by decide, rfl⟩, ?_⟩
  rintro ⟨a, af, -, h, -⟩
  simp [node] at h

example : Agrees tn ops node write "chat" where
  built := .mk _ _ (.refl _) (.refl _)
  recipes := by
    intro af r bs _ h
    simp only [write] at h
    split at h
    · cases h
      simp only [node, List.head?_cons, Option.map_some]
      congr 1
      simp
      omega
    · cases h

example : AddressFits node "room-2" := by
  unfold AddressFits
  decide +kernel

/-- a deployment that succeeds, one of an id that is taken, and one whose factory fails: on the own node the last two are
reported, on another node they are not. -/
example :
    (deployLocal node write "chat" "room-2" 5).1 = some ("room-2", 105) ∧
    (deployLocal node write "chat" "room-1" 5).1 = none ∧
    (deployRemote caller (some node) write "chat" "room-2" 5 5 () ⟨[], []⟩).1 = some ("room-2", 105) ∧
    (deployRemote caller (some node) write "chat" "room-2" 5 5 () ⟨[], []⟩).2.1.pending = [] ∧
    (deployRemote caller (some node) write "chat" "room-1" 5 5 () ⟨[], []⟩).2.1.pending = [(5, ())] ∧
    (deployRemote caller (some node) write "chat" "" 5 5 () ⟨[], []⟩).1 = some ("fresh", 105) := by
  decide +kernel

end DeployExample

end Verif.Remote
