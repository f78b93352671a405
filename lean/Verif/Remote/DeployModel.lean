import Verif.Remote.RefModel

/-!
# Deploying an actor

`deploy_actor` starts an actor from a recipe on the own or on another node.
-/

namespace Verif.Remote
open Verif.Proto Verif.Proto.Network

/-- `/repo/coerce/src/remote/system/rpc.rs` 14-20. -/
inductive NodeRpcErr where
  | nodeUnreachable
  | serialisation
  | receiveFailed
  | err (e : ActorRefErr)
deriving DecidableEq, Repr

/-- `/repo/coerce/src/remote/system/actor.rs` 16-25. -/
inductive RemoteActorErr where
  | actorUnavailable
  | actorExists
  | recipeSerializationErr
  | messageSerializationErr
  | resultSerializationErr
  | actorNotSupported
  | nodeErr (e : NodeRpcErr)
deriving DecidableEq, Repr

/-- `ActorFactory` with its `ActorRecipe`, `/repo/coerce/src/actor/mod.rs` 291-313. `Rc`: recipes, `A`: actors. -/
structure Factory (Rc A : Type) where
  write : Rc → Option Bytes
  read : Bytes → Option Rc
  create : Rc → Option A

/-- The node on which an actor is to be created. `found`: `locate_actor_node` of this moment; `starts`: whether
`new_actor` succeeds; `freshId`: `new_actor_id`. (`/repo/coerce/src/remote/system/actor.rs` 183-241,
`/repo/coerce/src/remote/handler.rs` 134-168, `/repo/coerce/src/actor/mod.rs` 552.) -/
structure Creator (Rc A : Type) where
  self : UInt64
  cfg : Config
  factories : Nat × Nat → Factory Rc A
  found : String → Option UInt64
  starts : String → A → Bool
  freshId : String

section
variable {Rc A U W : Type} [DecidableEq U]

/-- `RemoteActorHandler::create` without a parent, `/repo/coerce/src/remote/handler.rs` 134-168: the actor started. -/
def Factory.make (f : Factory Rc A) (starts : String → A → Bool) (id : String) (raw : Bytes) : Option (String × A) :=
  match f.read raw with
  | none => none
  | some r => match f.create r with
    | none => none
    | some a => if starts id a then some (id, a) else none

/-- `handle_create_actor`, `/repo/coerce/src/remote/system/actor.rs` 183-241: what was started, and the bytes of the
address or the error. -/
def Creator.handle (c : Creator Rc A) (id : Option String) (ty : String) (raw : Bytes) :
    Option (String × A) × Except RemoteActorErr Bytes :=
  if (id.bind c.found).isSome then (none, .error .actorExists)
  else match c.cfg.actorHandler ty with
    | none => (none, .error .actorNotSupported)
    | some af => match (c.factories af).make c.starts (id.getD c.freshId) raw with
      | none => (none, .error .actorUnavailable)
      | some s => (some s, .ok (ActorAddress.write { actorId := s.1, nodeId := some { value := c.self } }))

/-- `session_create_actor`, `/repo/coerce/src/remote/net/server/session/mod.rs` 590-619, for a frame with
`SessionEvent::CreateActor` (359-366): what was started, and the frame written back. An error is only logged. -/
def Creator.receive (c : Creator Rc A) (norm : String → Option String) (frame : Bytes) :
    Option (String × A) × Option ClientEvent :=
  match SessionEvent.read frame with
  | .ok (.createActor e) =>
    let r := c.handle (if e.actorId = "" then none else some e.actorId) e.actorType e.recipe
    (r.1, match r.2 with
      | .error _ => none
      | .ok bs => (norm e.messageId).map fun mid => .result { messageId := mid, result := bs })
  | _ => (none, none)

/-- `node_rpc_proto::<ActorAddress>` after the wait, `/repo/coerce/src/remote/system/rpc.rs` 32-58, and 165-168 of
`/repo/coerce/src/remote/system/actor.rs`. Every error of the other node becomes `ReceiveFailed`. -/
def readAddress : Answer → Except RemoteActorErr ActorAddress
  | .ok bs => match ActorAddress.read bs with
    | some a => .ok a
    | none => .error (.nodeErr .serialisation)
  | _ => .error (.nodeErr .receiveFailed)

/-- the reference made from an address, `/repo/coerce/src/remote/system/actor.rs` 171-180: always a `RemoteActorRef`. A
missing node id reads as 0. -/
def refOf (a : ActorAddress) : String × UInt64 := (a.actorId, (a.nodeId.map (·.value)).getD 0)

/-- What a call of `deploy_actor` has come to. (`/repo/coerce/src/remote/system/actor.rs` 115-181.) -/
inductive Deploy where
  /-- it has returned. -/
  | done (r : Except RemoteActorErr (String × UInt64))
  /-- it panicked, `/repo/coerce/src/remote/system/actor.rs` 143. -/
  | panicked
  /-- it waits for its entry of the request table. -/
  | waiting

/-- `/repo/coerce/src/remote/system/actor.rs` 141-147, 171-180. -/
def localOutcome : Except RemoteActorErr Bytes → Deploy
  | .error e => .done (.error e)
  | .ok bs => match ActorAddress.read bs with
    | some a => .done (.ok (refOf a))
    | none => .panicked

/-- `deploy_actor` on the own node, `/repo/coerce/src/remote/system/actor.rs` 121-148. `rw`: `write_to_bytes` of the recipe
type; `ty`: `type_name` of the actor type. -/
def deployLocal (c : Creator Rc A) (rw : Rc → Option Bytes) (ty id : String) (recipe : Rc) :
    Option (String × A) × Deploy :=
  match rw recipe with
  | none => (none, .done (.error .recipeSerializationErr))
  | some raw => ((c.handle (some id) ty raw).1, localOutcome (c.handle (some id) ty raw).2)

/-- `deploy_actor` on another node, `/repo/coerce/src/remote/system/actor.rs` 121-133, 149-169: the frame is written if there
is a client for the node (`reach`, `/repo/coerce/src/remote/actor/clients.rs` 99-116); the reply is handled as in C81.
What was started, the request table afterwards, the outcome. -/
def deployRemote (n : NodeEnv U) (reach : Option (Creator Rc A)) (rw : Rc → Option Bytes) (ty id : String)
    (recipe : Rc) (u : U) (w : W) (σ : Rpc U W) : Option (String × A) × Rpc U W × Deploy :=
  match rw recipe with
  | none => (none, σ, .done (.error .recipeSerializationErr))
  | some raw =>
    let σ' := σ.push u w
    let ev := SessionEvent.createActor { messageId := n.print u, actorId := id, actorType := ty, recipe := raw }
    match reach, ev.write with
    | some c, some frame =>
      let r := c.receive n.norm frame
      match r.2 with
      | none => (r.1, σ', .waiting)
      | some back =>
        let τ := n.reply σ' (.onSession back)
        (r.1, τ, match τ.done.find? (fun d => d.1 = u) with
          | some d => .done ((readAddress d.2.2).map refOf)
          | none => .waiting)
    | _, _ => (none, σ', .waiting)

/-- A message sent through a reference `(id, node)`: it is written to the client for that node, whichever node that is
(`/repo/coerce/src/remote/actor_ref.rs` 83-84, `/repo/coerce/src/remote/actor/clients.rs` 99-116). The frame handed over,
if there is a client. -/
def sendVia (clients : UInt64 → Bool) (n : NodeEnv U) {M R : Type} (mt : MsgType M R) (a m : Nat) (ref : String × UInt64)
    (msg : M) (u : U) (w : W) (σ : Rpc U W) : Rpc U W × Except ActorRefErr (Option SessionEvent) :=
  match remoteSend n mt a m ref.1 msg u w σ with
  | (σ', .error e) => (σ', .error e)
  | (σ', .ok ev) => (σ', .ok (if clients ref.2 then some ev else none))

end

end Verif.Remote
