import Verif.Remote.CodecModel

/-!
# Tokens and the gate in front of a session
-/

namespace Verif.Remote
open Verif.Proto Verif.Proto.Network

/-! ### Tokens -/

/-- `Payload`, `/repo/coerce/src/remote/net/security/auth/jwt.rs` 15-19; times are nanoseconds since
the epoch. -/
structure Payload where
  id : Nat
  timestamp : Int
deriving DecidableEq, Repr

/-- What is outside the code: signing and verifying with HMAC-SHA256 (`jwt` crate), and the largest durations and
times `chrono` can hold. (Used in `/repo/coerce/src/remote/net/security/auth/jwt.rs` 31-65.) -/
structure TokenEnv (K : Type) where
  sign : K → Payload → String
  verify : K → String → Option Payload
  /-- largest `chrono::Duration`. -/
  maxTtl : Int
  /-- largest `DateTime<Utc>`. -/
  maxTime : Int

/-- `Jwt`, `/repo/coerce/src/remote/net/security/auth/jwt.rs` 10-13; `ttl` in nanoseconds. -/
structure Jwt (K : Type) where
  secret : K
  ttl : Option Nat

/-- a boolean or a panic. (`/repo/coerce/src/remote/net/security/auth/jwt.rs` 40-65.) -/
inductive Verdict where
  | yes | no | panic
deriving DecidableEq, Repr

section
variable {K : Type}

/-- `Jwt::generate_token`, `/repo/coerce/src/remote/net/security/auth/jwt.rs` 31-38, at time `now` with
fresh id `id`; signing is assumed to succeed. -/
def Jwt.generate (env : TokenEnv K) (j : Jwt K) (id : Nat) (now : Int) : String :=
  env.sign j.secret ⟨id, now⟩

/-- `is_token_still_valid`, `/repo/coerce/src/remote/net/security/auth/jwt.rs` 55-65:
`Duration::from_std(..).unwrap()` panics above `maxTtl`, adding panics above `maxTime`. -/
def stillValid (env : TokenEnv K) (p : Payload) (ttl : Nat) (now : Int) : Verdict :=
  if (ttl : Int) > env.maxTtl then .panic
  else if p.timestamp + ttl > env.maxTime then .panic
  else if now ≤ p.timestamp + ttl then .yes else .no

/-- `Jwt::validate_token`, `/repo/coerce/src/remote/net/security/auth/jwt.rs` 40-52. -/
def Jwt.validate (env : TokenEnv K) (j : Jwt K) (now : Int) (tok : String) : Verdict :=
  match env.verify j.secret tok with
  | some p => match j.ttl with
    | some ttl => stillValid env p ttl now
    | none => .yes
  | none => .no

/-- `ClientAuth`, `/repo/coerce/src/remote/net/security/auth/mod.rs` 4-9. -/
inductive ClientAuth (K : Type) where
  | none
  | jwt (j : Jwt K)

/-- `ClientAuth::validate_token`, `/repo/coerce/src/remote/net/security/auth/mod.rs` 27-34. -/
def ClientAuth.validate (env : TokenEnv K) (a : ClientAuth K) (now : Int) (tok : String) : Verdict :=
  match a with
  | .none => .yes
  | .jwt j => j.validate env now tok

/-! ### The session -/

/-- What the socket yields: a frame or an error; the end of the list is the end of the stream.
(`/repo/coerce/src/remote/net/server/session/mod.rs` 147-196.) -/
inductive Item where
  | frame (bs : Bytes)
  | ioErr
deriving DecidableEq, Repr

/-- `validate_session_token`, `/repo/coerce/src/remote/net/server/session/mod.rs` 147-196. -/
def gate (env : TokenEnv K) (a : ClientAuth K) (now : Int) : List Item → Verdict
  | .frame bs :: _ => match SessionEvent.read bs with
    | .ok (.identify e) => a.validate env now e.token
    | .panic => .panic
    | _ => .no
  | _ => .no

/-- What handling an event makes the node do. (`on_receive`, `/repo/coerce/src/remote/net/server/session/mod.rs`
260-408.) -/
inductive Effect where
  /-- answer with this node's identity and peers, discover the peer's nodes. -/
  | handshake (e : SessionHandshake)
  | lookup (actorId : String)
  | register (actorId : String) (node : UInt64)
  | handle (m : MessageRequest)
  | nodeTerminated (node : UInt64)
  | pong (messageId : String)
  | create (e : CreateActorEvent)
  | publish (e : StreamPublishEvent)
  | complete (messageId : String)
  | stopSelf
deriving DecidableEq, Repr

/-- `SessionMessageReceiver::on_receive`, `/repo/coerce/src/remote/net/server/session/mod.rs` 260-408:
the effects and whether the connection is closed; `none` is a panic. `uuid` says which strings
`Uuid::from_str` accepts, `down` whether this node is terminated. In the branch for a terminated peer
`self.close()` is not awaited, so nothing is closed (341). -/
def sessionOnReceive (uuid : String → Bool) (down : Bool) (log : List Effect) :
    SessionEvent → Option (List Effect × Bool)
  | .identify _ => some (log, false)
  | .handshake e => some (log ++ [.handshake e], false)
  | .findActor e => if uuid e.messageId then some (log ++ [.lookup e.actorId], false) else none
  | .registerActor e => match e.nodeId with
    | some n => some (log ++ [.register e.actorId n.value], false)
    | none => some (log, false)
  | .notifyActor m => some (log ++ [.handle m], false)
  | .ping p =>
    if down then some (log ++ [.stopSelf], true)
    else if p.systemTerminated then some (log ++ [.nodeTerminated p.nodeId], false)
    else some (log ++ [.pong p.messageId], false)
  | .pong _ => some (log, false)
  | .createActor e => some (log ++ [.create e], false)
  | .streamPublish e => some (log ++ [.publish e], false)
  | .raft _ => some (log, false)
  | .result r => if uuid r.messageId then some (log ++ [.complete r.messageId], false) else none
  | .err r => match r.error.bind ActorRefErr.fromProto with
    | none => none
    | some _ => if uuid r.messageId then some (log ++ [.complete r.messageId], false) else none

/-- the frames before the first socket error. (`/repo/coerce/src/remote/net/mod.rs` 89-109.) -/
def framesOf : List Item → List Bytes
  | .frame bs :: r => bs :: framesOf r
  | _ => []

/-- how a session is doing. (`/repo/coerce/src/remote/net/server/session/mod.rs` 73-131.) -/
inductive SessionState where
  | running | stopped | panicked
deriving DecidableEq, Repr

/-- Everything a connection has led to. (`/repo/coerce/src/remote/net/server/session/mod.rs` 73-131,
`/repo/coerce/src/remote/net/mod.rs` 82-112.) -/
structure SessionRun where
  /-- written by `started` itself. -/
  written : List ClientEvent
  effects : List Effect
  state : SessionState
deriving DecidableEq, Repr

/-- A session from the moment the connection is accepted: `RemoteSession::started`,
`/repo/coerce/src/remote/net/server/session/mod.rs` 73-131, and the receive loop it spawns.
`identity` is the `NodeIdentity` this node presents. -/
def sessionRun (env : TokenEnv K) (a : ClientAuth K) (now : Int) (identity : NodeIdentity)
    (uuid : String → Bool) (down : Bool) (items : List Item) : SessionRun :=
  match gate env a now items with
  | .no => ⟨[], [], .stopped⟩
  | .panic => ⟨[], [], .panicked⟩
  | .yes =>
    let r := receiveLoop SessionEvent.read (sessionOnReceive uuid down) [] (framesOf items.tail)
    ⟨[.identity identity], r.1, match r.2 with
      | .running => .running | .closed => .stopped | .panicked => .panicked⟩

end

end Verif.Remote
