/-! Identification, handshake and ping timer of an outgoing connection (`RemoteClient`):
`/repo/coerce/src/remote/net/client/mod.rs`, `connect.rs` and `ping.rs` in the same directory. -/

namespace Verif.Remote.Handshake

/-- `HandshakeStatus`, `/repo/coerce/src/remote/net/client/mod.rs` 270-274. `Acknowledged` keeps the
connection whose receive loop delivered the acknowledgement. -/
inductive HStatus where
  | none
  | pending
  | acknowledged (by_ : Nat)
deriving DecidableEq, Repr

/-- `ClientState`, `/repo/coerce/src/remote/net/client/mod.rs` 245-249, with the number of the connection;
`stuck`: waiting for ever in `connect`, see `Verif.Remote.ConnOut.closedEarly`; `crashed`: the handler
panicked, which ends the actor. -/
inductive St where
  | idle (attempts : Nat)
  | connected (gen : Nat) (h : HStatus)
  | terminated
  | stuck
  | crashed
  | stopped
deriving DecidableEq, Repr

/-- What others see. Callbacks are numbered. (`/repo/coerce/src/remote/net/client/connect.rs` 122-343;
`/repo/coerce/src/remote/net/client/mod.rs` 105-176.) -/
inductive Ev where
  | idReply (cb : Nat) (identity : Bool)  -- `callback.send(Some(identity))` or `None`
  | hsReply (cb : Nat)                    -- `on_handshake_complete.send(())`
  | hsDropped (cb : Nat)                  -- `on_handshake_complete` dropped: the requester gets an error
  | hsWritten (gen : Nat)                 -- a handshake frame was written on connection `gen`
  | pinged (gen : Nat)                    -- a ping is written on connection `gen`
  | nodeDisconnected                      -- `NodePing(_, Disconnected)` to the heartbeat
  | forget                                -- `Forget(addr)` to discovery
deriving DecidableEq, Repr

/-- `RemoteClient`, `/repo/coerce/src/remote/net/client/mod.rs` 35-46: the fields concerned. `timers`: timer
tasks that are running; `pingTimer`: the one the client holds. `gens`: connections made so far. -/
structure Client where
  st : St
  nodeId : Bool
  idWait : List Nat
  hsWait : List Nat
  pingTimer : Option Nat
  timers : List Nat
  nextTimer : Nat
  gens : Nat
  log : List Ev
deriving DecidableEq, Repr

/-- `RemoteClient::new`, `/repo/coerce/src/remote/net/client/mod.rs` 58-86. -/
def Client.init : Client := ⟨.idle 0, false, [], [], none, [], 0, 0, []⟩

/-- a log that no code reads; what is logged happens in `/repo/coerce/src/remote/net/client/connect.rs` 122-343. -/
def Client.emit (σ : Client) (es : List Ev) : Client := { σ with log := σ.log ++ es }

/-- How `connect` ends, `/repo/coerce/src/remote/net/client/connect.rs` 34-114. -/
inductive ConnOut where
  | refused      -- no connection, or the identification could not be written (41-48, 71-81)
  | noIdentity   -- the receive loop ended in a panic before the identity came (97-106)
  | closedEarly  -- closed before the identity came: waits for ever
  | identified
deriving DecidableEq, Repr

/-- what a client handles: `Connect`, `BeginHandshake`, `HandshakeAcknowledge`, `Disconnected`
(`/repo/coerce/src/remote/net/client/connect.rs` 122-343), `Identify` (`/repo/coerce/src/remote/net/client/mod.rs`
105-121), `PingTick` (`/repo/coerce/src/remote/net/client/ping.rs` 29-110), stopping
(`/repo/coerce/src/remote/net/client/mod.rs` 204-242). -/
inductive Op where
  | connect (o : ConnOut)
  | identify (cb : Nat)
  | beginHandshake (cb : Nat) (writeOk : Bool)
  /-- `HandshakeAcknowledge` from the receive loop of connection `gen`. -/
  | ack (gen : Nat)
  /-- `Disconnected` from some receive loop, or the same handler called after a failed write. -/
  | disconnected
  /-- `PingTick`; `writeOk`: the ping can be written. -/
  | pingTick (writeOk : Bool)
  | stop
deriving DecidableEq, Repr

/-- `Handler<Disconnected>`, `/repo/coerce/src/remote/net/client/connect.rs` 275-343. The ping timer is left
as it is. After giving up the client stops itself (340). -/
def Client.disconnected (σ : Client) : Client :=
  match σ.st with
  | .idle n => { σ with st := if n + 1 > 10 then .terminated else .idle (n + 1) }
  | .connected _ _ => { σ with st := .idle 1 }
  | _ => σ

/-- `self.ping_timer = Some(Timer::start_immediately(..))`, `/repo/coerce/src/remote/net/client/connect.rs`
91-95. The timer held before is dropped, which does not stop it (`C69_drop_refuted`). -/
def Client.startTimer (σ : Client) : Client :=
  { σ with pingTimer := some σ.nextTimer, timers := σ.timers ++ [σ.nextTimer], nextTimer := σ.nextTimer + 1 }

/-- `while let Some(callback) = self.on_identified_callbacks.pop()`, `/repo/coerce/src/remote/net/client/connect.rs`
147-149, 163-165: last in, first out. -/
def Client.answerIds (σ : Client) (identity : Bool) : Client :=
  { σ with idWait := [], log := σ.log ++ σ.idWait.reverse.map (fun cb => .idReply cb identity) }

/-- `Handler<Connect>`, `/repo/coerce/src/remote/net/client/connect.rs` 122-170. -/
def Client.connect (σ : Client) (o : ConnOut) : Client :=
  match o with
  | .refused => (σ.answerIds false).disconnected
  | .noIdentity => (σ.startTimer.answerIds false).disconnected
  | .closedEarly => { σ.startTimer with st := .stuck }
  | .identified =>
    { σ.startTimer.answerIds true with st := .connected σ.gens .none, nodeId := true, gens := σ.gens + 1 }

/-- `Handler<Identify>`, `/repo/coerce/src/remote/net/client/mod.rs` 105-117. -/
def Client.identify (σ : Client) (cb : Nat) : Client :=
  match σ.st with
  | .connected _ _ => σ.emit [.idReply cb true]
  | _ => { σ with idWait := σ.idWait ++ [cb] }

/-- `Handler<BeginHandshake>`, `/repo/coerce/src/remote/net/client/connect.rs` 172-244. A failed write makes
`expect("write handshake")` panic. -/
def Client.beginHandshake (σ : Client) (cb : Nat) (writeOk : Bool) : Client :=
  match σ.st with
  | .connected g .none =>
    if writeOk then
      { σ with st := .connected g .pending, hsWait := σ.hsWait ++ [cb], log := σ.log ++ [.hsWritten g] }
    else { σ with st := .crashed, timers := [], log := σ.log ++ [.hsDropped cb] }
  | .connected _ .pending => { σ with hsWait := σ.hsWait ++ [cb] }
  | .connected _ (.acknowledged _) => σ.emit [.hsReply cb]
  | _ => σ.emit [.hsDropped cb]

/-- `Handler<HandshakeAcknowledge>`, `/repo/coerce/src/remote/net/client/connect.rs` 246-272. The message does
not say which connection it came from. -/
def Client.ack (σ : Client) (gen : Nat) : Client :=
  match σ.st with
  | .connected g _ =>
    { σ with st := .connected g (.acknowledged gen), hsWait := [],
             log := σ.log ++ σ.hsWait.reverse.map .hsReply }
  | _ => σ

/-- `Handler<PingTick>`, `/repo/coerce/src/remote/net/client/ping.rs` 29-110. A failed write of the ping leads
to the handler of `Disconnected` (`/repo/coerce/src/remote/net/client/send.rs` 74-133). -/
def Client.pingTick (σ : Client) (writeOk : Bool) : Client :=
  match σ.st with
  | .connected g _ => if writeOk then σ.emit [.pinged g] else σ.disconnected
  | _ =>
    { σ with log := σ.log ++ (if σ.nodeId then [.nodeDisconnected] else []) ++ [.forget],
             pingTimer := none,
             timers := match σ.pingTimer with
               | some t => σ.timers.erase t
               | none => σ.timers }

/-- `stopped`, `/repo/coerce/src/remote/net/client/mod.rs` 204-242. All timers end with the actor: their next
tick cannot be delivered. -/
def Client.stop (σ : Client) : Client := { σ with st := .stopped, pingTimer := none, timers := [] }

/-- Handlers run only while the actor is neither stuck in one nor gone; a connected client ignores `Connect`
(`/repo/coerce/src/remote/net/client/mod.rs` 128-132); only a receive loop of a connection made sends
acknowledgements. -/
def Client.step (σ : Client) (op : Op) : Client :=
  match σ.st with
  | .stuck => σ
  | .crashed => σ
  | .stopped => σ
  | .connected _ _ =>
    match op with
    | .connect _ => σ
    | .identify cb => σ.identify cb
    | .beginHandshake cb w => σ.beginHandshake cb w
    | .ack g => if g < σ.gens then σ.ack g else σ
    | .disconnected => σ.disconnected
    | .pingTick w => σ.pingTick w
    | .stop => σ.stop
  | _ =>
    match op with
    | .connect o => σ.connect o
    | .identify cb => σ.identify cb
    | .beginHandshake cb w => σ.beginHandshake cb w
    | .ack g => if g < σ.gens then σ.ack g else σ
    | .disconnected => σ.disconnected
    | .pingTick w => σ.pingTick w
    | .stop => σ.stop

/-- any sequence of messages, `/repo/coerce/src/remote/net/client/connect.rs` 122-343. -/
def run (σ : Client) (ops : List Op) : Client := ops.foldl Client.step σ

/-- Result of one `handshake_attempt`, `/repo/coerce/src/remote/net/client/mod.rs` 160-190: completed, refused
(the client is gone or dropped the callback), or no answer within three seconds. -/
inductive Attempt where
  | completed
  | refused
  | timeout
deriving DecidableEq, Repr

/-- The loop of `RemoteClientRef::handshake`, `/repo/coerce/src/remote/net/client/mod.rs` 136-158, over the
results the attempts would have: the result and the number of attempts made. -/
def attempts : Nat → List Attempt → Attempt × Nat
  | 0, _ => (.timeout, 0)
  | _ + 1, [] => (.timeout, 0)
  | n + 1, .timeout :: rest => ((attempts n rest).1, (attempts n rest).2 + 1)
  | _ + 1, a :: _ => (a, 1)

/-- `REMOTE_CLIENT_HANDSHAKE_MAX_ATTEMPTS`, `/repo/coerce/src/remote/net/client/mod.rs` 121. -/
def handshake (outs : List Attempt) : Attempt × Nat := attempts 5 outs

end Verif.Remote.Handshake
