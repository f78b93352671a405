import Verif.Remote.CodecModel
import Verif.Util

/-!
# The outgoing connection to a node (`RemoteClient`)
-/

namespace Verif.Remote
open Verif.Proto

/-- `ClientState`, `/repo/coerce/src/remote/net/client/mod.rs` 245-249, and one more: `stuck` is the
actor waiting for ever inside the handler of `Connect` (see `ConnOut.closedEarly`). -/
inductive CState where
  | idle (attempts : Nat)
  | connected
  | terminated
  | stuck
deriving DecidableEq, Repr

/-- the parts of `RemoteClient` that matter for what is written, `/repo/coerce/src/remote/net/client/mod.rs` 35-46
with `ClientState` 245-249. -/
structure Client where
  st : CState
  /-- the socket of the current connection works. -/
  up : Bool
  /-- `write_buffer`. -/
  buf : List Bytes
  /-- `write_buffer_bytes_total`. -/
  bytes : Nat
  /-- `Connect` messages on their way: queued or in a 5 s delay. -/
  connects : Nat
  /-- receive loops that have not yet reported `Disconnected`. -/
  loops : Nat
  /-- ghost: frames written to a socket successfully. -/
  sent : List Bytes
  /-- ghost: the client has given up (`RemoveClient` and `notify_stop`). -/
  gaveUp : Bool
deriving DecidableEq, Repr

/-- `RemoteClient::new` and `started`, `/repo/coerce/src/remote/net/client/mod.rs` 58-86, 200-202. -/
def Client.init : Client := ⟨.idle 0, false, [], 0, 1, 0, [], false⟩

/-- How `RemoteClient::connect` (`/repo/coerce/src/remote/net/client/connect.rs` 34-114) ends. -/
inductive ConnOut where
  /-- no TCP connection, or the identification could not be written, or the receive loop panicked. -/
  | failed
  /-- the peer identified itself; the socket works for `lasts` more writes (`none`: it goes on
  working). -/
  | identified (lasts : Option Nat)
  /-- the peer closed the connection before identifying itself. `connect` waits for `identity_rx`,
  whose sender lives in the `ClientMessageReceiver`; the receive loop, in `on_close`
  (`/repo/coerce/src/remote/net/client/receive.rs` 158-161), waits for the client actor to handle
  `Disconnected` and so never drops it; the client actor is in `connect`. -/
  | closedEarly
deriving DecidableEq, Repr

/-- what a client handles: `Connect`, `/repo/coerce/src/remote/net/client/connect.rs` 122-170; `Disconnected`,
275-343; writes, `/repo/coerce/src/remote/net/client/send.rs` 74-133. -/
inductive ClientOp where
  /-- the handler of `Connect` runs. -/
  | connect (o : ConnOut)
  /-- the handler of `Write`, message encoded as `bs`. -/
  | write (bs : Bytes)
  /-- the socket of the current connection breaks. -/
  | breakLink
  /-- a receive loop has ended and its `Disconnected` is handled. It may be the loop of the current
  connection or of an earlier one: the handler cannot tell. -/
  | loopEnds
deriving DecidableEq, Repr

/-- `write_bytes`: the length-delimited codec refuses frames above `lim` bytes (`maxFrame`), otherwise the write
succeeds exactly if the socket works. (`/repo/coerce/src/remote/net/client/send.rs` 74-133.) -/
def canSend (lim : Nat) (up : Bool) (bs : Bytes) : Bool := up && decide (bs.length ≤ lim)

/-- `Handler<Disconnected>`, `/repo/coerce/src/remote/net/client/connect.rs` 275-343. -/
def Client.disconnected (σ : Client) : Client :=
  match σ.st with
  | .idle n =>
    if n + 1 > 10 then { σ with st := .terminated, up := false, gaveUp := true }
    else { σ with st := .idle (n + 1), up := false, connects := σ.connects + 1 }
  | .connected => { σ with st := .idle 1, up := false, connects := σ.connects + 1 }
  | .terminated => { σ with connects := σ.connects + 1 }
  | .stuck => σ

/-- the loop of `flush_buffered_writes`, `/repo/coerce/src/remote/net/client/send.rs` 43-67, over the
buffer: what was written, what is left, and whether the socket still works; `lasts` as in `ConnOut`. -/
def flushLoop (lim : Nat) : Option Nat → List Bytes → List Bytes × List Bytes × Bool
  | lasts, [] => ([], [], lasts != some 0)
  | lasts, b :: r =>
    if canSend lim (lasts != some 0) b then
      let x := flushLoop lim (lasts.map (· - 1)) r
      (b :: x.1, x.2.1, x.2.2)
    else ([], b :: r, lasts != some 0)

/-- the bytes taken out by the flush are subtracted one message at a time.
(`/repo/coerce/src/remote/net/client/send.rs` 43-67.) -/
def Client.flush (lim : Nat) (lasts : Option Nat) (σ : Client) : Client :=
  let x := flushLoop lim lasts σ.buf
  { σ with buf := x.2.1, up := x.2.2, sent := σ.sent ++ x.1,
           bytes := x.1.foldl (fun n b => n - b.length) σ.bytes }

/-- `Handler<Connect>`, `/repo/coerce/src/remote/net/client/connect.rs` 122-170. The callbacks waiting
for the identity are not modelled here. -/
def Client.connect (lim : Nat) (σ : Client) (o : ConnOut) : Client :=
  if σ.connects = 0 then σ else
  let σ := { σ with connects := σ.connects - 1 }
  match σ.st with
  | .connected => σ
  | .stuck => σ
  | _ => match o with
    | .failed => σ.disconnected
    | .closedEarly => { σ with st := .stuck, loops := σ.loops + 1 }
    | .identified lasts =>
      Client.flush lim lasts { σ with st := .connected, up := true, loops := σ.loops + 1 }

/-- `buffer_message`, `/repo/coerce/src/remote/net/client/send.rs` 69-72. -/
def Client.buffer (σ : Client) (bs : Bytes) : Client :=
  { σ with buf := σ.buf ++ [bs], bytes := σ.bytes + bs.length }

/-- `RemoteClient::write`, `/repo/coerce/src/remote/net/client/send.rs` 74-133. -/
def Client.write (lim : Nat) (σ : Client) (bs : Bytes) : Client :=
  match σ.st with
  | .idle _ => σ.buffer bs
  | .connected =>
    if canSend lim σ.up bs then { σ with sent := σ.sent ++ [bs] }
    else (σ.buffer bs).disconnected
  | .terminated => σ.disconnected
  | .stuck => σ

/-- one message handled, `/repo/coerce/src/remote/net/client/connect.rs` 122-170 and 275-343,
`/repo/coerce/src/remote/net/client/send.rs` 20-133. -/
def Client.step (lim : Nat) (σ : Client) : ClientOp → Client
  | .connect o => σ.connect lim o
  | .write bs => σ.write lim bs
  | .breakLink => { σ with up := false }
  | .loopEnds =>
    if σ.loops = 0 then σ
    else match σ.st with
      | .stuck => σ
      | _ => Client.disconnected { σ with loops := σ.loops - 1 }

/-- any sequence of messages, `/repo/coerce/src/remote/net/client/connect.rs` 122-170 and 275-343. -/
def Client.run (lim : Nat) (σ : Client) (ops : List ClientOp) : Client := ops.foldl (Client.step lim) σ

end Verif.Remote
