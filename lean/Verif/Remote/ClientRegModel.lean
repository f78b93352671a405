import Verif.Assoc
import Verif.Util

/-!
# The registry of outgoing clients (`RemoteClientRegistry`)
-/

namespace Verif.Remote

/-- `RemoteClientRegistry`, `/repo/coerce/src/remote/actor/clients.rs` 13-16. A client actor is a
number, in order of creation. -/
structure CReg (M : Type) where
  /-- `node_addr_registry`. -/
  byAddr : Assoc String Nat := []
  /-- `node_id_registry`. -/
  byId : Assoc Nat Nat := []
  /-- client actors created so far. -/
  next : Nat := 0
  /-- client actors whose mailbox is closed. -/
  dead : List Nat := []
  /-- the registry actor has panicked: it handles nothing any more. -/
  crashed : Bool := false
  /-- ghost: `Write` messages put into the mailboxes of clients. -/
  got : List (Nat × M) := []
deriving Repr

/-- what the client registry handles, `/repo/coerce/src/remote/actor/clients.rs` 42-116, and the end of a client. -/
inductive CRegOp (M : Type) where
  /-- `NewClient`. -/
  | newClient (addr : String)
  /-- `ClientConnected` from client `c`. -/
  | connected (node c : Nat)
  /-- `RemoveClient`, sent by a client that gives up; `node` if it was ever connected. -/
  | remove (node : Option Nat) (addr : String)
  /-- a client actor ends, by stopping or by a panic in one of its handlers, for instance
  `.expect("write handshake")`, `/repo/coerce/src/remote/net/client/connect.rs` 230. -/
  | dies (c : Nat)
  /-- `ClientWrite`. -/
  | write (node : Nat) (m : M)
deriving Repr

variable {M : Type}

/-- `Handler<NewClient>`, `/repo/coerce/src/remote/actor/clients.rs` 42-71; second component the answer.
`RemoteClient::new` is taken to succeed. -/
def CReg.newClient (σ : CReg M) (addr : String) : CReg M × Nat :=
  match σ.byAddr.get addr with
  | some c => (σ, c)
  | none => ({ σ with byAddr := σ.byAddr.insert addr σ.next, next := σ.next + 1 }, σ.next)

/-- `Handler<RemoveClient>`, `/repo/coerce/src/remote/actor/clients.rs` 73-88. -/
def CReg.remove (σ : CReg M) (node : Option Nat) (addr : String) : CReg M :=
  { σ with byId := match node with
                   | some n => σ.byId.erase n
                   | none => σ.byId,
           byAddr := σ.byAddr.erase addr }

/-- `Handler<ClientWrite>`, `/repo/coerce/src/remote/actor/clients.rs` 98-116: `client.notify(..).expect(..)` panics
if the mailbox of the client is closed. -/
def CReg.write (σ : CReg M) (node : Nat) (m : M) : CReg M :=
  match σ.byId.get node with
  | some c => if c ∈ σ.dead then { σ with crashed := true } else { σ with got := σ.got ++ [(c, m)] }
  | none => σ

/-- One message handled (or a client's death). `Handler<ClientConnected>`, `/repo/coerce/src/remote/actor/clients.rs`
90-96, inline. -/
def CReg.step (σ : CReg M) (op : CRegOp M) : CReg M :=
  match op with
  | .dies c => { σ with dead := c :: σ.dead }
  | .newClient a => if σ.crashed then σ else (σ.newClient a).1
  | .connected n c => if σ.crashed then σ else { σ with byId := σ.byId.insert n c }
  | .remove n a => if σ.crashed then σ else σ.remove n a
  | .write n m => if σ.crashed then σ else σ.write n m

/-- any sequence of messages, `/repo/coerce/src/remote/actor/clients.rs` 42-116. -/
def CReg.run (ops : List (CRegOp M)) : CReg M := ops.foldl CReg.step {}

end Verif.Remote
