import Verif.Remote.TripModel

/-!
# Requests over failing connections: what is meant
-/

namespace Verif.Remote.Trip
open Verif.Proto

variable {S P : Type}

/-- the frames of the requests `asked`, and of every answer there may be to them, can be read again. -/
structure Cfg.Reads (c : Cfg S P) (asked : List P) : Prop where
  ask : ∀ u p, asked[u]? = some p → c.ask.get (c.ask.put (u, p)) = some (u, p)
  good : ∀ u p, asked[u]? = some p → ∀ s bs, (c.act s p).2 = .ok bs →
    c.good.get (c.good.put (u, bs)) = some (u, bs)
  bad : ∀ u p, asked[u]? = some p → ∀ s e, (c.act s p).2 = .error e →
    c.bad.get (c.bad.put (u, e)) = some (u, e)

/-- an actor by itself: it is given messages one after the other and gives its answers. -/
def alone (act : S → P → S × Except ActorRefErr Bytes) (s : S) :
    List P → S × List (Except ActorRefErr Bytes)
  | [] => (s, [])
  | p :: r =>
    let x := act s p
    let y := alone act x.1 r
    (y.1, x.2 :: y.2)

/-- what the caller is told when `handle_message` gave `r`. -/
def told : Except ActorRefErr Bytes → Answer
  | .ok bs => .ok bs
  | .error e => .err e

/-- call `u` has been told `x`. -/
def Sys.Told (σ : Sys S P) (u : Nat) (x : Answer) : Prop := (u, (), x) ∈ σ.rpc.done

/-- call `u` is still waiting. -/
def Sys.Waits (σ : Sys S P) (u : Nat) : Prop := (u, ()) ∈ σ.rpc.pending

/-- the message of call `u` has been handled. -/
def Sys.Handled (σ : Sys S P) (u : Nat) : Prop := ∃ x ∈ σ.served, x.id = u

/-- call `u`, or the reply to it, is gone. -/
def Sys.Lost (σ : Sys S P) (u : Nat) : Prop := u ∈ σ.lostAsks ∨ u ∈ σ.lostReplies

/-- a client that has neither given up nor hangs. -/
def Alive (c : Client) : Prop := c.gaveUp = false ∧ c.st ≠ .stuck

/-- a connection breaks, or a client is replaced. -/
def Op.cuts : Op P → Bool
  | .aCut _ => true
  | .bCut _ => true
  | .aRenew => true
  | .bRenew => true
  | _ => false

/-- somebody asks. -/
def Op.asks : Op P → Bool
  | .ask _ => true
  | _ => false

/-- the frames of the requests `asked` and of every answer there may be to them are small enough. -/
structure Cfg.Fits (c : Cfg S P) (asked : List P) : Prop where
  ask : ∀ u p, asked[u]? = some p → (c.ask.put (u, p)).length ≤ c.lim
  good : ∀ u p, asked[u]? = some p → ∀ s bs, (c.act s p).2 = .ok bs → (c.good.put (u, bs)).length ≤ c.lim
  bad : ∀ u p, asked[u]? = some p → ∀ s e, (c.act s p).2 = .error e → (c.bad.put (u, e)).length ≤ c.lim

/-- what the program of node A can see of the system: its calls, and the state of its own client. -/
def Sys.seenByA (σ : Sys S P) : List (Nat × Unit) × List (Nat × Unit × Answer) × CState × List Bytes :=
  (σ.rpc.pending, σ.rpc.done, σ.a.client.st, σ.a.client.buf)

end Verif.Remote.Trip
