import Verif.Remote.AuthModel
import Verif.Remote.CodecProps

/-!
# C22, C23: unauthenticated connections, token lifetime
-/

namespace Verif.Remote
open Verif.Proto Verif.Proto.Network

section
variable {K : Type}

/-! ### C23 -/

/-- `chrono` can represent the lifetime and the end of the lifetime of a token made at `t`. -/
def Representable (env : TokenEnv K) (j : Jwt K) (t : Int) : Prop :=
  ∀ ttl, j.ttl = some ttl → (ttl : Int) ≤ env.maxTtl ∧ t + ttl ≤ env.maxTime

/-- the signature scheme gives back what was signed. -/
def SignsOk (env : TokenEnv K) : Prop := ∀ k p, env.verify k (env.sign k p) = some p

/-- **C23 (where the dates can be represented).** A token made at time `t` is accepted exactly while
the clock is not past `t` plus the lifetime; always if there is no lifetime. The missing case is
`C23_huge_ttl_refuted`. -/
theorem C23_lifetime_partial (env : TokenEnv K) (hs : SignsOk env) (j : Jwt K) (id : Nat) (t now : Int)
    (hr : Representable env j t) :
    j.validate env now (j.generate env id t) = .yes ↔ ∀ ttl, j.ttl = some ttl → now ≤ t + (ttl : Int) := by
  simp only [Jwt.validate, Jwt.generate, hs j.secret ⟨id, t⟩]
  cases ht : j.ttl with
  | none => simp
  | some ttl =>
    have := hr ttl ht
    simp only [stillValid, Option.some.injEq]
    have h1 : ¬ (ttl : Int) > env.maxTtl := by omega
    have h2 : ¬ t + (ttl : Int) > env.maxTime := by omega
    simp only [h1, h2, if_false]
    constructor
    · intro h x hx; subst hx
      split at h
      · assumption
      · cases h
    · intro h
      rw [if_pos (h ttl rfl)]

/-- **C23.** An expired token stays expired, and one accepted later was accepted before (given that the
dates can be represented). -/
theorem C23_monotone (env : TokenEnv K) (j : Jwt K) (tok : String) (now now' : Int) (hle : now ≤ now')
    (h : j.validate env now' tok = .yes) : j.validate env now tok = .yes := by
  unfold Jwt.validate at h ⊢
  cases hv : env.verify j.secret tok with
  | none => rw [hv] at h; cases h
  | some p =>
    rw [hv] at h
    cases ht : j.ttl with
    | none => simp
    | some ttl =>
      simp only [ht, stillValid] at h ⊢
      split at h
      · cases h
      · split at h
        · cases h
        · split at h
          · rename_i h1 h2 h3
            rw [if_neg h1, if_neg h2, if_pos (by omega)]
          · cases h

/-- **C23.** A token that does not verify under the secret is never accepted. -/
theorem C23_forged (env : TokenEnv K) (j : Jwt K) (tok : String) (now : Int)
    (h : env.verify j.secret tok = none) : j.validate env now tok = .no := by
  simp [Jwt.validate, h]

/-- **C23.** Whatever is accepted carries a payload signed with the secret and not expired. -/
theorem C23_accepted_only (env : TokenEnv K) (j : Jwt K) (tok : String) (now : Int)
    (h : j.validate env now tok = .yes) :
    ∃ p, env.verify j.secret tok = some p ∧ ∀ ttl, j.ttl = some ttl → now ≤ p.timestamp + (ttl : Int) := by
  unfold Jwt.validate at h
  cases hv : env.verify j.secret tok with
  | none => rw [hv] at h; cases h
  | some p =>
    refine ⟨p, rfl, ?_⟩
    intro ttl ht
    simp only [hv, ht, stillValid] at h
    split at h
    · cases h
    · split at h
      · cases h
      · split at h
        · assumption
        · cases h

/-- **C23 refuted for very long lifetimes.** A lifetime above what `chrono` can hold (for instance
`Duration::MAX`, the natural way to say "never expires") does not accept the token: it panics. -/
theorem C23_huge_ttl_refuted (env : TokenEnv K) (hs : SignsOk env) (k : K) (id : Nat) (t now : Int) :
    ∃ ttl : Nat, now ≤ t + (ttl : Int) ∧
      (Jwt.validate env ⟨k, some ttl⟩ now (Jwt.generate env ⟨k, some ttl⟩ id t)) = .panic := by
  refine ⟨(env.maxTtl + 1).toNat + (now - t).toNat, by omega, ?_⟩
  simp only [Jwt.validate, Jwt.generate, hs k ⟨id, t⟩, stillValid]
  rw [if_pos (by omega)]

/-! A toy signature scheme, to show that the hypotheses can be met: the token is the payload in unary. -/

private def toyEnc (p : Payload) : List Char :=
  List.replicate p.id 'a' ++ (if p.timestamp < 0 then 'n' else 'p') :: List.replicate p.timestamp.natAbs 'b'

private def toyDec (l : List Char) : Option Payload :=
  match l.dropWhile (· == 'a') with
  | 'n' :: r => some ⟨(l.takeWhile (· == 'a')).length, -(r.length : Int)⟩
  | 'p' :: r => some ⟨(l.takeWhile (· == 'a')).length, r.length⟩
  | _ :: _ => none
  | [] => none

private theorem toy_roundtrip (p : Payload) : toyDec (toyEnc p) = some p := by
  obtain ⟨id, t⟩ := p
  have h1 : ∀ (n : Nat) (c : Char) (r : List Char), (c == 'a') = false →
      (List.replicate n 'a' ++ c :: r).dropWhile (· == 'a') = c :: r ∧
      (List.replicate n 'a' ++ c :: r).takeWhile (· == 'a') = List.replicate n 'a' := by
    intro n c r hc
    induction n with
    | zero => simp [hc]
    | succ n ih => simp [List.replicate_succ, ih]
  by_cases h : t < 0
  · obtain ⟨h2, h3⟩ := h1 id 'n' (List.replicate t.natAbs 'b') (by decide)
    simp only [toyDec, toyEnc, h, if_true, h2, h3, List.length_replicate]
    simp only [Option.some.injEq, Payload.mk.injEq, true_and]
    omega
  · obtain ⟨h2, h3⟩ := h1 id 'p' (List.replicate t.natAbs 'b') (by decide)
    simp only [toyDec, toyEnc, h, if_false, h2, h3, List.length_replicate]
    simp only [Option.some.injEq, Payload.mk.injEq, true_and]
    omega

private def toyEnv : TokenEnv Unit :=
  { sign := fun _ p => String.ofList (toyEnc p), verify := fun _ s => toyDec s.toList,
    maxTtl := 1000, maxTime := 1000000 }

private theorem toy_signs : SignsOk toyEnv := by
  intro k p; simp [toyEnv, toy_roundtrip]

/-- a boundary case: lifetime 5, made at 100; accepted at 105, not at 106. -/
example : Representable toyEnv ⟨(), some 5⟩ 100 ∧
    Jwt.validate toyEnv ⟨(), some 5⟩ 105 (Jwt.generate toyEnv ⟨(), some 5⟩ 1 100) = .yes ∧
    Jwt.validate toyEnv ⟨(), some 5⟩ 106 (Jwt.generate toyEnv ⟨(), some 5⟩ 1 100) = .no ∧
    toyEnv.verify () "forged" = none ∧
    Jwt.validate toyEnv ⟨(), some 5⟩ 100 "" = .no := by
  have hr : Representable toyEnv ⟨(), some 5⟩ 100 := by
    intro ttl h; simp at h; subst h; decide
  refine ⟨hr, ?_, ?_, by decide, by decide⟩
  · exact (C23_lifetime_partial toyEnv toy_signs ⟨(), some 5⟩ 1 100 105 hr).2 (by
      intro ttl h; simp at h; subst h; decide)
  · decide

/-! ### C22 -/

/-- the connection starts with an identification whose token is signed with the secret and has not
expired at the time of the connection. -/
def Authentic (env : TokenEnv K) (j : Jwt K) (now : Int) (items : List Item) : Prop :=
  ∃ bs rest e p, items = .frame bs :: rest ∧ SessionEvent.read bs = .ok (.identify e) ∧
    env.verify j.secret e.token = some p ∧
    ∀ ttl, j.ttl = some ttl → now ≤ p.timestamp + (ttl : Int)

theorem gate_yes (env : TokenEnv K) (a : ClientAuth K) (now : Int) (items : List Item)
    (h : gate env a now items = .yes) :
    ∃ bs rest e, items = .frame bs :: rest ∧ SessionEvent.read bs = .ok (.identify e) ∧
      a.validate env now e.token = .yes := by
  unfold gate at h
  split at h
  · rename_i bs rest
    split at h
    · rename_i e he; exact ⟨bs, rest, e, rfl, he, h⟩
    · cases h
    · cases h
  · cases h

/-- **C22.** With token authentication, whatever a peer sends: unless the connection starts with an
authentic identification, nothing is written to it, no event has any effect, and the session does not
run on. -/
theorem C22_gate (env : TokenEnv K) (j : Jwt K) (now : Int) (identity : NodeIdentity)
    (uuid : String → Bool) (down : Bool) (items : List Item) (h : ¬ Authentic env j now items) :
    (sessionRun env (.jwt j) now identity uuid down items).written = [] ∧
    (sessionRun env (.jwt j) now identity uuid down items).effects = [] ∧
    (sessionRun env (.jwt j) now identity uuid down items).state ≠ .running := by
  unfold sessionRun
  cases hg : gate env (.jwt j) now items with
  | no => simp
  | panic => simp
  | yes =>
    exfalso
    apply h
    obtain ⟨bs, rest, e, h1, h2, h3⟩ := gate_yes env _ now items hg
    obtain ⟨p, h4, h5⟩ := C23_accepted_only env j e.token now h3
    exact ⟨bs, rest, e, p, h1, h2, h4, h5⟩

/-- **C22.** If the first frame can be read at all and the clock arithmetic does not overflow, such a
session is stopped in an orderly way. -/
theorem C22_stopped (env : TokenEnv K) (j : Jwt K) (now : Int) (identity : NodeIdentity)
    (uuid : String → Bool) (down : Bool) (items : List Item) (h : ¬ Authentic env j now items)
    (hread : ∀ bs rest, items = .frame bs :: rest → SessionEvent.read bs ≠ .panic)
    (hrep : ∀ tok p, env.verify j.secret tok = some p → Representable env j p.timestamp) :
    (sessionRun env (.jwt j) now identity uuid down items).state = .stopped := by
  have hno : gate env (.jwt j) now items = .no := by
    cases hg : gate env (.jwt j) now items with
    | no => rfl
    | yes =>
      exfalso
      apply h
      obtain ⟨bs, rest, e, h1, h2, h3⟩ := gate_yes env _ now items hg
      obtain ⟨p, h4, h5⟩ := C23_accepted_only env j e.token now h3
      exact ⟨bs, rest, e, p, h1, h2, h4, h5⟩
    | panic =>
      exfalso
      unfold gate at hg
      split at hg
      · rename_i bs rest
        split at hg
        · rename_i e he
          simp only [ClientAuth.validate, Jwt.validate] at hg
          cases hv : env.verify j.secret e.token with
          | none => rw [hv] at hg; cases hg
          | some p =>
            rw [hv] at hg
            cases ht : j.ttl with
            | none => simp [ht] at hg
            | some ttl =>
              have := hrep _ _ hv ttl ht
              simp only [ht, stillValid] at hg
              rw [if_neg (by omega), if_neg (by omega)] at hg
              split at hg <;> cases hg
        · rename_i he; exact hread bs rest rfl he
        · cases hg
      · cases hg
  unfold sessionRun
  rw [hno]

/-- **C22.** The other direction: a client that holds the secret and presents a fresh token is let
in, and is told who the node is; so the gate is not just shut. -/
theorem C22_accepts (env : TokenEnv K) (hs : SignsOk env) (j : Jwt K) (id : Nat) (t now : Int)
    (hr : Representable env j t) (hlive : ∀ ttl, j.ttl = some ttl → now ≤ t + (ttl : Int))
    (identity : NodeIdentity) (uuid : String → Bool) (down : Bool) (e : IdentifyEvent) (bs : Bytes)
    (he : e.token = j.generate env id t) (hw : SessionEvent.write (.identify e) = some bs)
    (hsz : bs.length < 2 ^ 32) (rest : List Item) :
    (sessionRun env (.jwt j) now identity uuid down (.frame bs :: rest)).written = [.identity identity] ∧
    (sessionRun env (.jwt j) now identity uuid down (.frame bs :: rest)).effects =
      (receiveLoop SessionEvent.read (sessionOnReceive uuid down) [] (framesOf rest)).1 := by
  have hread := C20_session_event_roundtrip (.identify e) bs trivial hw hsz
  have hg : gate env (.jwt j) now (.frame bs :: rest) = .yes := by
    simp only [gate, hread, ClientAuth.validate, he]
    exact (C23_lifetime_partial env hs j id t now hr).2 hlive
  unfold sessionRun
  rw [hg]
  exact ⟨rfl, rfl⟩

/-- **C22.** Any effect at all, or any byte written, means the peer was authentic. -/
theorem C22_effect_needs_token (env : TokenEnv K) (j : Jwt K) (now : Int) (identity : NodeIdentity)
    (uuid : String → Bool) (down : Bool) (items : List Item)
    (h : (sessionRun env (.jwt j) now identity uuid down items).written ≠ [] ∨
      (sessionRun env (.jwt j) now identity uuid down items).effects ≠ []) :
    Authentic env j now items := by
  apply Classical.byContradiction
  intro hn
  obtain ⟨h1, h2, _⟩ := C22_gate env j now identity uuid down items hn
  rcases h with h | h
  · exact h h1
  · exact h h2

/-! #### What an accepted connection can make the node do -/

/-- What an event asks for. `down`: this node is terminated. -/
def asked (down : Bool) : SessionEvent → Option Effect
  | .handshake e => some (.handshake e)
  | .findActor e => some (.lookup e.actorId)
  | .registerActor e => e.nodeId.map fun n => .register e.actorId n.value
  | .notifyActor m => some (.handle m)
  | .createActor e => some (.create e)
  | .streamPublish e => some (.publish e)
  | .result r => some (.complete r.messageId)
  | .err r => some (.complete r.messageId)
  | .ping p =>
    match down, p.systemTerminated with
    | true, _ => some .stopSelf
    | false, true => some (.nodeTerminated p.nodeId)
    | false, false => some (.pong p.messageId)
  | _ => none

/-- Events that cannot be handled: an id that is no uuid, or an error without a known kind. -/
def unusable (uuid : String → Bool) : SessionEvent → Prop
  | .findActor e => uuid e.messageId = false
  | .result r => uuid r.messageId = false
  | .err r => uuid r.messageId = false ∨ r.error.bind ActorRefErr.fromProto = none
  | _ => False

/-- Handling an event has exactly the effect it asks for; only a ping received by a terminated node closes the
connection, and only unusable events are fatal. -/
theorem C22_effect_asked (uuid : String → Bool) (down : Bool) (log : List Effect) (e : SessionEvent) :
    (sessionOnReceive uuid down log e = none ↔ unusable uuid e) ∧
    ∀ log' c, sessionOnReceive uuid down log e = some (log', c) →
      log' = log ++ (asked down e).toList ∧ (c = true ↔ down = true ∧ ∃ p, e = .ping p) := by
  cases e with
  | ping p =>
    cases down <;> cases hp : p.systemTerminated <;> simp [sessionOnReceive, unusable, asked, hp]
  | findActor e => cases hu : uuid e.messageId <;> simp [sessionOnReceive, unusable, asked, hu]
  | result e => cases hu : uuid e.messageId <;> simp [sessionOnReceive, unusable, asked, hu]
  | registerActor e => cases hn : e.nodeId <;> simp [sessionOnReceive, unusable, asked, hn]
  | err r =>
    cases he : r.error.bind ActorRefErr.fromProto <;> cases hu : uuid r.messageId <;>
      simp [sessionOnReceive, unusable, asked, he, hu]
  | _ => simp [sessionOnReceive, unusable, asked]

/-- The events among the frames of a connection. -/
def readable (frames : List Bytes) : List SessionEvent :=
  frames.filterMap fun f => match SessionEvent.read f with | .ok e => some e | _ => none

/-- Over a whole connection: the effects are those asked for by the events read, in order, each once; nothing
is left out unless an event or frame was fatal or the connection was closed. -/
theorem C22_effects_asked (uuid : String → Bool) (down : Bool) (frames : List Bytes) :
    ∀ log, ∃ es, es <+: readable frames ∧
      (receiveLoop SessionEvent.read (sessionOnReceive uuid down) log frames).1 = log ++ es.filterMap (asked down) ∧
      ((receiveLoop SessionEvent.read (sessionOnReceive uuid down) log frames).2 = .running →
        es = readable frames) := by
  induction frames with
  | nil => intro log; exact ⟨[], by simp [readable], by simp [receiveLoop], by simp [readable]⟩
  | cons f fs ih =>
    intro log
    simp only [receiveLoop]
    cases hr : SessionEvent.read f with
    | rejected =>
      have hread : readable (f :: fs) = readable fs := by simp [readable, hr]
      rw [hread]
      exact ih log
    | panic => exact ⟨[], by simp, by simp, by simp⟩
    | ok e =>
      have hread : readable (f :: fs) = e :: readable fs := by simp [readable, hr]
      rw [hread]
      have hspec := (C22_effect_asked uuid down log e).2
      simp only []
      generalize hx : sessionOnReceive uuid down log e = x
      cases x with
      | none => exact ⟨[], by simp, by simp, by simp⟩
      | some r =>
        obtain ⟨log', c⟩ := r
        obtain ⟨hl, _⟩ := hspec log' c hx
        cases c with
        | true =>
          refine ⟨[e], by simp, ?_, by simp⟩
          simp only [hl, List.filterMap_cons, List.filterMap_nil]
          cases asked down e <;> rfl
        | false =>
          obtain ⟨es, h1, h2, h3⟩ := ih log'
          refine ⟨e :: es, by simpa using h1, ?_, fun h => by rw [h3 h]⟩
          rw [h2, hl]
          simp only [List.filterMap_cons]
          cases asked down e <;> simp

/-- Without authentication configured an identification is still required before anything else. -/
theorem C22_identify_first (env : TokenEnv K) (now : Int) (identity : NodeIdentity)
    (uuid : String → Bool) (down : Bool) (items : List Item)
    (h : ∀ bs rest e, items = .frame bs :: rest → SessionEvent.read bs ≠ .ok (.identify e)) :
    (sessionRun env .none now identity uuid down items).written = [] ∧
    (sessionRun env .none now identity uuid down items).effects = [] := by
  unfold sessionRun
  cases hg : gate env .none now items with
  | no => simp
  | panic => simp
  | yes =>
    obtain ⟨bs, rest, e, h1, h2, _⟩ := gate_yes env _ now items hg
    exact absurd h2 (h bs rest e h1)

/-! Concrete cases: a message for an actor as first frame; a good token first, then the message. -/

private def toyMsg : MessageRequest := { messageId := "m", actorId := "a" }

example (bs : Bytes) (hw : SessionEvent.write (.notifyActor toyMsg) = some bs) (hs : bs.length < 2 ^ 32)
    (rest : List Item) : ¬ Authentic toyEnv ⟨(), some 5⟩ 0 (.frame bs :: rest) := by
  rintro ⟨bs', rest', e, p, h1, h2, _⟩
  cases h1
  rw [C20_session_event_roundtrip (.notifyActor toyMsg) bs trivial hw hs] at h2
  cases h2

example (bs : Bytes) (hw : SessionEvent.write (.notifyActor toyMsg) = some bs) (hs : bs.length < 2 ^ 32)
    (b0 : Bytes) (hs0 : b0.length < 2 ^ 32)
    (hw0 : SessionEvent.write (.identify { token := Jwt.generate toyEnv ⟨(), some 5⟩ 1 2 }) = some b0) :
    (sessionRun toyEnv (.jwt ⟨(), some 5⟩) 7 {} (fun _ => true) false [.frame b0, .frame bs]).effects =
      [.handle toyMsg] := by
  rw [(C22_accepts toyEnv toy_signs ⟨(), some 5⟩ 1 2 7
    (by intro ttl h; simp at h; subst h; decide) (by intro ttl h; simp at h; subst h; decide)
    {} (fun _ => true) false _ b0 rfl hw0 hs0 [.frame bs]).2]
  simp [framesOf, receiveLoop, C20_session_event_roundtrip (.notifyActor toyMsg) bs trivial hw hs,
    sessionOnReceive]

end
end Verif.Remote
