import Verif.Remote.TripLive
import Verif.Remote.CodecProps

/-!
# C119: requests over connections that fail
-/

namespace Verif.Remote.Trip
open Verif.Proto

variable {S P : Type}

/-! ### A small pair of nodes used in the examples -/

/-- the first byte that is not 0. -/
def lead (b : Bytes) : Nat := (b.takeWhile (· == 0)).length

theorem lead_put (u : Nat) (r : Bytes) : lead (List.replicate u 0 ++ 1 :: r) = u := by
  induction u with
  | zero => simp [lead]
  | succ u ih => simpa [lead, List.replicate_succ] using ih

theorem drop_put (u : Nat) (r : Bytes) : (List.replicate u 0 ++ 1 :: r).drop (u + 1) = r := by
  induction u with
  | zero => simp
  | succ u ih => simpa [List.replicate_succ] using ih

/-- an actor that keeps a sum, answers with it, and refuses 0; numbers are written as so many zeros. -/
def sums (lim : Nat) : Cfg Nat Nat where
  lim := lim
  ask := ⟨fun x => List.replicate x.1 0 ++ 1 :: List.replicate x.2 0,
    fun b => some (lead b, (b.drop (lead b + 1)).length)⟩
  good := ⟨fun x => List.replicate x.1 0 ++ 1 :: x.2, fun b => some (lead b, b.drop (lead b + 1))⟩
  bad := ⟨fun x => List.replicate x.1 0 ++ [1], fun b => some (lead b, .notImplemented)⟩
  act s p := if p = 0 then (s, .error .notImplemented) else (s + p, .ok [UInt8.ofNat (s + p)])

theorem sums_reads (lim : Nat) (asked : List Nat) : (sums lim).Reads asked := by
  refine ⟨fun u p _ => ?_, fun u p _ s bs _ => ?_, fun u p _ s e he => ?_⟩
  · simp only [sums, lead_put, drop_put, List.length_replicate]
  · simp only [sums, lead_put, drop_put]
  · have : e = .notImplemented := by
      simp only [sums] at he
      split at he
      · exact ((Except.error.inj he).symm)
      · cases he
    simp only [sums, lead_put, this]

theorem sums_fits (lim : Nat) (asked : List Nat) (h : ∀ p ∈ asked, asked.length + p + 2 ≤ lim) :
    (sums lim).Fits asked := by
  have hu : ∀ (u : Nat) (p : Nat), asked[u]? = some p → u + p + 2 ≤ lim := by
    intro u p hup
    obtain ⟨hi, he⟩ := List.getElem?_eq_some_iff.mp hup
    have := h p (he ▸ List.getElem_mem hi)
    omega
  refine ⟨fun u p hup => ?_, fun u p hup s bs hb => ?_, fun u p hup s e _ => ?_⟩
  · have := hu u p hup; simp [sums]; omega
  · have := hu u p hup
    simp only [sums] at hb
    split at hb
    · cases hb
    · have := Except.ok.inj hb
      subst this
      simp [sums]; omega
  · have := hu u p hup; simp [sums]; omega

/-- both clients connect; two calls, one of them refused; everything arrives. -/
def quiet : List (Op Nat) :=
  [.aNet (.connect (.identified none)), .bNet (.connect (.identified none)),
   .ask 5, .ask 0, .recv 1, .recv 1, .serve 1, .serve 0, .good 1, .bad 1]

/-- the connection breaks under a call, which is written again on the next one; the answer to a
later call is lost. -/
def rough : List (Op Nat) :=
  [.aNet (.connect (.identified none)), .ask 5, .aNet .broken, .ask 6, .recv 1,
   .aNet (.connect (.identified none)), .recv 2, .serve 1, .serve 0, .good 2, .aCut 1, .aDrop 1]

/-! ### What always holds -/

/-- **C119 (partial).** Whatever the connections do, no message is handled more than once, and what is
handled is what was asked. Missing for "exactly once": a request can be lost (`C119_lost_refuted`). -/
theorem C119_once_partial (c : Cfg S P) (s : S) (ops : List (Op P))
    (hr : c.Reads ((Sys.init s).run c ops).asked) :
    let σ := (Sys.init s).run c ops
    (σ.served.map (·.id)).Nodup ∧ ∀ x ∈ σ.served, σ.asked[x.id]? = some x.msg := by
  have h := inv_run ops (inv_init c s) hr
  exact ⟨List.nodup_iff_count.mpr h.lt, fun x hx => (h.served x hx).1⟩

example : (sums 20).Reads ((Sys.init 0).run (sums 20) rough).asked ∧
    ((Sys.init 0).run (sums 20) rough).served.map (fun x => (x.id, x.msg)) = [(1, 6), (0, 5)] ∧
    ((Sys.init 0).run (sums 20) rough).asked = [5, 6] :=
  ⟨sums_reads _ _, by decide +kernel, by decide⟩

/-- Every call is told something at most once, and what it is told is what the actor gave for the
message of this very call. -/
theorem C119_told (c : Cfg S P) (s : S) (ops : List (Op P))
    (hr : c.Reads ((Sys.init s).run c ops).asked) (u : Nat) (x : Answer)
    (h : ((Sys.init s).run c ops).Told u x) :
    let σ := (Sys.init s).run c ops
    (∃ y ∈ σ.served, y.id = u ∧ σ.asked[u]? = some y.msg ∧ x = told y.res ∧
      ∀ y' ∈ σ.served, y'.id = u → y' = y) ∧
    (∀ x', σ.Told u x' → x' = x) ∧ ¬ σ.Waits u ∧ ¬ σ.Lost u := by
  have hi := inv_run ops (inv_init c s) hr
  obtain ⟨y, hy, hid, hx⟩ := hi.done _ h
  simp only at hid hx
  have huniq : ∀ y₁ ∈ ((Sys.init s).run c ops).served, y₁.id = u → y₁ = y := by
    intro y₁ h₁ he
    have hn : (((Sys.init s).run c ops).served.map (·.id)).Nodup := List.nodup_iff_count.mpr hi.lt
    generalize ((Sys.init s).run c ops).served = l at hn h₁ hy
    induction l with
    | nil => cases hy
    | cons z l ih =>
      simp only [List.map_cons, List.nodup_cons, List.mem_map, not_exists, not_and] at hn
      rcases List.mem_cons.mp hy with rfl | hy'
      · rcases List.mem_cons.mp h₁ with rfl | h₁'
        · rfl
        · exact absurd (he.trans hid.symm) (hn.1 y₁ h₁')
      · rcases List.mem_cons.mp h₁ with rfl | h₁'
        · exact absurd (hid.trans he.symm) (hn.1 y hy')
        · exact ih hn.2 h₁' hy'
  have hc : 1 ≤ (((Sys.init s).run c ops).rpc.done.map (·.1)).count u :=
    List.count_pos_iff.mpr (List.mem_map.mpr ⟨_, h, rfl⟩)
  refine ⟨⟨y, hy, hid, hid ▸ (hi.served y hy).1, hx, huniq⟩, fun x' h' => ?_, fun hw => ?_, fun hl => ?_⟩
  · obtain ⟨y', hy', hid', hx'⟩ := hi.done _ h'
    simp only at hid' hx'
    rw [hx', hx, huniq y' hy' hid']
  · have h1 : 1 ≤ (((Sys.init s).run c ops).rpc.pending.map (·.1)).count u :=
      List.count_pos_iff.mpr (List.mem_map.mpr ⟨_, hw, rfl⟩)
    have h2 := hi.pend u
    split at h2 <;> omega
  · have := (lost_undone hi u hl).2.1
    omega

example : ((Sys.init 0).run (sums 20) rough).Told 1 (.ok [6]) ∧
    ((Sys.init 0).run (sums 20) quiet).Told 1 (.err .notImplemented) := by
  simp only [Sys.Told]; decide +kernel

/-- The actor is where it would be, and has given the answers it would have given, had the handled
messages been given to it one after the other with no network. -/
theorem C119_actor (c : Cfg S P) (s : S) (ops : List (Op P))
    (hr : c.Reads ((Sys.init s).run c ops).asked) :
    let σ := (Sys.init s).run c ops
    alone c.act s (σ.served.map (·.msg)) = (σ.actor, σ.served.map (·.res)) :=
  (inv_run ops (inv_init c s) hr).replay

example : (alone (sums 20).act 0 [6, 5]).1 = 11 ∧ ((Sys.init 0).run (sums 20) rough).actor = 11 := by
  decide +kernel

/-- Every call either has been told something or waits, not both; and a call that has been told
something has been handled. -/
theorem C119_waits (c : Cfg S P) (s : S) (ops : List (Op P))
    (hr : c.Reads ((Sys.init s).run c ops).asked) (u : Nat) :
    let σ := (Sys.init s).run c ops
    u < σ.asked.length → (σ.Waits u ↔ ¬ ∃ x, σ.Told u x) ∧ ((∃ x, σ.Told u x) → σ.Handled u) := by
  have hi := inv_run ops (inv_init c s) hr
  intro σ hu
  have h2 := hi.pend u
  rw [if_pos hu] at h2
  refine ⟨⟨?_, fun hno => ?_⟩, ?_⟩
  · rintro hw ⟨x, hx⟩
    exact (C119_told c s ops hr u x hx).2.2.1 hw
  · have hz : (σ.rpc.done.map (·.1)).count u = 0 := by
      rw [List.count_eq_zero]
      intro hm
      obtain ⟨⟨v, w, x⟩, hd, he⟩ := List.mem_map.mp hm
      simp only at he
      subst he
      exact hno ⟨x, hd⟩
    have h1 : 0 < (σ.rpc.pending.map (·.1)).count u := by
      have hz' : (((Sys.init s).run c ops).rpc.done.map (·.1)).count u = 0 := hz
      show 0 < (((Sys.init s).run c ops).rpc.pending.map (·.1)).count u
      omega
    obtain ⟨⟨v, w⟩, hp, he⟩ := List.mem_map.mp (List.count_pos_iff.mp h1)
    simp only at he
    subst he
    exact hp
  · rintro ⟨x, hx⟩
    obtain ⟨y, hy, he, _⟩ := (C119_told c s ops hr u x hx).1
    exact ⟨y, hy, he⟩

example : ((Sys.init 0).run (sums 20) rough).Waits 0 ∧ ((Sys.init 0).run (sums 20) rough).Lost 0 ∧
    ((Sys.init 0).run (sums 20) rough).asked.length = 2 := by
  simp only [Sys.Waits, Sys.Lost]; decide +kernel

/-! ### What holds while no connection breaks -/

/-- From a moment at which nothing is lost, no connection is broken and both clients have connected,
nothing is lost for as long as no connection breaks, provided the frames fit and neither client gives
up or hangs. The clients may see their sockets fail and reconnect meanwhile. -/
theorem C119_nothing_lost (c : Cfg S P) (s : S) (ops more : List (Op P))
    (hr : c.Reads ((Sys.init s).run c (ops ++ more)).asked)
    (hf : c.Fits ((Sys.init s).run c (ops ++ more)).asked)
    (h0 : ∀ u, ¬ ((Sys.init s).run c ops).Lost u)
    (hc : ((Sys.init s).run c ops).a.cut = [] ∧ ((Sys.init s).run c ops).b.cut = [])
    (hk : ((Sys.init s).run c ops).a.known = true ∧ ((Sys.init s).run c ops).b.known = true)
    (hm : ∀ o ∈ more, o.cuts = false)
    (ha : Alive ((Sys.init s).run c (ops ++ more)).a.client)
    (hb : Alive ((Sys.init s).run c (ops ++ more)).b.client) (u : Nat) :
    ¬ ((Sys.init s).run c (ops ++ more)).Lost u := by
  rw [run_append] at hr hf ha hb ⊢
  obtain ⟨l, hq⟩ := asked_grows c more ((Sys.init s).run c ops)
  have hg : Good c s ((Sys.init s).run c ops) :=
    good_run ops (good_init c s) (reads_prefix (hq ▸ hr)) (fits_prefix (hq ▸ hf))
  have hs : Steady ((Sys.init s).run c ops) :=
    ⟨List.eq_nil_iff_forall_not_mem.mpr fun u hu => h0 u (.inl hu),
      List.eq_nil_iff_forall_not_mem.mpr fun u hu => h0 u (.inr hu), hc.1, hc.2, hk.1, hk.2⟩
  have := steady_run more hs hg hm hr hf ⟨ha, hb⟩
  rintro (h | h)
  · rw [this.asks] at h; cases h
  · rw [this.replies] at h; cases h

/-- both clients have connected and nothing has been asked yet. -/
def joined : List (Op Nat) := [.aNet (.connect (.identified none)), .bNet (.connect (.identified none))]

/-- then A's socket fails between two calls and A reconnects. -/
def bumpy : List (Op Nat) :=
  [.ask 5, .aNet .broken, .ask 6, .aNet .ended, .aNet (.connect (.identified none)), .recv 2, .serve 0]

example : (∀ u, ¬ ((Sys.init 0).run (sums 20) joined).Lost u) ∧
    ((Sys.init 0).run (sums 20) joined).a.cut = [] ∧ ((Sys.init 0).run (sums 20) joined).b.known = true ∧
    (∀ o ∈ bumpy, o.cuts = false) ∧ Alive ((Sys.init 0).run (sums 20) (joined ++ bumpy)).a.client ∧
    Alive ((Sys.init 0).run (sums 20) (joined ++ bumpy)).b.client ∧
    (sums 20).Reads ((Sys.init 0).run (sums 20) (joined ++ bumpy)).asked ∧
    (sums 20).Fits ((Sys.init 0).run (sums 20) (joined ++ bumpy)).asked ∧
    ((Sys.init 0).run (sums 20) (joined ++ bumpy)).a.made = 2 := by
  have e : ((Sys.init 0).run (sums 20) joined).lostAsks = [] ∧
      ((Sys.init 0).run (sums 20) joined).lostReplies = [] := by decide +kernel
  refine ⟨fun u h => ?_, by decide, by decide, by decide, ?_, ?_, sums_reads _ _,
    sums_fits _ _ (by decide), by decide⟩
  · simp [Sys.Lost, e.1, e.2] at h
  · simp only [Alive]; decide
  · simp only [Alive]; decide

/-- From such a moment, if both clients live, all calls together can still be answered: some course of
events, with no connection broken and no further call, ends with every call told. -/
theorem C119_answerable (c : Cfg S P) (s : S) (ops : List (Op P))
    (hr : c.Reads ((Sys.init s).run c ops).asked) (hf : c.Fits ((Sys.init s).run c ops).asked)
    (h0 : ∀ u, ¬ ((Sys.init s).run c ops).Lost u)
    (hc : ((Sys.init s).run c ops).a.cut = [] ∧ ((Sys.init s).run c ops).b.cut = [])
    (hk : ((Sys.init s).run c ops).a.known = true ∧ ((Sys.init s).run c ops).b.known = true)
    (ha : Alive ((Sys.init s).run c ops).a.client) (hb : Alive ((Sys.init s).run c ops).b.client) :
    ∃ more, (∀ o ∈ more, o.cuts = false ∧ o.asks = false) ∧
      let σ := (Sys.init s).run c (ops ++ more)
      σ.asked = ((Sys.init s).run c ops).asked ∧
      ∀ u, u < σ.asked.length → σ.Handled u ∧ ¬ σ.Waits u ∧ ∃ x, σ.Told u x := by
  have hg : Good c s ((Sys.init s).run c ops) := good_run ops (good_init c s) hr hf
  have hs : Steady ((Sys.init s).run c ops) :=
    ⟨List.eq_nil_iff_forall_not_mem.mpr fun u hu => h0 u (.inl hu),
      List.eq_nil_iff_forall_not_mem.mpr fun u hu => h0 u (.inr hu), hc.1, hc.2, hk.1, hk.2⟩
  obtain ⟨more, h1, h2, h3⟩ := finish _ ⟨hg, hs, ⟨ha, hb⟩, hf, hr⟩ (Nat.le_refl _)
  refine ⟨more, h1, ?_⟩
  have hq := asked_run c more ((Sys.init s).run c ops) (fun o ho => (h1 o ho).2)
  have hr' : c.Reads ((Sys.init s).run c (ops ++ more)).asked := by rw [run_append, hq]; exact hr
  refine ⟨by rw [run_append]; exact hq, fun u hu => ?_⟩
  have hd : 0 < (((Sys.init s).run c (ops ++ more)).rpc.done.map (·.1)).count u := by
    rw [run_append] at hu ⊢
    have := rest_answered h2 h3 u hu
    omega
  obtain ⟨⟨v, w, x⟩, hm, he⟩ := List.mem_map.mp (List.count_pos_iff.mp hd)
  simp only at he
  subst he
  have ht : ((Sys.init s).run c (ops ++ more)).Told v x := hm
  exact ⟨(C119_waits c s _ hr' v hu).2 ⟨x, ht⟩, (C119_told c s _ hr' v x ht).2.2.1, x, ht⟩

example : (∀ u, u ∉ ((Sys.init 0).run (sums 20) (joined ++ bumpy)).lostAsks) ∧
    ((Sys.init 0).run (sums 20) (joined ++ bumpy)).Waits 0 ∧
    ((Sys.init 0).run (sums 20) (joined ++ bumpy)).Waits 1 ∧
    ((Sys.init 0).run (sums 20) (joined ++ bumpy ++ [.recv 1, .serve 0, .good 1, .good 2])).rpc.pending = [] := by
  have e : ((Sys.init 0).run (sums 20) (joined ++ bumpy)).lostAsks = [] := by decide +kernel
  refine ⟨fun u => by simp [e], ?_⟩
  simp only [Sys.Waits]; decide +kernel

/-! ### The frames of the code -/

/-- The code's own frames can be read again, whatever is asked and answered, below 4 GiB: so the
theorems of this file are about them. The limit for sending is 8 MiB. -/
theorem C119_code (pr : Nat → String) (parse : String → Option Nat) (hp : ∀ u, parse (pr u) = some u)
    (node : UInt64) (handler actor : String) (act : S → Bytes → S × Except ActorRefErr Bytes)
    (asked : List Bytes)
    (h1 : ∀ u p, asked[u]? = some p → ((askWire pr parse node handler actor).put (u, p)).length < 2 ^ 32)
    (h2 : ∀ u p, asked[u]? = some p → ∀ s bs, (act s p).2 = .ok bs → ((goodWire pr parse).put (u, bs)).length < 2 ^ 32)
    (h3 : ∀ u p, asked[u]? = some p → ∀ s e, (act s p).2 = .error e → ((badWire pr parse).put (u, e)).length < 2 ^ 32) :
    (codeCfg pr parse node handler actor act).Reads asked := by
  refine ⟨fun u p hu => ?_, fun u p hu s bs hb => ?_, fun u p hu s e he => ?_⟩
  · have h := h1 u p hu
    obtain ⟨bs, hw⟩ : ∃ bs, (SessionEvent.notifyActor
        { messageId := pr u, handlerType := handler, actorId := actor, message := p, requiresResponse := true,
          originNodeId := node }).write = some bs := by simp [SessionEvent.write]
    have hput : (askWire pr parse node handler actor).put (u, p) = bs := by simp only [askWire, hw, Option.getD_some]
    rw [hput] at h
    have := C20_session_event_roundtrip _ bs (by simp [SessionEvent.Valid]) hw h
    show (askWire pr parse node handler actor).get ((askWire pr parse node handler actor).put (u, p)) = _
    rw [hput]
    simp only [askWire, this, hp, Option.map_some]
  · have h := h2 u p hu s bs hb
    obtain ⟨fs, hw⟩ := C20_client_always_writable (.result { messageId := pr u, result := bs })
    have hput : (goodWire pr parse).put (u, bs) = fs := by simp only [goodWire, hw, Option.getD_some]
    rw [hput] at h
    have := C20_client_event_roundtrip _ fs (by simp [ClientEvent.Valid]) hw h
    show (goodWire pr parse).get ((goodWire pr parse).put (u, bs)) = _
    rw [hput]
    simp only [goodWire, this, hp, Option.map_some]
  · have h := h3 u p hu s e he
    obtain ⟨fs, hw⟩ : ∃ bs, (SessionEvent.err { messageId := pr u, error := some e.toProto }).write = some bs := by
      simp [SessionEvent.write]
    have hput : (badWire pr parse).put (u, e) = fs := by simp only [badWire, hw, Option.getD_some]
    rw [hput] at h
    have := C20_session_event_roundtrip _ fs (by simp [SessionEvent.Valid]) hw h
    show (badWire pr parse).get ((badWire pr parse).put (u, e)) = _
    rw [hput]
    simp only [badWire, this, Option.bind_some, C21_error_roundtrip, hp, Option.map_some]

/-- **C119.** A frame is a request exactly if it is read as a message for an actor, and then its id and message are that
message's; the same for the two kinds of answers. What is not, is passed over. -/
theorem C119_frames (pr : Nat → String) (parse : String → Option Nat) (node : UInt64) (handler actor : String) (f : Bytes)
    (u : Nat) (b : Bytes) (e : ActorRefErr) :
    ((askWire pr parse node handler actor).get f = some (u, b) ↔
      ∃ m, SessionEvent.read f = .ok (.notifyActor m) ∧ parse m.messageId = some u ∧ m.message = b) ∧
    ((goodWire pr parse).get f = some (u, b) ↔
      ∃ m, ClientEvent.read f = .ok (.result m) ∧ parse m.messageId = some u ∧ m.result = b) ∧
    ((badWire pr parse).get f = some (u, e) ↔
      ∃ m x, SessionEvent.read f = .ok (.err m) ∧ parse m.messageId = some u ∧ m.error = some x ∧
        ActorRefErr.fromProto x = some e) := by
  refine ⟨?_, ?_, ?_⟩
  · simp only [askWire]
    cases SessionEvent.read f with
    | ok x => cases x <;> simp; grind
    | rejected => simp
    | panic => simp
  · simp only [goodWire]
    cases ClientEvent.read f with
    | ok x => cases x <;> simp; grind
    | rejected => simp
    | panic => simp
  · simp only [badWire]
    cases SessionEvent.read f with
    | rejected => simp
    | panic => simp
    | ok x =>
      cases x <;> simp
      rename_i m
      cases hm : m.error with
      | none => simp
      | some x =>
        simp only [Option.bind_some, Option.some.injEq]
        cases hx : ActorRefErr.fromProto x with
        | none => simp [hx]
        | some e' => simp [hx]; grind

/-- a message for an actor is a request; a ping, or a message whose id is none, is not. -/
example :
    let w := askWire (fun _ => "7") (fun s => if s = "7" then some 7 else none) 1 "h" "a"
    w.get (w.put (7, [9])) = some (7, [9]) ∧ w.get [4] = none ∧ w.get [9, 10, 1, 56] = none ∧ w.get [] = none := by
  decide +kernel

/-- **C119.** When a connection has broken, what was on it can go: of the requests and of both kinds of answers nothing is
left there, what is on the others stays, and what went is accounted for as lost. -/
theorem C119_cut_off (c : Cfg S P) (σ : Sys S P) (k : Nat) :
    let α := (σ.step c (.aCut k)).step c (.aDrop k)
    let β := (σ.step c (.bCut k)).step c (.bDrop k)
    (onConn k α.a.there = [] ∧ onConn k α.a.back = [] ∧ onConn k β.b.there = []) ∧
    (∀ j, j ≠ k → onConn j α.a.there = onConn j σ.a.there ∧ onConn j α.a.back = onConn j σ.a.back ∧
      onConn j β.b.there = onConn j σ.b.there) ∧
    α.lostAsks = σ.lostAsks ++ c.ask.ids (onConn k σ.a.there) ∧
    α.lostReplies = σ.lostReplies ++ c.good.ids (onConn k σ.a.back) ∧
    β.lostReplies = σ.lostReplies ++ c.bad.ids (onConn k σ.b.there) ∧ β.lostAsks = σ.lostAsks := by
  have h0 : ∀ l : List (Nat × Bytes), onConn k (offConn k l) = [] := by
    intro l
    induction l with
    | nil => rfl
    | cons x l ih => simp only [onConn, offConn] at ih ⊢; grind
  have h1 : ∀ j, j ≠ k → ∀ l : List (Nat × Bytes), onConn j (offConn k l) = onConn j l := by
    intro j hj l
    induction l with
    | nil => rfl
    | cons x l ih => simp only [onConn, offConn] at ih ⊢; grind
  simp only [Sys.step, Sys.aDrop, Sys.bDrop, List.mem_cons, true_or, if_true, h0]
  exact ⟨⟨trivial, trivial, trivial⟩, fun j hj => ⟨h1 j hj _, h1 j hj _, h1 j hj _⟩, trivial, trivial, trivial, trivial⟩

/-- a request is on connection 1 and an error on connection 2. -/
example :
    let σ : Sys Nat Nat := { Sys.init 0 with
      a := { there := [(1, (sums 20).ask.put (3, 5)), (2, (sums 20).ask.put (4, 5))] }
      b := { there := [(2, (sums 20).bad.put (1, .notImplemented))] } }
    ((σ.step (sums 20) (.aCut 1)).step (sums 20) (.aDrop 1)).lostAsks = [3] ∧
    ((σ.step (sums 20) (.bCut 2)).step (sums 20) (.bDrop 2)).lostReplies = [1] ∧
    (σ.step (sums 20) (.bDrop 2)).lostReplies = [] := by
  decide +kernel

/-! ### What does not hold -/

/-- the natural claim: every call can still be answered. -/
def C119_full : Prop :=
  ∀ (c : Cfg Nat Nat) (s : Nat) (ops : List (Op Nat)),
    c.Reads ((Sys.init s).run c ops).asked → c.Fits ((Sys.init s).run c ops).asked →
    ∀ u, u < ((Sys.init s).run c ops).asked.length → ∃ more x, ((Sys.init s).run c (ops ++ more)).Told u x

/-- A call whose request or reply is lost waits for ever: there is no time limit, no repetition, and
nobody tells the waiting call that the connection is gone. -/
theorem C119_lost_waits (c : Cfg S P) (s : S) (ops more : List (Op P)) (u : Nat)
    (hr : c.Reads ((Sys.init s).run c (ops ++ more)).asked) (hl : ((Sys.init s).run c ops).Lost u) :
    ((Sys.init s).run c (ops ++ more)).Waits u ∧ ∀ x, ¬ ((Sys.init s).run c (ops ++ more)).Told u x := by
  have hi := inv_run (ops ++ more) (inv_init c s) hr
  have hl' : ((Sys.init s).run c (ops ++ more)).Lost u := by rw [run_append]; exact lost_run c more _ u hl
  have h1 := (lost_undone hi u hl').1
  have hno : ∀ x, ¬ ((Sys.init s).run c (ops ++ more)).Told u x := fun x hx =>
    (C119_told c s _ hr u x hx).2.2.2 hl'
  exact ⟨((C119_waits c s _ hr u h1).1).mpr (fun ⟨x, hx⟩ => hno x hx), hno⟩

/-- **C119 refuted (lost).** A connection that breaks with a request on it leaves the caller waiting for
ever. -/
theorem C119_lost_refuted : ¬ C119_full := by
  intro h
  obtain ⟨more, x, hx⟩ := h (sums 20) 0
    [.aNet (.connect (.identified none)), .ask 5, .aCut 1, .aDrop 1]
    (sums_reads _ _) (sums_fits _ _ (by decide)) 0 (by decide)
  have hl : ((Sys.init 0).run (sums 20) [.aNet (.connect (.identified none)), .ask 5, .aCut 1, .aDrop 1]).Lost 0 := by
    simp only [Sys.Lost]; decide +kernel
  exact (C119_lost_waits (sums 20) 0 _ more 0 (sums_reads _ _) hl).2 x hx

/-- **C119 refuted (no client).** A call made while A has no client registered for B - before the first
connection has been made, or after the client has given up - or while the client hangs, is dropped with
a warning in the log: the caller waits for ever, whatever happens afterwards. -/
theorem C119_unconnected_refuted (c : Cfg S P) (s : S) (ops more : List (Op P)) (p : P)
    (ht : ((Sys.init s).run c ops).a.takes = false)
    (hr : c.Reads ((Sys.init s).run c (ops ++ .ask p :: more)).asked) :
    ((Sys.init s).run c (ops ++ .ask p :: more)).Waits ((Sys.init s).run c ops).asked.length ∧
    ∀ x, ¬ ((Sys.init s).run c (ops ++ .ask p :: more)).Told ((Sys.init s).run c ops).asked.length x := by
  have e : ops ++ .ask p :: more = (ops ++ [.ask p]) ++ more := by simp
  rw [e] at hr ⊢
  refine C119_lost_waits c s (ops ++ [.ask p]) more _ hr (.inl ?_)
  rw [run_snoc]
  simp [Sys.step, Sys.ask, ht]

example : ((Sys.init 0).run (sums 20) ([] : List (Op Nat))).a.takes = false ∧
    ((Sys.init 0).run (sums 20)
      [.ask 5, .aNet (.connect (.identified none)), .ask 6, .recv 1, .serve 0, .good 1]).rpc.pending = [(0, ())] := by
  decide +kernel

/-- **C119 refuted (large answer).** With every connection sound, an answer whose frame is above the
limit is dropped by the session with an error in the log: the message has been handled and the caller
waits for ever. -/
theorem C119_large_refuted (c : Cfg S P) (s : S) (ops more : List (Op P)) (i : Nat) (t : Task P) (bs : Bytes)
    (ht : ((Sys.init s).run c ops).tasks[i]? = some t)
    (ha : (c.act ((Sys.init s).run c ops).actor t.msg).2 = .ok bs)
    (hb : c.lim < (c.good.put (t.id, bs)).length)
    (hr : c.Reads ((Sys.init s).run c (ops ++ .serve i :: more)).asked) :
    ((Sys.init s).run c (ops ++ [.serve i])).Handled t.id ∧
    ((Sys.init s).run c (ops ++ .serve i :: more)).Waits t.id ∧
    ∀ x, ¬ ((Sys.init s).run c (ops ++ .serve i :: more)).Told t.id x := by
  have e : ops ++ .serve i :: more = (ops ++ [.serve i]) ++ more := by simp
  have hif : ¬ (t.conn ∉ ((Sys.init s).run c ops).a.cut ∧ (c.good.put (t.id, bs)).length ≤ c.lim) := by
    rintro ⟨_, h⟩; omega
  have hstep : (Sys.init s).run c (ops ++ [.serve i]) = { (Sys.init s).run c ops with
      tasks := ((Sys.init s).run c ops).tasks.eraseIdx i
      actor := (c.act ((Sys.init s).run c ops).actor t.msg).1
      served := ((Sys.init s).run c ops).served ++ [⟨t.id, t.msg, .ok bs⟩]
      lostReplies := ((Sys.init s).run c ops).lostReplies ++ [t.id] } := by
    rw [run_snoc]
    simp only [Sys.step, Sys.serve, ht, ha, Sys.reply]
    rw [if_neg hif]
  refine ⟨?_, ?_⟩
  · rw [hstep]; exact ⟨⟨t.id, t.msg, .ok bs⟩, by simp, rfl⟩
  · rw [e] at hr ⊢
    exact C119_lost_waits c s _ more t.id hr (.inr (by rw [hstep]; simp))

/-- an actor that answers every message with `n` bytes. -/
def wide (n : Nat) : Cfg Nat Nat := { sums 20 with act := fun s _ => (s + 1, .ok (List.replicate n 7)) }

example : (∃ t, ((Sys.init 0).run (wide 30)
      [.aNet (.connect (.identified none)), .ask 5, .recv 1]).tasks[0]? = some t ∧ t.id = 0) ∧
    ((wide 30).good.put (0, List.replicate 30 7)).length = 31 ∧ (wide 30).lim = 20 ∧
    ((Sys.init 0).run (wide 30)
      [.aNet (.connect (.identified none)), .ask 5, .recv 1, .serve 0, .good 1]).rpc.pending = [(0, ())] :=
  ⟨⟨⟨1, 0, 5⟩, by decide +kernel⟩, by decide +kernel⟩

/-- **C119 refuted (cannot tell).** There are two histories that node A cannot tell apart, ending with
the same call waiting for ever: in one the message has been handled, in the other it never will be. So
a caller who repeats the call has it carried out twice in the one and once in the other. -/
theorem C119_cannot_tell_refuted :
    ∃ (c : Cfg Nat Nat) (p : Nat) (h₁ h₂ again : List (Op Nat)), c.Reads [p, p] ∧
      ((Sys.init 0).run c h₁).seenByA = ((Sys.init 0).run c h₂).seenByA ∧
      ((Sys.init 0).run c h₁).Lost 0 ∧ ((Sys.init 0).run c h₂).Lost 0 ∧
      ((Sys.init 0).run c h₁).Handled 0 ∧ ¬ ((Sys.init 0).run c h₂).Handled 0 ∧
      (((Sys.init 0).run c (h₁ ++ again)).served.map (·.msg) = [p, p] ∧
        ((Sys.init 0).run c (h₂ ++ again)).served.map (·.msg) = [p]) := by
  have h2 : ((Sys.init 0).run (sums 20) [.aNet (.connect (.identified none)), .ask 5, .aCut 1, .aDrop 1]).served.map
      (·.id) = [] := by decide +kernel
  refine ⟨sums 20, 5,
    [.aNet (.connect (.identified none)), .ask 5, .recv 1, .aCut 1, .serve 0, .aDrop 1],
    [.aNet (.connect (.identified none)), .ask 5, .aCut 1, .aDrop 1],
    [.aNet .ended, .aNet (.connect (.identified none)), .ask 5, .recv 2, .serve 0, .good 2],
    sums_reads _ _, by decide +kernel, ?_, ?_, ?_, ?_, by decide +kernel⟩
  · simp only [Sys.Lost]; decide +kernel
  · simp only [Sys.Lost]; decide +kernel
  · exact ⟨⟨0, 5, .ok [5]⟩, List.mem_of_getElem? (i := 0) rfl, rfl⟩
  · rintro ⟨x, hx, _⟩
    have := List.mem_map_of_mem (f := (·.id)) hx
    rw [h2] at this
    cases this

/-! ### Order -/

/-- **C119.** A caller that waits is served in the order of its calls: a call made after another was answered, by whomever,
is handled after it, whatever the connections did in between. -/
theorem C119_waiting_order (c : Cfg S P) (s : S) (before after : List (Op P)) (p : P) (u : Nat) (x : Answer)
    (hr : c.Reads ((Sys.init s).run c (before ++ .ask p :: after)).asked)
    (ht : ((Sys.init s).run c before).Told u x) :
    ∃ l r, ((Sys.init s).run c (before ++ .ask p :: after)).served = l ++ r ∧ (∃ y ∈ l, y.id = u) ∧
      ∀ y ∈ l, y.id ≠ ((Sys.init s).run c before).asked.length := by
  obtain ⟨r, hs⟩ : ∃ r, ((Sys.init s).run c (before ++ .ask p :: after)).served =
      ((Sys.init s).run c before).served ++ r := by
    rw [run_append]; exact served_run c _ _
  have hr' : c.Reads ((Sys.init s).run c before).asked := by
    rw [run_append] at hr
    obtain ⟨l, hl⟩ := asked_grows c (.ask p :: after) ((Sys.init s).run c before)
    rw [hl] at hr
    exact reads_prefix hr
  obtain ⟨⟨y, hy, e, _⟩, _⟩ := C119_told c s before hr' u x ht
  refine ⟨_, r, hs, ⟨y, hy, e⟩, fun z hz hn => ?_⟩
  have := (C119_once_partial c s before hr').2 z hz
  rw [hn, List.getElem?_eq_none (Nat.le_refl _)] at this
  cases this

example : ((Sys.init 0).run (sums 20) [.aNet (.connect (.identified none)), .ask 5, .recv 1, .serve 0, .good 1]).Told 0
      (.ok [5]) ∧
    ((Sys.init 0).run (sums 20) ([.aNet (.connect (.identified none)), .ask 5, .recv 1, .serve 0, .good 1] ++
      .ask 6 :: [.recv 1, .serve 0])).served.map (·.id) = [0, 1] := by
  simp only [Sys.Told]; decide +kernel

/-- **C119 refuted (order).** Two requests written one after the other to one connection that never breaks are handled in
the other order: each is handled by a task of its own. -/
theorem C119_order_refuted : ∃ ops : List (Op Nat), (∀ o ∈ ops, o.cuts = false) ∧
    ((Sys.init 0).run (sums 20) ops).a.made = 1 ∧ ((Sys.init 0).run (sums 20) ops).asked = [5, 6] ∧
    ((Sys.init 0).run (sums 20) ops).served.map (·.id) = [1, 0] :=
  ⟨[.aNet (.connect (.identified none)), .ask 5, .ask 6, .recv 1, .recv 1, .serve 1, .serve 0], by decide +kernel,
    by decide +kernel⟩

/-- **C119.** Nothing that is on a connection keeps what is behind it from being read, whether or not it can be read itself:
each reading, on either side, takes the first frame of its connection off and leaves all others there, in their order. -/
theorem C119_reads_on (c : Cfg S P) (σ : Sys S P) (k : Nat) :
    onConn k (σ.step c (.recv k)).a.there = (onConn k σ.a.there).drop 1 ∧
    onConn k (σ.step c (.good k)).a.back = (onConn k σ.a.back).drop 1 ∧
    onConn k (σ.step c (.bad k)).b.there = (onConn k σ.b.there).drop 1 ∧
    offConn k (σ.step c (.recv k)).a.there = offConn k σ.a.there ∧
    offConn k (σ.step c (.good k)).a.back = offConn k σ.a.back ∧
    offConn k (σ.step c (.bad k)).b.there = offConn k σ.b.there := by
  refine ⟨?_, ?_, ?_, ?_, ?_, ?_⟩ <;> simp only [Sys.step, Sys.recv, Sys.good, Sys.bad]
  · have h := pull_on k σ.a.there
    rcases hp : pull k σ.a.there with _ | ⟨f, r⟩ <;> simp only [hp] at h ⊢
    · rw [h.1]; rfl
    · split <;> exact h.1
  · have h := pull_on k σ.a.back
    rcases hp : pull k σ.a.back with _ | ⟨f, r⟩ <;> simp only [hp] at h ⊢
    · rw [h.1]; rfl
    · split <;> exact h.1
  · have h := pull_on k σ.b.there
    rcases hp : pull k σ.b.there with _ | ⟨f, r⟩ <;> simp only [hp] at h ⊢
    · rw [h.1]; rfl
    · split <;> exact h.1
  · have h := pull_on k σ.a.there
    rcases hp : pull k σ.a.there with _ | ⟨f, r⟩ <;> simp only [hp] at h ⊢
    split <;> exact h.2
  · have h := pull_on k σ.a.back
    rcases hp : pull k σ.a.back with _ | ⟨f, r⟩ <;> simp only [hp] at h ⊢
    split <;> exact h.2
  · have h := pull_on k σ.b.there
    rcases hp : pull k σ.b.there with _ | ⟨f, r⟩ <;> simp only [hp] at h ⊢
    split <;> exact h.2

/-- the first of two frames cannot be read. -/
example :
    let c : Cfg Nat Nat := { sums 20 with good := ⟨(sums 20).good.put, fun b => if b = [] then none else (sums 20).good.get b⟩ }
    c.good.get [] = none ∧
    (Sys.step c { Sys.init 0 with a := { back := [(1, []), (2, []), (1, [0, 1, 5])] } } (.good 1)).a.back =
      [(2, []), (1, [0, 1, 5])] := by
  decide +kernel

/-- **C119.** When the registry has removed a client that had given up, what is asked is not handed to it: the client and its
connections are left as they are, and the request is lost, its caller waiting. -/
theorem C119_removed (c : Cfg S P) (σ : Sys S P) (hg : σ.a.client.gaveUp = true) (p : P) :
    let τ := σ.step c (.aNet .removed)
    (τ.step c (.ask p)).a = τ.a ∧ τ.a.client = σ.a.client ∧ τ.a.there = σ.a.there ∧
    (τ.step c (.ask p)).lostAsks = σ.lostAsks ++ [σ.asked.length] ∧
    (σ.asked.length, ()) ∈ (τ.step c (.ask p)).rpc.pending := by
  simp [Sys.step, Link.net, hg, Sys.ask, Link.write, Link.takes, Rpc.push]

/-- the client has failed to connect eleven times after it was connected. -/
example : ∃ ops : List (Op Nat), ((Sys.init 0).run (sums 20) ops).a.client.gaveUp = true ∧
    ((Sys.init 0).run (sums 20) ops).a.known = true :=
  ⟨.aNet (.connect (.identified none)) :: .aNet .broken :: .aNet .ended :: List.replicate 11 (.aNet (.connect .failed)),
    by decide +kernel, by decide +kernel⟩

/-- **C119.** A node that is found again gets a client that works: when that has connected, what is asked is taken, and goes
to the new connection. But what the old client had kept for the time it would connect is lost, and so is what was asked
meanwhile: those callers wait for ever (`C119_lost_waits`). -/
theorem C119_renewed (c : Cfg S P) (σ : Sys S P) (hg : σ.a.client.gaveUp = true) (p : P)
    (hf : (c.ask.put (σ.asked.length, p)).length ≤ c.lim) :
    let τ := ((σ.step c (.aNet .removed)).step c .aRenew).step c (.aNet (.connect (.identified none)))
    τ.a.takes = true ∧ τ.a.made = σ.a.made + 1 ∧
    (∀ f ∈ σ.a.client.buf, ∀ u q, c.ask.get f = some (u, q) → τ.Lost u) ∧
    (τ.step c (.ask p)).a.there = σ.a.there ++ [(σ.a.made + 1, c.ask.put (σ.asked.length, p))] ∧
    (τ.step c (.ask p)).lostAsks = τ.lostAsks := by
  simp only [Sys.step, Link.net, hg, if_true, Sys.aRenew, Link.renewable, Link.renew, Bool.not_false, Bool.and_self,
    Link.does, Client.step, Client.connect, Client.init, Client.flush, flushLoop]
  refine ⟨by simp [Link.takes, accepts], by simp, fun f hm u q hq => .inl (List.mem_append_right _ ?_), ?_, ?_⟩
  · simp only [Wire.ids, List.mem_filterMap, Option.map_eq_some_iff]
    exact ⟨f, hm, (u, q), hq, rfl⟩
  · have hs : canSend c.lim ((none : Option Nat) != some 0) (c.ask.put (σ.asked.length, p)) = true := by
      simp [canSend, hf]
    simp [Sys.ask, Link.write, Link.does, Client.step, Client.write, hs]
  · simp [Sys.ask, Link.takes, accepts]

/-- **C119.** An address that has a client that has not given up, or that the registry still knows, gets no other. -/
theorem C119_one_client (c : Cfg S P) (σ : Sys S P) :
    (σ.a.client.gaveUp = false ∨ σ.a.known = true → σ.step c .aRenew = σ) ∧
    (σ.b.client.gaveUp = false ∨ σ.b.known = true → σ.step c .bRenew = σ) := by
  constructor <;> rintro (h | h) <;> simp [Sys.step, Sys.aRenew, Sys.bRenew, Link.renewable, h]

/-- **C119.** The errors that wait in the buffer of a client of B that is replaced are lost, and B's new client is as new as
A's. -/
theorem C119_renewed_back (c : Cfg S P) (σ : Sys S P) (hg : σ.b.client.gaveUp = true) :
    let τ := (σ.step c (.bNet .removed)).step c .bRenew
    τ.b.client = Client.init ∧ τ.b.there = σ.b.there ∧ τ.b.made = σ.b.made ∧
    (∀ f ∈ σ.b.client.buf, ∀ u e, c.bad.get f = some (u, e) → τ.Lost u) ∧
    (τ.step c (.bNet (.connect (.identified none)))).b.takes = true := by
  simp only [Sys.step, Link.net, hg, if_true, Sys.bRenew, Link.renewable, Link.renew, Bool.not_false, Bool.and_self]
  refine ⟨trivial, trivial, trivial, fun f hm u q hq => .inr (List.mem_append_right _ ?_),
    by simp [Link.takes, accepts, Link.does, Client.step, Client.connect, Client.init, Client.flush]⟩
  simp only [Wire.ids, List.mem_filterMap, Option.map_eq_some_iff]
  exact ⟨f, hm, (u, q), hq, rfl⟩

/-- A asks while its client cannot connect; the client gives up and is replaced, and what is asked then is answered. -/
example :
    let ops : List (Op Nat) := .aNet (.connect (.identified none)) :: .aNet .broken :: .aNet .ended :: .ask 5 ::
      List.replicate 11 (.aNet (.connect .failed)) ++ [.aNet .removed, .ask 6, .aRenew, .aNet (.connect (.identified none)),
        .ask 7, .recv 2, .serve 0, .good 2]
    ((Sys.init 0).run (sums 20) ops).lostAsks = [1, 0] ∧
    ((Sys.init 0).run (sums 20) ops).rpc.done = [(2, (), .ok [7])] ∧
    ((Sys.init 0).run (sums 20) ops).rpc.pending.map (·.1) = [1, 0] := by
  decide +kernel

end Verif.Remote.Trip
