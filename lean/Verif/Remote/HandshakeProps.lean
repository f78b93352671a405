import Verif.Remote.HandshakeModel
import Verif.Util

/-! C73 and C74: identification, handshake and ping timer of an outgoing connection. -/

namespace Verif.Remote.Handshake

/-- The actor handles messages. -/
def Client.alive (σ : Client) : Bool :=
  match σ.st with
  | .stuck => false
  | .crashed => false
  | .stopped => false
  | _ => true

def Client.isConnected (σ : Client) : Bool :=
  match σ.st with
  | .connected _ _ => true
  | _ => false

/-- The handlers, without the guards of `step`. -/
def Client.act (σ : Client) : Op → Client
  | .connect o => if σ.isConnected then σ else σ.connect o
  | .identify cb => σ.identify cb
  | .beginHandshake cb w => σ.beginHandshake cb w
  | .ack g => if g < σ.gens then σ.ack g else σ
  | .disconnected => σ.disconnected
  | .pingTick w => σ.pingTick w
  | .stop => σ.stop

theorem step_eq (σ : Client) (op : Op) : σ.step op = if σ.alive then σ.act op else σ := by
  unfold Client.step Client.alive
  cases h : σ.st <;> simp only [] <;> cases op <;> simp [Client.act, Client.isConnected, h]

theorem run_snoc (σ : Client) (ops : List Op) (op : Op) : run σ (ops ++ [op]) = (run σ ops).step op := by
  simp [run]

/-- Invariants of runs. -/
theorem run_inv {P : Client → List Op → Prop} (h0 : P Client.init [])
    (hs : ∀ ops op, P (run Client.init ops) ops → P ((run Client.init ops).step op) (ops ++ [op])) :
    ∀ ops, P (run Client.init ops) ops := by
  intro ops
  induction ops using snoc_induction with
  | nil => exact h0
  | snoc l x ih => rw [run_snoc]; exact hs l x ih

/-! ### C73: identification and handshake -/

def isIdReply (cb : Nat) : Ev → Bool
  | .idReply c _ => c == cb
  | _ => false

def isHsEnd (cb : Nat) : Ev → Bool
  | .hsReply c => c == cb
  | .hsDropped c => c == cb
  | _ => false

def asksId (cb : Nat) : Op → Bool
  | .identify c => c == cb
  | _ => false

def asksHs (cb : Nat) : Op → Bool
  | .beginHandshake c _ => c == cb
  | _ => false

theorem countP_idReply_map (cb : Nat) (b : Bool) (l : List Nat) :
    l.countP (isIdReply cb ∘ fun c => Ev.idReply c b) = l.count cb := rfl

theorem countP_hsEnd_map (cb : Nat) (l : List Nat) :
    l.countP (isHsEnd cb ∘ Ev.hsReply) = l.count cb := rfl

theorem countP_hs_idReply (cb : Nat) (b : Bool) (l : List Nat) :
    l.countP (isHsEnd cb ∘ fun c => Ev.idReply c b) = 0 :=
  List.countP_eq_zero.2 (by simp [isHsEnd])

theorem countP_id_hsReply (cb : Nat) (l : List Nat) :
    l.countP (isIdReply cb ∘ Ev.hsReply) = 0 :=
  List.countP_eq_zero.2 (by simp [isIdReply])

def idAcc (cb : Nat) (σ : Client) : Nat := σ.log.countP (isIdReply cb) + σ.idWait.count cb
def hsAcc (cb : Nat) (σ : Client) : Nat := σ.log.countP (isHsEnd cb) + σ.hsWait.count cb

theorem disconnected_fields (σ : Client) : σ.disconnected.log = σ.log ∧ σ.disconnected.idWait = σ.idWait ∧
    σ.disconnected.hsWait = σ.hsWait ∧ σ.disconnected.timers = σ.timers ∧
    σ.disconnected.pingTimer = σ.pingTimer ∧ σ.disconnected.nextTimer = σ.nextTimer ∧
    σ.disconnected.gens = σ.gens := by
  unfold Client.disconnected
  cases h : σ.st <;> simp

theorem act_idAcc (cb : Nat) (σ : Client) (op : Op) :
    idAcc cb (σ.act op) = idAcc cb σ + if asksId cb op then 1 else 0 := by
  have hd := disconnected_fields
  cases op with
  | connect o =>
    simp only [Client.act]
    split
    · simp [idAcc, asksId]
    · cases o <;>
        simp [Client.connect, idAcc, Client.answerIds, hd, Client.startTimer, countP_idReply_map, asksId]
  | identify c =>
    simp only [Client.act, Client.identify]
    split
    · simp [idAcc, Client.emit, asksId, List.countP_cons, isIdReply]; omega
    · simp [idAcc, asksId, List.count_cons]; omega
  | beginHandshake c w =>
    simp only [Client.act, Client.beginHandshake]
    rw [if_neg (by simp [asksId])]
    split
    · split <;> simp [idAcc, isIdReply]
    all_goals simp [idAcc, Client.emit, isIdReply]
  | ack g =>
    simp only [Client.act, Client.ack]
    split
    · split
      · simp [idAcc, asksId, countP_id_hsReply]
      · simp [idAcc, asksId]
    · simp [idAcc, asksId]
  | disconnected => simp [Client.act, idAcc, hd, asksId]
  | pingTick w =>
    simp only [Client.act, Client.pingTick]
    split
    · split
      · simp [idAcc, Client.emit, isIdReply, asksId]
      · simp [idAcc, hd, asksId]
    · cases σ.nodeId <;> simp [idAcc, isIdReply, asksId]
  | stop => simp [Client.act, Client.stop, idAcc, asksId]

theorem act_hsAcc (cb : Nat) (σ : Client) (op : Op) :
    hsAcc cb (σ.act op) = hsAcc cb σ + if asksHs cb op then 1 else 0 := by
  have hd := disconnected_fields
  cases op with
  | connect o =>
    simp only [Client.act]
    split
    · simp [hsAcc, asksHs]
    · cases o <;>
        simp [Client.connect, hsAcc, Client.answerIds, hd, Client.startTimer, countP_hs_idReply, asksHs]
  | identify c =>
    simp only [Client.act, Client.identify]
    split
    · simp [hsAcc, Client.emit, isHsEnd, asksHs]
    · simp [hsAcc, asksHs]
  | beginHandshake c w =>
    simp only [Client.act, Client.beginHandshake]
    generalize hb : (if asksHs cb (.beginHandshake c w) = true then 1 else 0) = b
    simp only [asksHs] at hb
    split <;> try (split)
    all_goals
      subst hb
      simp only [hsAcc, Client.emit, asksHs, isHsEnd, List.countP_append, List.count_append, List.countP_cons,
        List.count_cons, List.countP_nil, List.count_nil]
      by_cases hcc : (c == cb) = true <;> simp [hcc] <;> omega
  | ack g =>
    simp only [Client.act, Client.ack]
    split
    · split
      · simp [hsAcc, countP_hsEnd_map, asksHs]
      · simp [hsAcc, asksHs]
    · simp [hsAcc, asksHs]
  | disconnected => simp [Client.act, hsAcc, hd, asksHs]
  | pingTick w =>
    simp only [Client.act, Client.pingTick]
    split
    · split
      · simp [hsAcc, Client.emit, isHsEnd, asksHs]
      · simp [hsAcc, hd, asksHs]
    · cases σ.nodeId <;> simp [hsAcc, isHsEnd, asksHs]
  | stop => simp [Client.act, Client.stop, hsAcc, asksHs]

/-- A question for the identity is answered at most once. -/
theorem C73_identify_at_most_once (cb : Nat) (ops : List Op) :
    (run Client.init ops).log.countP (isIdReply cb) ≤ ops.countP (asksId cb) := by
  have : idAcc cb (run Client.init ops) ≤ ops.countP (asksId cb) := by
    refine run_inv (P := fun σ ops => idAcc cb σ ≤ ops.countP (asksId cb)) (by simp [idAcc, Client.init]) ?_ ops
    intro l op ih
    rw [step_eq, List.countP_append, List.countP_cons, List.countP_nil]
    split
    · have := act_idAcc cb (run Client.init l) op
      simp only [Nat.zero_add]
      omega
    · omega
  unfold idAcc at this
  omega

/-- A request for a handshake ends at most once, in completion or refusal. -/
theorem C73_handshake_at_most_once (cb : Nat) (ops : List Op) :
    (run Client.init ops).log.countP (isHsEnd cb) ≤ ops.countP (asksHs cb) := by
  have : hsAcc cb (run Client.init ops) ≤ ops.countP (asksHs cb) := by
    refine run_inv (P := fun σ ops => hsAcc cb σ ≤ ops.countP (asksHs cb)) (by simp [hsAcc, Client.init]) ?_ ops
    intro l op ih
    rw [step_eq, List.countP_append, List.countP_cons, List.countP_nil]
    split
    · have := act_hsAcc cb (run Client.init l) op
      simp only [Nat.zero_add]
      omega
    · omega
  unfold hsAcc at this
  omega

theorem alive_before (σ : Client) (op : Op) (h : (σ.step op).alive = true) : σ.alive = true := by
  cases ha : σ.alive with
  | true => rfl
  | false => rw [step_eq, ha] at h; simp [ha] at h

/-- While the client handles messages no request is lost: each one has been answered or is still waiting. -/
theorem C73_accounted (cb : Nat) (ops : List Op) (ha : (run Client.init ops).alive = true) :
    (run Client.init ops).log.countP (isIdReply cb) + (run Client.init ops).idWait.count cb = ops.countP (asksId cb) ∧
    (run Client.init ops).log.countP (isHsEnd cb) + (run Client.init ops).hsWait.count cb = ops.countP (asksHs cb) := by
  induction ops using snoc_induction with
  | nil => exact ⟨rfl, rfl⟩
  | snoc l x ih =>
    rw [run_snoc] at ha ⊢
    have hl := alive_before _ _ ha
    have ih := ih hl
    have h1 := act_idAcc cb (run Client.init l) x
    have h2 := act_hsAcc cb (run Client.init l) x
    rw [step_eq, if_pos hl, List.countP_append, List.countP_append, List.countP_cons, List.countP_cons,
      List.countP_nil, List.countP_nil]
    unfold idAcc at h1
    unfold hsAcc at h2
    omega

/-- Whoever asks a connected client for the identity gets it at once; otherwise they are waiting for the next
attempt to connect. -/
theorem C73_identify_now (σ : Client) (cb : Nat) (ha : σ.alive = true) :
    (σ.isConnected = true ∧ (σ.step (.identify cb)).log = σ.log ++ [.idReply cb true]) ∨
    (σ.isConnected = false ∧ (σ.step (.identify cb)).log = σ.log ∧ cb ∈ (σ.step (.identify cb)).idWait) := by
  rw [step_eq, if_pos ha]
  simp only [Client.act, Client.identify, Client.isConnected]
  cases σ.st <;> simp [Client.emit]

/-- An acknowledgement completes all the handshakes waiting and no other, and it is remembered. -/
theorem C73_acknowledged (σ : Client) (g g' : Nat) (h : HStatus) (hst : σ.st = .connected g' h) (hg : g < σ.gens) :
    (σ.step (.ack g)).hsWait = [] ∧ (σ.step (.ack g)).st = .connected g' (.acknowledged g) ∧
    ∀ cb, (σ.step (.ack g)).log.count (.hsReply cb) = σ.log.count (.hsReply cb) + σ.hsWait.count cb := by
  have : σ.step (.ack g) = σ.ack g := by simp [Client.step, hst, hg]
  rw [this]
  simp only [Client.ack, hst]
  refine ⟨trivial, trivial, fun cb => ?_⟩
  rw [List.count_append]
  congr 1
  rw [List.map_reverse, List.count_reverse]
  induction σ.hsWait with
  | nil => rfl
  | cons a l ih =>
    rw [List.map_cons, List.count_cons, List.count_cons, ih]
    simp

/-- When an attempt to connect has ended, everybody waiting for the identity has been told: the identity if it
succeeded, else that there is none. (Unless the attempt never ends: `closedEarly`.) -/
theorem C73_identify_answered (σ : Client) (o : ConnOut) (ha : σ.alive = true) (hc : σ.isConnected = false)
    (ho : o ≠ .closedEarly) :
    (σ.step (.connect o)).idWait = [] ∧
      ∀ cb ∈ σ.idWait, Ev.idReply cb (decide (o = .identified)) ∈ (σ.step (.connect o)).log := by
  rw [step_eq, if_pos ha]
  simp only [Client.act, hc]
  have hd := disconnected_fields
  cases o with
  | closedEarly => exact absurd rfl ho
  | refused => simpa [Client.connect, hd, Client.answerIds] using fun cb h => Or.inr h
  | noIdentity => simpa [Client.connect, hd, Client.answerIds, Client.startTimer] using fun cb h => Or.inr h
  | identified => simpa [Client.connect, Client.answerIds, Client.startTimer] using fun cb h => Or.inr h

/-- With a peer that closes early nobody is ever told anything again. -/
theorem C73_stuck_refuted (σ : Client) (ops : List Op) (ha : σ.alive = true) (hc : σ.isConnected = false) :
    (run (σ.step (.connect .closedEarly)) ops).log = σ.log := by
  have hst : σ.step (.connect .closedEarly) = { σ.startTimer with st := .stuck } := by
    rw [step_eq, if_pos ha]; simp [Client.act, hc, Client.connect]
  rw [hst]
  induction ops using snoc_induction with
  | nil => rfl
  | snoc l x ih =>
    have : ∀ l, (run { σ.startTimer with st := .stuck } l) = { σ.startTimer with st := .stuck } := by
      intro l
      induction l using snoc_induction with
      | nil => rfl
      | snoc l x ih => rw [run_snoc, ih]; rfl
    rw [this]; rfl

/-! #### One handshake frame per connection -/

def wrote (g : Nat) (σ : Client) : Nat := σ.log.count (.hsWritten g)

/-- The frame has not been written on a connection that does not exist yet or whose handshake has not begun. -/
def OneFrame (σ : Client) : Prop :=
  (∀ g, wrote g σ ≤ 1) ∧ (∀ g, σ.gens ≤ g → wrote g σ = 0) ∧
  (∀ g h, σ.st = .connected g h → g < σ.gens) ∧
  (∀ g, σ.st = .connected g .none → wrote g σ = 0)

theorem count_hsWritten_idReply (g : Nat) (b : Bool) (l : List Nat) :
    (l.map (fun c => Ev.idReply c b)).count (.hsWritten g) = 0 := by
  rw [List.count_eq_zero]; simp

theorem count_hsWritten_hsReply (g : Nat) (l : List Nat) : (l.map Ev.hsReply).count (.hsWritten g) = 0 := by
  rw [List.count_eq_zero]; simp

theorem oneFrame_of {σ τ : Client} (h : OneFrame σ) (hlog : ∀ g, wrote g τ = wrote g σ) (hg : τ.gens = σ.gens)
    (hst : ∀ g h, τ.st = .connected g h → ∃ h', σ.st = .connected g h' ∧ (h = .none → h' = .none)) :
    OneFrame τ := by
  obtain ⟨h1, h2, h3, h4⟩ := h
  refine ⟨fun g => by rw [hlog]; exact h1 g, fun g hgg => by rw [hlog]; exact h2 g (by omega), ?_, ?_⟩
  · intro g hh e
    obtain ⟨h', e', _⟩ := hst g hh e
    have := h3 g h' e'
    omega
  · intro g e
    obtain ⟨h', e', hn⟩ := hst g .none e
    rw [hlog]
    exact h4 g (by rw [e', hn rfl])

theorem disconnected_notConnected (σ : Client) (g : Nat) (h : HStatus) : σ.disconnected.st ≠ .connected g h := by
  unfold Client.disconnected
  cases hs : σ.st with
  | idle n => simp only []; split <;> simp
  | connected _ _ => simp
  | terminated => simp [hs]
  | stuck => simp [hs]
  | crashed => simp [hs]
  | stopped => simp [hs]

theorem act_oneFrame (σ : Client) (op : Op) (h : OneFrame σ) : OneFrame (σ.act op) := by
  have hd := disconnected_fields
  cases op with
  | connect o =>
    simp only [Client.act]
    split
    · exact h
    · cases o with
      | refused =>
        refine oneFrame_of h ?_ ?_ ?_
        · intro g; simp [wrote, Client.connect, hd, Client.answerIds, count_hsWritten_idReply]
        · simp [Client.connect, hd, Client.answerIds]
        · intro g hh e; exact absurd e (disconnected_notConnected _ _ _)
      | noIdentity =>
        refine oneFrame_of h ?_ ?_ ?_
        · intro g
          simp [wrote, Client.connect, hd, Client.answerIds, Client.startTimer,
            count_hsWritten_idReply]
        · simp [Client.connect, hd, Client.answerIds, Client.startTimer]
        · intro g hh e; exact absurd e (disconnected_notConnected _ _ _)
      | closedEarly =>
        refine oneFrame_of h (fun g => rfl) rfl ?_
        intro g hh e; simp [Client.connect] at e
      | identified =>
        obtain ⟨h1, h2, h3, h4⟩ := h
        have hw : ∀ g, wrote g (σ.connect .identified) = wrote g σ := by
          intro g
          simp [wrote, Client.connect, Client.answerIds, Client.startTimer,
            count_hsWritten_idReply]
        refine ⟨fun g => by rw [hw]; exact h1 g, ?_, ?_, ?_⟩
        · intro g hg; rw [hw]; apply h2; simp [Client.connect] at hg; omega
        · intro g hh e; simp [Client.connect] at e ⊢; omega
        · intro g e; rw [hw]; apply h2; simp [Client.connect] at e; omega
  | identify c =>
    simp only [Client.act, Client.identify]
    split
    · refine oneFrame_of h (fun g => by simp [wrote, Client.emit]) rfl ?_
      intro g hh e; exact ⟨hh, e, id⟩
    · refine oneFrame_of h (fun g => rfl) rfl ?_
      intro g hh e; exact ⟨hh, e, id⟩
  | beginHandshake c w =>
    simp only [Client.act, Client.beginHandshake]
    split
    · rename_i g0 hst
      split
      · obtain ⟨h1, h2, h3, h4⟩ := h
        have h0 := h4 g0 hst
        have hlt := h3 g0 _ hst
        have hw : ∀ g, (σ.log ++ [Ev.hsWritten g0]).count (.hsWritten g) = wrote g σ + if g0 = g then 1 else 0 := by
          intro g
          simp only [wrote, List.count_append, List.count_cons, List.count_nil]
          by_cases hgg : g0 = g
          · subst hgg; simp
          · simp [hgg]
        refine ⟨?_, ?_, ?_, ?_⟩
        · intro g
          show (σ.log ++ [Ev.hsWritten g0]).count (.hsWritten g) ≤ 1
          rw [hw]
          have := h1 g
          split
          · rename_i e; subst e; omega
          · omega
        · intro g hg
          show (σ.log ++ [Ev.hsWritten g0]).count (.hsWritten g) = 0
          rw [hw, h2 g hg, if_neg]
          intro e; subst e; simp only [] at hg; omega
        · intro g hh e
          simp only [St.connected.injEq] at e
          simp only []; omega
        · intro g e
          simp at e
      · refine oneFrame_of h (fun g => by simp [wrote]) rfl ?_
        intro g hh e; simp at e
    · refine oneFrame_of h (fun g => rfl) rfl ?_
      intro g hh e; exact ⟨hh, e, id⟩
    · refine oneFrame_of h (fun g => by simp [wrote, Client.emit]) rfl ?_
      intro g hh e; exact ⟨hh, e, id⟩
    · refine oneFrame_of h (fun g => by simp [wrote, Client.emit]) rfl ?_
      intro g hh e; exact ⟨hh, e, id⟩
  | ack g =>
    simp only [Client.act]
    split
    · unfold Client.ack
      split
      · rename_i g0 h0 hst
        refine oneFrame_of h (fun g => by simp [wrote, count_hsWritten_hsReply]) rfl ?_
        intro g hh e
        simp only [St.connected.injEq] at e
        exact ⟨h0, by rw [hst, e.1], fun hn => by rw [hn] at e; cases e.2⟩
      · exact h
    · exact h
  | disconnected =>
    refine oneFrame_of h (fun g => by simp [Client.act, wrote, hd]) (by simp [Client.act, hd]) ?_
    intro g hh e; exact absurd e (disconnected_notConnected _ _ _)
  | pingTick w =>
    simp only [Client.act, Client.pingTick]
    split
    · split
      · refine oneFrame_of h (fun g => by simp [wrote, Client.emit]) rfl ?_
        intro g hh e; exact ⟨hh, e, id⟩
      · refine oneFrame_of h (fun g => by simp [wrote, hd]) (by simp [hd]) ?_
        intro g hh e; exact absurd e (disconnected_notConnected _ _ _)
    · refine oneFrame_of h ?_ rfl ?_
      · intro g; cases hn : σ.nodeId <;> simp [wrote]
      · intro g hh e; exact ⟨hh, e, id⟩
  | stop =>
    refine oneFrame_of h (fun g => rfl) rfl ?_
    intro g hh e; simp [Client.act, Client.stop] at e

theorem oneFrame_run (ops : List Op) : OneFrame (run Client.init ops) := by
  refine run_inv (P := fun σ _ => OneFrame σ) ?_ ?_ ops
  · simp [OneFrame, Client.init, wrote]
  · intro l op ih
    rw [step_eq]
    split
    · exact act_oneFrame _ op ih
    · exact ih

/-- At most one handshake frame is written on each connection. -/
theorem C73_one_frame (ops : List Op) (g : Nat) : (run Client.init ops).log.count (.hsWritten g) ≤ 1 :=
  (oneFrame_run ops).1 g

/-! #### Completion means acknowledgement -/

/-- The acknowledgements of this run come from the current connection, after its handshake frame was
written. -/
def Orderly : List Op → Prop := fun ops =>
  ∀ pre g post, ops = pre ++ .ack g :: post →
    ∀ g' h, (run Client.init pre).st = .connected g' h →
      g' = g ∧ Ev.hsWritten g ∈ (run Client.init pre).log

/-- Invariant of orderly runs. -/
def AckOk (σ : Client) : Prop :=
  ∀ g g', σ.st = .connected g (.acknowledged g') → g' = g ∧ Ev.hsWritten g ∈ σ.log

theorem ackOk_step (σ : Client) (op : Op) (h : AckOk σ)
    (hord : ∀ g, op = .ack g → ∀ g' hh, σ.st = .connected g' hh → g' = g ∧ Ev.hsWritten g ∈ σ.log) :
    AckOk (σ.step op) := by
  rw [step_eq]
  split
  rotate_left
  · exact h
  cases op with
  | connect o =>
    simp only [Client.act]
    split
    · exact h
    · cases o with
      | refused => intro g g' e; exact absurd e (disconnected_notConnected _ _ _)
      | noIdentity => intro g g' e; exact absurd e (disconnected_notConnected _ _ _)
      | closedEarly => intro g g' e; simp [Client.connect] at e
      | identified => intro g g' e; simp [Client.connect] at e
  | identify c =>
    simp only [Client.act, Client.identify]
    split
    · intro g g' e; have := h g g' e; simp [Client.emit, this]
    · intro g g' e; exact h g g' e
  | beginHandshake c w =>
    simp only [Client.act, Client.beginHandshake]
    split
    · split
      · intro g g' e; simp at e
      · intro g g' e; simp at e
    · intro g g' e; exact h g g' e
    · intro g g' e; have := h g g' e; simp [Client.emit, this]
    · intro g g' e; have := h g g' e; simp [Client.emit, this]
  | ack g =>
    simp only [Client.act]
    split
    · unfold Client.ack
      split
      · rename_i g0 h0 hst
        intro g1 g2 e
        simp only [St.connected.injEq, HStatus.acknowledged.injEq] at e
        have := hord g rfl g0 h0 hst
        refine ⟨by omega, ?_⟩
        simp only [List.mem_append]
        left
        rw [show g1 = g by omega]
        exact this.2
      · exact h
    · exact h
  | disconnected => intro g g' e; exact absurd e (disconnected_notConnected _ _ _)
  | pingTick w =>
    simp only [Client.act, Client.pingTick]
    split
    · split
      · intro g g' e; have := h g g' e; simp [Client.emit, this]
      · intro g g' e; exact absurd e (disconnected_notConnected _ _ _)
    · intro g g' e; have := h g g' e; cases σ.nodeId <;> simp [this]
  | stop => intro g g' e; simp [Client.act, Client.stop] at e

theorem orderly_prefix {l : List Op} {x : Op} (h : Orderly (l ++ [x])) : Orderly l := by
  intro pre g post e
  exact h pre g (post ++ [x]) (by rw [e]; simp)

theorem ackOk_run (ops : List Op) (h : Orderly ops) : AckOk (run Client.init ops) := by
  induction ops using snoc_induction with
  | nil => intro g g' e; simp [run, Client.init] at e
  | snoc l x ih =>
    rw [run_snoc]
    refine ackOk_step _ x (ih (orderly_prefix h)) ?_
    intro g e
    exact h l g [] (by rw [e])

/-- If acknowledgements only come from the current connection, a handshake is reported complete only when the
frame was written on the current connection and this connection acknowledged it. -/
theorem C73_completed_partial (ops : List Op) (op : Op) (cb : Nat) (h : Orderly (ops ++ [op]))
    (hnew : (run Client.init ops).log.countP (isHsEnd cb) < (run Client.init (ops ++ [op])).log.countP (isHsEnd cb))
    (hrep : Ev.hsDropped cb ∉ (run Client.init (ops ++ [op])).log) :
    ∃ g, (run Client.init (ops ++ [op])).st = .connected g (.acknowledged g) ∧
      Ev.hsWritten g ∈ (run Client.init (ops ++ [op])).log := by
  have hok := ackOk_run _ h
  suffices hx : ∃ g g', (run Client.init (ops ++ [op])).st = .connected g (.acknowledged g') by
    obtain ⟨g, g', e⟩ := hx
    have := hok g g' e
    exact ⟨g, by rw [e, this.1], this.2⟩
  clear hok h
  rw [run_snoc] at hnew hrep ⊢
  generalize run Client.init ops = σ at hnew hrep ⊢
  rw [step_eq] at hnew hrep ⊢
  split at hnew
  rotate_left
  · omega
  rename_i ha
  rw [if_pos ha] at hrep
  rw [if_pos ha]
  have hd := disconnected_fields
  cases op with
  | connect o =>
    exfalso
    simp only [Client.act] at hnew
    split at hnew
    · omega
    · cases o <;>
        simp [Client.connect, Client.answerIds, hd, Client.startTimer, countP_hs_idReply] at hnew
  | identify c =>
    exfalso
    simp only [Client.act, Client.identify] at hnew
    split at hnew
    · simp [Client.emit, isHsEnd] at hnew
    · simp at hnew
  | beginHandshake c w =>
    simp only [Client.act, Client.beginHandshake] at hnew hrep ⊢
    split at hnew <;> try (split at hnew)
    · simp [isHsEnd] at hnew
    · rename_i g hst hw
      exfalso
      rw [hst] at hrep
      simp only [hw] at hrep
      have hcc : c = cb := by
        simp only [isHsEnd, List.countP_append, List.countP_cons, List.countP_nil] at hnew
        by_cases hcc : c = cb
        · exact hcc
        · simp [hcc] at hnew
      subst hcc
      simp at hrep
    · simp at hnew
    · rename_i g g' hst
      exact ⟨g, g', by simp [hst, Client.emit]⟩
    · exfalso
      have hcc : c = cb := by
        simp only [Client.emit, isHsEnd, List.countP_append, List.countP_cons, List.countP_nil] at hnew
        by_cases hcc : c = cb
        · exact hcc
        · simp [hcc] at hnew
      subst hcc
      apply hrep
      split
      · split
        · simp_all
        · simp
      · simp_all
      · simp_all
      · simp [Client.emit]
  | ack g =>
    simp only [Client.act] at hnew ⊢
    split at hnew
    · rename_i hg
      rw [if_pos hg]
      unfold Client.ack at hnew ⊢
      split at hnew
      · rename_i g0 h0 hst
        refine ⟨g0, g, ?_⟩
        simp [hst]
      · omega
    · omega
  | disconnected => exfalso; simp [Client.act, hd] at hnew
  | pingTick w =>
    exfalso
    simp only [Client.act, Client.pingTick] at hnew
    split at hnew
    · split at hnew
      · simp [Client.emit, isHsEnd] at hnew
      · simp [hd] at hnew
    · cases hn : σ.nodeId <;> simp [isHsEnd, hn] at hnew
  | stop => exfalso; simp [Client.act, Client.stop] at hnew

/-- An acknowledgement still on its way from an earlier connection completes handshakes on the new one, on
which no handshake frame was ever written. -/
theorem C73_stale_ack_refuted :
    ∃ ops, Ev.hsReply 2 ∈ (run Client.init ops).log ∧ (∃ h, (run Client.init ops).st = .connected 1 h) ∧
      Ev.hsWritten 1 ∉ (run Client.init ops).log :=
  ⟨[.connect .identified, .beginHandshake 1 true, .disconnected, .connect .identified, .ack 0,
    .beginHandshake 2 true], by decide, ⟨_, rfl⟩, by decide⟩

/-- A handshake requested while there is no connection is refused at once. -/
theorem C73_not_connected (σ : Client) (cb : Nat) (w : Bool) (ha : σ.alive = true) (hc : σ.isConnected = false) :
    σ.step (.beginHandshake cb w) = { σ with log := σ.log ++ [.hsDropped cb] } := by
  rw [step_eq, if_pos ha]
  simp only [Client.act, Client.beginHandshake]
  unfold Client.isConnected at hc
  split
  · rename_i h; rw [h] at hc; cases hc
  · rename_i h; rw [h] at hc; cases hc
  · rename_i h; rw [h] at hc; cases hc
  · rfl

/-- If the frame cannot be written the client panics and never does anything again. -/
theorem C73_crash_refuted (σ : Client) (g cb : Nat) (h : σ.st = .connected g .none) (ops : List Op) :
    (run (σ.step (.beginHandshake cb false)) ops).st = .crashed ∧
    (run (σ.step (.beginHandshake cb false)) ops).log = σ.log ++ [.hsDropped cb] := by
  have h1 : (σ.step (.beginHandshake cb false)).st = .crashed ∧
      (σ.step (.beginHandshake cb false)).log = σ.log ++ [.hsDropped cb] := by
    simp [Client.step, h, Client.beginHandshake]
  generalize σ.step (.beginHandshake cb false) = τ at h1
  induction ops using snoc_induction with
  | nil => exact h1
  | snoc l x ih =>
    rw [run_snoc]
    have : (run τ l).step x = run τ l := by simp [Client.step, ih.1]
    rw [this]; exact ih

theorem attempts_spec (n : Nat) (outs : List Attempt) (h : n ≤ outs.length) :
    (∃ k, k < n ∧ (∀ i, i < k → outs[i]? = some .timeout) ∧ outs[k]? = some (attempts n outs).1 ∧
      (attempts n outs).1 ≠ .timeout ∧ (attempts n outs).2 = k + 1) ∨
    ((∀ i, i < n → outs[i]? = some .timeout) ∧ attempts n outs = (.timeout, n)) := by
  induction n generalizing outs with
  | zero => right; exact ⟨by omega, rfl⟩
  | succ n ih =>
    cases outs with
    | nil => simp at h
    | cons a rest =>
      cases a with
      | timeout =>
        rcases ih rest (by simpa using h) with ⟨k, hk, h1, h2, h3, h4⟩ | ⟨h1, h2⟩
        · left
          refine ⟨k + 1, by omega, ?_, by simpa [attempts] using h2, by simpa [attempts] using h3, by simp [attempts, h4]⟩
          intro i hi
          cases i with
          | zero => rfl
          | succ i => simpa using h1 i (by omega)
        · right
          refine ⟨?_, by simp [attempts, h2]⟩
          intro i hi
          cases i with
          | zero => rfl
          | succ i => simpa using h1 i (by omega)
      | completed => left; exact ⟨0, by omega, by omega, rfl, by simp [attempts], rfl⟩
      | refused => left; exact ⟨0, by omega, by omega, rfl, by simp [attempts], rfl⟩

/-- `handshake` reports the first attempt that does not time out, if it is among the first five, and a timeout
after five otherwise. In particular a refusal (no connection yet) is final: it is not tried again. -/
theorem C73_attempts (outs : List Attempt) (h : 5 ≤ outs.length) :
    (∃ k, k < 5 ∧ (∀ i, i < k → outs[i]? = some .timeout) ∧ outs[k]? = some (handshake outs).1 ∧
      (handshake outs).1 ≠ .timeout ∧ (handshake outs).2 = k + 1) ∨
    ((∀ i, i < 5 → outs[i]? = some .timeout) ∧ handshake outs = (.timeout, 5)) :=
  attempts_spec 5 outs h

example : handshake [.timeout, .refused, .completed, .completed, .completed] = (.refused, 2) := by decide

/-! ### C74: the ping timer -/

def isConnect : Op → Bool
  | .connect _ => true
  | _ => false

/-- Timers are numbered; the one held is running. -/
def TimersOk (σ : Client) : Prop :=
  σ.timers.Nodup ∧ (∀ t ∈ σ.timers, t < σ.nextTimer) ∧ (∀ t, σ.pingTimer = some t → t ∈ σ.timers ∨ σ.alive = false)

/-- How the timers change in a step. -/
theorem step_timers (σ : Client) (op : Op) :
    ((σ.step op).timers = σ.timers ∧ (σ.step op).pingTimer = σ.pingTimer ∧ (σ.step op).nextTimer = σ.nextTimer) ∨
    (isConnect op = true ∧ (σ.step op).timers = σ.timers ++ [σ.nextTimer] ∧
      (σ.step op).pingTimer = some σ.nextTimer ∧ (σ.step op).nextTimer = σ.nextTimer + 1) ∨
    (∃ w, op = .pingTick w ∧ (σ.step op).pingTimer = none ∧ (σ.step op).nextTimer = σ.nextTimer ∧
      (σ.step op).timers = match σ.pingTimer with | some t => σ.timers.erase t | none => σ.timers) ∨
    ((σ.step op).timers = [] ∧ (σ.step op).alive = false ∧ (σ.step op).nextTimer = σ.nextTimer) := by
  have hd := disconnected_fields
  rw [step_eq]
  split
  rotate_left
  · left; simp
  cases op with
  | connect o =>
    simp only [Client.act]
    split
    · left; simp
    · cases o with
      | refused => left; simp [Client.connect, hd, Client.answerIds]
      | noIdentity =>
        right; left; simp [Client.connect, hd, Client.answerIds, Client.startTimer, isConnect]
      | closedEarly => right; left; simp [Client.connect, Client.startTimer, isConnect]
      | identified => right; left; simp [Client.connect, Client.answerIds, Client.startTimer, isConnect]
  | identify c =>
    left
    simp only [Client.act, Client.identify]
    split <;> simp [Client.emit]
  | beginHandshake c w =>
    simp only [Client.act, Client.beginHandshake]
    split
    · by_cases hw : w = true
      · left; simp [hw]
      · right; right; right; simp [Client.alive, hw]
    · left; simp
    · left; simp [Client.emit]
    · left; simp [Client.emit]
  | ack g =>
    left
    simp only [Client.act, Client.ack]
    split
    · split <;> simp
    · simp
  | disconnected => left; simp [Client.act, hd]
  | pingTick w =>
    simp only [Client.act, Client.pingTick]
    split
    · left
      split
      · simp [Client.emit]
      · simp [hd]
    · right; right; left
      exact ⟨w, rfl, rfl, rfl, rfl⟩
  | stop => right; right; right; simp [Client.act, Client.stop, Client.alive]

theorem timersOk_run (ops : List Op) :
    (run Client.init ops).timers.Nodup ∧ ∀ t ∈ (run Client.init ops).timers, t < (run Client.init ops).nextTimer := by
  refine run_inv (P := fun σ _ => σ.timers.Nodup ∧ ∀ t ∈ σ.timers, t < σ.nextTimer) (by simp [Client.init]) ?_ ops
  intro l op ih
  generalize run Client.init l = σ at ih
  rcases step_timers σ op with ⟨h1, _, h3⟩ | ⟨_, h1, _, h3⟩ | ⟨w, _, _, h3, h1⟩ | ⟨h1, _, h3⟩
  · rw [h1, h3]; exact ih
  · rw [h1, h3]
    refine ⟨?_, ?_⟩
    · rw [List.nodup_append]
      refine ⟨ih.1, by simp, ?_⟩
      intro a ha b hb e
      simp at hb
      have := ih.2 a ha
      omega
    · intro t ht
      rcases List.mem_append.1 ht with ht | ht
      · have := ih.2 t ht; omega
      · simp at ht; omega
  · rw [h1, h3]
    split
    · exact ⟨ih.1.erase _, fun t ht => ih.2 t (List.mem_of_mem_erase ht)⟩
    · exact ih
  · rw [h1]; simp

/-- No more timers than attempts to connect. -/
theorem C74_bound (ops : List Op) : (run Client.init ops).timers.length ≤ ops.countP isConnect := by
  refine run_inv (P := fun σ ops => σ.timers.length ≤ ops.countP isConnect) (by simp [Client.init]) ?_ ops
  intro l op ih
  generalize run Client.init l = σ at ih
  rw [List.countP_append]
  rcases step_timers σ op with ⟨h1, _, _⟩ | ⟨hc, h1, _, _⟩ | ⟨w, _, _, _, h1⟩ | ⟨h1, _, _⟩
  · rw [h1]; omega
  · rw [h1]; simp [hc]; omega
  · rw [h1]
    split
    · have := List.length_erase_le (a := ‹Nat›) (l := σ.timers); omega
    · omega
  · rw [h1]; simp

/-- A run in which a new connection is only attempted when the client holds no timer: a ping tick was handled
while it was disconnected. -/
def TimerStopped (ops : List Op) : Prop :=
  ∀ pre o post, ops = pre ++ .connect o :: post → (run Client.init pre).isConnected = false →
    (run Client.init pre).pingTimer = none

/-- Then there is never more than one timer, and it is the one the client holds. -/
theorem C74_one_timer_partial (ops : List Op) (h : TimerStopped ops) :
    (run Client.init ops).timers = (run Client.init ops).pingTimer.toList ∨
      (run Client.init ops).timers = [] := by
  induction ops using snoc_induction with
  | nil => left; rfl
  | snoc l x ih =>
    have ih := ih (fun pre o post e => h pre o (post ++ [x]) (by rw [e]; simp))
    rw [run_snoc]
    have hx := fun o (e : x = .connect o) => h l o [] (by rw [e])
    clear h
    generalize run Client.init l = σ at ih hx
    by_cases hal : σ.alive = true
    rotate_left
    · rw [step_eq, if_neg hal]; exact ih
    rcases step_timers σ x with ⟨h1, h2, _⟩ | ⟨hc, h1, h2, _⟩ | ⟨w, _, h2, _, h1⟩ | ⟨h1, _, _⟩
    · rw [h1, h2]; exact ih
    · cases x with
      | connect o =>
        by_cases hcon : σ.isConnected = true
        · rw [step_eq, if_pos hal]
          simp only [Client.act, hcon, if_true]
          exact ih
        · have := hx o rfl (by simpa using hcon)
          rw [this] at ih
          simp at ih
          left
          rw [h1, h2, ih]
          rfl
      | _ => cases hc
    · rw [h1]
      right
      split
      · rename_i t ht
        rcases ih with ih | ih
        · rw [ih, ht]; simp
        · rw [ih]; simp
      · rename_i ht
        rcases ih with ih | ih
        · rw [ih, ht]; rfl
        · exact ih
    · right; exact h1

/-- A timer that the client no longer holds runs until the client ends. -/
theorem C74_leak (ops : List Op) (t : Nat) (more : List Op)
    (ht : t ∈ (run Client.init ops).timers) (hp : (run Client.init ops).pingTimer ≠ some t)
    (hal : (run Client.init (ops ++ more)).alive = true) :
    t ∈ (run Client.init (ops ++ more)).timers ∧ (run Client.init (ops ++ more)).pingTimer ≠ some t := by
  induction more using snoc_induction with
  | nil => simp only [List.append_nil]; exact ⟨ht, hp⟩
  | snoc l x ih =>
    rw [← List.append_assoc, run_snoc] at hal ⊢
    have hal' : (run Client.init (ops ++ l)).alive = true := by
      cases he : (run Client.init (ops ++ l)).alive with
      | true => rfl
      | false => rw [step_eq, he] at hal; simp [he] at hal
    have ih := ih hal'
    have hok := timersOk_run (ops ++ l)
    generalize run Client.init (ops ++ l) = σ at ih hok hal hal'
    have hlt := hok.2 t ih.1
    rcases step_timers σ x with ⟨h1, h2, _⟩ | ⟨hc, h1, h2, _⟩ | ⟨w, _, h2, _, h1⟩ | ⟨h1, hdead, _⟩
    · rw [h1, h2]; exact ih
    · rw [h1, h2]
      refine ⟨List.mem_append_left _ ih.1, ?_⟩
      intro e; cases e; omega
    · rw [h1, h2]
      refine ⟨?_, by simp⟩
      split
      · rename_i t' ht'
        exact (List.mem_erase_of_ne (by intro e; subst e; exact ih.2 ht')).2 ih.1
      · exact ih.1
    · rw [hdead] at hal; cases hal

/-- Reconnecting before a ping tick was handled leaves two timers running, three after the next time, and so
on without limit. -/
theorem C74_refuted (n : Nat) : ∃ ops, (run Client.init ops).timers.length = n + 1 ∧
    ∃ g h, (run Client.init ops).st = .connected g h := by
  induction n with
  | zero => exact ⟨[.connect .identified], rfl, _, _, rfl⟩
  | succ n ih =>
    obtain ⟨ops, h1, g, h, h2⟩ := ih
    refine ⟨ops ++ [.disconnected] ++ [.connect .identified], ?_, ?_⟩
    · rw [run_snoc, run_snoc]
      generalize run Client.init ops = σ at h1 h2
      simp [Client.step, h2, Client.disconnected, Client.connect, Client.answerIds, Client.startTimer, h1]
    · rw [run_snoc, run_snoc]
      generalize run Client.init ops = σ at h1 h2
      exact ⟨σ.gens, .none, by simp [Client.step, h2, Client.disconnected, Client.connect, Client.answerIds, Client.startTimer]⟩

/-- Ticks of the ping timer that the client handles while it has no connection, after a connection was made
(`made = true`) or whether or not one was. -/
def downTicks (made : Bool) (σ : Client) : List Op → Nat
  | [] => 0
  | op :: ops =>
    (match op, σ.st with
      | .pingTick _, .idle _ => if made = true → 0 < σ.gens then 1 else 0
      | .pingTick _, .terminated => if made = true → 0 < σ.gens then 1 else 0
      | _, _ => 0) + downTicks made (σ.step op) ops

/-- What one step adds to the reports of the loss. -/
theorem step_reports (σ : Client) (h : σ.nodeId = decide (0 < σ.gens)) (op : Op) :
    (σ.step op).log.count .forget = σ.log.count .forget + downTicks false σ [op] ∧
    (σ.step op).log.count .nodeDisconnected = σ.log.count .nodeDisconnected + downTicks true σ [op] ∧
    (σ.step op).nodeId = decide (0 < (σ.step op).gens) := by
  have hm1 : ∀ (l : List Nat) (b : Bool), (l.map fun cb => Ev.idReply cb b).count .forget = 0 := by
    intro l b; induction l <;> simp_all
  have hm2 : ∀ (l : List Nat) (b : Bool), (l.map fun cb => Ev.idReply cb b).count .nodeDisconnected = 0 := by
    intro l b; induction l <;> simp_all
  have hm3 : ∀ (l : List Nat), (l.map Ev.hsReply).count .forget = 0 := by
    intro l; induction l <;> simp_all
  have hm4 : ∀ (l : List Nat), (l.map Ev.hsReply).count .nodeDisconnected = 0 := by
    intro l; induction l <;> simp_all
  have hc1 : ∀ b : Bool, (if b = true then [Ev.nodeDisconnected] else []).count .forget = 0 := by
    intro b; cases b <;> simp
  cases hst : σ.st with
  | stuck => simp [Client.step, downTicks, hst, h]
  | crashed => simp [Client.step, downTicks, hst, h]
  | stopped => simp [Client.step, downTicks, hst, h]
  | connected g hs =>
    cases op with
    | connect o => simp [Client.step, downTicks, hst, h]
    | identify cb => simp [Client.step, downTicks, hst, h, Client.identify, Client.emit]
    | beginHandshake cb w =>
      cases hs <;> cases w <;> simp [Client.step, downTicks, hst, h, Client.beginHandshake, Client.emit]
    | ack g' =>
      simp only [Client.step, downTicks, hst]
      split <;> simp [Client.ack, hst, h, hm3, hm4, List.count_append]
    | disconnected => simp [Client.step, downTicks, hst, h, Client.disconnected]
    | pingTick w => cases w <;> simp [Client.step, downTicks, hst, h, Client.pingTick, Client.emit, Client.disconnected]
    | stop => simp [Client.step, downTicks, hst, h, Client.stop]
  | idle n =>
    cases op with
    | connect o =>
      cases o <;> simp [Client.step, downTicks, hst, h, Client.connect, Client.answerIds, Client.startTimer,
        Client.disconnected, hm1, hm2, List.count_append]
    | identify cb => simp [Client.step, downTicks, hst, h, Client.identify]
    | beginHandshake cb w => simp [Client.step, downTicks, hst, h, Client.beginHandshake, Client.emit]
    | ack g' => simp only [Client.step, downTicks, hst]; split <;> simp [Client.ack, hst, h]
    | disconnected => simp [Client.step, downTicks, hst, h, Client.disconnected]
    | pingTick w =>
      by_cases hg : 0 < σ.gens <;> simp [Client.step, downTicks, hst, h, Client.pingTick, List.count_append, hg]
    | stop => simp [Client.step, downTicks, hst, h, Client.stop]
  | terminated =>
    cases op with
    | connect o =>
      cases o <;> simp [Client.step, downTicks, hst, h, Client.connect, Client.answerIds, Client.startTimer,
        Client.disconnected, hm1, hm2, List.count_append]
    | identify cb => simp [Client.step, downTicks, hst, h, Client.identify]
    | beginHandshake cb w => simp [Client.step, downTicks, hst, h, Client.beginHandshake, Client.emit]
    | ack g' => simp only [Client.step, downTicks, hst]; split <;> simp [Client.ack, hst, h]
    | disconnected => simp [Client.step, downTicks, hst, h, Client.disconnected]
    | pingTick w =>
      by_cases hg : 0 < σ.gens <;> simp [Client.step, downTicks, hst, h, Client.pingTick, List.count_append, hg]
    | stop => simp [Client.step, downTicks, hst, h, Client.stop]

/-- The loss of a connection is reported by the ticks of the ping timer: discovery is told to forget the address once
for each tick handled without a connection, and the heartbeat is told that the node is gone once for each of these
after a first connection was made; neither is told anything otherwise. -/
theorem C74_reports (ops : List Op) :
    (run Client.init ops).log.count .forget = downTicks false Client.init ops ∧
    (run Client.init ops).log.count .nodeDisconnected = downTicks true Client.init ops := by
  have key : ∀ (ops : List Op) (σ : Client), σ.nodeId = decide (0 < σ.gens) →
      (run σ ops).log.count .forget = σ.log.count .forget + downTicks false σ ops ∧
      (run σ ops).log.count .nodeDisconnected = σ.log.count .nodeDisconnected + downTicks true σ ops := by
    intro ops
    induction ops with
    | nil => intro σ _; exact ⟨rfl, rfl⟩
    | cons op ops ih =>
      intro σ h
      obtain ⟨h1, h2, h3⟩ := step_reports σ h op
      obtain ⟨i1, i2⟩ := ih (σ.step op) h3
      have e : ∀ b, downTicks b σ (op :: ops) = downTicks b σ [op] + downTicks b (σ.step op) ops := by
        intro b; simp [downTicks]
      rw [e, e]
      refine ⟨?_, ?_⟩
      · show (run (σ.step op) ops).log.count .forget = _
        rw [i1, h1]; omega
      · show (run (σ.step op) ops).log.count .nodeDisconnected = _
        rw [i2, h2]; omega
  have h := key ops Client.init rfl
  have e1 : Client.init.log.count .forget = 0 := rfl
  have e2 : Client.init.log.count .nodeDisconnected = 0 := rfl
  rw [e1, e2] at h
  simpa using h

example : downTicks false Client.init [.pingTick true, .connect .identified, .disconnected, .pingTick true] = 2 ∧
    downTicks true Client.init [.pingTick true, .connect .identified, .disconnected, .pingTick true] = 1 := by decide

/-- A client that cannot connect gives up with the eleventh failure in a row and not before: from a lost connection, or
from the start, each refused attempt is one more, until there is no more trying. -/
theorem C73_gives_up (k : Nat) (σ : Client) (n : Nat) (hn : n ≤ 10) (hst : σ.st = .idle n) :
    (run σ (List.replicate k (.connect .refused))).st = if n + k ≤ 10 then .idle (n + k) else .terminated := by
  induction k generalizing σ n with
  | zero => simp [run, hst, hn]
  | succ k ih =>
    rw [List.replicate_succ]
    show (run (σ.step (.connect .refused)) _).st = _
    have hs : (σ.step (.connect .refused)).st = if n + 1 ≤ 10 then .idle (n + 1) else .terminated := by
      have : σ.step (.connect .refused) = (σ.answerIds false).disconnected := by
        unfold Client.step; rw [hst]; rfl
      rw [this]
      have h2 : (σ.answerIds false).st = .idle n := hst
      unfold Client.disconnected
      rw [h2]
      simp only
      by_cases h : n + 1 ≤ 10
      · rw [if_neg (by omega), if_pos h]
      · rw [if_pos (by omega), if_neg h]
    by_cases h : n + 1 ≤ 10
    · rw [if_pos h] at hs
      rw [ih _ (n + 1) h hs]
      simp only [show n + 1 + k = n + (k + 1) by omega]
    · rw [if_neg h] at hs
      rw [if_neg (by omega)]
      have term : ∀ (k : Nat) (τ : Client), τ.st = .terminated → (run τ (List.replicate k (.connect .refused))).st = .terminated := by
        intro k
        induction k with
        | zero => intro τ h; exact h
        | succ k ih =>
          intro τ h
          rw [List.replicate_succ]
          show (run (τ.step (.connect .refused)) _).st = _
          apply ih
          have : τ.step (.connect .refused) = (τ.answerIds false).disconnected := by
            unfold Client.step; rw [h]; rfl
          rw [this]
          have h2 : (τ.answerIds false).st = .terminated := h
          unfold Client.disconnected
          rw [h2]
          exact h2
      exact term k _ hs

/-! ### Cases -/

example : (run Client.init (List.replicate 10 (.connect .refused))).st = .idle 10 := by decide
example : (run Client.init (List.replicate 11 (.connect .refused))).st = .terminated := by decide

def exRun : List Op :=
  [.identify 7, .connect .refused, .identify 8, .connect .identified, .beginHandshake 1 true, .beginHandshake 2 true,
   .ack 0, .disconnected, .pingTick true, .connect .identified, .beginHandshake 3 true, .ack 1]

example : (run Client.init exRun).log =
    [.idReply 7 false, .idReply 8 true, .hsWritten 0, .hsReply 2, .hsReply 1, .nodeDisconnected, .forget,
     .hsWritten 1, .hsReply 3] := by decide
example : (run Client.init exRun).timers = [1] := by decide

/-- `exRun` is orderly and stops its timers, checked on each prefix. -/
def orderlyB (ops : List Op) : Bool := (List.range ops.length).all fun i =>
  match ops[i]? with
  | some (.ack g) => match (run Client.init (ops.take i)).st with
    | .connected g' _ => g' == g && (run Client.init (ops.take i)).log.contains (.hsWritten g)
    | _ => true
  | some (.connect _) => (run Client.init (ops.take i)).isConnected || (run Client.init (ops.take i)).pingTimer.isNone
  | _ => true
example : orderlyB exRun = true := by decide

end Verif.Remote.Handshake
