import Verif.Remote.DiscReplyModel
import Verif.Util

/-!
# C80: completion of discovery requests
-/

namespace Verif.Remote

/-! ## Specification -/

/-- how often an operation hands in the sender `w`. -/
def RwOp.given (w : Nat) : RwOp → Nat
  | .discover _ _ w' => if w' = some w then 1 else 0
  | .nodes _ _ w' => if w' = some w then 1 else 0
  | _ => 0

def givenIn (w : Nat) (ops : List RwOp) : Nat := (ops.map (RwOp.given w)).sum

/-- the replies to `w` in a log. -/
def repliesTo (w : Nat) (log : List REvent) : Nat :=
  log.countP fun e => match e with | .replied w' _ => w' = w | _ => false

/-- handshakes begun, and ended, for the request of `w`. -/
def begunFor (w : Nat) (log : List REvent) : Nat :=
  log.countP fun e => match e with | .started w' _ => w' = some w | _ => false

def endedFor (w : Nat) (log : List REvent) : Nat :=
  log.countP fun e => match e with | .ended w' _ _ => w' = some w | _ => false

/-! ## Lemmas -/

/-- where the sender `w` is. -/
def DiscW.held (w : Nat) (σ : DiscW) : Nat :=
  σ.queueW.countP (· = some w) + σ.tasks.countP (·.2 = some w)

theorem repliesTo_append (w : Nat) (a b : List REvent) : repliesTo w (a ++ b) = repliesTo w a + repliesTo w b := by
  simp [repliesTo, List.countP_append]

theorem begunFor_append (w : Nat) (a b : List REvent) : begunFor w (a ++ b) = begunFor w a + begunFor w b := by
  simp [begunFor, List.countP_append]

theorem endedFor_append (w : Nat) (a b : List REvent) : endedFor w (a ++ b) = endedFor w a + endedFor w b := by
  simp [endedFor, List.countP_append]

theorem repliesTo_reply (w : Nat) (w' : Option Nat) (b : Bool) :
    repliesTo w (reply w' b) = if w' = some w then 1 else 0 := by
  cases w' with
  | none => simp [reply, repliesTo]
  | some v => by_cases h : v = w <;> simp [reply, repliesTo, h]

theorem begunFor_reply (w : Nat) (w' : Option Nat) (b : Bool) : begunFor w (reply w' b) = 0 := by
  cases w' <;> simp [reply, begunFor]

theorem endedFor_reply (w : Nat) (w' : Option Nat) (b : Bool) : endedFor w (reply w' b) = 0 := by
  cases w' <;> simp [reply, endedFor]

theorem repliesTo_started (w : Nat) (w' : Option Nat) (l : List DNode) :
    repliesTo w (l.map fun n => REvent.started w' n.id) = 0 := by
  simp [repliesTo, List.countP_map, Function.comp_def]

theorem endedFor_started (w : Nat) (w' : Option Nat) (l : List DNode) :
    endedFor w (l.map fun n => REvent.started w' n.id) = 0 := by
  simp [endedFor, List.countP_map, Function.comp_def]

theorem begunFor_started (w : Nat) (w' : Option Nat) (l : List DNode) :
    begunFor w (l.map fun n => REvent.started w' n.id) = if w' = some w then l.length else 0 := by
  by_cases h : w' = some w <;> simp [begunFor, List.countP_map, Function.comp_def, h, List.countP_true]

theorem tryNode_shakes (env : DEnv) (cur : List Nat) (σ : Disc) (n : DNode) :
    ∃ l, (σ.tryNode env cur n).shakes = σ.shakes ++ l := by
  unfold Disc.tryNode; split
  · exact ⟨_, rfl⟩
  · exact ⟨[], by simp⟩

theorem discoverNodes_shakes (env : DEnv) (σ : Disc) (ns : List DNode) :
    ∃ l, (σ.discoverNodes env ns).shakes = σ.shakes ++ l := by
  unfold Disc.discoverNodes
  generalize σ.current = cur
  induction ns generalizing σ with
  | nil => exact ⟨[], by simp⟩
  | cons n ns ih =>
    obtain ⟨l, hl⟩ := tryNode_shakes env cur σ n
    obtain ⟨l', hl'⟩ := ih (σ.tryNode env cur n)
    exact ⟨l ++ l', by rw [List.foldl_cons, hl', hl, List.append_assoc]⟩

theorem discoverNodes_queue (env : DEnv) (σ : Disc) (ns : List DNode) :
    (σ.discoverNodes env ns).queue = σ.queue := by
  unfold Disc.discoverNodes
  generalize σ.current = cur
  induction ns generalizing σ with
  | nil => rfl
  | cons n ns ih =>
    rw [List.foldl_cons, ih]
    unfold Disc.tryNode; split <;> rfl

theorem getIdentity_frame (env : DEnv) (σ : Disc) (addr : String) :
    (σ.getIdentity env addr).1.shakes = σ.shakes ∧ (σ.getIdentity env addr).1.queue = σ.queue := by
  unfold Disc.getIdentity
  cases h : σ.byAddr.get addr with
  | some i => exact ⟨rfl, rfl⟩
  | none => cases env.identify addr <;> exact ⟨rfl, rfl⟩

theorem discoverPeers_frame (env : DEnv) (self : Nat) (ps : List DNode) (s : Disc × Assoc Nat Identity) :
    (Disc.discoverPeers env self ps s).1.shakes = s.1.shakes ∧
    (Disc.discoverPeers env self ps s).1.queue = s.1.queue := by
  induction ps generalizing s with
  | nil => exact ⟨rfl, rfl⟩
  | cons p ps ih =>
    obtain ⟨σ, found⟩ := s
    unfold Disc.discoverPeers
    split
    · exact ih _
    · split
      · exact ih _
      · have hf := getIdentity_frame env σ p.addr
        split
        · rename_i σ' hg
          rw [hg] at hf
          obtain ⟨h1, h2⟩ := ih (σ', found)
          exact ⟨h1.trans hf.1, h2.trans hf.2⟩
        · rename_i σ' i hg
          rw [hg] at hf
          obtain ⟨h1, h2⟩ := ih (σ', found.insert p.id i)
          exact ⟨h1.trans hf.1, h2.trans hf.2⟩

theorem discoverAll_frame (env : DEnv) (self : Nat) (is : List Identity) (s : Disc × Assoc Nat Identity) :
    (Disc.discoverAll env self is s).1.shakes = s.1.shakes ∧
    (Disc.discoverAll env self is s).1.queue = s.1.queue := by
  induction is generalizing s with
  | nil => exact ⟨rfl, rfl⟩
  | cons i is ih =>
    obtain ⟨h1, h2⟩ := ih (Disc.discoverPeers env self i.peers s)
    obtain ⟨h3, h4⟩ := discoverPeers_frame env self i.peers s
    exact ⟨h1.trans h3, h2.trans h4⟩

theorem discoverAddr_frame (env : DEnv) (self : Nat) (σ : Disc) (addr : String) :
    (σ.discoverAddr env self addr).shakes = σ.shakes ∧
    ((σ.byAddr.get addr).isSome = true ∨ (σ.getIdentity env addr).2 = none →
      (σ.discoverAddr env self addr).queue = σ.queue) ∧
    (σ.byAddr.get addr = none → (σ.getIdentity env addr).2 ≠ none →
      ∃ ns, (σ.discoverAddr env self addr).queue = σ.queue ++ [ns]) := by
  unfold Disc.discoverAddr
  cases h : σ.byAddr.get addr with
  | some i => exact ⟨rfl, fun _ => rfl, fun h => by simp at h⟩
  | none =>
    have hf := getIdentity_frame env σ addr
    rcases hg : σ.getIdentity env addr with ⟨σ', _ | seed⟩
    · rw [hg] at hf
      exact ⟨hf.1, fun _ => hf.2, fun _ h => absurd rfl h⟩
    · rw [hg] at hf
      obtain ⟨h1, h2⟩ := discoverPeers_frame env self seed.peers (σ', [(seed.node.id, seed)])
      obtain ⟨h3, h4⟩ := discoverAll_frame env self
        (Disc.discoverPeers env self seed.peers (σ', [(seed.node.id, seed)])).2.vals
        (Disc.discoverPeers env self seed.peers (σ', [(seed.node.id, seed)]))
      refine ⟨?_, fun h => by simp at h, fun _ _ => ?_⟩
      · simp only
        split
        · exact (h3.trans h1).trans hf.1
        · exact h1.trans hf.1
      · simp only
        split
        · exact ⟨_, by rw [(h4.trans h2).trans hf.2]⟩
        · exact ⟨_, by rw [h2.trans hf.2]⟩

/-- the lists go together; every handshake has its task; task numbers are unique; counts agree. -/
structure DiscW.Inv (σ : DiscW) : Prop where
  lenQ : σ.queueW.length = σ.base.queue.length
  lenS : σ.shakeOf.length = σ.base.shakes.length
  owned : ∀ s ∈ σ.shakeOf, s ∈ σ.tasks
  fresh : ∀ t ∈ σ.tasks, t.1 < σ.next
  uniq : σ.tasks.Pairwise (fun a b => a.1 ≠ b.1)
  counts : ∀ w, begunFor w σ.log = endedFor w σ.log + σ.shakeOf.countP (·.2 = some w)

theorem countP_eraseIdx {α : Type} (p : α → Bool) (l : List α) (i : Nat) (x : α) (h : l[i]? = some x) :
    (l.eraseIdx i).countP p + (if p x then 1 else 0) = l.countP p := by
  induction l generalizing i with
  | nil => simp at h
  | cons a l ih =>
    cases i with
    | zero =>
      simp only [List.getElem?_cons_zero, Option.some.injEq] at h
      subst h
      rw [List.eraseIdx_cons_zero, List.countP_cons]
    | succ i =>
      simp only [List.getElem?_cons_succ] at h
      rw [List.eraseIdx_cons_succ, List.countP_cons, List.countP_cons, ← ih i h]
      omega

theorem DiscW.discoverNodes_inv (env : DEnv) (σ : DiscW) (h : σ.Inv) (ns : List DNode) (w : Option Nat) :
    (σ.discoverNodes env ns w).Inv := by
  obtain ⟨l, hl⟩ := discoverNodes_shakes env σ.base ns
  have hdrop : (σ.base.discoverNodes env ns).shakes.drop σ.base.shakes.length = l := by rw [hl]; simp
  refine ⟨?_, ?_, ?_, ?_, ?_, ?_⟩
  · simp only [DiscW.discoverNodes, discoverNodes_queue]; exact h.lenQ
  · simp only [DiscW.discoverNodes, hdrop, List.length_append, List.length_map, h.lenS]
    rw [hl, List.length_append]
  · simp only [DiscW.discoverNodes, hdrop, List.mem_append, List.mem_map, List.mem_singleton]
    rintro s (hs | ⟨_, _, rfl⟩)
    · exact Or.inl (h.owned s hs)
    · exact Or.inr rfl
  · simp only [DiscW.discoverNodes, List.mem_append, List.mem_singleton]
    rintro t (ht | rfl)
    · exact Nat.lt_succ_of_lt (h.fresh t ht)
    · exact Nat.lt_succ_self _
  · simp only [DiscW.discoverNodes]
    rw [List.pairwise_append]
    refine ⟨h.uniq, List.pairwise_singleton _ _, ?_⟩
    intro a ha b hb
    simp only [List.mem_singleton] at hb
    subst hb
    exact Nat.ne_of_lt (h.fresh a ha)
  · intro v
    simp only [DiscW.discoverNodes, hdrop, begunFor_append, endedFor_append, begunFor_started, endedFor_started,
      List.countP_append, List.countP_map, Function.comp_def]
    rw [h.counts v]
    by_cases hw : w = some v
    · simp [hw, List.countP_true]; omega
    · simp [hw]

theorem DiscW.step_inv (self : Nat) (σ : DiscW) (op : RwOp) (h : σ.Inv) : (σ.step self op).Inv := by
  cases op with
  | discover env addr w =>
    obtain ⟨hs, hq1, hq2⟩ := discoverAddr_frame env self σ.base addr
    simp only [DiscW.step, DiscW.discoverAddr]
    cases hb : σ.base.byAddr.get addr with
    | some i =>
      refine ⟨?_, ?_, h.owned, h.fresh, h.uniq, ?_⟩
      · simp only [hq1 (Or.inl (by simp [hb]))]; exact h.lenQ
      · simp only [hs]; exact h.lenS
      · intro v; simp only [begunFor_append, endedFor_append, begunFor_reply, endedFor_reply]; exact h.counts v
    | none =>
      cases hg : (σ.base.getIdentity env addr).2 with
      | none =>
        refine ⟨?_, ?_, h.owned, h.fresh, h.uniq, ?_⟩
        · simp only [hq1 (Or.inr hg)]; exact h.lenQ
        · simp only [hs]; exact h.lenS
        · intro v; simp only [begunFor_append, endedFor_append, begunFor_reply, endedFor_reply]; exact h.counts v
      | some i =>
        obtain ⟨ns, hns⟩ := hq2 hb (by simp [hg])
        refine ⟨?_, ?_, h.owned, h.fresh, h.uniq, h.counts⟩
        · simp only [hns, List.length_append, h.lenQ, List.length_singleton]
        · simp only [hs]; exact h.lenS
  | next env =>
    simp only [DiscW.step]
    rcases hq : σ.base.queue with _ | ⟨ns, q⟩
    · exact h
    · rcases hw : σ.queueW with _ | ⟨w, ws⟩
      · exact h
      · refine DiscW.discoverNodes_inv env _ ?_ ns w
        refine ⟨?_, h.lenS, h.owned, h.fresh, h.uniq, h.counts⟩
        have := h.lenQ
        rw [hq, hw] at this
        simpa using this
  | nodes env ns w => exact DiscW.discoverNodes_inv env σ h ns w
  | shaken i ok =>
    simp only [DiscW.step]
    cases hb : σ.base.shakes[i]? with
    | none => exact h
    | some n =>
      cases hs : σ.shakeOf[i]? with
      | none => exact h
      | some s =>
        obtain ⟨t, w⟩ := s
        have hsh : ((σ.base.step self (.shaken i ok)).shakes = σ.base.shakes.eraseIdx i) ∧
            (σ.base.step self (.shaken i ok)).queue = σ.base.queue := by
          simp only [Disc.step, hb, Disc.nodeDiscovered]
          split
          · split <;> exact ⟨rfl, rfl⟩
          · exact ⟨rfl, rfl⟩
        have hil : i < σ.base.shakes.length := (List.getElem?_eq_some_iff.1 hb).1
        refine ⟨?_, ?_, ?_, h.fresh, h.uniq, ?_⟩
        · simp only [hsh.2]; exact h.lenQ
        · simp only [hsh.1, List.length_eraseIdx, h.lenS]
        · intro x hx; exact h.owned x (List.mem_of_mem_eraseIdx hx)
        · intro v
          simp only [begunFor_append, endedFor_append]
          have hc := countP_eraseIdx (fun s : Nat × Option Nat => decide (s.2 = some v)) σ.shakeOf i _ hs
          have h0 := h.counts v
          by_cases hw : w = some v
          · simp [begunFor, endedFor, hw] at hc h0 ⊢; omega
          · simp [begunFor, endedFor, hw] at hc h0 ⊢; omega
  | finish i =>
    simp only [DiscW.step]
    cases ht : σ.tasks[i]? with
    | none => exact h
    | some t =>
      obtain ⟨t, w⟩ := t
      simp only
      split
      · exact h
      · rename_i hany
        refine ⟨h.lenQ, h.lenS, ?_, ?_, ?_, ?_⟩
        · intro s hs
          have hm := h.owned s hs
          have hne : s.1 ≠ t := by
            intro e
            exact hany (List.any_eq_true.2 ⟨s, hs, by simp [e]⟩)
          rw [List.mem_iff_getElem?] at hm
          obtain ⟨j, hj⟩ := hm
          have hji : j ≠ i := by
            rintro rfl
            rw [ht] at hj
            exact hne (by rw [← Option.some.inj hj])
          rw [List.mem_eraseIdx_iff_getElem?]
          exact ⟨j, hji, hj⟩
        · intro s hs; exact h.fresh s (List.mem_of_mem_eraseIdx hs)
        · exact h.uniq.sublist (List.eraseIdx_sublist ..)
        · intro v
          simp only [begunFor_append, endedFor_append, begunFor_reply, endedFor_reply]
          exact h.counts v
  | forget addr =>
    have : (σ.base.forget addr).queue = σ.base.queue ∧ (σ.base.forget addr).shakes = σ.base.shakes := by
      unfold Disc.forget; split <;> exact ⟨rfl, rfl⟩
    exact ⟨by simp only [DiscW.step, Disc.step, this.1]; exact h.lenQ,
      by simp only [DiscW.step, Disc.step, this.2]; exact h.lenS, h.owned, h.fresh, h.uniq, h.counts⟩
  | status id t => exact ⟨h.lenQ, h.lenS, h.owned, h.fresh, h.uniq, h.counts⟩

theorem DiscW.run_inv (self : Nat) (ops : List RwOp) (σ : DiscW) (h : σ.Inv) : (σ.run self ops).Inv := by
  induction ops generalizing σ with
  | nil => exact h
  | cons op ops ih => exact ih _ (DiscW.step_inv self σ op h)

theorem DiscW.init_inv : ({} : DiscW).Inv :=
  ⟨rfl, rfl, by simp, by simp, List.Pairwise.nil, fun w => rfl⟩

theorem DiscW.discoverNodes_held (env : DEnv) (σ : DiscW) (ns : List DNode) (w : Option Nat) (v : Nat) :
    (σ.discoverNodes env ns w).held v + repliesTo v (σ.discoverNodes env ns w).log =
      σ.held v + repliesTo v σ.log + (if w = some v then 1 else 0) := by
  simp only [DiscW.discoverNodes, DiscW.held, repliesTo_append, repliesTo_started, List.countP_append,
    List.countP_singleton, decide_eq_true_eq]
  omega

theorem DiscW.step_held (self : Nat) (σ : DiscW) (op : RwOp) (v : Nat) :
    (σ.step self op).held v + repliesTo v (σ.step self op).log = σ.held v + repliesTo v σ.log + op.given v := by
  cases op with
  | discover env addr w =>
    simp only [DiscW.step, DiscW.discoverAddr, RwOp.given]
    cases σ.base.byAddr.get addr with
    | some i => simp only [DiscW.held, repliesTo_append, repliesTo_reply]; omega
    | none =>
      cases (σ.base.getIdentity env addr).2 with
      | none => simp only [DiscW.held, repliesTo_append, repliesTo_reply]; omega
      | some i =>
        simp only [DiscW.held, List.countP_append, List.countP_singleton, decide_eq_true_eq]; omega
  | next env =>
    simp only [DiscW.step, RwOp.given]
    rcases hq : σ.base.queue with _ | ⟨ns, q⟩
    · rfl
    · rcases hw : σ.queueW with _ | ⟨w, ws⟩
      · rfl
      · simp only
        rw [DiscW.discoverNodes_held]
        simp only [DiscW.held, hw, List.countP_cons, decide_eq_true_eq]
        omega
  | nodes env ns w =>
    simp only [DiscW.step, RwOp.given]
    exact DiscW.discoverNodes_held env σ ns w v
  | shaken i ok =>
    simp only [DiscW.step, RwOp.given]
    cases σ.base.shakes[i]? with
    | none => rfl
    | some n =>
      cases σ.shakeOf[i]? with
      | none => rfl
      | some s => simp only [DiscW.held, repliesTo_append]; simp [repliesTo]
  | finish i =>
    simp only [DiscW.step, RwOp.given]
    cases ht : σ.tasks[i]? with
    | none => rfl
    | some t =>
      obtain ⟨t, w⟩ := t
      simp only
      split
      · rfl
      · have hc := countP_eraseIdx (fun s : Nat × Option Nat => decide (s.2 = some v)) σ.tasks i _ ht
        simp only [DiscW.held, repliesTo_append, repliesTo_reply]
        simp only [decide_eq_true_eq] at hc
        omega
  | forget addr => rfl
  | status id t => rfl

theorem DiscW.run_held (self : Nat) (ops : List RwOp) (σ : DiscW) (v : Nat) :
    (σ.run self ops).held v + repliesTo v (σ.run self ops).log = σ.held v + repliesTo v σ.log + givenIn v ops := by
  induction ops generalizing σ with
  | nil => rfl
  | cons op ops ih =>
    have h1 := ih (σ.step self op)
    have h2 := DiscW.step_held self σ op v
    simp only [DiscW.run, List.foldl_cons] at h1 ⊢
    rw [h1, h2]
    simp only [givenIn, List.map_cons, List.sum_cons]
    omega

/-- no handshake is under way for a sender that is held at most once and whose task has none. -/
theorem DiscW.none_outstanding (σ : DiscW) (h : σ.Inv) (v : Nat) (h0 : σ.tasks.countP (·.2 = some v) = 0) :
    begunFor v σ.log = endedFor v σ.log := by
  have hz : σ.shakeOf.countP (·.2 = some v) = 0 := by
    rw [List.countP_eq_zero] at h0 ⊢
    intro s hs
    exact h0 s (h.owned s hs)
  have := h.counts v
  omega

theorem DiscW.discoverNodes_log (env : DEnv) (σ : DiscW) (ns : List DNode) (w : Option Nat) (v : Nat) :
    ∃ evs, (σ.discoverNodes env ns w).log = σ.log ++ evs ∧ (w ≠ some v → begunFor v evs = 0) ∧
      repliesTo v evs = 0 := by
  refine ⟨_, rfl, fun hw => ?_, repliesTo_started v w _⟩
  rw [begunFor_started, if_neg hw]

/-- what one step adds to the log. -/
theorem DiscW.step_log (self : Nat) (σ : DiscW) (op : RwOp) (h : σ.Inv) (v : Nat) :
    ∃ evs, (σ.step self op).log = σ.log ++ evs ∧ (σ.held v + op.given v = 0 → begunFor v evs = 0) ∧
      (repliesTo v evs = 0 ∨ ((∃ b, evs = [.replied v b]) ∧
        (σ.held v + op.given v ≤ 1 → begunFor v σ.log = endedFor v σ.log))) := by
  have hreply : ∀ (w : Option Nat) (b : Bool),
      (w = some v → σ.held v + op.given v ≤ 1 → begunFor v σ.log = endedFor v σ.log) →
      (σ.held v + op.given v = 0 → begunFor v (reply w b) = 0) ∧
      (repliesTo v (reply w b) = 0 ∨ ((∃ c, reply w b = [.replied v c]) ∧
        (σ.held v + op.given v ≤ 1 → begunFor v σ.log = endedFor v σ.log))) := by
    intro w b hout
    refine ⟨fun _ => begunFor_reply v w b, ?_⟩
    by_cases hw : w = some v
    · exact Or.inr ⟨⟨b, by simp [reply, hw]⟩, hout hw⟩
    · exact Or.inl (by rw [repliesTo_reply, if_neg hw])
  have htask : σ.held v = 0 → begunFor v σ.log = endedFor v σ.log := by
    intro h0
    refine DiscW.none_outstanding σ h v ?_
    unfold DiscW.held at h0; omega
  cases op with
  | discover env addr w =>
    simp only [DiscW.step, DiscW.discoverAddr]
    have hg : w = some v → σ.held v + (RwOp.discover env addr w).given v ≤ 1 →
        begunFor v σ.log = endedFor v σ.log := by
      intro hw hle
      refine htask ?_
      simp only [RwOp.given, hw, if_true] at hle
      omega
    cases σ.base.byAddr.get addr with
    | some i => exact ⟨_, rfl, hreply w true hg⟩
    | none =>
      cases (σ.base.getIdentity env addr).2 with
      | none => exact ⟨_, rfl, hreply w false hg⟩
      | some i => exact ⟨[], by simp, fun _ => rfl, Or.inl rfl⟩
  | next env =>
    simp only [DiscW.step]
    rcases hq : σ.base.queue with _ | ⟨ns, q⟩
    · exact ⟨[], by simp, fun _ => rfl, Or.inl rfl⟩
    · rcases hw : σ.queueW with _ | ⟨w, ws⟩
      · exact ⟨[], by simp, fun _ => rfl, Or.inl rfl⟩
      · obtain ⟨evs, h1, h2, h3⟩ := DiscW.discoverNodes_log env
          { σ with base := { σ.base with queue := q }, queueW := ws } ns w v
        refine ⟨evs, h1, fun h0 => h2 ?_, Or.inl h3⟩
        intro e
        simp only [DiscW.held, hw, List.countP_cons, e, decide_true, if_true] at h0
        omega
  | nodes env ns w =>
    obtain ⟨evs, h1, h2, h3⟩ := DiscW.discoverNodes_log env σ ns w v
    refine ⟨evs, h1, fun h0 => h2 ?_, Or.inl h3⟩
    intro e
    simp only [RwOp.given, e, if_true] at h0
    omega
  | shaken i ok =>
    simp only [DiscW.step]
    cases σ.base.shakes[i]? with
    | none => exact ⟨[], by simp, fun _ => rfl, Or.inl rfl⟩
    | some n =>
      cases σ.shakeOf[i]? with
      | none => exact ⟨[], by simp, fun _ => rfl, Or.inl rfl⟩
      | some s => exact ⟨[_], rfl, fun _ => rfl, Or.inl rfl⟩
  | finish i =>
    simp only [DiscW.step]
    cases ht : σ.tasks[i]? with
    | none => exact ⟨[], by simp, fun _ => rfl, Or.inl rfl⟩
    | some t =>
      obtain ⟨t, w⟩ := t
      simp only
      split
      · exact ⟨[], by simp, fun _ => rfl, Or.inl rfl⟩
      · rename_i hany
        refine ⟨_, rfl, hreply w true ?_⟩
        intro hw hle
        subst hw
        have hc := countP_eraseIdx (fun s : Nat × Option Nat => decide (s.2 = some v)) σ.tasks i _ ht
        have hz : σ.shakeOf.countP (·.2 = some v) = 0 := by
          rw [List.countP_eq_zero]
          intro s hs hsv
          have hm := h.owned s hs
          have hne : s.1 ≠ t := by
            intro e
            exact hany (List.any_eq_true.2 ⟨s, hs, by simp [e]⟩)
          rw [List.mem_iff_getElem?] at hm
          obtain ⟨j, hj⟩ := hm
          have hji : j ≠ i := by
            rintro rfl
            rw [ht] at hj
            exact hne (by rw [← Option.some.inj hj])
          have hme : s ∈ σ.tasks.eraseIdx i := by
            rw [List.mem_eraseIdx_iff_getElem?]; exact ⟨j, hji, hj⟩
          have hp : 0 < (σ.tasks.eraseIdx i).countP (fun s => decide (s.2 = some v)) :=
            List.countP_pos_iff.2 ⟨s, hme, hsv⟩
          simp only [decide_true, if_true] at hc
          simp only [DiscW.held] at hle
          omega
        have := h.counts v
        omega
  | forget addr => exact ⟨[], by simp [DiscW.step], fun _ => rfl, Or.inl rfl⟩
  | status id t => exact ⟨[], by simp [DiscW.step], fun _ => rfl, Or.inl rfl⟩

/-- operations in which the actor and its tasks go on with what they have. -/
def RwOp.internal : RwOp → Bool
  | .next _ | .shaken .. | .finish _ => true
  | _ => false

theorem RwOp.given_internal {op : RwOp} (h : op.internal = true) (w : Nat) : op.given w = 0 := by
  cases op <;> first | rfl | simp [RwOp.internal] at h

theorem givenIn_internal {ops : List RwOp} (h : ∀ o ∈ ops, o.internal = true) (w : Nat) : givenIn w ops = 0 := by
  induction ops with
  | nil => rfl
  | cons o ops ih =>
    simp only [givenIn, List.map_cons, List.sum_cons]
    rw [RwOp.given_internal (h o (by simp)) w]
    have := ih fun o ho => h o (List.mem_cons_of_mem _ ho)
    unfold givenIn at this; omega

theorem DiscW.run_append (self : Nat) (σ : DiscW) (a b : List RwOp) :
    σ.run self (a ++ b) = (σ.run self a).run self b := by
  simp [DiscW.run, List.foldl_append]

/-- the queue can be emptied. -/
theorem DiscW.drain_queue (self : Nat) (env : DEnv) (n : Nat) (σ : DiscW) (h : σ.Inv) (hn : σ.queueW.length = n) :
    ∃ ops, (∀ o ∈ ops, o.internal = true) ∧ (σ.run self ops).queueW = [] := by
  induction n generalizing σ with
  | zero => exact ⟨[], by simp, List.length_eq_zero_iff.1 hn⟩
  | succ n ih =>
    have hi := DiscW.step_inv self σ (.next env) h
    have hl : (σ.step self (.next env)).queueW.length = n := by
      have hq := h.lenQ
      simp only [DiscW.step]
      rcases hb : σ.base.queue with _ | ⟨ns, q⟩
      · rw [hb] at hq; simp only [List.length_nil] at hq; omega
      · rcases hw : σ.queueW with _ | ⟨w, ws⟩
        · rw [hw] at hn; simp at hn
        · rw [hw] at hn; simpa [DiscW.discoverNodes] using hn
    obtain ⟨ops, h1, h2⟩ := ih _ hi hl
    refine ⟨.next env :: ops, ?_, h2⟩
    intro o ho
    rcases List.mem_cons.1 ho with rfl | ho
    · rfl
    · exact h1 o ho

/-- the handshakes can all end. -/
theorem DiscW.drain_shakes (self : Nat) (n : Nat) (σ : DiscW) (h : σ.Inv) (hn : σ.shakeOf.length = n)
    (hq : σ.queueW = []) :
    ∃ ops, (∀ o ∈ ops, o.internal = true) ∧ (σ.run self ops).queueW = [] ∧ (σ.run self ops).shakeOf = [] := by
  induction n generalizing σ with
  | zero => exact ⟨[], by simp, hq, List.length_eq_zero_iff.1 hn⟩
  | succ n ih =>
    have hi := DiscW.step_inv self σ (.shaken 0 true) h
    have hl : (σ.step self (.shaken 0 true)).shakeOf.length = n ∧ (σ.step self (.shaken 0 true)).queueW = [] := by
      have hs := h.lenS
      simp only [DiscW.step]
      rcases hb : σ.base.shakes with _ | ⟨m, ms⟩
      · rw [hb] at hs; simp only [List.length_nil] at hs; omega
      · rcases hw : σ.shakeOf with _ | ⟨w, ws⟩
        · rw [hw] at hn; simp at hn
        · rw [hw] at hn; exact ⟨by simpa using hn, hq⟩
    obtain ⟨ops, h1, h2⟩ := ih _ hi hl.1 hl.2
    refine ⟨.shaken 0 true :: ops, ?_, h2⟩
    intro o ho
    rcases List.mem_cons.1 ho with rfl | ho
    · rfl
    · exact h1 o ho

/-- the tasks can all finish. -/
theorem DiscW.drain_tasks (self : Nat) (n : Nat) (σ : DiscW) (hn : σ.tasks.length = n)
    (hq : σ.queueW = []) (hs : σ.shakeOf = []) :
    ∃ ops, (∀ o ∈ ops, o.internal = true) ∧ (σ.run self ops).queueW = [] ∧ (σ.run self ops).tasks = [] := by
  induction n generalizing σ with
  | zero => exact ⟨[], by simp, hq, List.length_eq_zero_iff.1 hn⟩
  | succ n ih =>
    have hl : (σ.step self (.finish 0)).tasks.length = n ∧ (σ.step self (.finish 0)).queueW = [] ∧
        (σ.step self (.finish 0)).shakeOf = [] := by
      simp only [DiscW.step]
      rcases hw : σ.tasks with _ | ⟨w, ws⟩
      · rw [hw] at hn; simp at hn
      · rw [hw] at hn
        simp only [List.getElem?_cons_zero, hs, List.any_nil, Bool.false_eq_true, if_false, List.eraseIdx_cons_zero]
        exact ⟨by simpa using hn, hq, trivial⟩
    obtain ⟨ops, h1, h2⟩ := ih _ hl.1 hl.2.1 hl.2.2
    refine ⟨.finish 0 :: ops, ?_, h2⟩
    intro o ho
    rcases List.mem_cons.1 ho with rfl | ho
    · rfl
    · exact h1 o ho

/-! ## Properties -/

/-- A completion sender is used at most as often as it was handed in: a request is answered at most once. -/
theorem C80_at_most_once (self : Nat) (ops : List RwOp) (w : Nat) :
    repliesTo w (({} : DiscW).run self ops).log ≤ givenIn w ops := by
  have := DiscW.run_held self ops {} w
  simp only [DiscW.held, repliesTo, List.countP_nil] at this ⊢
  omega

/-- Nothing is lost: after any history there is a continuation, made only of steps of the actor and its tasks, after which
every request has been answered. -/
theorem C80_all_answered (self : Nat) (env : DEnv) (ops : List RwOp) :
    ∃ more, (∀ o ∈ more, o.internal = true) ∧
      ∀ w, repliesTo w (({} : DiscW).run self (ops ++ more)).log = givenIn w ops := by
  have h0 := DiscW.run_inv self ops {} DiscW.init_inv
  obtain ⟨o1, i1, q1⟩ := DiscW.drain_queue self env _ _ h0 rfl
  have h1 := DiscW.run_inv self o1 _ h0
  obtain ⟨o2, i2, q2, s2⟩ := DiscW.drain_shakes self _ _ h1 rfl q1
  obtain ⟨o3, i3, q3, t3⟩ := DiscW.drain_tasks self _ _ rfl q2 s2
  refine ⟨o1 ++ o2 ++ o3, ?_, ?_⟩
  · intro o ho
    simp only [List.mem_append] at ho
    rcases ho with (ho | ho) | ho
    · exact i1 o ho
    · exact i2 o ho
    · exact i3 o ho
  · intro w
    have hrun : ({} : DiscW).run self (ops ++ (o1 ++ o2 ++ o3)) =
        (((({} : DiscW).run self ops).run self o1).run self o2).run self o3 := by
      simp only [DiscW.run_append]
    have e0 := DiscW.run_held self ops {} w
    have e1 := DiscW.run_held self o1 (({} : DiscW).run self ops) w
    have e2 := DiscW.run_held self o2 ((({} : DiscW).run self ops).run self o1) w
    have e3 := DiscW.run_held self o3 (((({} : DiscW).run self ops).run self o1).run self o2) w
    rw [givenIn_internal i1] at e1
    rw [givenIn_internal i2] at e2
    rw [givenIn_internal i3] at e3
    rw [hrun]
    have hz : ((((({} : DiscW).run self ops).run self o1).run self o2).run self o3).held w = 0 := by
      simp only [DiscW.held, q3, t3, List.countP_nil]
    have hinit : ({} : DiscW).held w = 0 ∧ repliesTo w ({} : DiscW).log = 0 := ⟨rfl, rfl⟩
    omega

/-- A request is answered only after every handshake begun for it has ended, and none is begun for it later. -/
theorem C80_not_early (self : Nat) (ops : List RwOp) (w : Nat) (hone : givenIn w ops ≤ 1)
    (l₁ l₂ : List REvent) (b : Bool) (hlog : (({} : DiscW).run self ops).log = l₁ ++ .replied w b :: l₂) :
    begunFor w l₁ = endedFor w l₁ ∧ begunFor w l₂ = 0 := by
  induction ops using snoc_induction generalizing l₁ l₂ with
  | nil =>
    have : ([] : List REvent) = l₁ ++ .replied w b :: l₂ := hlog
    simp at this
  | snoc ops op ih =>
    have hg : givenIn w (ops ++ [op]) = givenIn w ops + op.given w := by simp [givenIn]
    have hi := DiscW.run_inv self ops {} DiscW.init_inv
    have hh := DiscW.run_held self ops {} w
    have hinit : ({} : DiscW).held w = 0 ∧ repliesTo w ({} : DiscW).log = 0 := ⟨rfl, rfl⟩
    obtain ⟨evs, e1, e2, e3⟩ := DiscW.step_log self (({} : DiscW).run self ops) op hi w
    rw [DiscW.run_append] at hlog
    have hlog : (({} : DiscW).run self ops).log ++ evs = l₁ ++ .replied w b :: l₂ := by rw [← e1]; exact hlog
    rcases List.append_eq_append_iff.1 hlog with ⟨as, ha, hx⟩ | ⟨bs, ha, hx⟩
    · -- the reply is one of the new events
      rcases e3 with e3 | ⟨⟨c, e3⟩, e4⟩
      · rw [hx, repliesTo_append] at e3
        simp [repliesTo] at e3
      · rw [e3] at hx
        cases as with
        | nil =>
          simp only [List.nil_append, List.cons.injEq] at hx
          refine ⟨?_, by rw [← hx.2]; rfl⟩
          rw [ha, List.append_nil]
          exact e4 (by omega)
        | cons a as => simp at hx
    · cases bs with
      | nil =>
        simp only [List.nil_append] at hx
        rcases e3 with e3 | ⟨⟨c, e3⟩, e4⟩
        · rw [← hx] at e3
          simp [repliesTo] at e3
        · rw [e3] at hx
          simp only [List.cons.injEq] at hx
          refine ⟨?_, by rw [hx.2]; rfl⟩
          rw [List.append_nil] at ha
          rw [← ha]
          exact e4 (by omega)
      | cons x bs =>
        simp only [List.cons_append, List.cons.injEq] at hx
        obtain ⟨rfl, hx⟩ := hx
        obtain ⟨h1, h2⟩ := ih (by omega) l₁ bs ha
        refine ⟨h1, ?_⟩
        rw [hx, begunFor_append, h2]
        have hr : 1 ≤ repliesTo w (({} : DiscW).run self ops).log := by
          rw [ha, repliesTo_append]; simp [repliesTo]; omega
        rw [e2 (by omega)]

/-- A request for an address is answered at once exactly when the address is known (with `true`) or cannot be identified
(with `false`); otherwise the answer comes later, and is `true`. -/
theorem C80_at_once (self : Nat) (σ : DiscW) (env : DEnv) (addr : String) (w : Nat) :
    (σ.step self (.discover env addr (some w))).log = σ.log ++
      (if (σ.base.byAddr.get addr).isSome = true then [.replied w true]
       else if (env.identify addr).isNone = true then [.replied w false] else []) := by
  simp only [DiscW.step, DiscW.discoverAddr]
  cases hb : σ.base.byAddr.get addr with
  | some i => simp [reply]
  | none =>
    cases hi : env.identify addr with
    | none => simp [Disc.getIdentity, hb, hi, reply]
    | some i => simp [Disc.getIdentity, hb, hi]

/-- `false` is only ever answered at once. -/
theorem C80_false_only_unidentified (self : Nat) (σ : DiscW) (op : RwOp) (w : Nat)
    (h : (σ.step self op).log = σ.log ++ [.replied w false]) :
    ∃ env addr, op = .discover env addr (some w) ∧ σ.base.byAddr.get addr = none ∧ env.identify addr = none := by
  have hnil : σ.log = σ.log ++ [.replied w false] → False := by
    intro e
    have := congrArg List.length e
    simp at this
  have hrep : ∀ (w' : Option Nat), σ.log ++ reply w' true = σ.log ++ [.replied w false] → False := by
    intro w' e
    have e := List.append_cancel_left e
    cases w' <;> simp [reply] at e
  have hnodes : ∀ (τ : DiscW) (env : DEnv) ns w', τ.log = σ.log →
      (τ.discoverNodes env ns w').log = σ.log ++ [.replied w false] → False := by
    intro τ env ns w' hτ e
    obtain ⟨evs, e1, _, e3⟩ := DiscW.discoverNodes_log env τ ns w' w
    rw [e1, hτ] at e
    rw [List.append_cancel_left e] at e3
    simp [repliesTo] at e3
  cases op with
  | discover env addr w' =>
    simp only [DiscW.step, DiscW.discoverAddr] at h
    cases hb : σ.base.byAddr.get addr with
    | some i => rw [hb] at h; exact absurd h (fun e => hrep _ e)
    | none =>
      rw [hb] at h
      cases hi : env.identify addr with
      | none =>
        simp only [Disc.getIdentity, hb, hi] at h
        have h := List.append_cancel_left h
        cases w' with
        | none => simp [reply] at h
        | some v =>
          simp only [reply, Option.map_some, Option.toList_some, List.cons.injEq, REvent.replied.injEq, and_true] at h
          exact ⟨env, addr, by rw [h], hb, hi⟩
      | some i =>
        simp only [Disc.getIdentity, hb, hi] at h
        exact absurd h hnil
  | next env =>
    simp only [DiscW.step] at h
    rcases hq : σ.base.queue with _ | ⟨ns, q⟩
    · rw [hq] at h; exact absurd h hnil
    · rcases hw : σ.queueW with _ | ⟨w', ws⟩
      · rw [hq, hw] at h; exact absurd h hnil
      · rw [hq, hw] at h
        exact absurd h (fun e => hnodes { σ with base := { σ.base with queue := q }, queueW := ws } env ns w' rfl e)
  | nodes env ns w' => exact absurd h (fun e => hnodes _ env ns w' rfl e)
  | shaken i ok =>
    simp only [DiscW.step] at h
    split at h
    · have h := List.append_cancel_left h
      simp at h
    · exact absurd h hnil
  | finish i =>
    simp only [DiscW.step] at h
    split at h
    · split at h
      · exact absurd h hnil
      · exact absurd h (fun e => hrep _ e)
    · exact absurd h hnil
  | forget addr => exact absurd h hnil
  | status id t => exact absurd h hnil

/-- what an operation is to the discovery itself (C28-C30), without the senders. -/
def RwOp.plain : RwOp → Option DOp
  | .discover env addr _ => some (.discover env addr)
  | .next env => some (.next env)
  | .nodes env ns _ => some (.nodes env ns)
  | .shaken i ok => some (.shaken i ok)
  | .finish _ => none
  | .forget addr => some (.forget addr)
  | .status id t => some (.status id t)

theorem DiscW.step_base (self : Nat) (σ : DiscW) (h : σ.Inv) (op : RwOp) :
    (σ.step self op).base = match op.plain with
      | some d => σ.base.step self d
      | none => σ.base := by
  cases op with
  | discover env addr w =>
    simp only [DiscW.step, DiscW.discoverAddr, RwOp.plain, Disc.step]
    split
    · rfl
    · split <;> rfl
  | next env =>
    simp only [DiscW.step, RwOp.plain, Disc.step]
    have hq := h.lenQ
    cases h1 : σ.base.queue with
    | nil => rfl
    | cons ns q =>
      cases h2 : σ.queueW with
      | nil => rw [h1, h2] at hq; simp at hq
      | cons w ws => rfl
  | nodes env ns w => rfl
  | shaken i ok =>
    simp only [DiscW.step, RwOp.plain]
    have hl := h.lenS
    cases h1 : σ.base.shakes[i]? with
    | none => simp [Disc.step, h1]
    | some n =>
      cases h2 : σ.shakeOf[i]? with
      | none =>
        have a := List.getElem?_eq_none_iff.1 h2
        have b := (List.getElem?_eq_some_iff.1 h1).1
        omega
      | some x => rfl
  | finish i =>
    simp only [DiscW.step, RwOp.plain]
    split
    · split <;> rfl
    · rfl
  | forget addr => rfl
  | status id t => rfl

/-- Answering does not disturb the discovery: what is found, registered and connected is what C28 to C30 say of the same
operations. -/
theorem C80_discovery_undisturbed (self : Nat) (ops : List RwOp) :
    (({} : DiscW).run self ops).base = ({} : Disc).run self (ops.filterMap RwOp.plain) := by
  induction ops using snoc_induction with
  | nil => rfl
  | snoc ops op ih =>
    have hi := DiscW.run_inv self ops {} DiscW.init_inv
    rw [DiscW.run_append]
    show ((({} : DiscW).run self ops).step self op).base = _
    rw [DiscW.step_base self _ hi op, ih, List.filterMap_append]
    cases op <;> simp [RwOp.plain, Disc.run, List.foldl_append, List.filterMap_cons]

/-- two nodes: the seed at `a`, itself unreachable for handshakes or not. -/
def seedEnv : DEnv where
  identify a := if a = "a" then some ⟨⟨7, "a"⟩, []⟩ else none
  client _ := true

/-- Refuted: `true` means that a node was found. The only handshake fails, nobody is added, and the answer is `true`. -/
theorem C80_true_refuted :
    (({} : DiscW).run 1 [.discover seedEnv "a" (some 5), .next seedEnv, .shaken 0 false, .finish 0]).log =
      [.started (some 5) 7, .ended (some 5) 7 false, .replied 5 true] ∧
    (({} : DiscW).run 1 [.discover seedEnv "a" (some 5), .next seedEnv, .shaken 0 false, .finish 0]).base.added = [] := by
  decide

/-- Refuted: an answer `true` comes after the handshake with the seed. A second request for the same address is answered
while the handshake of the first is under way. -/
theorem C80_second_request_refuted :
    (({} : DiscW).run 1 [.discover seedEnv "a" (some 5), .next seedEnv, .discover seedEnv "a" (some 6)]).log =
      [.started (some 5) 7, .replied 6 true] := by
  decide

/-! ## Examples -/

example : givenIn 5 [.discover seedEnv "a" (some 5), .next seedEnv, .shaken 0 true, .finish 0] = 1 := by decide

example : (({} : DiscW).run 1 [.discover seedEnv "b" (some 5)]).log = [.replied 5 false] := by decide

end Verif.Remote
