import Verif.Actor.Invariants2
import Verif.Actor.SupLemmas

/-! # Properties of actors, supervision, registry and worker pools (C12 - C18) -/

namespace Verif.Actor

variable {S M R : Type} {B : Behav S M R} {tracked : Bool}

/-! ### A small actor used in the examples -/

/-- Adds numbers, answers the sum so far; `0` makes it stop itself, `99` makes it panic. -/
def adder : Behav Nat Nat Nat where
  started s := .done s () false
  handle s m := if m = 99 then .panic else .done (s + m) (s + m) (m = 0)
  stopped s := .done s () false

def ask (n m : Nat) : Input Nat := .send ⟨n, .user m, true⟩
def tickN (k : Nat) : List (Input Nat) := List.replicate k (.tick false)

/-! ### C12 -/

/-- Requests are handled in the order the mailbox accepted them: what was handled so far is a prefix of
what was accepted, whatever the senders, the actor and the schedule do. -/
theorem C12_fifo (s : S) (ins : List (Input M)) :
    begun (run B tracked s ins).log <+: accepted (run B tracked s ins).log :=
  (queue_run s ins).pre

/-- ... and nothing is lost meanwhile: what was accepted and not yet begun is exactly the mailbox. -/
theorem C12_nothing_lost (s : S) (ins : List (Input M))
    (h : (run B tracked s ins).phase ≠ .gone) :
    accepted (run B tracked s ins).log
      = begun (run B tracked s ins).log ++ (run B tracked s ins).mailbox :=
  (queue_run s ins).eq h

/-- Never two handlers at a time. -/
theorem C12_one_at_a_time (s : S) (ins : List (Input M)) :
    oneAtATime none (run B tracked s ins).log :=
  (alone_run s ins).ok

/-- Each request is handled at most once. -/
theorem C12_at_most_once (s : S) (ins : List (Input M))
    (hd : (requests ins).Nodup) : (begun (run B tracked s ins).log).Nodup := by
  refine (C12_fifo s ins).sublist.nodup ?_
  have h : (accepted (run B tracked s ins).log).Sublist (attempts (run B tracked s ins).log) := by
    generalize (run B tracked s ins).log = l
    induction l with
    | nil => simp
    | cons e l ih =>
      cases e <;> simp [accepted, attempts] at ih ⊢ <;> first | exact ih | exact List.Sublist.cons _ ih
  rw [attempts_run] at h
  exact h.nodup hd

/-- The requests up to and including the first stop request. -/
def untilStop : List (Item M) → List (Item M)
  | [] => []
  | i :: is => if i.isStop then [i] else i :: untilStop is

theorem untilStop_prefix (pre post : List (Item M)) (i : Item M) (hi : i.isStop = true)
    (hp : ∀ j ∈ pre, j.isStop = false) : untilStop (pre ++ i :: post) = pre ++ [i] := by
  induction pre with
  | nil => simp [untilStop, hi]
  | cons j pre ih =>
    simp [untilStop, hp j (by simp), ih fun k hk => hp k (by simp [hk])]

theorem untilStop_none (is : List (Item M)) (hp : ∀ j ∈ is, j.isStop = false) : untilStop is = is := by
  induction is with
  | nil => rfl
  | cons j pre ih =>
    simp [untilStop, hp j (by simp), ih fun k hk => hp k (by simp [hk])]

/-- If the actor does not stop by itself, then once it stopped it has handled exactly the accepted
requests up to the first stop request. -/
theorem C12_before_stop (hq : B.Quiet) (s : S) (ins : List (Input M))
    (hg : (run B tracked s ins).phase = .gone) :
    finished (run B tracked s ins).log = untilStop (accepted (run B tracked s ins).log) := by
  have h := quiet_run (tracked := tracked) hq s ins
  have hp := C12_fifo (B := B) (tracked := tracked) s ins
  simp only [QuietOk, hg] at h
  obtain ⟨⟨pre, i, h1, h2, h3⟩, h4⟩ := h
  obtain ⟨post, hpost⟩ := hp
  rw [← hpost, h4, h1]
  rw [List.append_assoc, List.singleton_append, untilStop_prefix _ _ _ h2 h3]

/-- how many steps of its task the actor still needs -/
def work (σ : St S M R) : Nat :=
  match σ.phase with
  | .created => 1 + 2 * σ.mailbox.length
  | .looping => 2 * σ.mailbox.length
  | .handling _ => 1 + 2 * σ.mailbox.length
  | _ => 0

theorem work_step (hq : B.Quiet) (σ : St S M R) (hok : StatusOk σ) (down : Bool) (hw : 0 < work σ) :
    work (step B tracked σ (.tick down)) < work σ
    ∧ accepted (step B tracked σ (.tick down)).log = accepted σ.log := by
  unfold work at hw
  cases hp : σ.phase with
  | created =>
    obtain ⟨s', u, hs⟩ := hq.1 σ.actor
    simp [step, tick, hp, hs, work]; simp [accepted]
  | looping =>
    cases hm : σ.mailbox with
    | nil => simp [hp, hm] at hw
    | cons i rest => simp [step, tick, hp, hm, work]; simp [accepted]; omega
  | handling i =>
    unfold StatusOk at hok
    rw [hp] at hok; simp only at hok
    simp only [step, tick, hp, handle]
    have hr : ∀ r : Reply R,
        accepted (if i.wantsReply then [Ev.replied (M := M) i.num r] else []) = [] := by
      intro r; split <;> rfl
    cases hb : i.body with
    | user m =>
      obtain ⟨s', r, hs⟩ := hq.2.1 σ.actor m
      simp [hs, handled, work, hp, hok, hr]; simp [accepted]
    | stop a => simp [handled, ctxStop, work, hp, hr]; simp [accepted]; omega
    | watch a b => simp [handled, work, hp, hok, hr]; simp [accepted]
    | unwatch a => simp [handled, work, hp, hok, hr]; simp [accepted]
    | status => simp [handled, work, hp, hok, hr]; simp [accepted]
  | ending => simp [hp] at hw
  | deregistering => simp [hp] at hw
  | gone => simp [hp] at hw

theorem ticks_idle (hq : B.Quiet) (s : S) (n : Nat) : ∀ (ins : List (Input M)),
    work (run B tracked s ins) ≤ n →
    ∃ k ≤ n, work (run B tracked s (ins ++ List.replicate k (.tick false))) = 0
      ∧ accepted (run B tracked s (ins ++ List.replicate k (.tick false))).log
        = accepted (run B tracked s ins).log := by
  induction n with
  | zero => intro ins h; exact ⟨0, by omega, by simpa using h, by simp⟩
  | succ n ih =>
    intro ins h
    by_cases h0 : work (run B tracked s ins) = 0
    · exact ⟨0, by omega, by simpa using h0, by simp⟩
    · obtain ⟨h1, h2⟩ := work_step (tracked := tracked) hq _ (statusOk_run s ins) false
        (Nat.pos_of_ne_zero h0)
      rw [← run_snoc] at h1 h2
      obtain ⟨k, hk, h3, h4⟩ := ih (ins ++ [.tick false]) (by omega)
      refine ⟨k + 1, by omega, ?_, ?_⟩
      · rw [List.replicate_succ, List.append_cons]; exact h3
      · rw [List.replicate_succ, List.append_cons, h4, h2]

/-- Progress: if the actor does not stop by itself and its task keeps running, then within a bounded
number of its steps it has handled everything accepted so far, up to the first stop request. -/
theorem C12_progress (hq : B.Quiet) (s : S) (ins : List (Input M)) :
    ∃ k ≤ 1 + 2 * (run B tracked s ins).mailbox.length,
      finished (run B tracked s (ins ++ List.replicate k (.tick false))).log
        = untilStop (accepted (run B tracked s ins).log) := by
  have hw : work (run B tracked s ins) ≤ 1 + 2 * (run B tracked s ins).mailbox.length := by
    unfold work; split <;> omega
  obtain ⟨k, hk, h1, h2⟩ := ticks_idle (tracked := tracked) hq s _ ins hw
  refine ⟨k, hk, ?_⟩
  rw [← h2]
  generalize ins ++ List.replicate k (.tick false) = js at h1
  have hqo := quiet_run (tracked := tracked) hq s js
  have hqu := queue_run (B := B) (tracked := tracked) s js
  unfold QuietOk at hqo
  have fin : ∀ σ : St S M R, ((∃ pre i, finished σ.log = pre ++ [i] ∧ i.isStop = true ∧
      ∀ j ∈ pre, j.isStop = false) ∧ begun σ.log = finished σ.log) → Queue σ →
      finished σ.log = untilStop (accepted σ.log) := by
    rintro σ ⟨⟨pre, i, a1, a2, a3⟩, a4⟩ ⟨-, ⟨post, hpost⟩, -⟩
    rw [← hpost, a4, a1, List.append_assoc, List.singleton_append, untilStop_prefix _ _ _ a2 a3]
  unfold work at h1
  cases hp : (run B tracked s js).phase with
  | created => simp [hp] at h1
  | looping =>
    rw [hp] at hqo h1
    have h1' : (run B tracked s js).mailbox = [] := List.length_eq_zero_iff.1 (by simp only at h1; omega)
    have := hqu.eq (by simp [hp])
    rw [this, h1', hqo.2]
    simp [untilStop_none _ hqo.1]
  | handling i => simp [hp] at h1
  | ending => rw [hp] at hqo; exact fin _ hqo hqu
  | deregistering => rw [hp] at hqo; exact fin _ hqo hqu
  | gone => rw [hp] at hqo; exact fin _ hqo hqu

/-- Two senders, a stop request in between: the first three are handled, the fourth is not. -/
def c12Run : St Nat Nat Nat :=
  run adder false 0 ([ask 1 5, .tick false, ask 2 7, .send ⟨3, .stop true, false⟩, ask 4 1] ++ tickN 9)

example : (begun c12Run.log).map (·.num) = [1, 2, 3] ∧ (accepted c12Run.log).map (·.num) = [1, 2, 3, 4]
    ∧ c12Run.phase = .gone := by decide

/-! ### C13 -/

/-- The result a sender gets is the one its own message produced: if request `n` was answered `r`, then
there is a handled request with that number, sent with `send`, and `r` is what the actor answers to
that message in the state left by all requests handled before it. -/
theorem C13_own_result (s : S) (ins : List (Input M)) (n : Nat) (r : Reply R)
    (h : (n, r) ∈ replies (run B tracked s ins).log) :
    ∃ s1 u pre i post s2 s3, B.started s = .done s1 u false
      ∧ finished (run B tracked s ins).log = pre ++ i :: post
      ∧ i.num = n ∧ i.wantsReply = true
      ∧ serveAll B s1 pre = some s2 ∧ serve B s2 i = some (s3, r) := by
  have hs := seq_run (B := B) (tracked := tracked) s ins
  have key : ∀ (s1 : S) (is : List (Item M)), (n, r) ∈ answers B s1 is →
      ∃ pre i post s2 s3, is = pre ++ i :: post ∧ i.num = n ∧ i.wantsReply = true
        ∧ serveAll B s1 pre = some s2 ∧ serve B s2 i = some (s3, r) := by
    intro s1 is
    induction is generalizing s1 with
    | nil => simp [answers]
    | cons j is ih =>
      intro hm
      simp only [answers] at hm
      cases hsv : serve B s1 j with
      | none => simp [hsv] at hm
      | some p =>
        obtain ⟨s', r'⟩ := p
        simp only [hsv, List.mem_append] at hm
        rcases hm with hm | hm
        · split at hm
          · rename_i hw
            simp at hm
            exact ⟨[], j, is, s1, s', rfl, hm.1.symm, hw, rfl, by rw [hsv, hm.2]⟩
          · simp at hm
        · obtain ⟨pre, i, post, s2, s3, h1, h2, h3, h4, h5⟩ := ih s' hm
          exact ⟨j :: pre, i, post, s2, s3, by simp [h1], h2, h3, by simp [serveAll, hsv, h4], h5⟩
  unfold Seq at hs
  have fin : ∀ s1 u, B.started s = .done s1 u false →
      replies (run B tracked s ins).log = answers B s1 (finished (run B tracked s ins).log) →
      ∃ s1 u pre i post s2 s3, B.started s = .done s1 u false
      ∧ finished (run B tracked s ins).log = pre ++ i :: post
      ∧ i.num = n ∧ i.wantsReply = true
      ∧ serveAll B s1 pre = some s2 ∧ serve B s2 i = some (s3, r) := by
    intro s1 u h1 h2
    obtain ⟨pre, i, post, s2, s3, a1, a2, a3, a4, a5⟩ := key s1 _ (h2 ▸ h)
    exact ⟨s1, u, pre, i, post, s2, s3, h1, a1, a2, a3, a4, a5⟩
  cases hp : (run B tracked s ins).phase <;> simp only [hp] at hs
  · simp [hs.2.2] at h
  · obtain ⟨s1, u, h1, h2, h3⟩ := hs; exact fin s1 u h1 h3
  · obtain ⟨s1, u, h1, h2, h3⟩ := hs; exact fin s1 u h1 h3
  all_goals
    rcases hs with ⟨_, h2⟩ | ⟨s1, u, h1, h2, h3⟩
    · simp [h2] at h
    · exact fin s1 u h1 h3

/-- A handled request sent with `send` has been answered (so it does not end in an error). -/
theorem C13_handled_is_answered (s : S) (ins : List (Input M)) (i : Item M)
    (h : i ∈ finished (run B tracked s ins).log) (hw : i.wantsReply = true) :
    ∃ r, (i.num, r) ∈ replies (run B tracked s ins).log := by
  have hs := seq_run (B := B) (tracked := tracked) s ins
  have key : ∀ (s1 : S) (is : List (Item M)), (serveAll B s1 is).isSome → i ∈ is →
      ∃ r, (i.num, r) ∈ answers B s1 is := by
    intro s1 is
    induction is generalizing s1 with
    | nil => simp
    | cons j is ih =>
      intro ha hm
      simp only [serveAll] at ha
      cases hsv : serve B s1 j with
      | none => simp [hsv] at ha
      | some p =>
        simp [hsv] at ha
        simp only [answers, hsv, List.mem_append]
        rcases List.mem_cons.1 hm with rfl | hm
        · exact ⟨p.2, .inl (by simp [hw])⟩
        · obtain ⟨r, hr⟩ := ih p.1 ha hm
          exact ⟨r, .inr hr⟩
  unfold Seq at hs
  cases hp : (run B tracked s ins).phase <;> simp only [hp] at hs
  · simp [hs.2.1] at h
  · obtain ⟨s1, u, h1, h2, h3⟩ := hs; rw [h3]; exact key s1 _ (by simp [h2]) h
  · obtain ⟨s1, u, h1, h2, h3⟩ := hs; rw [h3]; exact key s1 _ (by simp [h2]) h
  all_goals
    rcases hs with ⟨h2, _⟩ | ⟨s1, u, h1, h2, h3⟩
    · simp [h2] at h
    · rw [h3]; exact key s1 _ h2 h

theorem count_requests (n : Nat) (is : List (Item M)) (p : Item M → Bool)
    (hp : ∀ i, p i = true → i.num = n) (hd : (is.map (·.num)).Nodup) : is.countP p ≤ 1 := by
  induction is with
  | nil => simp
  | cons i is ih =>
    rw [List.map_cons, List.nodup_cons] at hd
    have := ih hd.2
    rw [List.countP_cons]
    cases hpi : p i with
    | false => simpa using this
    | true =>
      have : is.countP p = 0 := by
        rw [List.countP_eq_zero]
        intro j hj hpj
        exact hd.1 (List.mem_map.2 ⟨j, hj, by rw [hp j hpj, hp i hpi]⟩)
      simp [this]

/-- No request ever gets more than one outcome. -/
theorem C13_at_most_one (s : S) (ins : List (Input M)) (hd : ((requests ins).map (·.num)).Nodup)
    (n : Nat) : outcomes n (run B tracked s ins).log ≤ 1 := by
  have h := (balance_run (B := B) (tracked := tracked) n s ins).req
  rw [attempts_run] at h
  have := count_requests n (requests ins) (asks n) (by intro i hi; simp [asks] at hi; exact hi.2) hd
  omega

/-- Once the actor has stopped (or crashed), every request sent with `send` has exactly one outcome:
its result, a closed result channel, or a refused send. -/
theorem C13_exactly_one (s : S) (ins : List (Input M)) (hd : ((requests ins).map (·.num)).Nodup)
    (hg : (run B tracked s ins).phase = .gone) (i : Item M) (hi : i ∈ requests ins)
    (hw : i.wantsReply = true) : outcomes i.num (run B tracked s ins).log = 1 := by
  have hb := balance_run (B := B) (tracked := tracked) i.num s ins
  have h := hb.req
  rw [attempts_run] at h
  have h1 : current (run B tracked s ins) = [] := by simp [current, hg]
  rw [(hb.empty hg).1, h1] at h
  have h2 := count_requests i.num (requests ins) (asks i.num)
    (by intro i hi; simp [asks] at hi; exact hi.2) hd
  have h3 : 0 < (requests ins).countP (asks i.num) := by
    rw [List.countP_pos_iff]; exact ⟨i, hi, by simp [asks, hw]⟩
  simp at h
  omega

/-- The same for `stop().await`: one outcome each. -/
theorem C13_stop_exactly_one (s : S) (ins : List (Input M)) (hd : ((requests ins).map (·.num)).Nodup)
    (hg : (run B tracked s ins).phase = .gone) (i : Item M) (hi : i ∈ requests ins)
    (hw : i.awaitsStop = true) : stopOutcomes i.num (run B tracked s ins).log = 1 := by
  have hb := balance_run (B := B) (tracked := tracked) i.num s ins
  have h := hb.stop
  rw [attempts_run] at h
  have h1 : current (run B tracked s ins) = [] := by simp [current, hg]
  rw [(hb.empty hg).1, h1, (hb.empty hg).2] at h
  have h2 := count_requests i.num (requests ins) (asksStop i.num)
    (by intro i hi; simp [asksStop] at hi; exact hi.1) hd
  have h3 : 0 < (requests ins).countP (asksStop i.num) := by
    rw [List.countP_pos_iff]; exact ⟨i, hi, by simp [asksStop, hw]⟩
  simp at h
  omega

/-- Sums are answered to the right requests; the request behind the stop gets an error. -/
example : replies c12Run.log = [(1, .user 5), (2, .user 12)] ∧ Ev.lost 4 ∈ c12Run.log
    ∧ Ev.ack 3 ∈ c12Run.log ∧ outcomes 4 c12Run.log = 1 := by decide

/-- A panic: the request being handled and those behind it get an error, the next send is refused. -/
example : (run adder false 0 ([ask 1 5, ask 2 99, ask 3 1] ++ tickN 9 ++ [ask 4 1])).log.filter
      (fun e => settles 1 e || settles 2 e || settles 3 e || settles 4 e)
    = [.replied 1 (.user 5), .lost 2, .lost 3, .refused ⟨4, .user 1, true⟩] := by decide

/-! ### C14 -/

/-- What the lifecycle may look like from the outside: `started`, then, unless it asked to stop, the
actor is up and handles messages, then `stopped`. -/
inductive Lifecycle : List Life → Prop
  | refusedToStart : Lifecycle [.startedHook, .stoppedHook]
  | full (k : Nat) : Lifecycle ([.startedHook, .up] ++ List.replicate k .message ++ [.stoppedHook])

/-- At any moment the events so far are the beginning of a lifecycle. -/
theorem C14_lifecycle (s : S) (ins : List (Input M)) :
    ∃ l, Lifecycle l ∧ life (run B tracked s ins).log <+: l := by
  have h := life_run (B := B) (tracked := tracked) s ins
  unfold LifeOk at h
  have full : ∀ l, Working l → Lifecycle (l ++ [.stoppedHook]) := by
    rintro l ⟨k, rfl⟩; exact .full k
  cases hp : (run B tracked s ins).phase <;> simp only [hp] at h
  · exact ⟨_, .refusedToStart, by simp [h.1]⟩
  · exact ⟨_, full _ h.1, List.prefix_append _ _⟩
  · exact ⟨_, full _ h.1, List.prefix_append _ _⟩
  · rcases h with h | h
    · exact ⟨_, .refusedToStart, by rw [h.1]; exact ⟨[.stoppedHook], rfl⟩⟩
    · exact ⟨_, full _ h.1, List.prefix_append _ _⟩
  · rcases h with h | ⟨l, hl, h, _⟩
    · exact ⟨_, .refusedToStart, by rw [h.1]; exact List.prefix_refl _⟩
    · exact ⟨_, full _ hl, by rw [h]; exact List.prefix_refl _⟩
  · rcases h.2 with h | ⟨l, hl, h, _⟩
    · exact ⟨_, .refusedToStart, h.1⟩
    · refine ⟨_, full _ hl, ?_⟩
      rcases h with h | h <;> rw [h]
      · exact List.prefix_append _ _
      · exact List.prefix_refl _

/-- Once the actor has stopped without a panic, the lifecycle is complete. -/
theorem C14_complete (s : S) (ins : List (Input M)) (hg : (run B tracked s ins).phase = .gone)
    (hc : ¬ hasCrashed (run B tracked s ins).log) : Lifecycle (life (run B tracked s ins).log) := by
  have h := life_run (B := B) (tracked := tracked) s ins
  unfold LifeOk at h
  simp only [hg] at h
  rcases h.2 with h | ⟨l, ⟨k, rfl⟩, _, h, _⟩
  · rw [(h.2 hc).1]; exact .refusedToStart
  · rw [h hc]; exact .full k

/-- The status only moves forward. -/
theorem C14_status_forward (s : S) (ins : List (Input M)) (inp : Input M) :
    (run B tracked s ins).status.rank ≤ (run B tracked s (ins ++ [inp])).status.rank := by
  rw [run_snoc]
  have hok := statusOk_run (B := B) (tracked := tracked) s ins
  have st := step_shape (B := B) (tracked := tracked) _ inp hok
  generalize run B tracked s ins = σ at hok st
  generalize step B tracked σ inp = σ' at st
  unfold StatusOk at hok
  cases st with
  | startStop s u h hb => rw [h] at hok; simp only at hok; rw [hok]; simp [Status.rank]
  | startOk s u h hb => rw [h] at hok; simp only at hok; rw [hok]; simp [Status.rank]
  | serveOk i s r h hs =>
    rw [h] at hok; simp only at hok; rw [hok]
    simp only
    split <;> simp [Status.rank]
  | stopDereg s u b h hb => rw [h] at hok; simp only at hok; rw [hok]; simp [Status.rank]
  | stopFinal s u b h hb =>
    rw [h] at hok; simp only at hok; rw [hok]; simp [finalise, Status.rank]
  | _ => exact Nat.le_refl _

/-- A status query that is answered is answered `started`: the starting and stopping phases are not
visible to senders. -/
theorem C14_status_seen (s : S) (ins : List (Input M)) (n : Nat) (st : Status)
    (h : (n, .status st) ∈ replies (run B tracked s ins).log) : st = .started := by
  obtain ⟨s1, u, pre, i, post, s2, s3, _, _, _, _, _, hs⟩ := C13_own_result s ins n _ h
  unfold serve at hs
  cases hb : i.body with
  | user m =>
    simp only [hb] at hs
    split at hs <;> simp at hs
  | status => simp [hb] at hs; exact hs.2.symm
  | _ => simp [hb] at hs

/-- Whoever waits for the start hears exactly one answer, at the latest when the actor is gone; it is
"up" exactly if `started` returned without asking to stop and without panicking. -/
theorem C14_starter (s : S) (ins : List (Input M)) :
    starterAnswers (run B tracked s ins).log = [] ∨ starterAnswers (run B tracked s ins).log
      = [match B.started s with | .done _ _ false => true | _ => false] := by
  have h := told_run (B := B) (tracked := tracked) s ins
  cases hs : (run B tracked s ins).starter with
  | true => exact .inl (h.pending hs)
  | false => exact .inr (h.answered hs)

theorem C14_starter_answered (s : S) (ins : List (Input M))
    (hg : (run B tracked s ins).phase = .gone) :
    starterAnswers (run B tracked s ins).log
      = [match B.started s with | .done _ _ false => true | _ => false] := by
  have h := life_run (B := B) (tracked := tracked) s ins
  unfold LifeOk at h
  simp only [hg] at h
  exact (told_run s ins).answered h.1

example : life c12Run.log = [.startedHook, .up, .message, .message, .message, .stoppedHook]
    ∧ starterAnswers c12Run.log = [true] := by decide

/-- An actor that asks to stop in `started`: never up, handles nothing, the waiting request fails. -/
example : let B : Behav Nat Nat Nat := { adder with started := fun s => .done s () true }
    life (run B false 0 ([ask 1 5] ++ tickN 3)).log = [.startedHook, .stoppedHook]
    ∧ starterAnswers (run B false 0 ([ask 1 5] ++ tickN 3)).log = [false]
    ∧ outcomes 1 (run B false 0 ([ask 1 5] ++ tickN 3)).log = 1 := by decide

/-! ### C15 -/

/-- When an actor has stopped without a panic, for every id `w` the notifications sent to `w` are: one,
to the receiver that subscribed last, if the last handled request about `w` was a subscription; none
otherwise. -/
theorem C15_watchers_partial (s : S) (ins : List (Input M)) (w : String)
    (hg : (run B tracked s ins).phase = .gone) (hc : ¬ hasCrashed (run B tracked s ins).log) :
    (notifications (run B tracked s ins).log).filter (fun p => p.1 = w)
      = (subscribed w (finished (run B tracked s ins).log)).toList.map (fun r => (w, r)) :=
  (watch_run w s ins).done hg hc

/-- Nobody is notified while the actor is alive. -/
theorem C15_not_early (s : S) (ins : List (Input M)) (hg : (run B tracked s ins).phase ≠ .gone) :
    notifications (run B tracked s ins).log = [] :=
  ((watch_run "" s ins).quiet hg).1

/-- A panic makes the task end without any notification, whoever is watching. -/
theorem C15_panic_silent (s : S) (ins : List (Input M)) (hc : hasCrashed (run B tracked s ins).log) :
    notifications (run B tracked s ins).log = [] :=
  (watch_run "" s ins).crash hc

/-- The full statement: whenever the actor is gone, every subscriber has been notified. -/
def C15_full : Prop :=
  ∀ (ins : List (Input Nat)) (w : String), (run adder true 0 ins).phase = .gone →
    (notifications (run adder true 0 ins).log).filter (fun p => p.1 = w)
      = (subscribed w (finished (run adder true 0 ins).log)).toList.map (fun r => (w, r))

/-- It is false: a tracked actor stops in an orderly way, but the scheduler is gone when it
de-registers, `expect` panics, and its watcher never hears of it. -/
theorem C15_refuted : ¬ C15_full := by
  intro h
  have := h ([.send ⟨1, .watch "w" 7, false⟩, .send ⟨2, .stop false, false⟩] ++ tickN 6
    ++ [.deregAnswer false]) "w" (by decide)
  revert this; decide

/-- Subscribed twice, unsubscribed once by another, stopped: one notification, to the last receiver. -/
example : notifications (run adder false 0
      ([.send ⟨1, .watch "a" 1, false⟩, .send ⟨2, .watch "b" 2, false⟩, .send ⟨3, .watch "a" 3, false⟩,
        .send ⟨4, .unwatch "b", false⟩, .send ⟨5, .stop false, false⟩] ++ tickN 12)).log
    = [("a", 3)] := by decide

/-! ### C16 -/

/-- The ids with a child are exactly those spawned or attached and not reported terminated since, for
every sequence of operations. -/
theorem C16_children (ops : List SupOp) (id : String) :
    ((supRun ops).get id).isSome ↔ (ops.filterMap (aboutChild id)).getLast? = some true := by
  have h := supFold_isSome ops [] id
  unfold supRun
  rw [h]
  have : (Map.get ([] : Map Child) id).isSome = false := rfl
  rw [this]
  cases hl : (ops.filterMap (aboutChild id)).getLast? with
  | none => simp
  | some b => cases b <;> simp

/-- Spawning an id that has a child is refused and changes nothing; otherwise it is not refused. -/
theorem C16_spawn_refused (cs : Map Child) (id : String) (r : Nat) (ok : Bool) :
    ((spawn cs id r ok).2 = .alreadyExists ↔ (cs.get id).isSome)
    ∧ ((cs.get id).isSome → (spawn cs id r ok).1 = cs)
    ∧ ((spawnDeferred cs id r).2 = .alreadyExists ↔ (cs.get id).isSome)
    ∧ ((cs.get id).isSome → (spawnDeferred cs id r).1 = cs) := by
  unfold spawn spawnDeferred
  cases cs.get id <;> cases ok <;> simp

/-- After a child was reported terminated its id can be spawned again, and the new child is the one
found under it. -/
theorem C16_reuse (ops : List SupOp) (id : String) (r : Nat) :
    (spawn (supRun (ops ++ [.terminated id])) id r true).2 = .ok r
    ∧ (spawn (supRun (ops ++ [.terminated id])) id r true).1.get id = some ⟨.spawned, r⟩ := by
  have : (supRun (ops ++ [.terminated id])).get id = none := by
    simp [supRun, supStep, onChildStopped, Map.get_erase]
  simp [spawn, this, Map.get_insert]

/-- When the parent's context is dropped every child is asked to stop, each exactly once. -/
theorem C16_stop_all (ops : List SupOp) (stopped : Nat → Bool) (id : String) (c : Child)
    (h : (supRun ops).get id = some c) : c.ref ∈ (stopAll (supRun ops) stopped).1 := by
  exact List.mem_map.2 ⟨_, Map.mem_of_get h, rfl⟩

theorem C16_stop_all_only (ops : List SupOp) (stopped : Nat → Bool) (r : Nat)
    (h : r ∈ (stopAll (supRun ops) stopped).1) : ∃ id c, (supRun ops).get id = some c ∧ c.ref = r := by
  obtain ⟨⟨id, c⟩, hm, rfl⟩ := List.mem_map.1 h
  exact ⟨id, c, Map.get_of_mem (supRun_uniq ops) hm, rfl⟩

theorem C16_stop_all_count (ops : List SupOp) (stopped : Nat → Bool) :
    (stopAll (supRun ops) stopped).1.length = (supRun ops).length := by simp [stopAll]

/-- Seen with the actors themselves: as long as no reference is attached by hand, the children the
parent knows are exactly the spawned actors that are still running or whose `Terminated` it has not
handled yet. A child that is running is never forgotten, and a late `Terminated` never removes a
successor. -/
theorem C16_family_partial (ops : List FamOp) (ha : ∀ op ∈ ops, op.isAttach = false)
    (id : String) (r : Nat) :
    (∃ k, (famRun ops).kids.get id = some ⟨k, r⟩)
      ↔ (id, r) ∈ (famRun ops).running ∨ (id, r) ∈ (famRun ops).notices := by
  obtain ⟨h1, h2, h3⟩ := famOk_run ops ha
  rw [← List.mem_append, ← h2]
  constructor
  · rintro ⟨k, hk⟩; exact ⟨k, Map.mem_of_get hk⟩
  · rintro ⟨k, hk⟩; exact ⟨k, Map.get_of_mem h1 hk⟩

/-- The same without the restriction. -/
def C16_family_full : Prop :=
  ∀ (ops : List FamOp) (id : String) (r : Nat), (id, r) ∈ (famRun ops).running →
    ∃ k, (famRun ops).kids.get id = some ⟨k, r⟩

/-- It is false: attaching a reference under the id of a running child replaces that child, which is
then neither found nor stopped with its parent; when it dies, the attached one is removed. -/
theorem C16_family_refuted : ¬ C16_family_full := by
  intro h
  obtain ⟨k, hk⟩ := h [.spawn "a" 1, .attach "a" 2] "a" 1 (by decide)
  cases k <;> (revert hk; decide)

theorem C16_stale_notice_refuted :
    (famRun [.spawn "a" 1, .attach "a" 2, .die "a" 1, .deliver]).kids.get "a" = none := by decide

/-- A child dies, its id is spawned again after the notice. -/
example : (famRun [.spawn "a" 1, .spawn "b" 2, .die "a" 1, .spawn "a" 3, .deliver, .spawn "a" 4]).kids.get "a"
      = some ⟨.spawned, 4⟩
    ∧ (famRun [.spawn "a" 1, .spawn "b" 2, .die "a" 1, .spawn "a" 3]).kids.get "a"
      = some ⟨.spawned, 1⟩ := by decide

/-! ### C17 -/

/-- The full statement: every lookup is answered with the actor that was running and registered under
the id when the lookup was sent. -/
def C17_full : Prop := ∀ (ops : List RegOp), ∀ a ∈ (regRun ops).answers, a.2.1 = a.2.2

/-- It is false: two actors under one id; when the first stops, `DeregisterActor(id)` removes the second
one, which runs on and cannot be found. -/
theorem C17_refuted : ¬ C17_full := by
  intro h
  have := h [.start "x" 1, .sendRegister "x", .process, .start "x" 2, .sendRegister "x", .process,
    .stop "x" 1, .process, .lookup "x", .process] ("x", none, some 2) (by decide)
  revert this; decide

/-- ... and an actor that stops before its creator got to register it stays registered for ever. -/
theorem C17_dead_ref_refuted : ¬ C17_full := by
  intro h
  have := h [.start "x" 1, .stop "x" 1, .sendRegister "x", .process, .process, .lookup "x", .process]
    ("x", some 1, none) (by decide)
  revert this; decide

/-- If ids are not shared by running actors and no actor stops before its registration was sent, every
lookup is answered with the truth at the time it was sent. -/
theorem C17_lookup_partial (ops : List RegOp) (hd : Disciplined ⟨[], [], [], [], []⟩ ops) :
    ∀ a ∈ (regRun ops).answers, a.2.1 = a.2.2 :=
  (regOk_run ops hd).answered

/-- ... and a quiet registry holds exactly the running, registered actors. -/
theorem C17_quiet_partial (ops : List RegOp) (hd : Disciplined ⟨[], [], [], [], []⟩ ops)
    (hq : (regRun ops).queue = []) (id : String) :
    (regRun ops).actors.get id = (regRun ops).truth id := by
  have := (regOk_run ops hd).final id
  simpa [Registry.final, hq] using this

/-- Stop and restart under the same id, with lookups in flight. -/
example : (regRun [.start "x" 1, .sendRegister "x", .lookup "x", .stop "x" 1, .lookup "x", .start "x" 2,
      .sendRegister "x", .lookup "x", .process, .process, .process, .process, .process, .process]).answers
    = [("x", some 1, some 1), ("x", none, none), ("x", some 2, some 2)] := by decide

example : Disciplined ⟨[], [], [], [], []⟩ [.start "x" 1, .sendRegister "x", .stop "x" 1, .start "x" 2] := by
  simp [Disciplined, RegOp.ok, regStep, Map.get, Map.erase]

/-! ### C18 -/

/-- Each request goes to exactly one worker: request `j` (from 0) to worker `j mod n`. -/
theorem C18_round_robin {W : Type} (ws : List W) (hn : 0 < ws.length) (k : Nat) :
    (workerRun ws k).2 = (List.range k).map (fun j => ws[j % ws.length]?) :=
  (workerRun_state ws k hn).2

/-- How many of `k` requests worker number `a` got. -/
def workerLoad {W : Type} [DecidableEq W] (ws : List W) (k : Nat) (w : W) : Nat :=
  (workerRun ws k).2.count (some w)

theorem workerLoad_eq {W : Type} [DecidableEq W] (ws : List W) (hd : ws.Nodup) (k a : Nat)
    (ha : a < ws.length) :
    workerLoad ws k ws[a] = k / ws.length + (if a < k % ws.length then 1 else 0) := by
  have hn : 0 < ws.length := by omega
  rw [workerLoad, C18_round_robin ws hn, ← count_mod ws.length a k ha]
  rw [List.count, List.count, List.countP_map, List.countP_map]
  refine List.countP_congr ?_
  intro j _
  have hj := Nat.mod_lt j hn
  simp only [Function.comp_apply, List.getElem?_eq_getElem hj, beq_iff_eq, Option.some.injEq]
  constructor
  · intro e
    rw [List.Nodup, List.pairwise_iff_getElem] at hd
    rcases Nat.lt_trichotomy (j % ws.length) a with h | h | h
    · exact absurd e (hd _ _ hj ha h)
    · exact h
    · exact absurd e.symm (hd _ _ ha hj h)
  · intro e; subst e; rfl

/-- The loads of any two workers differ by at most one, after any number of requests. -/
theorem C18_fair {W : Type} [DecidableEq W] (ws : List W) (hd : ws.Nodup) (k : Nat) (v w : W)
    (hv : v ∈ ws) (hw : w ∈ ws) : workerLoad ws k v ≤ workerLoad ws k w + 1 := by
  obtain ⟨a, ha, rfl⟩ := List.mem_iff_getElem.1 hv
  obtain ⟨b, hb, rfl⟩ := List.mem_iff_getElem.1 hw
  rw [workerLoad_eq ws hd k a ha, workerLoad_eq ws hd k b hb]
  split <;> split <;> omega

/-- Together the workers got all requests. -/
theorem C18_all_served {W : Type} (ws : List W) (hn : 0 < ws.length) (k : Nat) :
    (workerRun ws k).2.length = k ∧ ∀ o ∈ (workerRun ws k).2, ∃ w ∈ ws, o = some w := by
  rw [C18_round_robin ws hn]
  refine ⟨by simp, ?_⟩
  intro o ho
  obtain ⟨j, _, rfl⟩ := List.mem_map.1 ho
  have hj := Nat.mod_lt j hn
  exact ⟨_, List.getElem_mem hj, List.getElem?_eq_getElem hj⟩

/-- Without workers every request is dropped. -/
theorem C18_empty_pool {W : Type} (k : Nat) :
    (workerRun ([] : List W) k).2 = List.replicate k none := by
  have : ∀ k, workerRun ([] : List W) k = ([], List.replicate k none) := by
    intro k
    induction k with
    | zero => rfl
    | succ k ih => simp [workerRun, ih, workerHandle, List.replicate_succ']
  rw [this]

example : (workerRun (workerIds "w" 3) 5).2
    = [some "w-1", some "w-2", some "w-3", some "w-1", some "w-2"] := by decide

/-- The children still known after all were told to stop are those that could not be stopped. -/
theorem C16_stop_all_rest (ops : List SupOp) (stopped : Nat → Bool) (id : String) (c : Child) :
    (stopAll (supRun ops) stopped).2.get id = some c ↔ (supRun ops).get id = some c ∧ stopped c.ref = false := by
  have hu := supRun_uniq ops
  have hu' : Map.Uniq ((supRun ops).filter fun p => !stopped p.2.ref) := List.Pairwise.filter _ hu
  constructor
  · intro h
    have hm := List.mem_filter.1 (Map.mem_of_get h)
    exact ⟨Map.get_of_mem hu hm.1, by simpa using hm.2⟩
  · rintro ⟨h, hs⟩
    exact Map.get_of_mem hu' (List.mem_filter.2 ⟨Map.mem_of_get h, by simp [hs]⟩)

end Verif.Actor
