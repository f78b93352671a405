import Verif.Actor.WaitsLemmas2
import Verif.Actor.WaitsTable

/-!
# Nobody waits for ever

The claim: whatever is asked, in whatever order the actors run, every request is answered in the end. For actors in
general it is exactly a matter of the waits going down (`C100_answered`); for the framework's own actors it holds without
four hooks (`C100_framework_partial`) and is false for each of them.
-/

namespace Verif.Actor.Waits

variable {α η : Type} [DecidableEq α] {H : Hooks η}

/-- Waits that go down: as long as something is unanswered something can happen without anything new being asked, there is
only so much of it, and when it is over every outside request has been answered exactly once. -/
theorem C100_answered {edge : α → η → α → η → Prop} (hd : GoesDown H edge) {actors : List α}
    {ops : List (Op α η)} {s : St α η} (hf : AllFit edge ops) (hr : run H (init actors) ops = some s) :
    (s.jobs ≠ [] → ∃ op : Op α η, op.inner = true ∧ (step H s op).isSome = true) ∧
    ∃ n, ∀ ops' s', (∀ op ∈ ops', op.inner = true) → run H s ops' = some s' →
      ops'.length ≤ n ∧ (Still H s' → s'.jobs = [] ∧ s'.answered.Perm (tags ops)) := by
  obtain ⟨hi, ht⟩ := tidy_run (Inv.init actors) (Tidy.init actors) hf hr
  refine ⟨fun hne => can_any hi ht hd hne, weight s, ?_⟩
  intro ops' s' hin hr'
  have hw := weight_run hi hin hr'
  refine ⟨by omega, fun hst => ?_⟩
  have hfit : AllFit edge ops' := fun n r hm => by
    have := hin _ hm
    cases this
  obtain ⟨hi', ht'⟩ := tidy_run hi ht hfit hr'
  have hnil : s'.jobs = [] := by
    refine Classical.byContradiction fun hne => ?_
    obtain ⟨op, ho, h⟩ := can_any hi' ht' hd hne
    rw [hst op ho] at h
    cases h
  refine ⟨hnil, ?_⟩
  have hall : run H (init actors) (ops ++ ops') = some s' := by
    rw [run_append, hr]
    exact hr'
  have hp := tags_run hall
  have h0 : tags ops' = [] := by
    rw [tags, List.filterMap_eq_nil_iff]
    intro op hm
    have := hin op hm
    cases op with
    | ask n r => cases this
    | _ => rfl
  have h1 : tags (ops ++ ops') = tags ops := by
    show (ops ++ ops').filterMap _ = _
    rw [List.filterMap_append]
    show tags ops ++ tags ops' = tags ops
    rw [h0, List.append_nil]
  rw [h1] at hp
  have h2 : s'.open = [] := by simp [St.open, hnil]
  rw [h2, List.append_nil] at hp
  exact hp

/-- A knot is for ever: whatever happens and is asked afterwards, its jobs stay where they are. -/
theorem C100_knot_stays {actors : List α} {ops ops' : List (Op α η)} {s s' : St α η} {D : List Nat}
    (hr : run H (init actors) ops = some s) (hk : Knot s D) (hr' : run H s ops' = some s') :
    Knot s' D ∧ ∀ j ∈ s.jobs, j.id ∈ D → j ∈ s'.jobs :=
  knot_run ((Inv.init actors).run hr) hk hr'

/-- … so an outside request in a knot is never answered. -/
theorem C100_knot_unanswered {actors : List α} {ops ops' : List (Op α η)} {s s' : St α η} {D : List Nat}
    {j : Job α η} {n : Nat} (hr : run H (init actors) ops = some s) (hk : Knot s D) (hj : j ∈ s.jobs)
    (hd : j.id ∈ D) (hn : j.caller = .outside n) (honce : (tags (ops ++ ops')).count n = 1)
    (hr' : run H s ops' = some s') : n ∉ s'.answered := by
  have hj' := (C100_knot_stays hr hk hr').2 j hj hd
  have hall : run H (init actors) (ops ++ ops') = some s' := by
    rw [run_append, hr]
    exact hr'
  have hp := (tags_run hall).count_eq n
  have h0 : (init actors : St α η).answered ++ (init actors : St α η).open = [] := rfl
  rw [h0, List.nil_append, honce, List.count_append] at hp
  have hop : n ∈ s'.open := List.mem_filterMap.2 ⟨j, hj', by simp [Job.tag?, hn]⟩
  have := List.count_pos_iff.2 hop
  intro hm
  have := List.count_pos_iff.2 hm
  omega

/-- … and whoever asks an actor busy with a job of a knot joins the knot. -/
theorem C100_knot_grows {actors : List α} {ops : List (Op α η)} {s : St α η} {D : List Nat} {k : Job α η}
    (hr : run H (init actors) ops = some s) (hk : Knot s D) (hm : k ∈ s.jobs) (hkd : k.id ∈ D)
    (hq : k.phase ≠ .queued) (n : Nat) (h : η) (hh : H.first h = false) (cs : List (Req α η)) :
    Knot (arrived H s n (.mk k.to h cs)) (s.next :: D) := by
  have hi := (Inv.init actors).run hr
  have hl := hi.live k hm
  have ha : accepts H s (.mk k.to h cs) = true := by
    simp [accepts, Req.hook, Req.to, hh, hl.1, hl.2]
  intro i him
  simp only [arrived, if_pos ha]
  rcases List.mem_cons.1 him with rfl | him
  · exact ⟨jobOf s.next (.outside n) (.mk k.to h cs), List.mem_append_right _ (List.mem_singleton.2 rfl), rfl,
      .inr ⟨rfl, k, List.mem_append_left _ hm, rfl, hq, List.mem_cons_of_mem _ hkd⟩⟩
  · obtain ⟨j, hj, e, hjj⟩ := hk i him
    refine ⟨j, List.mem_append_left _ hj, e, ?_⟩
    rcases hjj with ⟨p, c, hc, ec, hcd⟩ | ⟨p, x, hx, ex, px, hxd⟩
    · exact .inl ⟨p, c, List.mem_append_left _ hc, ec, List.mem_cons_of_mem _ hcd⟩
    · exact .inr ⟨p, x, List.mem_append_left _ hx, ex, px, List.mem_cons_of_mem _ hxd⟩

/-- Knots are the only way to wait for ever: when nothing can happen any more and something is unanswered, all that is
unanswered is a knot. -/
theorem C100_knot_only {actors : List α} {ops : List (Op α η)} {s : St α η}
    (hr : run H (init actors) ops = some s) (hst : Still H s) : Knot s (s.jobs.map Job.id) :=
  still_knot ((Inv.init actors).run hr) hst

/-- An actor that asks itself and waits for the answer never gets it, and never does anything else. -/
theorem C100_self {actors : List α} {ops ops' : List (Op α η)} {s s1 s' : St α η} {j : Job α η}
    {h : η} {cs rest : List (Req α η)} (hr : run H (init actors) ops = some s) (hj : j ∈ s.jobs)
    (hp : j.phase = .running) (hc : j.calls = .mk j.to h cs :: rest) (hh : H.first h = false)
    (hs : step H s (.call j.id) = some s1) (hr' : run H s1 ops' = some s') :
    ∃ k ∈ s'.jobs, k.id = j.id ∧ k.to = j.to ∧ k.phase = .waiting := by
  have hi := (Inv.init actors).run hr
  have hl := hi.live j hj
  have ha : accepts H s (.mk j.to h cs) = true := by
    simp [accepts, Req.hook, Req.to, hh, hl.1, hl.2]
  have hs1 : s1 = called H s j (.mk j.to h cs) rest := by
    have : step H s (.call j.id) = some (called H s j (.mk j.to h cs) rest) := by
      simp [step, find_id hi hj, hp, hc]
    rw [this] at hs
    exact (Option.some.inj hs).symm
  have hw : Job.asked rest .waiting j ∈ s1.jobs := by
    rw [hs1]
    simp only [called, if_pos ha]
    exact List.mem_append_left _ (mem_upd.2 ⟨j, hj, by rw [if_pos rfl]⟩)
  have hcm : jobOf s.next (.job j.id) (.mk j.to h cs) ∈ s1.jobs := by
    rw [hs1]
    simp only [called, if_pos ha]
    exact List.mem_append_right _ (List.mem_singleton.2 rfl)
  have hk : Knot s1 [j.id, s.next] := by
    intro i him
    rcases List.mem_cons.1 him with rfl | him
    · exact ⟨_, hw, rfl, .inl ⟨rfl, _, hcm, rfl, by simp [jobOf]⟩⟩
    · rw [List.mem_singleton.1 him]
      refine ⟨_, hcm, rfl, .inr ⟨rfl, _, hw, rfl, ?_, by simp [Job.asked]⟩⟩
      simp [Job.asked]
  have hkeep := (knot_run (hi.step hs) hk hr').2 _ hw (by simp [Job.asked])
  exact ⟨_, hkeep, rfl, rfl, rfl⟩

/-! ### The framework -/

/-- the highest rank of an actor's work. -/
def top : Kind → Nat
  | .client => 2
  | .reader => 3
  | .session => 5
  | k => rank k .other

theorem rank_le_top (k : Kind) (h : Hook) : rank k h ≤ top k := by
  cases k <;> first | exact Nat.le_refl _ | (cases h <;> decide)

/-- one entry of the table goes down. -/
def down (k : Kind) (h : Hook) (p : Kind × Hook) : Bool :=
  circular p.1 p.2 || (if hooks.first p.2 then decide (rank p.1 p.2 < rank k h) else decide (top p.1 < rank k h))

/-- all entries do. -/
theorem table_down (k : Kind) (h : Hook) (hk : circular k h = false) : (waits k h).all (down k h) = true := by
  unfold waits
  split
  all_goals first
    | (simp [circular] at hk; done)
    | decide
    | rfl
    | (cases k <;> simp [tracked, down, circular, hooks, top, rank] <;>
        exact decide_eq_true (by omega))

/-- the waits of the framework, without the four circular hooks, go down. -/
theorem calm_goes_down : GoesDown hooks fun a h b g => mayWaitCalm a h b g = true := by
  refine ⟨fun a h => rank a.1 h, ?_⟩
  rintro ⟨k, x⟩ h ⟨l, y⟩ g he
  simp only [mayWaitCalm, Bool.and_eq_true, Bool.not_eq_true'] at he
  obtain ⟨⟨hw, hk⟩, hl⟩ := he
  have htable : (l, g) ∈ waits k h →
      (hooks.first g = true → rank l g < rank k h) ∧ (hooks.first g = false → ∀ g', rank l g' < rank k h) := by
    intro hm
    have := List.all_eq_true.1 (table_down k h hk) _ hm
    simp only [down, hl, Bool.false_or] at this
    refine ⟨fun hf => by simpa [hf] using this, fun hf g' => ?_⟩
    have ht : top l < rank k h := by simpa [hf] using this
    exact Nat.lt_of_le_of_lt (rank_le_top l g') ht
  have huser : ∀ n, k = .user n → (∀ g', rank l g' < rank k h) →
      (hooks.first g = true → rank l g < rank k h) ∧ (hooks.first g = false → ∀ g', rank l g' < rank k h) :=
    fun _ _ h' => ⟨fun _ => h' g, fun _ => h'⟩
  cases k with
  | user n =>
    refine huser n rfl fun g' => ?_
    have h1 := rank_le_top l g'
    cases l with
    | user m =>
      simp only [mayWait, decide_eq_true_eq] at hw
      simp only [rank]
      omega
    | _ => simp only [top, rank] at h1 ⊢; omega
  | scheduler =>
    cases l with
    | user m =>
      simp only [mayWait, Bool.and_eq_true, beq_iff_eq] at hw
      obtain ⟨rfl, _⟩ := hw
      cases hk
    | _ => exact htable (by simpa [mayWait] using hw)
  | _ => exact htable (by cases l <;> simpa [mayWait] using hw)

/-- The framework's own actors and an application whose actors wait only downwards: without the four circular hooks
every request is answered. -/
theorem C100_framework_partial {actors : List (Kind × Nat)} {ops : List (Op (Kind × Nat) Hook)}
    {s : St (Kind × Nat) Hook} (hf : AllFit (fun a h b g => mayWaitCalm a h b g = true) ops)
    (hr : run hooks (init actors) ops = some s) :
    (s.jobs ≠ [] → ∃ op : Op (Kind × Nat) Hook, op.inner = true ∧ (step hooks s op).isSome = true) ∧
    ∃ n, ∀ ops' s', (∀ op ∈ ops', op.inner = true) → run hooks s ops' = some s' →
      ops'.length ≤ n ∧ (Still hooks s' → s'.jobs = [] ∧ s'.answered.Perm (tags ops)) :=
  C100_answered calm_goes_down hf hr

/-! ### The four circles -/

mutual
/-- does a request fit? -/
def fitsB (e : α → η → α → η → Bool) : Req α η → Bool
  | .mk a h cs => fitsAllB e a h cs
/-- … and the requests of a handler. -/
def fitsAllB (e : α → η → α → η → Bool) (a : α) (h : η) : List (Req α η) → Bool
  | [] => true
  | c :: cs => e a h c.to c.hook && fitsB e c && fitsAllB e a h cs
end

mutual
theorem fitsB_sound {α η : Type} {e : α → η → α → η → Bool} : ∀ (r : Req α η), fitsB e r = true →
    Fits (fun a h b g => e a h b g = true) r
  | .mk a h cs, hb => by
    have := fitsAllB_sound (e := e) (a := a) (h := h) cs (by simpa only [fitsB] using hb)
    exact .mk (fun c hc => (this c hc).1) (fun c hc => (this c hc).2)
theorem fitsAllB_sound {α η : Type} {e : α → η → α → η → Bool} {a : α} {h : η} : ∀ (cs : List (Req α η)),
    fitsAllB e a h cs = true → ∀ c ∈ cs, e a h c.to c.hook = true ∧ Fits (fun a h b g => e a h b g = true) c
  | [], _ => by intro c hc; simp at hc
  | x :: cs, hb => by
    simp only [fitsAllB, Bool.and_eq_true] at hb
    intro c hc
    rcases List.mem_cons.1 hc with e | hc
    · rw [e]
      exact ⟨hb.1.1, fitsB_sound x hb.1.2⟩
    · exact fitsAllB_sound cs hb.2 c hc
end

/-- does the outside request fit? -/
def opFits (e : α → η → α → η → Bool) : Op α η → Bool
  | .ask _ r => fitsB e r
  | _ => true

/-- is it a knot? -/
def knotB (s : St α η) (D : List Nat) : Bool :=
  D.all fun i => s.jobs.any fun j => j.id == i &&
    ((j.phase == .waiting && s.jobs.any fun c => c.caller == .job i && D.contains c.id) ||
     (j.phase == .queued && s.jobs.any fun k => decide (k.to = j.to) && k.phase != .queued && D.contains k.id))

theorem knotB_sound {s : St α η} {D : List Nat} (h : knotB s D = true) : Knot s D := by
  intro i hi
  have := List.all_eq_true.1 h i hi
  obtain ⟨j, hj, hh⟩ := List.any_eq_true.1 this
  simp only [Bool.and_eq_true, Bool.or_eq_true, beq_iff_eq] at hh
  refine ⟨j, hj, hh.1, ?_⟩
  rcases hh.2 with ⟨p, h2⟩ | ⟨p, h2⟩
  · obtain ⟨c, hc, h3⟩ := List.any_eq_true.1 h2
    simp only [Bool.and_eq_true, beq_iff_eq, List.contains_iff_mem] at h3
    exact .inl ⟨p, c, hc, h3.1, h3.2⟩
  · obtain ⟨k, hk, h3⟩ := List.any_eq_true.1 h2
    simp only [Bool.and_eq_true, decide_eq_true_eq, List.contains_iff_mem, bne_iff_ne] at h3
    exact .inr ⟨p, k, hk, h3.1.1, h3.1.2, h3.2⟩

/-- is the outside request `n` in the knot? -/
def inKnot (D : List Nat) (n : Nat) (s : St α η) : Bool :=
  knotB s D && s.jobs.any fun j => D.contains j.id && j.caller == .outside n

/-- a history after which the outside request `n` is never answered, whatever happens and is asked. -/
def Hopeless (e : α → η → α → η → Bool) (H : Hooks η) (actors : List α) (ops : List (Op α η)) (n : Nat) : Prop :=
  AllFit (fun a h b g => e a h b g = true) ops ∧ ∃ s, run H (init actors) ops = some s ∧
    ∀ ops' s', n ∉ tags ops' → run H s ops' = some s' → n ∉ s'.answered

theorem hopeless_of {e : α → η → α → η → Bool} {actors : List α} {ops : List (Op α η)} {n : Nat} (D : List Nat)
    (hf : ops.all (opFits e) = true) (hk : (run H (init actors) ops).any (inKnot D n) = true)
    (hc : (tags ops).count n = 1) : Hopeless e H actors ops n := by
  refine ⟨?_, ?_⟩
  · intro m r hm
    exact fitsB_sound r (List.all_eq_true.1 hf _ hm)
  · cases hr : run H (init actors) ops with
    | none => simp [hr] at hk
    | some s =>
      rw [hr] at hk
      simp only [Option.any_some, inKnot, Bool.and_eq_true] at hk
      obtain ⟨j, hj, hh⟩ := List.any_eq_true.1 hk.2
      simp only [Bool.and_eq_true, List.contains_iff_mem, beq_iff_eq] at hh
      refine ⟨s, rfl, fun ops' s' hn hr' => ?_⟩
      refine C100_knot_unanswered hr (knotB_sound hk.1) hj hh.1 hh.2 ?_ hr'
      have h1 : tags (ops ++ ops') = tags ops ++ tags ops' := List.filterMap_append ..
      rw [h1, List.count_append, hc, List.count_eq_zero_of_not_mem hn]

/-- the waits of the framework with only one of the four circular hooks. -/
def mayWaitWith (k : Kind) (x : Hook) (a : Kind × Nat) (h : Hook) (b : Kind × Nat) (g : Hook) : Bool :=
  mayWait a h b g && (!circular a.1 h || (a.1 == k && h == x)) && (!circular b.1 g || (b.1 == k && g == x))

/-- C100 as stated is false: a peer with a wrong token connects. The session store waits for the session to start; the
session, which stops itself, waits for the session store. The peer with the right token that connects next never gets
an answer. -/
theorem C100_refused_refuted :
    Hopeless (mayWaitWith .session .refused) hooks [(.store, 0), (.registry, 0)]
      [.ask 0 (.mk (.store, 0) .newSession [.mk (.session, 1) .refused [.mk (.store, 0) .sessionClosed []]]),
       .take 0, .call 0, .take 1, .call 1,
       .ask 1 (.mk (.store, 0) .newSession [.mk (.session, 2) .start [.mk (.registry, 0) .nodes []]])] 1 :=
  hopeless_of [0, 1, 2, 3] (by decide +kernel) (by decide +kernel) (by decide)

/-- C100 as stated is false: the system shuts down while a client reconnects. The client registry waits for the client to
stop; the client has just connected and waits for the client registry. The shutdown never returns. -/
theorem C100_clients_refuted :
    Hopeless (mayWaitWith .clients .stop) hooks [(.clients, 0), (.client, 0), (.scheduler, 0)]
      [.ask 0 (.mk (.client, 0) .connect [.mk (.reader, 0) .identity [], .mk (.clients, 0) .clientConnected []]),
       .take 0, .call 0, .take 1,
       .ask 1 (.mk (.clients, 0) .stop [.mk (.client, 0) .stop [], .mk (.scheduler, 0) .deregister []]), .take 2,
       .finish 1, .call 2, .call 0] 1 :=
  hopeless_of [0, 2, 3, 4] (by decide +kernel) (by decide +kernel) (by decide)

/-- C100 as stated is false: the peer closes the connection before it has identified itself. The client waits for the
identity; the task that should hand it over waits for the client to take note of the end of the connection. -/
theorem C100_early_refuted :
    Hopeless (mayWaitWith .reader .early) hooks [(.clients, 0), (.client, 0)]
      [.ask 0 (.mk (.client, 0) .connect [.mk (.reader, 0) .early [.mk (.client, 0) .disconnected []]]),
       .take 0, .call 0, .take 1, .call 1] 0 :=
  hopeless_of [0, 1, 2] (by decide +kernel) (by decide +kernel) (by decide)

/-- C100 as stated is false: the scheduler stops while the handler of an actor looks up another one (cf. C68). -/
theorem C100_shutdown_refuted :
    Hopeless (mayWaitWith .scheduler .stop) hooks [(.scheduler, 0), (.user 0, 0)]
      [.ask 0 (.mk (.user 0, 0) .other [.mk (.scheduler, 0) .other []]), .take 0,
       .ask 1 (.mk (.scheduler, 0) .stop [.mk (.user 0, 0) .stop []]), .take 1, .call 1, .call 0] 1 :=
  hopeless_of [0, 1, 2, 3] (by decide +kernel) (by decide +kernel) (by decide)

/-- the hypotheses of `C100_framework_partial` are met: a node is discovered and greeted, a session starts, an actor of
the application starts another one, a shard is allocated, all at the same time; then all is answered. -/
example :
    (let ops : List (Op (Kind × Nat) Hook) :=
      [.ask 0 (.mk (.discovery, 0) .discover
          [.mk (.clients, 0) .newClient [.mk (.scheduler, 0) .register [], .mk (.client, 1) .start []],
           .mk (.registry, 0) .nodes []]),
       .ask 1 (.mk (.store, 0) .newSession [.mk (.session, 1) .start [.mk (.registry, 0) .nodes []]]),
       .ask 2 (.mk (.user 1, 0) .other [.mk (.scheduler, 0) .register [], .mk (.user 0, 1) .start []]),
       .ask 3 (.mk (.host, 0) .shardAllocated [.mk (.scheduler, 0) .register []]),
       .take 0, .take 1, .take 2, .take 3, .call 2, .call 3, .call 0, .call 1, .take 4, .take 6, .finish 4, .take 5]
     ops.all (opFits mayWaitCalm) &&
     ((run hooks (init [(.discovery, 0), (.clients, 0), (.scheduler, 0), (.registry, 0), (.store, 0),
        (.user 1, 0), (.host, 0)]) ops).map fun s => (s.jobs.length, s.answered)) == some (7, [])) = true := by
  decide +kernel

end Verif.Actor.Waits
