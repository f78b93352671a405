import Verif.Singleton.TakeoverForlorn
import Verif.Singleton.FirstStartProps

/-!
# C109: when a node fails, the singleton goes on

Full statement: when the node of the leader fails, the next leader starts the singleton, and goes on to run it,
whatever the order of events; when another node fails, the singleton runs on. And there is one instance at a time.
Proved for clusters in which the nodes fail one after the other, with peace in between, for as long as there is a
node left, in every order in which the news of a failure can come. Refuted when a node is told of the failure
before it is told that it is up, when a second node fails while the singleton is being started, and when the
leader has not failed but only been lost from sight.
-/

namespace Verif.Singleton

variable (nodes : List Nat) (child : Bool) (L K B : Nat) (ops post : List FoOp)

/-- **C109 (it ends).** A node `K` crashes in a cluster at rest; `B` is then the leader. However the events are
ordered: if `K` was the leader, the `n` nodes left take at most `4n` steps that do anything (each is told of the
crash; the new leader is told that it leads; every other node is asked, answers and is told of the start; the
instance starts and its manager learns so), otherwise at most `n`; and nothing is left to do exactly when as many
have been taken. -/
theorem C109_steps_partial (hn : nodes.Nodup) (hl : Led nodes child L ops) (hK : K ∈ (Fo.run nodes child {} ops).alive nodes)
    (hB : B ∈ (Fo.run nodes child {} (ops ++ [.crash K])).alive nodes) (hKB : K ≠ L → B = L)
    (hp : (Fo.run nodes child {} (ops ++ [.crash K])).Takeover nodes child K B post) :
    (Fo.run nodes child {} (ops ++ [.crash K])).worked nodes child K B post ≤
      (if K = L then 4 else 1) * ((Fo.run nodes child {} (ops ++ [.crash K])).alive nodes).length ∧
    ((Fo.run nodes child {} (ops ++ .crash K :: post)).Settled nodes K B ↔
      (Fo.run nodes child {} (ops ++ [.crash K])).worked nodes child K B post =
        (if K = L then 4 else 1) * ((Fo.run nodes child {} (ops ++ [.crash K])).alive nodes).length) := by
  obtain ⟨h1, h2, h3⟩ := Led.heir hn (hl.rest hn) hK hB hKB hp
  have hB' : B ∈ (Fo.run nodes child {} (ops ++ .crash K :: post)).alive nodes := by rw [alive_down h1]; exact hB
  rw [h2.done hB', ← alive_down h1]
  omega

/-- **C109 (one at a time).** At every moment after the crash, whatever instance runs on a node left is the
first one of the leader. -/
theorem C109_only_leader_partial (hn : nodes.Nodup) (hl : Led nodes child L ops) (hK : K ∈ (Fo.run nodes child {} ops).alive nodes)
    (hB : B ∈ (Fo.run nodes child {} (ops ++ [.crash K])).alive nodes) (hKB : K ≠ L → B = L)
    (hp : (Fo.run nodes child {} (ops ++ [.crash K])).Takeover nodes child K B post) (d a : Nat) (hd : d ∈ nodes)
    (hr : (Fo.run nodes child {} (ops ++ .crash K :: post)).Runs d a) :
    d = B ∧ a = 0 := by
  obtain ⟨h1, h2, h3⟩ := Led.heir hn (hl.rest hn) hK hB hKB hp
  have hlt := Fo.run_lt (nodes := nodes) child {} (ops ++ .crash K :: post) d (by simp [Cl.init, Mgr.init]) a hr.2
  have hdA := mem_alive.2 ⟨hd, hr.1⟩
  by_cases e : d = B
  · subst e
    rcases h2.lead with ⟨a', b, c, e⟩ | ⟨l, a', al, b, c, e⟩ | ⟨l, a', al, b, c, e⟩ | ⟨l, a', al, b, c, e⟩ | ⟨a', b, c, e⟩ <;>
      exact ⟨rfl, by omega⟩
  · have := (h2.oth d hdA e).fresh
    omega

/-- **C109 (it ends well).** When nothing is left to do, the manager of the leader has the singleton running, no
node left knows of `K` any more, and all of them know each other; and if no instance of the leader has ended, one
instance runs, on the leader. -/
theorem C109_runs_partial (hn : nodes.Nodup) (hl : Led nodes child L ops) :
    L ∈ nodes ∧ L ∉ (Fo.run nodes child {} ops).down ∧ ((Fo.run nodes child {} ops).cl.mgr L).st = .running 0 ∧
    (∀ d ∈ (Fo.run nodes child {} ops).alive nodes, ∀ x, x ∈ ((Fo.run nodes child {} ops).cl.mgr d).managers ↔
      x ∈ nodes ∧ x ∉ (Fo.run nodes child {} ops).down ∧ x ≠ d) ∧
    ((∀ a, .cl (.exits L a) ∉ ops) → ∀ d ∈ nodes, ∀ a, (Fo.run nodes child {} ops).Runs d a ↔ d = L ∧ a = 0) := by
  obtain ⟨h1, h2⟩ := hl.rest hn
  have hL := mem_alive.1 h1
  refine ⟨hL.1, hL.2, h2.lead.1, fun d hd x => ?_, fun hx d hd a => ⟨fun hr => ?_, ?_⟩⟩
  · rw [h2.known d hd x, mem_alive, and_assoc]
  · have hlt := Fo.run_lt (nodes := nodes) child {} ops d (by simp [Cl.init, Mgr.init]) a hr.2
    by_cases e : d = L
    · subst e
      have := h2.lead.2.2.2
      exact ⟨rfl, by omega⟩
    · have := (h2.oth d (mem_alive.2 ⟨hd, hr.1⟩) e).fresh
      omega
  · rintro ⟨rfl, rfl⟩
    refine ⟨hL.2, ?_⟩
    unfold Cl.Runs
    rw [Fo.run_range (nodes := nodes) child {} ops d hx rfl, h2.lead.2.2.2]
    simp

/-- **C109 (it can always go on).** From every moment after the crash, events that still have to happen lead on to
the moment at which nothing is left to do; no instance ends meanwhile. -/
theorem C109_reachable_partial (hn : nodes.Nodup) (hl : Led nodes child L ops) (hK : K ∈ (Fo.run nodes child {} ops).alive nodes)
    (hB : B ∈ (Fo.run nodes child {} (ops ++ [.crash K])).alive nodes) (hKB : K ≠ L → B = L)
    (hp : (Fo.run nodes child {} (ops ++ [.crash K])).Takeover nodes child K B post) :
    ∃ more, Led nodes child B (ops ++ .crash K :: (post ++ more)) ∧
      (Fo.run nodes child {} (ops ++ [.crash K])).Takeover nodes child K B (post ++ more) ∧ ∀ d a, .cl (.exits d a) ∉ more := by
  have key : ∀ k (w : Fo), Heir (w.alive nodes) K B w.cl → B ∈ w.alive nodes → K ∈ w.down → w.cl.due (w.alive nodes) K B ≤ k →
      ∃ more, w.Takeover nodes child K B more ∧ (w.run nodes child more).Settled nodes K B ∧ ∀ d a, .cl (.exits d a) ∉ more := by
    intro k
    induction k with
    | zero => intro w h hB hK h0; exact ⟨[], trivial, (h.done hB).2 (by omega), by simp⟩
    | succ k ih =>
      intro w h hB hK hk
      by_cases hs : w.Settled nodes K B
      · exact ⟨[], trivial, hs, by simp⟩
      · obtain ⟨op, hw⟩ : ∃ op, w.Works nodes K B op := Classical.byContradiction fun hx => hs fun op hw => hx ⟨op, hw⟩
        have go : w.Peaceful K B op → (∀ d a, op ≠ .cl (.exits d a)) →
            ∃ more, w.Takeover nodes child K B more ∧ (w.run nodes child more).Settled nodes K B ∧
              ∀ d a, .cl (.exits d a) ∉ more := by
          intro hp hne
          obtain ⟨h1, h2, h3⟩ := h.next hn hB hK child op hp
          rw [if_pos hw] at h3
          rw [← alive_down (nodes := nodes) h1] at h2 h3 hB
          obtain ⟨more, h4, h5, h6⟩ := ih _ h2 hB (by rw [h1]; exact hK) (by
            have := alive_down (nodes := nodes) h1
            rw [this] at h3 ⊢
            omega)
          refine ⟨op :: more, ⟨hp, h4⟩, h5, fun d a hx => ?_⟩
          rcases List.mem_cons.1 hx with hx | hx
          · exact hne d a hx.symm
          · exact h6 d a hx
        cases op with
        | crash d => exact hw.elim
        | removed d n => exact go ⟨hw.2.2.1, hw.2.2.1 ▸ hw.2.2.2⟩ (by simp)
        | cl op =>
          cases op with
          | memberUp d l =>
            obtain ⟨hd, hd', p, hst⟩ := hw
            exfalso
            by_cases e : d = B
            · subst e
              rcases h.lead with ⟨a, b, c, e⟩ | ⟨l, a, al, b, c, e⟩ | ⟨l, a, al, b, c, e⟩ | ⟨l, a, al, b, c, e⟩ | ⟨a, b, c, e⟩ <;>
                (rw [hst] at a; cases a)
            · rw [(h.oth d (mem_alive.2 ⟨hd', hd⟩) e).st] at hst; cases hst
          | leaderChanged d l => exact go (fun _ => hw.2.2.1) (by simp)
          | recv d m => exact go trivial (by simp)
          | boot d => exact go trivial (by simp)
          | started d a => exact go trivial (by simp)
          | _ => exact hw.2.elim
  obtain ⟨h1, h2, h3⟩ := Led.heir hn (hl.rest hn) hK hB hKB hp
  have hB' : B ∈ (Fo.run nodes child {} (ops ++ .crash K :: post)).alive nodes := by rw [alive_down h1]; exact hB
  have hK' : K ∈ (Fo.run nodes child {} (ops ++ .crash K :: post)).down := by
    rw [h1, Fo.run_append]; simp [Fo.run, Fo.next]
  obtain ⟨more, h4, h5, h6⟩ := key _ _ h2 hB' hK' (Nat.le_refl _)
  have happ : ∀ (w : Fo) (l m : List FoOp), w.Takeover nodes child K B l → (w.run nodes child l).Takeover nodes child K B m →
      w.Takeover nodes child K B (l ++ m) := by
    intro w l m hl hm
    induction l generalizing w with
    | nil => exact hm
    | cons op l ih => exact ⟨hl.1, ih _ hl.2 hm⟩
  have e1 : Fo.run nodes child {} (ops ++ .crash K :: post) = (Fo.run nodes child {} (ops ++ [.crash K])).run nodes child post := by
    rw [Fo.run_append, Fo.run_append]; rfl
  have h7 := happ _ _ _ hp (by rw [← e1]; exact h4)
  refine ⟨more, .next hl hK hB hKB h7 ?_, h7, h6⟩
  have e2 : ops ++ .crash K :: (post ++ more) = (ops ++ .crash K :: post) ++ more := by simp
  rw [e2, Fo.run_append]
  exact h5

/-- **C109 (down to the last node).** Whatever nodes fail in whatever order, each one leading when it fails, the
last one left comes to run the singleton. -/
theorem C109_last_partial (hn : nodes.Nodup) (gone : List Nat) (hd : (gone ++ [L]).Nodup) (hm : ∀ x ∈ gone ++ [L], x ∈ nodes) :
    ∃ ops, Led nodes child L ops ∧ (Fo.run nodes child {} ops).down = gone.reverse ∧
      ∀ d ∈ nodes, ∀ a, (Fo.run nodes child {} ops).Runs d a ↔ d = L ∧ a = 0 := by
  have key : ∃ ops, Led nodes child L ops ∧ (Fo.run nodes child {} ops).down = gone.reverse ∧ ∀ d a, .cl (.exits d a) ∉ ops := by
    induction gone using snoc_induction generalizing L with
    | nil =>
      obtain ⟨more, h1, h2, h3⟩ := C107_reachable_partial nodes L child [] hn (hm L (by simp)) trivial
      refine ⟨more.map .cl, .first (hm L (by simp)) h1 h2, ?_, ?_⟩
      · rw [show Fo.run nodes child {} (more.map .cl) = _ from Fo.run_cl child Cl.init more]; rfl
      · intro d a hx
        obtain ⟨op, h4, h5⟩ := List.mem_map.1 hx
        cases h5
        exact h3 d a h4
    | snoc gone K ih =>
      have hnd : gone.Nodup ∧ K ∉ gone ∧ L ∉ gone ∧ L ≠ K := by
        simp only [List.nodup_append, List.append_assoc] at hd
        refine ⟨hd.1, fun e => hd.2.2 K e K (by simp) rfl, fun e => hd.2.2 L e L (by simp) rfl, fun e => ?_⟩
        subst e
        simp at hd
      obtain ⟨ops, h1, h2, h3⟩ := ih K (List.nodup_append.2 ⟨hnd.1, by simp, fun a ha b hb e => by
        rw [List.mem_singleton] at hb; subst e; subst hb; exact hnd.2.1 ha⟩) (fun x hx => hm x (by
          rcases List.mem_append.1 hx with hx | hx
          · simp [hx]
          · simp at hx; simp [hx]))
      have hK : K ∈ (Fo.run nodes child {} ops).alive nodes := mem_alive.2 ⟨hm K (by simp), by rw [h2]; simpa using hnd.2.1⟩
      have e2 : Fo.run nodes child {} (ops ++ [.crash K]) = (Fo.run nodes child {} ops).next nodes child (.crash K) := by
        rw [Fo.run_append]; rfl
      have hB : L ∈ (Fo.run nodes child {} (ops ++ [.crash K])).alive nodes := by
        rw [e2, alive_crash]
        exact ⟨mem_alive.2 ⟨hm L (by simp), by rw [h2]; simpa using hnd.2.2.1⟩, hnd.2.2.2⟩
      obtain ⟨more, h4, h5, h6⟩ := C109_reachable_partial nodes child K K L ops [] hn h1 hK hB (fun e => absurd rfl e) trivial
      refine ⟨_, h4, ?_, ?_⟩
      · rw [(Led.heir hn (h1.rest hn) hK hB (fun e => absurd rfl e) h5).1, e2]
        simp [Fo.next, h2]
      · intro d a hx
        rcases List.mem_append.1 hx with hx | hx
        · exact h3 d a hx
        · rcases List.mem_cons.1 hx with hx | hx
          · cases hx
          · exact h6 d a hx
  obtain ⟨ops, h1, h2, h3⟩ := key
  exact ⟨ops, h1, h2, (C109_runs_partial nodes child L ops hn h1).2.2.2.2 fun a => h3 L a⟩

/-! ### a concrete case -/

/-- the leader's node of `founding` crashes; node 2 leads and waits for the consent of the node that crashed, until it
is told of the crash. -/
def heirs : List FoOp :=
  [.removed 0 1, .cl (.leaderChanged 2 2), .cl (.leaderChanged 0 2), .cl (.recv 0 (.request 2)), .cl (.recv 2 (.ack 0)),
    .removed 2 1, .cl (.boot 2), .cl (.started 2 0), .cl (.recv 0 (.started 2))]

instance instDecidableTakeover (nodes : List Nat) (child : Bool) (K B : Nat) :
    (w : Fo) → (ops : List FoOp) → Decidable (w.Takeover nodes child K B ops)
  | _, [] => .isTrue trivial
  | w, op :: ops =>
    have := instDecidableTakeover nodes child K B (w.next nodes child op) ops
    inferInstanceAs (Decidable (w.Peaceful K B op ∧ (w.next nodes child op).Takeover nodes child K B ops))

example : Led [0, 1, 2] false 1 (founding.map .cl) ∧
    1 ∈ (Fo.run [0, 1, 2] false {} (founding.map .cl)).alive [0, 1, 2] ∧
    2 ∈ (Fo.run [0, 1, 2] false {} (founding.map .cl ++ [.crash 1])).alive [0, 1, 2] ∧
    (Fo.run [0, 1, 2] false {} (founding.map .cl ++ [.crash 1])).Takeover [0, 1, 2] false 1 2 heirs ∧
    (Fo.run [0, 1, 2] false {} (founding.map .cl ++ [.crash 1])).worked [0, 1, 2] false 1 2 heirs = 8 ∧
    (Fo.run [0, 1, 2] false {} (founding.map .cl ++ .crash 1 :: heirs)).Runs 2 0 := by
  refine ⟨.first (by decide) (by decide) ?_, by decide, by decide, by decide, by decide, by decide, ?_⟩
  · exact (C107_steps_partial [0, 1, 2] 1 false founding (by decide) (by decide) (by decide)).2.2 (by decide)
  · unfold Cl.Runs; decide

/-! ### refutations -/

/-- **C109 refuted (told too early).** Node 0 leads and crashes; node 1 is told of the crash, and only then that it is
up, with itself for the leader. The list of nodes that comes with that news still has node 0, since nodes are never
taken out of the store; so node 1 asks node 0 for its consent, and whatever happens then, unless it is told of a
removal once more, it never starts the singleton. -/
theorem C109_early_removal_refuted (more : List FoOp) (hm : ∀ n, .removed 1 n ∉ more) :
    ((Fo.run [0, 1] child {} ([.cl (.memberUp 0 0), .crash 0, .removed 1 0, .cl (.memberUp 1 1)] ++ more)).cl.mgr 1).fresh = 0 := by
  have h0 : Forlorn (Fo.run [0, 1] child {} [.cl (.memberUp 0 0), .crash 0, .removed 1 0, .cl (.memberUp 1 1)]) := by
    refine ⟨by cases child <;> decide, by cases child <;> decide, by cases child <;> decide, .inr ?_, by cases child <;> decide,
      by cases child <;> decide, by cases child <;> decide, by cases child <;> decide, by cases child <;> decide, ?_⟩
    · cases child <;> decide
    · cases child <;> decide
  rw [Fo.run_append]
  generalize Fo.run [0, 1] child {} [.cl (.memberUp 0 0), .crash 0, .removed 1 0, .cl (.memberUp 1 1)] = w at *
  have : Forlorn (w.run [0, 1] child more) := by
    induction more generalizing w with
    | nil => exact h0
    | cons op ops ih =>
      exact ih (fun n hx => hm n (by simp [hx])) _ (h0.next fun n e => hm n (by simp [e]))
  exact this.fresh

/-- **C109 refuted (a second crash).** Node 0 leads and crashes. Node 1 has the consent of node 2 and is starting the
singleton when node 2 crashes too; the news of that makes it count the consents again, find that none is missing
and start a second instance. -/
theorem C109_second_crash_refuted :
    let w := Fo.run [0, 1, 2] false {} ([.cl (.memberUp 0 0), .cl (.memberUp 1 0), .cl (.memberUp 2 0), .cl (.recv 1 (.request 0)),
      .cl (.recv 2 (.request 0)), .cl (.recv 0 (.ack 1)), .cl (.recv 0 (.ack 2)), .cl (.boot 0), .cl (.started 0 0),
      .cl (.recv 1 (.started 0)), .cl (.recv 2 (.started 0)), .crash 0, .cl (.leaderChanged 1 1), .removed 1 0, .removed 2 0,
      .cl (.recv 2 (.request 1)), .cl (.recv 1 (.ack 2)), .crash 2, .removed 1 2, .cl (.boot 1), .cl (.boot 1)])
    w.Runs 1 0 ∧ w.Runs 1 1 := by
  refine ⟨⟨by decide, ?_⟩, by decide, ?_⟩ <;> (unfold Cl.Runs; decide)

/-- **C109 refuted (lost from sight).** Node 0 leads and runs the singleton. Node 1 no longer hears of it, forgets it
and becomes the leader: with no other node to ask, it starts the singleton too, and both run. -/
theorem C109_lost_refuted :
    let w := Fo.run [0, 1] false {} ([.cl (.memberUp 0 0), .cl (.memberUp 1 0), .cl (.recv 1 (.request 0)), .cl (.recv 0 (.ack 1)),
      .cl (.boot 0), .cl (.started 0 0), .cl (.recv 1 (.started 0)), .removed 1 0, .cl (.leaderChanged 1 1), .cl (.boot 1)])
    w.Runs 0 0 ∧ w.Runs 1 0 := by
  refine ⟨⟨by decide, ?_⟩, by decide, ?_⟩ <;> (unfold Cl.Runs; decide)

end Verif.Singleton
