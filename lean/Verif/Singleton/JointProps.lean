import Verif.Singleton.JointTold

/-!
# C110: a singleton goes on undisturbed when nodes join

Heartbeats and managers are one system here (`Verif.Singleton.JointModel`): what the heartbeat of a node finds out is
what its manager hears. `Gentle C R w ops` says of a history that no node outside `R` chooses a leader while no older
node answers it. If only one node is excepted, there is never an instance anywhere else, the instance goes on for as
long as its node lasts, and whoever joins learns of it. The code does not keep histories gentle: a node that joins
chooses itself if its first answers are late, and one that has not yet found the others even more so.
-/

namespace Verif.Singleton.Joint

open Verif.Remote (Hb HbConfig)
open Verif.Remote.OneLeader (Conf Clu Up Answered Before Good)

variable {C : Conf}

/-- **C110 (only there).** As long as no node but `L` chooses a leader without an older node answering it, no node but
`L` ever runs an instance of the singleton, nor starts one. -/
theorem C110_only_there_partial (henv : ∀ t d, C.env.addOk t d = true) (L : Nat) (ops : List JOp)
    (hgs : Gentle C [L] (Sys.init C) ops) (i : Nat) (hi : i ≠ L) :
    ((Sys.run C ops).cl.mgr i).starts = 0 ∧ ∀ a, ¬ (Sys.run C ops).Runs i a := by
  have h := (Lone.init C [L]).runFrom henv ops (Good.init C) hgs
  have hr := h.rest i (by simpa using hi)
  refine ⟨hr.starts, ?_⟩
  rintro a ⟨_, ha⟩
  have hl : ((Sys.run C ops).cl.mgr i).live = [] := hr.live
  rw [hl] at ha
  simp at ha

/-- `L` runs instance `a`, and nothing else is going on there. -/
def Settled (w : Sys) (L a : Nat) : Prop :=
  w.Runs L a ∧ (w.cl.mgr L).st = .running a ∧ (w.cl.mgr L).starts = 0 ∧ (w.cl.mgr L).results = []

theorem serving_of {w : Sys} {L a : Nat} (h : Lone [L] w) (hs : Settled w L a) : Serving [L] (fun _ => a) w := by
  refine ⟨h, ?_, ?_, ?_⟩
  · intro i hi; simp at hi; subst hi; exact hs.1.1
  · intro i hi; simp at hi; subst hi; exact ⟨hs.2.1, hs.2.2.1, hs.2.2.2, hs.1.2⟩
  · intro i hi s hm
    simp at hi; subst hi
    obtain ⟨h1, h2⟩ := h.req _ _ hm
    simp at h1
    exact h2 h1.symm

/-- **C110 (goes on).** `L` runs an instance; nodes join, are learned of, taken for gone and learned of again,
build their managers early or late, in any order and with any delays. As long as `L` and the instance last and no other
node chooses a leader without an older one answering it, the instance goes on, no other is started anywhere, nobody is
asked to stop, and `L` goes on counting it as running. -/
theorem C110_goes_on_partial (henv : ∀ t d, C.env.addOk t d = true) (L a : Nat) (ops more : List JOp)
    (hgs : Gentle C [L] (Sys.init C) (ops ++ more)) (hs : Settled (Sys.run C ops) L a)
    (hlast : ∀ op ∈ more, Lasting [L] (fun _ => a) op) :
    Settled (Sys.run C (ops ++ more)) L a ∧
    (∀ i b, (Sys.run C (ops ++ more)).Runs i b → i = L ∧ (Sys.run C ops).Runs L b) ∧
    (∀ i, ((Sys.run C (ops ++ more)).cl.mgr i).fresh = ((Sys.run C ops).cl.mgr i).fresh) ∧
    (Sys.run C (ops ++ more)).stops = (Sys.run C ops).stops := by
  obtain ⟨g1, g2⟩ := gentle_append.1 hgs
  obtain ⟨w1, w2⟩ := good_run henv ops (w := Sys.init C) (Good.init C) (Ups.init C)
  have hl := (Lone.init C [L]).runFrom henv ops (Good.init C) g1
  obtain ⟨s1, s2, s3, s4⟩ := (serving_of hl hs).runFrom henv more w1 w2 g2 hlast
  have hrun : Sys.run C (ops ++ more) = (Sys.run C ops).runFrom C more := runFrom_append C _ ops more
  rw [hrun]
  have hst := s1.run L (by simp)
  refine ⟨⟨⟨s1.up L (by simp), hst.live⟩, hst.st, hst.starts, hst.results⟩, ?_, s2, s4⟩
  rintro i b ⟨_, hb⟩
  by_cases e : i = L
  · subst e; exact ⟨rfl, hs.1.1, s3 _ _ hb⟩
  · have hl : (((Sys.run C ops).runFrom C more).cl.mgr i).live = [] := (s1.lone.rest i (by simpa using e)).live
    rw [hl] at hb
    simp at hb

/-- **C110 (told).** In the same circumstances: a node that has built its manager and is not known to `L` yet will be
told by `L`, and by nobody else: from then on that `L` knows it, the word is under way or its proxy sends to `L`. -/
theorem C110_told_partial (henv : ∀ t d, C.env.addOk t d = true) (L N a : Nat) (hNL : N ≠ L) (ops more : List JOp)
    (hgs : Gentle C [L] (Sys.init C) (ops ++ more)) (hs : Settled (Sys.run C ops) L a)
    (hlast : ∀ op ∈ more, Lasting [L] (fun _ => a) op) (hmade : (Sys.run C ops).made N = true)
    (hnew : N ∉ ((Sys.run C ops).cl.mgr L).managers)
    (hnet : ∀ s, (N, MMsg.started s) ∉ (Sys.run C ops).cl.net ∧ (N, MMsg.stopped s) ∉ (Sys.run C ops).cl.net) :
    (N ∈ ((Sys.run C (ops ++ more)).cl.mgr L).managers →
      (N, MMsg.started L) ∈ (Sys.run C (ops ++ more)).cl.net ∨ (Sys.run C (ops ++ more)).proxy N = some L) ∧
    (∀ s, (N, MMsg.started s) ∈ (Sys.run C (ops ++ more)).cl.net → s = L) ∧
    (∀ s, (N, MMsg.stopped s) ∉ (Sys.run C (ops ++ more)).cl.net) := by
  obtain ⟨g1, g2⟩ := gentle_append.1 hgs
  obtain ⟨w1, w2⟩ := good_run henv ops (w := Sys.init C) (Good.init C) (Ups.init C)
  have hl := (Lone.init C [L]).runFrom henv ops (Good.init C) g1
  have hrun : Sys.run C (ops ++ more) = (Sys.run C ops).runFrom C more := runFrom_append C _ ops more
  rw [hrun]
  have hT : Told L N (Sys.run C ops) :=
    ⟨hmade, fun h => absurd h hnew, fun s h => absurd h (hnet s).1, fun s => (hnet s).2⟩
  have := hT.runFrom henv hNL more w1 w2 (serving_of hl hs) g2 hlast
  exact ⟨this.known, this.src, this.nostop⟩

theorem step_hear {w : Sys} {i : Nat} {e : News} (ha : Up w.clu i) (hm : w.made i = true) (hin : (i, e) ∈ w.bus) :
    w.step C (.hear i e) = ({ w with bus := w.bus.erase (i, e) } : Sys).mgrStep i e.op := by
  simp [Sys.step, (alive_iff w i).2 ha, hin, hm]

theorem step_recv {w : Sys} {i : Nat} {m : MMsg} (ha : Up w.clu i) (hm : w.made i = true) (hin : (i, m) ∈ w.cl.net) :
    w.step C (.recv i m) = ({ w with cl := { w.cl with net := w.cl.net.erase (i, m) } } : Sys).mgrStep i (.recv m) := by
  simp [Sys.step, (alive_iff w i).2 ha, hin, hm]

theorem step_build {w : Sys} {i : Nat} (ha : Up w.clu i) :
    w.step C (.build i) = { w with made := fun k => if k = i then true else w.made k } := by
  simp [Sys.step, (alive_iff w i).2 ha]

/-- **C110 (can be told).** In such a state the word does arrive: `L` hears of `N`, its message is received, and the
proxy of `N` sends to `L`. -/
theorem C110_can_be_told (L N a : Nat) (hNL : N ≠ L) (w : Sys) (hself : (w.cl.mgr L).self = L) (hs : Settled w L a)
    (hmL : w.made L = true) (hup : Up w.clu N) (hmade : w.made N = true) (hnew : N ∉ (w.cl.mgr L).managers) :
    (w.runFrom C [.added L N, .hear L (.added N), .recv N (.started L)]).proxy N = some L ∧
    Settled (w.runFrom C [.added L N, .hear L (.added N), .recv N (.started L)]) L a := by
  obtain ⟨⟨u1, u2⟩, u3, u4, u5⟩ := hs
  have e1 : w.step C (.added L N) = { w with bus := w.bus ++ [(L, .added N)] } := by
    simp [Sys.step, (alive_iff w L).2 u1]
  have hp : (w.cl.mgr L).step (fun _ => true) (.nodeAdded N) =
      ({ w.cl.mgr L with managers := (w.cl.mgr L).managers ++ [N] }, [.send N (.started L)]) := by
    simp [Mgr.step, Mgr.onNodeAdded, hself, hNL, hnew, Mgr.greeting, u3]
  simp only [Sys.runFrom, List.foldl]
  rw [e1, step_hear (by exact u1) (by exact hmL) (by simp)]
  rw [step_recv (by exact hup) (by exact hmade)
    (by
      simp only [Sys.mgrStep, News.op]
      rw [hp]
      simp [Cl.at, MOut.msg?])]
  have hne : ¬ L = N := fun e => hNL e.symm
  refine ⟨?_, ⟨u1, ?_⟩, ?_, ?_, ?_⟩
  · simp [Sys.mgrStep, Mgr.step, Mgr.recv, toldBy]
  all_goals
    simp only [Sys.mgrStep, News.op]
    rw [hp]
    simp [Cl.at, Cl.setMgr, hne, u2, u3, u4, u5]

/-! ### The code does not keep histories gentle -/

/-- **C110 refuted (hasty).** A node that joins and knows `L`, but has no answer of an older node at its second tick,
takes itself for the leader and asks `L`, which gives up: it stops the instance, and since the end of the instance is
not told to the manager, nobody is ever given the lease. Neither the node that joined nor any node that knows it (and
has not begun to start) ever starts the singleton again. -/
theorem C110_hasty_joiner_refuted (henv : ∀ t d, C.env.addOk t d = true) (hmin : C.hb.minSize = none) (L N a : Nat)
    (hNL : N ≠ L) (ops : List JOp) (hops : NoRemoval ops) (hs : (Sys.run C ops).Runs L a)
    (hst : ((Sys.run C ops).cl.mgr L).st = .running a) (hmL : (Sys.run C ops).made L = true)
    (hup : Up (Sys.run C ops).clu N) (hmN : (Sys.run C ops).made N = true) (q : Option Nat)
    (hq : ((Sys.run C ops).cl.mgr N).st = .joining q) (hel : Elects (Sys.run C ops).clu N)
    (hfirst : ((Sys.run C ops).clu.hb N).up = false) (hled : (Sys.run C ops).clu.leader N ≠ some N)
    (hno : ∀ k, Registered (Sys.run C ops).clu N k → Answered C (Sys.run C ops).clu N k → Before C N k)
    (hreg : Registered (Sys.run C ops).clu N L) :
    ∃ ms, ∀ w, w = (Sys.run C ops).runFrom C [.beat (.tick N), .hear N (.memberUp N ms), .recv L (.request N)] →
      (w.cl.mgr L).st = .stopping a N ∧ (L, a) ∈ w.stops ∧
      ∀ more, NoRemoval more →
        (∃ l, ((w.runFrom C more).cl.mgr N).st = .starting l) ∧
        ((w.runFrom C more).cl.mgr N).fresh = ((Sys.run C ops).cl.mgr N).fresh ∧
        ∀ Z, N ∈ ((Sys.run C ops).cl.mgr Z).managers → ((Sys.run C ops).cl.mgr Z).starts = 0 → q ≠ some Z →
          ((w.runFrom C more).cl.mgr Z).fresh = ((Sys.run C ops).cl.mgr Z).fresh := by
  have hW : World C (Sys.run C ops) := (World.init C).runFrom henv ops hops
  generalize hw0 : Sys.run C ops = w0 at *
  obtain ⟨ms, hpub, hms⟩ := elects_itself henv hW.good hup hel hfirst hled hno hmin
  refine ⟨ms, ?_⟩
  intro w hw
  obtain ⟨n1, n2⟩ := hW.ups.new N q hq
  have hself := hW.books.self N
  have hLm : L ∈ addManagers (fun _ => true) N (w0.cl.mgr N).managers ms :=
    ((addManagers_spec _ _ _ _ (hW.books.nodup N)).2 L).2 (.inr ⟨(hms L).2 hreg, Ne.symm hNL, rfl⟩)
  have hnd := (addManagers_spec (fun _ => true) N (w0.cl.mgr N).managers ms (hW.books.nodup N)).1
  generalize hM : addManagers (fun _ => true) N (w0.cl.mgr N).managers ms = M at hLm hnd
  -- the manager of `N` hears that it leads
  have hstep : (w0.cl.mgr N).step (fun _ => true) (.memberUp N ms) =
      ({ w0.cl.mgr N with managers := M, st := .starting [] },
        ({ w0.cl.mgr N with managers := M } : Mgr).dueAck ++ M.map fun n => .send n (.request N)) := by
    have hlen : M.length ≠ 0 := by intro h; rw [List.length_eq_zero_iff.1 h] at hLm; simp at hLm
    simp only [Mgr.step, Mgr.onMemberUp, hself, hM, if_true]
    simp [Mgr.beginStarting, hlen, Mgr.notifyManagers]
  have hdue : ∀ x ∈ ({ w0.cl.mgr N with managers := M } : Mgr).dueAck, ∃ n, q = some n ∧ x = .send n (.ack N) := by
    intro x hx
    unfold Mgr.dueAck at hx
    simp only [hq] at hx
    cases q with
    | none => simp at hx
    | some n =>
      simp only [Mgr.notifyManager] at hx
      split at hx
      · simp only [List.mem_singleton, hself] at hx; exact ⟨n, rfl, hx⟩
      · simp at hx
  -- the states
  generalize hD : ({ w0.cl.mgr N with managers := M } : Mgr).dueAck = D at hstep hdue
  let w1 := w0.step C (.beat (.tick N))
  have hW1 : World C w1 := hW.step henv (by simp)
  have h1cl : w1.cl = w0.cl := rfl
  have h1up : ∀ i, Up w0.clu i → Up w1.clu i := fun i hi => step_up hi (by simp)
  have h1bus : (N, News.memberUp N ms) ∈ w1.bus := by
    show _ ∈ w0.bus ++ published C w0.clu (.tick N)
    rw [hpub]; simp
  let w2 := w1.step C (.hear N (.memberUp N ms))
  have hW2 : World C w2 := hW1.step henv (by simp)
  have h2 : w2 = ({ w1 with bus := w1.bus.erase (N, .memberUp N ms) } : Sys).mgrStep N (.memberUp N ms) :=
    step_hear (h1up N hup) hmN h1bus
  have h2cl : w2.cl = act w0.cl w0.cl.net N (.memberUp N ms) := by rw [h2]; rfl
  have h2net : w2.cl.net = w0.cl.net ++ (D ++ M.map fun n => MOut.send n (.request N)).filterMap MOut.msg? := by
    rw [h2cl]
    simp only [act, Cl.at, hstep]
  have h2N : w2.cl.mgr N = { w0.cl.mgr N with managers := M, st := .starting [] } := by rw [h2cl, act_self, hstep]
  have h2o : ∀ k, k ≠ N → w2.cl.mgr k = w0.cl.mgr k := fun k hk => by rw [h2cl, act_other _ _ _ hk]
  have h2req : (L, MMsg.request N) ∈ w2.cl.net := by
    rw [h2net, List.mem_append]
    right
    exact List.mem_filterMap.2 ⟨.send L (.request N), List.mem_append_right _ (List.mem_map_of_mem (f := fun n => MOut.send n (.request N)) hLm), rfl⟩
  have h2count : w2.cl.net.count (L, MMsg.request N) ≤ 1 := by
    rw [h2net, List.filterMap_append, List.count_append, List.count_append]
    have c1 : w0.cl.net.count (L, MMsg.request N) = 0 := List.count_eq_zero.2 ((hW.books.quiet N q hq).1 L).2
    have c2 : (D.filterMap MOut.msg?).count (L, MMsg.request N) = 0 := by
      refine List.count_eq_zero.2 fun hm => ?_
      obtain ⟨x, hx, e⟩ := List.mem_filterMap.1 hm
      obtain ⟨n, _, rfl⟩ := hdue x hx
      simp [MOut.msg?] at e
    have c3 : ((M.map fun n => MOut.send n (.request N)).filterMap MOut.msg?).count (L, MMsg.request N) ≤ 1 := by
      have : (M.map fun n => MOut.send n (.request N)).filterMap MOut.msg? = M.map fun n => (n, MMsg.request N) := by
        rw [List.filterMap_map]
        exact congrFun (List.filterMap_eq_map (f := fun n => (n, MMsg.request N))) M
      rw [this]
      have hnd2 : (M.map fun n => (n, MMsg.request N)).Nodup := by
        refine List.Pairwise.map _ ?_ hnd
        intro x y hxy e
        exact hxy (congrArg Prod.fst e)
      exact List.nodup_iff_count.1 hnd2 _
    omega
  have hL2 : w2.cl.mgr L = w0.cl.mgr L := h2o L (Ne.symm hNL)
  have h3 : w = ({ w2 with cl := { w2.cl with net := w2.cl.net.erase (L, .request N) } } : Sys).mgrStep L (.recv (.request N)) := by
    rw [hw]
    have hclu : w2.clu = w1.clu := by rw [h2]; rfl
    have hmade2 : w2.made = w0.made := by rw [h2]; rfl
    exact step_recv (C := C) (w := w2) (by rw [hclu]; exact h1up L hs.1) (by rw [hmade2]; exact hmL) h2req
  have hW3 : World C w := by
    rw [hw]
    exact (hW2.step henv (by simp) : World C (w2.step C (.recv L (.request N))))
  have h3cl : w.cl = act w2.cl (w2.cl.net.erase (L, .request N)) L (.recv (.request N)) := by rw [h3]; rfl
  have hstepL : (w2.cl.mgr L).step (fun _ => true) (.recv (.request N)) =
      ({ w2.cl.mgr L with st := .stopping a N }, .stopActor a :: (w2.cl.mgr L).notifyManagers (.stopped (w2.cl.mgr L).self)) := by
    rw [hL2]
    simp [Mgr.step, Mgr.recv, Mgr.onRequest, hst, MState.isRunning, Mgr.beginStopping, MState.actor]
  have h3L : w.cl.mgr L = { w0.cl.mgr L with st := .stopping a N } := by rw [h3cl, act_self, hstepL, hL2]
  have h3o : ∀ k, k ≠ L → w.cl.mgr k = w2.cl.mgr k := fun k hk => by rw [h3cl, act_other _ _ _ hk]
  have h3N : w.cl.mgr N = { w0.cl.mgr N with managers := M, st := .starting [] } := by rw [h3o N hNL, h2N]
  have h3net : ∀ d m, (d, m) ∈ w.cl.net → (d, m) ∈ w2.cl.net.erase (L, .request N) ∨ ∃ s, m = .stopped s := by
    intro d m hm
    rw [h3cl] at hm
    rcases (act_net ..).1 hm with hm | hm
    · exact .inl hm
    · rw [hstepL] at hm
      simp only [List.mem_cons, Mgr.notifyManagers, List.mem_map] at hm
      rcases hm with hm | ⟨n, _, hm⟩
      · cases hm
      · cases hm; exact .inr ⟨_, rfl⟩
  have hacks : ∀ Z s, (Z, MMsg.ack s) ∈ w.cl.net → (Z, MMsg.ack s) ∈ w0.cl.net ∨ (s = N ∧ q = some Z) := by
    intro Z s hm
    rcases h3net _ _ hm with hm | ⟨t, hm⟩
    · have hm := List.mem_of_mem_erase hm
      rw [h2net, List.mem_append] at hm
      rcases hm with hm | hm
      · exact .inl hm
      · obtain ⟨x, hx, e⟩ := List.mem_filterMap.1 hm
        rcases List.mem_append.1 hx with hx | hx
        · obtain ⟨n, hn, rfl⟩ := hdue x hx
          simp [MOut.msg?] at e
          exact .inr ⟨e.2.symm, by rw [hn, e.1]⟩
        · obtain ⟨n, _, rfl⟩ := List.mem_map.1 hx
          simp [MOut.msg?] at e
    · cases hm
  have hqN : q ≠ some N := by
    intro e
    exact hW.silent.pend N q hq N (by rw [hq, e])
  have hh : Hangs w.cl N L := by
    refine ⟨⟨[], by rw [h3N], by simp⟩, by rw [h3N]; exact hLm, by rw [h3N]; exact n1, by rw [h3N]; exact n2, ?_, ?_, by rw [h3L]; simp⟩
    · intro hm
      rcases hacks _ _ hm with hm | ⟨e, _⟩
      · exact hW.silent.ack N q hq L hm
      · exact hNL e.symm
    · intro hm
      rcases h3net _ _ hm with hm | ⟨t, hm⟩
      · have := List.count_pos_iff.2 hm
        rw [List.count_erase_self] at this
        omega
      · cases hm
  refine ⟨by rw [h3L], ?_, ?_⟩
  · rw [h3]
    simp only [Sys.mgrStep, hstepL]
    simp [stopsOf]
  · intro more hmore
    obtain ⟨i1, i2, i3⟩ := hangs_run henv more hW3 hmore hh
    refine ⟨?_, by rw [i2, h3N], ?_⟩
    · obtain ⟨l, hl, _⟩ := i1.start
      exact ⟨l, hl⟩
    · intro Z hZ hZ2 hqZ
      have hZN : Z ≠ N := by rintro rfl; exact hW.books.notself _ hZ
      have hZ3 : (w.cl.mgr Z).managers = (w0.cl.mgr Z).managers ∧ (w.cl.mgr Z).starts = (w0.cl.mgr Z).starts ∧
          (w.cl.mgr Z).fresh = (w0.cl.mgr Z).fresh ∧ ∀ l, (w.cl.mgr Z).st = .starting l → (w0.cl.mgr Z).st = .starting l := by
        by_cases e : Z = L
        · subst e; rw [h3L]; exact ⟨rfl, rfl, rfl, fun l hl => by cases hl⟩
        · rw [h3o Z e, h2o Z hZN]; exact ⟨rfl, rfl, rfl, fun l hl => hl⟩
      obtain ⟨z1, z2, z3, z4⟩ := hZ3
      rw [← z3]
      refine i3 Z ⟨?_, by rw [z1]; exact hZ, by rw [z2]; exact hZ2, ?_⟩
      · intro l hl
        exact (hW.books.quiet N q hq).2 Z l (z4 l hl)
      · intro hm
        rcases hacks _ _ hm with hm | ⟨_, e⟩
        · exact ((hW.books.quiet N q hq).1 Z).1 hm
        · exact hqZ e

theorem gentle_mono {R R' : List Nat} (hR : ∀ i ∈ R, i ∈ R') {ops : List JOp} {w : Sys} (h : Gentle C R w ops) : Gentle C R' w ops := by
  induction ops generalizing w with
  | nil => trivial
  | cons op ops ih =>
    refine ⟨?_, ih h.2⟩
    have h1 := h.1
    cases op with
    | beat o =>
      cases o with
      | tick i => exact fun hi he => h1 (fun hc => hi (hR i hc)) he
      | notice i j => exact fun hi he => h1 (fun hc => hi (hR i hc)) he
      | _ => trivial
    | _ => trivial

/-- **C110 refuted (alone).** A node that has registered itself and not found any other yet (a worker registers itself
first and then looks for its seed) is told by its second tick that it leads, and starts an instance of its own. From
then on there are two, and they both go on for as long as their nodes do, however well the nodes get to know each
other. -/
theorem C110_alone_refuted (henv : ∀ t d, C.env.addOk t d = true) (hmin : C.hb.minSize = none) (L N a : Nat)
    (hNL : N ≠ L) (ops : List JOp) (hops : NoRemoval ops) (hgs : Gentle C [L] (Sys.init C) ops)
    (hs : Settled (Sys.run C ops) L a) (hup : Up (Sys.run C ops).clu N) (hmN : (Sys.run C ops).made N = true)
    (q : Option Nat) (hq : ((Sys.run C ops).cl.mgr N).st = .joining q) (hel : Elects (Sys.run C ops).clu N)
    (hfirst : ((Sys.run C ops).clu.hb N).up = false) (hled : (Sys.run C ops).clu.leader N ≠ some N)
    (honly : ∀ k, Registered (Sys.run C ops).clu N k → k = N) (hnone : ((Sys.run C ops).cl.mgr N).managers = [])
    (hunk : N ∉ ((Sys.run C ops).cl.mgr L).managers) :
    ∃ ms b, ∀ w, w = (Sys.run C ops).runFrom C [.beat (.tick N), .hear N (.memberUp N ms), .boot N, .started N b] →
      ∀ more, Gentle C [L, N] w more → (∀ op ∈ more, Lasting [L, N] (fun i => if i = L then a else b) op) →
        (w.runFrom C more).Runs L a ∧ (w.runFrom C more).Runs N b ∧
        ((w.runFrom C more).cl.mgr L).st = .running a ∧ ((w.runFrom C more).cl.mgr N).st = .running b ∧
        (w.runFrom C more).stops = (Sys.run C ops).stops := by
  have hW : World C (Sys.run C ops) := (World.init C).runFrom henv ops hops
  have hLo : Lone [L] (Sys.run C ops) := (Lone.init C [L]).runFrom henv ops (Good.init C) hgs
  have hLo2 : Lone [L, N] (Sys.run C ops) := (Lone.init C [L, N]).runFrom henv ops (Good.init C)
    (gentle_mono (by simp) hgs)
  generalize hw0 : Sys.run C ops = w0 at *
  obtain ⟨ms, hpub, hms⟩ := elects_itself henv hW.good hup hel hfirst hled
    (fun k hk _ => by rw [honly k hk]; exact .inr ⟨rfl, Nat.le_refl _⟩) hmin
  refine ⟨ms, (w0.cl.mgr N).fresh, ?_⟩
  intro w hw
  obtain ⟨n1, n2⟩ := hW.ups.new N q hq
  have n3 := (hLo.rest N (by simpa using hNL)).live
  have hself := hW.books.self N
  have hM : addManagers (fun _ => true) N (w0.cl.mgr N).managers ms = [] := by
    rw [List.eq_nil_iff_forall_not_mem]
    intro x hx
    rcases ((addManagers_spec _ _ _ _ (hW.books.nodup N)).2 x).1 hx with h | ⟨h1, h2, _⟩
    · rw [hnone] at h; simp at h
    · exact h2 (honly x ((hms x).1 h1))
  have hdue0 : ∀ τ : Mgr, τ.managers = [] → τ.dueAck = [] := by
    intro τ hτ
    unfold Mgr.dueAck Mgr.notifyManager
    rw [hτ]
    split <;> simp
  have hstep : (w0.cl.mgr N).step (fun _ => true) (.memberUp N ms) =
      ({ w0.cl.mgr N with managers := [], st := .starting [], starts := 1 }, []) := by
    simp only [Mgr.step, Mgr.onMemberUp, hself, hM, if_true]
    rw [hdue0 _ rfl]
    simp [Mgr.beginStarting, Mgr.startActor, n1]
  let w1 := w0.step C (.beat (.tick N))
  have hW1 : World C w1 := hW.step henv (by simp)
  have h1up : ∀ i, Up w0.clu i → Up w1.clu i := fun i hi => step_up hi (by simp)
  have h1bus : (N, News.memberUp N ms) ∈ w1.bus := by
    show _ ∈ w0.bus ++ published C w0.clu (.tick N)
    rw [hpub]; simp
  let v1 : Sys := { w1 with bus := w1.bus.erase (N, .memberUp N ms) }
  have h2 : w1.step C (.hear N (.memberUp N ms)) = v1.mgrStep N (.memberUp N ms) := step_hear (h1up N hup) hmN h1bus
  let w2 := v1.mgrStep N (.memberUp N ms)
  have ha : Up w1.clu N := h1up N hup
  have hal : w2.alive N = true := (alive_iff w2 N).2 ha
  have h3 : w2.step C (.boot N) = w2.mgrStep N .boot := by
    simp [Sys.step, hal, show w2.made N = true from hmN]
  let w3 := w2.mgrStep N .boot
  have h4 : w3.step C (.started N (w0.cl.mgr N).fresh) = w3.mgrStep N (.started (w0.cl.mgr N).fresh) := by
    simp [Sys.step, show w3.alive N = true from hal, show w3.made N = true from hmN]
  have hweq : w = w3.mgrStep N (.started (w0.cl.mgr N).fresh) := by
    rw [hw]
    simp only [Sys.runFrom, List.foldl]
    show ((w1.step C (.hear N (.memberUp N ms))).step C (.boot N)).step C _ = _
    rw [h2, h3, h4]
  have m2 : w2.cl.mgr N = { w0.cl.mgr N with managers := [], st := .starting [], starts := 1 } := by
    show (act w0.cl w0.cl.net N (.memberUp N ms)).mgr N = _
    rw [act_self, hstep]
  have hboot : (w2.cl.mgr N).step (fun _ => true) .boot =
      ({ w0.cl.mgr N with
          managers := [], st := .starting [], starts := 0, fresh := (w0.cl.mgr N).fresh + 1, live := [(w0.cl.mgr N).fresh], results := [(w0.cl.mgr N).fresh] }, []) := by
    rw [m2]
    simp [Mgr.step, Mgr.boot, n2, n3]
  have m3 : w3.cl.mgr N = { w0.cl.mgr N with
      managers := [], st := .starting [], starts := 0, fresh := (w0.cl.mgr N).fresh + 1, live := [(w0.cl.mgr N).fresh], results := [(w0.cl.mgr N).fresh] } := by
    show (act w2.cl w2.cl.net N .boot).mgr N = _
    rw [act_self, hboot]
  have hstd : (w3.cl.mgr N).step (fun _ => true) (.started (w0.cl.mgr N).fresh) =
      ({ w0.cl.mgr N with
          managers := [], st := .running (w0.cl.mgr N).fresh, starts := 0, fresh := (w0.cl.mgr N).fresh + 1, live := [(w0.cl.mgr N).fresh], results := [] },
        [.proxyStarted N (w0.cl.mgr N).fresh]) := by
    rw [m3]
    simp [Mgr.step, Mgr.onStarted, Mgr.notifyManagers, hself]
  have mN : w.cl.mgr N = { w0.cl.mgr N with
      managers := [], st := .running (w0.cl.mgr N).fresh, starts := 0, fresh := (w0.cl.mgr N).fresh + 1, live := [(w0.cl.mgr N).fresh], results := [] } := by
    rw [hweq]
    show (act w3.cl w3.cl.net N _).mgr N = _
    rw [act_self, hstd]
  have mo : ∀ k, k ≠ N → w.cl.mgr k = w0.cl.mgr k := by
    intro k hk
    rw [hweq]
    show (act w3.cl w3.cl.net N _).mgr k = _
    rw [act_other _ _ _ hk]
    show (act w2.cl w2.cl.net N _).mgr k = _
    rw [act_other _ _ _ hk]
    show (act w0.cl w0.cl.net N _).mgr k = _
    rw [act_other _ _ _ hk]
  have mnet : ∀ x ∈ w.cl.net, x ∈ w0.cl.net := by
    intro x hx
    obtain ⟨d, m⟩ := x
    rw [hweq] at hx
    rcases (act_net w3.cl w3.cl.net N (.started (w0.cl.mgr N).fresh) d m).1 hx with hx | hx
    · rcases (act_net w2.cl w2.cl.net N .boot d m).1 hx with hx | hx
      · rcases (act_net w0.cl w0.cl.net N (.memberUp N ms) d m).1 hx with hx | hx
        · exact hx
        · rw [hstep] at hx; simp at hx
      · rw [hboot] at hx; simp at hx
    · rw [hstd] at hx; simp at hx
  have mstops : w.stops = w0.stops := by
    rw [hweq]
    show ((w0.stops ++ ((w0.cl.mgr N).step (fun _ => true) (.memberUp N ms)).2.filterMap (stopsOf N)) ++
      ((w2.cl.mgr N).step (fun _ => true) .boot).2.filterMap (stopsOf N)) ++
      ((w3.cl.mgr N).step (fun _ => true) (.started (w0.cl.mgr N).fresh)).2.filterMap (stopsOf N) = _
    rw [hstep, hboot, hstd]
    simp [stopsOf]
  intro more hg2 hl2
  have hfour : NoRemoval [.beat (.tick N), .hear N (.memberUp N ms), .boot N, .started N (w0.cl.mgr N).fresh] := by
    intro i j hm; simp at hm
  have hWw : World C w := by rw [hw]; exact hW.runFrom henv _ hfour
  have hLw : Lone [L, N] w := by
    rw [hw]
    refine hLo2.runFrom henv _ hW.good ⟨?_, ?_, ?_, ?_, ?_⟩
    · intro hi; simp at hi
    all_goals trivial
  have hclu : w.clu = w1.clu := by rw [hweq]; rfl
  have hSv : Serving [L, N] (fun i => if i = L then a else (w0.cl.mgr N).fresh) w := by
    refine ⟨hLw, ?_, ?_, ?_⟩
    · intro i hi
      rw [hclu]
      simp at hi
      rcases hi with rfl | rfl
      · exact h1up _ hs.1.1
      · exact ha
    · intro i hi
      simp at hi
      rcases hi with rfl | rfl
      · rw [mo i (Ne.symm hNL)]
        simp only [if_true]
        exact ⟨hs.2.1, hs.2.2.1, hs.2.2.2, hs.1.2⟩
      · rw [mN]
        simp only [if_neg hNL]
        exact ⟨rfl, rfl, rfl, by simp⟩
    · intro i hi s hm
      have hm := mnet _ hm
      obtain ⟨r1, r2⟩ := hLo.req _ _ hm
      simp at r1 hi
      subst r1
      rcases hi with rfl | rfl
      · exact r2 rfl
      · exact hunk (hW.books.req _ _ hm)
  obtain ⟨s1, _, _, s4⟩ := hSv.runFrom henv more hWw.good hWw.ups hg2 hl2
  have rL := s1.run L (by simp)
  have rN := s1.run N (by simp)
  simp only [if_true] at rL
  simp only [if_neg hNL] at rN
  exact ⟨⟨s1.up L (by simp), rL.live⟩, ⟨s1.up N (by simp), rN.live⟩, rL.st, rN.st, by rw [s4, mstops]⟩

/-- **C110 refuted (late manager).** A node whose manager is built after its heartbeat has announced `MemberUp` stays
"joining" for ever: it never starts the singleton, whatever leader is elected. It answers no request either, so no
node that knows it and has not begun to start ever starts the singleton. -/
theorem C110_late_manager_refuted (henv : ∀ t d, C.env.addOk t d = true) (X l : Nat) (ms : List Nat) (ops : List JOp)
    (hops : NoRemoval ops) (hup : Up (Sys.run C ops).clu X) (hmade : (Sys.run C ops).made X = false)
    (hin : (X, News.memberUp l ms) ∈ (Sys.run C ops).bus) :
    ∀ w, w = (Sys.run C ops).runFrom C [.hear X (.memberUp l ms), .build X] → w.made X = true ∧
      (∀ more, (∃ p, ((w.runFrom C more).cl.mgr X).st = .joining p) ∧ ((w.runFrom C more).cl.mgr X).starts = 0) ∧
      ∀ more, NoRemoval more → ∀ Z, X ∈ ((Sys.run C ops).cl.mgr Z).managers → ((Sys.run C ops).cl.mgr Z).starts = 0 →
        ((w.runFrom C more).cl.mgr Z).fresh = ((Sys.run C ops).cl.mgr Z).fresh := by
  have hW : World C (Sys.run C ops) := (World.init C).runFrom henv ops hops
  generalize Sys.run C ops = w0 at *
  intro w hw
  have h1 : w0.step C (.hear X (.memberUp l ms)) = { w0 with bus := w0.bus.erase (X, .memberUp l ms) } := by
    simp [Sys.step, (alive_iff w0 X).2 hup, hin, hmade]
  have hw2 : w = { w0 with bus := w0.bus.erase (X, .memberUp l ms), made := fun k => if k = X then true else w0.made k } := by
    rw [hw]
    simp only [Sys.runFrom, List.foldl]
    rw [h1]
    exact step_build (by exact hup)
  have hWw : World C w := by
    rw [hw]
    exact hW.runFrom henv _ (by intro i j hm; simp at hm)
  have hcl : w.cl = w0.cl := by rw [hw2]
  have hini := hW.silent.unmade X hmade
  have hmiss : Missed w X := by
    refine ⟨⟨none, by rw [hcl, hini]; rfl⟩, ?_, ?_⟩
    · rw [hw2]; exact hW.ups.news X (List.countP_pos_iff.2 ⟨_, hin, isUp_iff.2 ⟨l, ms, rfl⟩⟩)
    · rw [hw2]
      have hc := countP_erase hin (isUp X)
      rw [if_pos (isUp_iff.2 ⟨l, ms, rfl⟩)] at hc
      have := hW.ups.one X
      show (w0.bus.erase (X, .memberUp l ms)).countP (isUp X) = 0
      omega
  refine ⟨by rw [hw2]; simp, ?_, ?_⟩
  · intro more
    have hm := missed_run henv more hWw.good hWw.ups hmiss
    obtain ⟨g1, g2⟩ := good_run henv more hWw.good hWw.ups
    obtain ⟨p, hp⟩ := hm.st
    exact ⟨⟨p, hp⟩, (g2.new X p hp).1⟩
  · intro more hmore Z hZ hZ2
    rw [← hcl]
    have hX : (w0.cl.mgr X).st = .joining none := by rw [hini]; rfl
    refine missed_waits henv more hWw hmore hmiss ⟨?_, by rw [hcl]; exact hZ, by rw [hcl]; exact hZ2, ?_⟩
    · rw [hcl]; exact fun l => (hW.books.quiet X none hX).2 Z l
    · rw [hcl]; exact ((hW.books.quiet X none hX).1 Z).1

/-- **C110 refuted (early request).** A request that reaches a node whose manager has not been built yet is dropped.
It is not repeated: the leader waits for the answer for ever, and never starts the singleton. -/
theorem C110_early_request_refuted (henv : ∀ t d, C.env.addOk t d = true) (L N : Nat) (l : List Nat) (ops : List JOp)
    (hops : NoRemoval ops) (hup : Up (Sys.run C ops).clu N) (hmade : (Sys.run C ops).made N = false)
    (hst : ((Sys.run C ops).cl.mgr L).st = .starting l) (hk : N ∈ ((Sys.run C ops).cl.mgr L).managers)
    (h0 : ((Sys.run C ops).cl.mgr L).starts = 0) (hr : ((Sys.run C ops).cl.mgr L).results = [])
    (hone : (Sys.run C ops).cl.net.count (N, MMsg.request L) = 1) :
    ∀ more, NoRemoval more →
      (∃ l', (((Sys.run C ops).runFrom C (.recv N (.request L) :: more)).cl.mgr L).st = .starting l') ∧
      (((Sys.run C ops).runFrom C (.recv N (.request L) :: more)).cl.mgr L).fresh = ((Sys.run C ops).cl.mgr L).fresh := by
  have hW : World C (Sys.run C ops) := (World.init C).runFrom henv ops hops
  generalize Sys.run C ops = w0 at *
  intro more hmore
  have hin : (N, MMsg.request L) ∈ w0.cl.net := List.count_pos_iff.1 (by omega)
  have h1 : w0.step C (.recv N (.request L)) = { w0 with cl := { w0.cl with net := w0.cl.net.erase (N, .request L) } } := by
    simp [Sys.step, (alive_iff w0 N).2 hup, hin, hmade]
  have hini := hW.silent.unmade N hmade
  have hN : (w0.cl.mgr N).st = .joining none := by rw [hini]; rfl
  have hh : Hangs (w0.step C (.recv N (.request L))).cl L N := by
    rw [h1]
    refine ⟨⟨l, hst, (hW.books.quiet N none hN).2 L l hst⟩, hk, h0, hr, ?_, ?_, ?_⟩
    · exact fun hm => ((hW.books.quiet N none hN).1 L).1 (List.mem_of_mem_erase hm)
    · intro hm
      have hc := List.count_pos_iff.2 hm
      simp only at hc
      rw [List.count_erase_self] at hc
      omega
    · show (w0.cl.mgr N).st ≠ _
      rw [hN]; simp
  obtain ⟨i1, i2, _⟩ := hangs_run henv more (hW.step henv (op := .recv N (.request L)) (by simp)) hmore hh
  obtain ⟨l', hl', _⟩ := i1.start
  refine ⟨⟨l', hl'⟩, ?_⟩
  have : ((w0.step C (.recv N (.request L))).cl.mgr L).fresh = (w0.cl.mgr L).fresh := by rw [h1]
  rw [← this]
  exact i2

theorem made_run {N : Nat} {v : Sys} (h : v.made N = true) (more : List JOp) : (v.runFrom C more).made N = true := by
  induction more generalizing v with
  | nil => exact h
  | cons op more ih =>
    refine ih ?_
    cases hb : (v.step C op).made N with
    | true => rfl
    | false => have := made_mono (step_trans C v op) hb; rw [h] at this; cases this

/-- **C110 refuted (untold).** The word that the singleton runs on `L` is sent to a node once, when `L` hears of it. If
the node has not built its manager by then, its proxy holds back everything sent to the singleton for ever, while the
singleton runs. -/
theorem C110_untold_refuted (henv : ∀ t d, C.env.addOk t d = true) (L N a : Nat) (hNL : N ≠ L) (ops more : List JOp)
    (hops : NoRemoval ops) (hmore : NoRemoval more) (hs : Settled (Sys.run C ops) L a)
    (hup : Up (Sys.run C ops).clu N) (hmade : (Sys.run C ops).made N = false)
    (hk : N ∈ ((Sys.run C ops).cl.mgr L).managers) (hp : (Sys.run C ops).proxy N = none)
    (hin : (N, MMsg.started L) ∈ (Sys.run C ops).cl.net)
    (hone : ∀ s, (N, MMsg.started s) ∉ (Sys.run C ops).cl.net.erase (N, .started L))
    (hgs : Gentle C [L] (Sys.init C) (ops ++ ([.recv N (.started L), .build N] ++ more)))
    (hlast : ∀ op ∈ more, Lasting [L] (fun _ => a) op) :
    (Sys.run C (ops ++ ([.recv N (.started L), .build N] ++ more))).made N = true ∧
    (Sys.run C (ops ++ ([.recv N (.started L), .build N] ++ more))).proxy N = none ∧
    Settled (Sys.run C (ops ++ ([.recv N (.started L), .build N] ++ more))) L a := by
  have hW : World C (Sys.run C ops) := (World.init C).runFrom henv ops hops
  obtain ⟨g1, g2⟩ := gentle_append.1 hgs
  obtain ⟨g2, g3⟩ := gentle_append.1 g2
  have hLo : Lone [L] (Sys.run C ops) := (Lone.init C [L]).runFrom henv ops (Good.init C) g1
  have hall : Settled (Sys.run C (ops ++ ([.recv N (.started L), .build N] ++ more))) L a := by
    refine (C110_goes_on_partial henv L a ops _ hgs hs ?_).1
    intro op hop
    simp only [List.mem_append, List.mem_cons, List.not_mem_nil, or_false] at hop
    rcases hop with (rfl | rfl) | hop
    · trivial
    · trivial
    · exact hlast op hop
  suffices hmp : (Sys.run C (ops ++ ([.recv N (.started L), .build N] ++ more))).made N = true ∧
      (Sys.run C (ops ++ ([.recv N (.started L), .build N] ++ more))).proxy N = none from ⟨hmp.1, hmp.2, hall⟩
  · rw [show Sys.run C (ops ++ ([.recv N (.started L), .build N] ++ more)) =
      ((Sys.run C ops).runFrom C [.recv N (.started L), .build N]).runFrom C more by
        show (Sys.init C).runFrom C _ = _
        rw [runFrom_append, runFrom_append]; rfl]
    have g3' : Gentle C [L] ((Sys.run C ops).runFrom C [.recv N (.started L), .build N]) more := g3
    have hW2 : World C ((Sys.run C ops).runFrom C [.recv N (.started L), .build N]) :=
      hW.runFrom henv _ (by intro i j hm; simp at hm)
    have g2' : Gentle C [L] (Sys.run C ops) [.recv N (.started L), .build N] := g2
    have hS2 := ((serving_of hLo hs).runFrom henv [.recv N (.started L), .build N] hW.good hW.ups g2' (by
      intro op hop
      simp only [List.mem_cons, List.not_mem_nil, or_false] at hop
      rcases hop with rfl | rfl <;> trivial)).1
    generalize Sys.run C ops = w0 at *
    have h1 : w0.step C (.recv N (.started L)) = { w0 with cl := { w0.cl with net := w0.cl.net.erase (N, .started L) } } := by
      simp [Sys.step, (alive_iff w0 N).2 hup, hin, hmade]
    have h2 : w0.runFrom C [.recv N (.started L), .build N] = { w0 with
        cl := { w0.cl with net := w0.cl.net.erase (N, .started L) }, made := fun k => if k = N then true else w0.made k } := by
      simp only [Sys.runFrom, List.foldl]
      rw [h1]
      exact step_build (by exact hup)
    refine ⟨?_, ?_⟩
    · have hm2 : (w0.runFrom C [.recv N (.started L), .build N]).made N = true := by rw [h2]; simp
      exact made_run hm2 more
    · have hU : Untold L N (w0.runFrom C [.recv N (.started L), .build N]) := by
        rw [h2]; exact ⟨hk, hone, hp⟩
      exact (hU.runFrom henv hNL more hW2.good hW2.ups hW2.norem hS2 g3' hlast hmore).proxy

/-! ### Examples -/

/-- whether a step is gentle, computed. -/
def gentleStepB (C : Conf) (R : List Nat) (w : Sys) (op : JOp) : Bool :=
  let check (i : Nat) (gone : List Nat) : Bool :=
    R.contains i || !((w.clu.hb i).ticked) || ((w.clu.hb i).nodes.map (·.1)).any fun k =>
      !gone.contains k && !(decide (C.born i < C.born k) || (decide (C.born i = C.born k) && decide (i ≤ k))) &&
      match (w.clu.hb i).pings.get k with
      | some (.ok latency received) => decide (latency ≤ C.hb.unhealthy) &&
          decide (w.clu.time C i - received < C.hb.unhealthy) && decide (w.clu.time C i - received < C.hb.terminated)
      | _ => false
  match op with
  | .beat (.tick i) => check i []
  | .beat (.notice i j) => check i [j]
  | _ => true

def gentleB (C : Conf) (R : List Nat) : Sys → List JOp → Bool
  | _, [] => true
  | w, op :: ops => gentleStepB C R w op && gentleB C R (w.step C op) ops

theorem gentle_of_check {R : List Nat} {ops : List JOp} {w : Sys} (h : gentleB C R w ops = true) : Gentle C R w ops := by
  induction ops generalizing w with
  | nil => trivial
  | cons op ops ih =>
    simp only [gentleB, Bool.and_eq_true] at h
    refine ⟨?_, ih h.2⟩
    have key : ∀ i gone, (R.contains i || !((w.clu.hb i).ticked) || ((w.clu.hb i).nodes.map (·.1)).any fun k =>
      !gone.contains k && !(decide (C.born i < C.born k) || (decide (C.born i = C.born k) && decide (i ≤ k))) &&
      match (w.clu.hb i).pings.get k with
      | some (.ok latency received) => decide (latency ≤ C.hb.unhealthy) &&
          decide (w.clu.time C i - received < C.hb.unhealthy) && decide (w.clu.time C i - received < C.hb.terminated)
      | _ => false) = true → i ∉ R → Elects w.clu i → Sheltered C w.clu i gone := by
      intro i gone hc hi he
      rw [Bool.or_eq_true, Bool.or_eq_true] at hc
      rcases hc with (hc | hc) | hc
      · exact absurd (List.contains_iff_mem.1 hc) hi
      · rw [he.1] at hc; simp at hc
      · obtain ⟨k, hk, hc⟩ := List.any_eq_true.1 hc
        rw [Bool.and_eq_true, Bool.and_eq_true] at hc
        obtain ⟨⟨c1, c2⟩, c3⟩ := hc
        obtain ⟨p, hp, rfl⟩ := List.mem_map.1 hk
        refine ⟨p.1, ?_, ⟨p.2, hp⟩, ?_, ?_⟩
        · intro hm; simp [hm] at c1
        · revert c3
          cases hg : (w.clu.hb i).pings.get p.1 with
          | none => simp
          | some x =>
            cases x with
            | ok lat r =>
              intro c3
              simp only [Bool.and_eq_true, decide_eq_true_eq] at c3
              exact ⟨lat, r, hg, c3.1.1, c3.1.2, c3.2⟩
            | _ => simp
        · intro hb
          simp only [Bool.not_eq_true', Bool.or_eq_false_iff, Bool.and_eq_false_iff, decide_eq_false_iff_not] at c2
          rcases hb with hb | ⟨hb, hb2⟩
          · exact c2.1 hb
          · rcases c2.2 with c | c
            · exact c hb
            · exact c hb2
    have h1 := h.1
    cases op with
    | beat o =>
      cases o with
      | tick i => exact fun hi he => key i [] h1 hi he
      | notice i j => exact fun hi he => key i [j] h1 hi he
      | _ => trivial
    | _ => trivial

/-- a configuration with the default timeouts; node 1 is the oldest, then 2, then 3. -/
def demo : Conf where
  env := ⟨0, fun _ _ => true⟩
  hb := ⟨1500000000, 30000000000, none⟩
  skew := fun _ => 0
  born := fun i => 10 * i
  single := fun _ => false

/-- node 1 founds a cluster and starts the singleton. -/
def founded : List JOp :=
  [.build 1, .beat (.learn 1 1), .beat (.tick 1), .beat (.tick 1), .hear 1 (.memberUp 1 [1]), .hear 1 (.leaderChanged 1),
   .boot 1, .started 1 0]

/-- node 2 joins and hears an answer of node 1 before its second tick. -/
def joined : List JOp :=
  [.build 2, .beat (.learn 2 2), .beat (.learn 2 1), .beat (.learn 1 2), .beat (.tick 2), .beat (.pass 1000),
   .beat (.answer 2 1 10 995 1000), .beat (.tick 2), .hear 2 (.memberUp 1 [1, 2]), .hear 2 (.leaderChanged 1), .added 1 2,
   .hear 1 (.added 2), .added 2 1, .hear 2 (.added 1), .recv 2 (.started 1), .beat (.tick 1), .beat (.tick 2)]

theorem demo_settled : Settled (Sys.run demo founded) 1 0 := by
  refine ⟨⟨?_, ?_⟩, ?_, ?_, ?_⟩
  · unfold Up; decide +kernel
  all_goals decide +kernel

theorem demo_gentle : Gentle demo [1] (Sys.init demo) (founded ++ joined) := gentle_of_check (by decide +kernel)

example : ∀ op ∈ joined, Lasting [1] (fun _ => 0) op := by
  intro op hop
  simp only [joined, List.mem_cons, List.not_mem_nil, or_false] at hop
  rcases hop with rfl | rfl | rfl | rfl | rfl | rfl | rfl | rfl | rfl | rfl | rfl | rfl | rfl | rfl | rfl | rfl | rfl <;> trivial

/-- both nodes take node 1 for the leader, the manager of node 2 is idle, and its proxy sends to node 1. -/
example : (fun w : Sys => (w.clu.leader 1, w.clu.leader 2, (w.cl.mgr 1).st, (w.cl.mgr 2).st, w.proxy 2, w.proxy 1))
    (Sys.run demo (founded ++ joined)) = (some 1, some 1, .running 0, .idle, some 1, some 1) := by decide +kernel

/-- the hypotheses of `C110_told_partial` and `C110_can_be_told`. -/
example : (Sys.run demo (founded ++ [.build 2])).made 2 = true ∧
    2 ∉ ((Sys.run demo (founded ++ [.build 2])).cl.mgr 1).managers ∧ (Sys.run demo (founded ++ [.build 2])).cl.net = [] := by
  decide +kernel

/-- The claim: an instance that runs goes on when nodes join, as long as its node and itself last, and there is no
other. -/
def C110_full : Prop := ∀ (C : Conf), (∀ t d, C.env.addOk t d = true) → ∀ (L a : Nat) (ops more : List JOp),
  NoRemoval (ops ++ more) → (∀ i b, (Sys.run C ops).Runs i b → i = L) → Settled (Sys.run C ops) L a →
  (∀ op ∈ more, Lasting [L] (fun _ => a) op) →
  Settled (Sys.run C (ops ++ more)) L a ∧ ∀ i b, (Sys.run C (ops ++ more)).Runs i b → i = L

/-- node 2 joins, knows node 1, and ticks twice before it has an answer. -/
def hasty : List JOp :=
  [.build 2, .beat (.learn 2 2), .beat (.learn 2 1), .beat (.learn 1 2), .added 1 2, .hear 1 (.added 2), .beat (.tick 2)]

/-- **C110 refuted.** The instance is stopped because a node joins: node 2 joins, knows node 1, and has no answer of it
by its second tick. -/
theorem C110_refuted : ¬ C110_full := by
  intro h
  have hlo : ∀ i b, (Sys.run demo founded).Runs i b → i = 1 := by
    rintro i b hr
    refine Decidable.byContradiction fun hi => ?_
    exact (C110_only_there_partial (C := demo) (fun _ _ => rfl) 1 founded (gentle_append.1 demo_gentle).1 i hi).2 b hr
  have := h demo (fun _ _ => rfl) 1 0 founded
    (hasty ++ [.beat (.tick 2), .hear 2 (.memberUp 2 [1, 2]), .recv 1 (.request 2)]) (by
      intro i j hm
      simp [founded, hasty] at hm) hlo demo_settled (by
      intro op hop
      simp only [hasty, List.cons_append, List.nil_append, List.mem_cons, List.not_mem_nil, or_false] at hop
      rcases hop with rfl | rfl | rfl | rfl | rfl | rfl | rfl | rfl | rfl | rfl <;> trivial)
  have hst := this.1.2.1
  revert hst
  decide +kernel

/-- the hypotheses of `C110_hasty_joiner_refuted`, with all nodes that run knowing node 2: none of them ever starts the
singleton again. -/
example : ∃ ms, ∀ w, w = (Sys.run demo (founded ++ hasty)).runFrom demo [.beat (.tick 2), .hear 2 (.memberUp 2 ms), .recv 1 (.request 2)] →
    (1, 0) ∈ w.stops ∧ ∀ more, NoRemoval more → ((w.runFrom demo more).cl.mgr 1).fresh = 1 ∧ ((w.runFrom demo more).cl.mgr 2).fresh = 0 := by
  have hp : ((Sys.run demo (founded ++ hasty)).clu.hb 2).pings = [] := by decide +kernel
  obtain ⟨ms, h⟩ := C110_hasty_joiner_refuted (C := demo) (fun _ _ => rfl) rfl 1 2 0 (by decide) (founded ++ hasty)
    (by intro i j hm; simp [founded, hasty] at hm)
    ⟨by unfold Up; decide +kernel, by decide +kernel⟩ (by decide +kernel) (by decide +kernel) (by unfold Up; decide +kernel)
    (by decide +kernel) none (by decide +kernel) ⟨by decide +kernel, ⟨⟨2, some 20, .healthy, some 0, none⟩, by decide +kernel⟩⟩
    (by decide +kernel) (by decide +kernel)
    (by rintro k _ ⟨lat, r, h, _⟩; rw [hp] at h; simp [Assoc.get] at h)
    ⟨⟨1, some 10, .joining, none, none⟩, by decide +kernel⟩
  refine ⟨ms, fun w hw => ?_⟩
  obtain ⟨_, h2, h3⟩ := h w hw
  refine ⟨h2, fun more hm => ?_⟩
  obtain ⟨_, h4, h5⟩ := h3 more hm
  exact ⟨(h5 1 (by decide +kernel) (by decide +kernel) (by simp)).trans (by decide +kernel), h4.trans (by decide +kernel)⟩

/-- the end of it: node 1 is stopping, node 2 waits for it, and although everybody comes to agree that node 1 leads,
the singleton has ended and nobody starts it. -/
example : (fun w : Sys => [((w.cl.mgr 1).st, (w.cl.mgr 1).live, w.clu.leader 1), ((w.cl.mgr 2).st, (w.cl.mgr 2).live, w.clu.leader 2)])
    (Sys.run demo (founded ++ hasty ++ [.beat (.tick 2), .hear 2 (.memberUp 2 [1, 2]), .recv 1 (.request 2), .exits 1 0,
      .recv 2 (.stopped 1), .hear 2 (.leaderChanged 2), .beat (.pass 1000), .beat (.answer 2 1 10 995 1000),
      .beat (.answer 1 2 10 995 1000), .beat (.tick 2), .beat (.tick 1), .hear 2 (.leaderChanged 1)])) =
    [(.stopping 0 2, [], some 1), (.starting [], [], some 1)] := by decide +kernel

/-- node 2 has built its manager and registered itself, and has not found node 1 at its second tick. -/
def alone : List JOp := [.build 2, .beat (.learn 2 2), .beat (.tick 2)]

/-- the hypotheses of `C110_alone_refuted`. -/
example : ∃ ms b, ∀ w, w = (Sys.run demo (founded ++ alone)).runFrom demo [.beat (.tick 2), .hear 2 (.memberUp 2 ms), .boot 2, .started 2 b] →
    w.Runs 1 0 ∧ w.Runs 2 b := by
  have hn : ((Sys.run demo (founded ++ alone)).clu.hb 2).nodes.map (·.1) = [2] := by decide +kernel
  obtain ⟨ms, b, h⟩ := C110_alone_refuted (C := demo) (fun _ _ => rfl) rfl 1 2 0 (by decide) (founded ++ alone)
    (by intro i j hm; simp [founded, alone] at hm) (gentle_of_check (by decide +kernel))
    ⟨⟨by unfold Up; decide +kernel, by decide +kernel⟩, by decide +kernel, by decide +kernel, by decide +kernel⟩
    (by unfold Up; decide +kernel) (by decide +kernel) none (by decide +kernel)
    ⟨by decide +kernel, ⟨⟨2, some 20, .healthy, some 0, none⟩, by decide +kernel⟩⟩ (by decide +kernel) (by decide +kernel)
    (by
      rintro k ⟨n, hk⟩
      have : k ∈ ((Sys.run demo (founded ++ alone)).clu.hb 2).nodes.map (·.1) := List.mem_map.2 ⟨_, hk, rfl⟩
      rw [hn] at this
      simpa using this) (by decide +kernel) (by decide +kernel)
  refine ⟨ms, b, fun w hw => ?_⟩
  have := h w hw [] trivial (by simp)
  exact ⟨this.1, this.2.1⟩

/-- two instances, although the nodes know each other and take node 1 for the leader; and each proxy was told last of
the instance of the other node. -/
example : (fun w : Sys => [((w.cl.mgr 1).live, (w.cl.mgr 1).st, w.clu.leader 1, w.proxy 1),
      ((w.cl.mgr 2).live, (w.cl.mgr 2).st, w.clu.leader 2, w.proxy 2)])
    (Sys.run demo (founded ++ alone ++ [.beat (.tick 2), .hear 2 (.memberUp 2 [2]), .boot 2, .started 2 0, .beat (.learn 2 1),
      .beat (.learn 1 2), .added 1 2, .added 2 1, .hear 1 (.added 2), .hear 2 (.added 1), .recv 2 (.started 1),
      .recv 1 (.started 2), .beat (.pass 1000), .beat (.answer 2 1 10 995 1000), .beat (.tick 2), .hear 2 (.leaderChanged 1),
      .beat (.tick 1)])) =
    [([0], .running 0, some 1, some 2), ([0], .running 0, some 1, some 1)] := by decide +kernel

/-- the hypotheses of `C110_late_manager_refuted`: the manager of node 1 is not built before its second tick. -/
example : (Sys.run demo [.beat (.learn 1 1), .beat (.tick 1), .beat (.tick 1)]).made 1 = false ∧
    (1, News.memberUp 1 [1]) ∈ (Sys.run demo [.beat (.learn 1 1), .beat (.tick 1), .beat (.tick 1)]).bus := by decide +kernel

/-- the leader of a cluster of one never starts its singleton. -/
example : (fun w : Sys => ((w.cl.mgr 1).st, w.clu.leader 1, w.bus))
    (Sys.run demo [.beat (.learn 1 1), .beat (.tick 1), .beat (.tick 1), .hear 1 (.memberUp 1 [1]), .build 1,
      .hear 1 (.leaderChanged 1), .boot 1]) = (.joining none, some 1, []) := by decide +kernel

/-- the hypotheses of `C110_early_request_refuted`: node 2 has joined the cluster and not yet built its manager. -/
example : (fun w : Sys => (w.made 2, (w.cl.mgr 1).st, (w.cl.mgr 1).managers, (w.cl.mgr 1).starts, (w.cl.mgr 1).results,
      w.cl.net.count (2, .request 1)))
    (Sys.run demo [.build 1, .beat (.learn 1 1), .beat (.learn 1 2), .beat (.tick 1), .beat (.tick 1),
      .hear 1 (.memberUp 1 [1, 2])]) = (false, .starting [], [2], 0, [], 1) := by decide +kernel

/-- the hypotheses of `C110_untold_refuted`. -/
example : (fun w : Sys => (w.made 2, (w.cl.mgr 1).managers, w.proxy 2, w.cl.net))
    (Sys.run demo (founded ++ [.beat (.learn 1 2), .added 1 2, .hear 1 (.added 2)])) =
      (false, [2], none, [(2, .started 1)]) ∧
    gentleB demo [1] (Sys.init demo) (founded ++ [.beat (.learn 1 2), .added 1 2, .hear 1 (.added 2)] ++
      ([.recv 2 (.started 1), .build 2] ++ [.beat (.learn 2 2), .beat (.learn 2 1)])) = true := by decide +kernel

end Verif.Singleton.Joint
