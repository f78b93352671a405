import Verif.Singleton.JointTended

/-!
# C112: when the leader's process ends, the next oldest node takes over the singleton

Heartbeats and managers as one system (`Verif.Singleton.JointModel`). Two different things must reach the next leader:
its heartbeat must find that no older node answers (`/repo/coerce/src/remote/heartbeat/mod.rs` 204-306), and its
discovery must forget the nodes that have ended (`/repo/coerce/src/remote/cluster/discovery/mod.rs` 172-200), which
happens only when a connection is found closed at a ping tick (`/repo/coerce/src/remote/net/client/ping.rs` 36-56).
-/

namespace Verif.Singleton.Joint

open Verif.Remote (Hb HbConfig)
open Verif.Remote.OneLeader (Conf Clu Up Answered Before Good)

variable {C : Conf}

/-- How `B` takes over: its heartbeat ticks, its manager hears that it leads, the nodes it has asked are each taken for
removed (those of `gone`) or answer, in the given order; its instance `f` starts; the nodes that answered are told. -/
def takeover (B : Nat) (gone order : List Nat) (f : Nat) : List JOp :=
  [.beat (.tick B), .hear B (.leaderChanged B)] ++ (order.flatMap (deal B gone) ++
    ([.boot B, .started B f] ++ (order.filter (· ∉ gone)).map fun k => .recv k (.started B)))

/-- what of the managers of the other nodes matters: they are there, up and idle, and know `B`. -/
def Idle (w : Sys) (B k : Nat) : Prop :=
  Up w.clu k ∧ w.made k = true ∧ (w.cl.mgr k).st = .idle ∧ B ∈ (w.cl.mgr k).managers

theorem takes_over (henv : ∀ t d, C.env.addOk t d = true) (B : Nat) (gone order : List Nat) (ops : List JOp) (w : Sys)
    (hw : w = Sys.run C ops) (hup : Up w.clu B) (hmade : w.made B = true) (hst : (w.cl.mgr B).st = .idle)
    (hs : (w.cl.mgr B).starts = 0) (hr : (w.cl.mgr B).results = [])
    (hel : Elects w.clu B) (hled : w.clu.leader B ≠ some B)
    (hno : ∀ k, Registered w.clu B k → Answered C w.clu B k → Before C B k)
    (hp : order.Perm (w.cl.mgr B).managers) (hrest : ∀ k ∈ order, k ∉ gone → Idle w B k) :
    ∀ v, v = w.runFrom C (takeover B gone order (w.cl.mgr B).fresh) →
      Settled v B (w.cl.mgr B).fresh ∧ v.proxy B = some B ∧ (∀ k ∈ order, k ∉ gone → v.proxy k = some B) ∧
      (∀ i, i ≠ B → v.cl.mgr i = w.cl.mgr i) ∧ v.stops = w.stops ∧ (∀ i, Up w.clu i → Up v.clu i) ∧
      (∀ i, i ≠ B → i ∉ order → v.proxy i = w.proxy i) ∧
      (∀ d s, (d, MMsg.request s) ∈ v.cl.net → (d, MMsg.request s) ∈ w.cl.net ∨ (s = B ∧ d ∈ order)) := by
  have hP : Proper w := by rw [hw]; exact Proper.run C ops
  obtain ⟨hg, hu⟩ : Good C w.clu ∧ Ups w := by
    rw [hw]; exact good_run henv ops (w := Sys.init C) (Good.init C) (Ups.init C)
  have hnd : order.Nodup := hp.nodup_iff.2 (hP.nodup B)
  have hold : (w.clu.hb B).up = true := (hu.spent B (fun p hp2 => by rw [hst] at hp2; cases hp2)).1
  have hpub := elects_again henv hg hup hel hold hled hno
  obtain ⟨w1, hw1⟩ : ∃ w1, w1 = w.step C (.beat (.tick B)) := ⟨_, rfl⟩
  have h1cl : w1.cl = w.cl := by rw [hw1]; rfl
  have h1made : w1.made = w.made := by rw [hw1]; rfl
  have h1stops : w1.stops = w.stops := by rw [hw1]; rfl
  have h1proxy : w1.proxy = w.proxy := by rw [hw1]; rfl
  have h1up : ∀ i, Up w.clu i → Up w1.clu i := fun i hi => by rw [hw1]; exact step_up hi (by simp)
  have h1bus : (B, News.leaderChanged B) ∈ w1.bus := by
    rw [hw1]
    show _ ∈ w.bus ++ published C w.clu (.tick B)
    rw [hpub]; simp
  have hwill : ∀ k ∈ order, k ∉ gone → Willing w1 B k := by
    intro k hk hgk
    obtain ⟨a1, a2, a3, a4⟩ := hrest k hk hgk
    refine ⟨?_, h1up k a1, by rw [h1made]; exact a2, by rw [h1cl]; exact hP.self k, by rw [h1cl]; exact a3, by rw [h1cl]; exact a4⟩
    rintro rfl
    exact hP.notself k a4
  obtain ⟨t1, t2, t3, _, _⟩ := Taking.begin (C := C) (ms := order) (gone := gone) (todo := order) (h1up B hup) (by rw [h1made]; exact hmade)
    (by rw [h1cl]; exact hP.self B) (by rw [h1cl]; exact hst) (by rw [h1cl]; exact hs) (by rw [h1cl]; exact hr)
    (by rw [h1cl]; exact hP.nodup B) (by rw [h1cl]; exact hp)
    (fun k hk => hp.mem_iff.2 (by rw [h1cl] at hk; exact hk)) hwill h1bus
  rw [h1cl] at t1
  generalize hw2 : w1.step C (.hear B (.leaderChanged B)) = w2 at t1 t2 t3
  obtain ⟨u1, u2, u3⟩ := t1.all (C := C) (ms := order)
  generalize hw3 : w2.runFrom C (order.flatMap (deal B gone)) = w3 at u1 u2 u3
  rw [List.nil_append] at u1
  obtain ⟨l1, l2, l3, l4, l5, l6⟩ := u1.launch (C := C) (ms := order)
  generalize hw4 : w3.runFrom C [.boot B, .started B (w.cl.mgr B).fresh] = w4 at l1 l2 l3 l4 l5 l6
  have hmem : ∀ k, k ∈ order.filter (· ∉ gone) → k ∈ order ∧ k ∉ gone := by
    intro k hk
    have := List.mem_filter.1 hk
    exact ⟨this.1, by simpa using this.2⟩
  obtain ⟨q1, q2, q3, q4, q5, q6, q7, _⟩ := tell_all (C := C) (B := B) (order.filter (· ∉ gone)) (w := w4) (hnd.filter _)
    (fun k hk => by
      have hW : Willing w4 B k := ((u1.answered k hk).2).beside l2
      exact ⟨hW.up, hW.made⟩)
    (fun k hk => by
      rw [l6]
      refine List.mem_append_right _ (List.mem_map_of_mem (f := fun n => (n, MMsg.started B)) ?_)
      exact u1.perm.mem_iff.2 (by simpa using hk))
  intro v hv
  have hv4 : v = w4.runFrom C ((order.filter (· ∉ gone)).map fun k => .recv k (.started B)) := by
    rw [hv, takeover, runFrom_append, runFrom_append, runFrom_append]
    have : w.runFrom C [.beat (.tick B), .hear B (.leaderChanged B)] = w2 := by
      show (w.step C (.beat (.tick B))).step C (.hear B (.leaderChanged B)) = w2
      rw [← hw1, hw2]
    rw [this, hw3, hw4]
  rw [← hv4] at q1 q2 q3 q4 q5 q6 q7
  have hBn : B ∉ order.filter (· ∉ gone) := fun hB => hP.notself B (hp.mem_iff.1 (hmem B hB).1)
  have hcl : v.clu = w1.clu := by rw [q4, l2.clu, u2.clu, t2.clu]
  refine ⟨?_, ?_, ?_, ?_, ?_, ?_, ?_, ?_⟩
  · obtain ⟨⟨s1, s2⟩, s3, s4, s5⟩ := l1
    exact ⟨⟨by rw [q4]; exact s1, by rw [q3]; exact s2⟩, by rw [q3]; exact s3, by rw [q3]; exact s4, by rw [q3]; exact s5⟩
  · rw [q2 B hBn]; exact l4
  · intro k hk hgk
    exact q1 k (List.mem_filter.2 ⟨hk, by simpa using hgk⟩)
  · intro i hi
    rw [q3, l2.mgr i hi, u2.mgr i hi, t2.mgr i hi, h1cl]
  · rw [q6, l2.stops, u2.stops, t2.stops, h1stops]
  · intro i hi; rw [hcl]; exact h1up i hi
  · intro i hi hio
    rw [q2 i (fun h => hio (hmem i h).1), l3 i hi, u3 i hi, t3 i, h1proxy]
  · intro d s hm
    have := ((t2.trans u2).trans l2).req d s (q7 _ hm)
    rw [h1cl] at this
    exact this

/-- **C112 (takes over).** After any history whatever: let the nodes older than `B` that `B` knows have ended, twice the
unhealthy time ago, and let the nodes that the manager of `B` knows and that are not taken for removed run, be idle and
know `B`. Then `B` takes over: its next tick makes it leader, and once every node it asked has answered or been taken for
removed, in whatever order, its instance runs, and its own proxy and those of the nodes that answered send to it. Nobody
was asked to stop, and the other managers are as they were. -/
theorem C112_takes_over_partial (henv : ∀ t d, C.env.addOk t d = true) (B : Nat) (gone order : List Nat) (ops : List JOp)
    (hup : Up (Sys.run C ops).clu B) (hmade : (Sys.run C ops).made B = true)
    (hst : ((Sys.run C ops).cl.mgr B).st = .idle) (hs : ((Sys.run C ops).cl.mgr B).starts = 0)
    (hr : ((Sys.run C ops).cl.mgr B).results = []) (hel : Elects (Sys.run C ops).clu B)
    (hled : (Sys.run C ops).clu.leader B ≠ some B)
    (hdead : ∀ k, Registered (Sys.run C ops).clu B k → ¬ Before C B k →
      ∃ t, (Sys.run C ops).clu.ended k = some t ∧ t + 2 * C.hb.unhealthy ≤ (Sys.run C ops).clu.clock)
    (hp : order.Perm ((Sys.run C ops).cl.mgr B).managers) (hrest : ∀ k ∈ order, k ∉ gone → Idle (Sys.run C ops) B k) :
    ∀ v, v = Sys.run C (ops ++ takeover B gone order ((Sys.run C ops).cl.mgr B).fresh) →
      Settled v B ((Sys.run C ops).cl.mgr B).fresh ∧ v.proxy B = some B ∧ (∀ k ∈ order, k ∉ gone → v.proxy k = some B) ∧
      (∀ i, i ≠ B → v.cl.mgr i = (Sys.run C ops).cl.mgr i) ∧ v.stops = (Sys.run C ops).stops := by
  intro v hv
  obtain ⟨hg, _⟩ := good_run henv ops (w := Sys.init C) (Good.init C) (Ups.init C)
  have := takes_over henv B gone order ops (Sys.run C ops) rfl hup hmade hst hs hr hel hled (by
    intro k hk ha
    refine Classical.byContradiction fun hb => ?_
    obtain ⟨t, h1, h2⟩ := hdead k hk hb
    exact Remote.OneLeader.not_answered_gone hg h1 h2 ha) hp hrest v (by rw [hv]; exact runFrom_append C _ _ _)
  exact ⟨this.1, this.2.1, this.2.2.1, this.2.2.2.1, this.2.2.2.2.1⟩

/-- **C112 (only there).** Before its process ended, nobody but `L` chose a leader without an older node answering it;
afterwards nobody but `B` does. Then from the end of `L` on, whatever runs anywhere is an instance of `B`. -/
theorem C112_only_successor_partial (henv : ∀ t d, C.env.addOk t d = true) (L B : Nat) (ops more : List JOp)
    (h1 : Gentle C [L] (Sys.init C) ops) (h2 : Gentle C [L, B] (Sys.run C (ops ++ [.beat (.stop L)])) more) (i b : Nat)
    (hr : (Sys.run C (ops ++ .beat (.stop L) :: more)).Runs i b) : i = B := by
  have hgs : Gentle C [L, B] (Sys.init C) ((ops ++ [.beat (.stop L)]) ++ more) := by
    refine gentle_append.2 ⟨gentle_append.2 ⟨gentle_mono (by simp) h1, trivial, trivial⟩, h2⟩
  have hlone := (Lone.init C [L, B]).runFrom henv _ (Good.init C) hgs
  have hdown : ¬ Up (Sys.run C (ops ++ .beat (.stop L) :: more)).clu L := by
    have hrun : Sys.run C (ops ++ .beat (.stop L) :: more) = ((Sys.run C ops).step C (.beat (.stop L))).runFrom C more :=
      runFrom_append C _ ops _
    rw [hrun]
    refine down_run more ?_
    rw [step_clu]
    simp only [Remote.OneLeader.Clu.step]
    split
    · rename_i h; intro hu; rw [Up] at hu; rw [hu] at h; cases h
    · simp [Up]
  rw [show (ops ++ [.beat (.stop L)]) ++ more = ops ++ .beat (.stop L) :: more by simp] at hlone
  refine Decidable.byContradiction fun hi => ?_
  by_cases hL : i = L
  · subst hL; exact hdown hr.1
  · have := (hlone.rest i (by simp [hi, hL])).live
    have hb := hr.2
    have e : ((Sys.run C (ops ++ .beat (.stop L) :: more)).cl.mgr i).live = [] := this
    rw [e] at hb
    simp at hb

/-- **C112 (goes on).** When `B` has taken over it is with its instance as it was with that of `L`: in every history in
which nobody but `B` chooses a leader without an older node answering it, the instance goes on for as long as it and its
node last, nobody is asked to stop, and nothing else is started. -/
theorem C112_goes_on_partial (henv : ∀ t d, C.env.addOk t d = true) (L B b : Nat) (ops more : List JOp)
    (hgs : Gentle C [L, B] (Sys.init C) (ops ++ more)) (hL : ¬ Up (Sys.run C ops).clu L) (hs : Settled (Sys.run C ops) B b)
    (hnet : (B, MMsg.request L) ∉ (Sys.run C ops).cl.net) (hlast : ∀ op ∈ more, Lasting [B] (fun _ => b) op) :
    Settled (Sys.run C (ops ++ more)) B b ∧
    (∀ i c, (Sys.run C (ops ++ more)).Runs i c → i = B ∧ (Sys.run C ops).Runs B c) ∧
    (∀ i, ((Sys.run C (ops ++ more)).cl.mgr i).fresh = ((Sys.run C ops).cl.mgr i).fresh) ∧
    (Sys.run C (ops ++ more)).stops = (Sys.run C ops).stops := by
  obtain ⟨g1, g2⟩ := gentle_append.1 hgs
  obtain ⟨w1, w2⟩ := good_run henv ops (w := Sys.init C) (Good.init C) (Ups.init C)
  have hl := (Lone.init C [L, B]).runFrom henv ops (Good.init C) g1
  have hT : Tended [L, B] (fun _ => b) (Sys.run C ops) := by
    refine ⟨hl, ?_, ?_⟩
    · intro i hi hu
      simp only [List.mem_cons, List.not_mem_nil, or_false] at hi
      rcases hi with rfl | rfl
      · exact absurd hu hL
      · exact ⟨hs.2.1, hs.2.2.1, hs.2.2.2, hs.1.2⟩
    · intro i hi hu s hm
      simp only [List.mem_cons, List.not_mem_nil, or_false] at hi
      rcases hi with rfl | rfl
      · exact hL hu
      · obtain ⟨r1, r2⟩ := hl.req _ _ hm
        simp only [List.mem_cons, List.not_mem_nil, or_false] at r1
        rcases r1 with rfl | rfl
        · exact hnet hm
        · exact r2 rfl
  have hBL : B ≠ L := by rintro rfl; exact hL hs.1.1
  -- the instance of `L` may be taken to be any: `L` does nothing any more
  have hrun : Sys.run C (ops ++ more) = (Sys.run C ops).runFrom C more := runFrom_append C _ ops more
  have hdown : ∀ pre, ¬ Up ((Sys.run C ops).runFrom C pre).clu L := fun pre => down_run pre hL
  have hkeep : ∀ (more : List JOp) (w : Sys), Good C w.clu → Ups w → ¬ Up w.clu L → Tended [L, B] (fun _ => b) w →
      Gentle C [L, B] w more → (∀ op ∈ more, Lasting [B] (fun _ => b) op) →
      Tended [L, B] (fun _ => b) (w.runFrom C more) ∧ (∀ k, ((w.runFrom C more).cl.mgr k).fresh = (w.cl.mgr k).fresh) ∧
        (∀ k c, c ∈ ((w.runFrom C more).cl.mgr k).live → c ∈ (w.cl.mgr k).live) ∧ (w.runFrom C more).stops = w.stops := by
    intro more
    induction more with
    | nil => exact fun w _ _ _ hT _ _ => ⟨hT, fun _ => rfl, fun _ _ h => h, rfl⟩
    | cons op more ih =>
      intro w hg hu hd hT hgs hla
      have hstep : Tended [L, B] (fun _ => b) (w.step C op) ∧ (∀ k, ((w.step C op).cl.mgr k).fresh = (w.cl.mgr k).fresh) ∧
          (∀ k c, c ∈ ((w.step C op).cl.mgr k).live → c ∈ (w.cl.mgr k).live) ∧ (w.step C op).stops = w.stops := by
        by_cases hex : ∃ a, op = .exits L a
        · obtain ⟨a, rfl⟩ := hex
          have : w.step C (.exits L a) = w := by
            have : w.alive L = false := by
              cases ha : w.alive L with
              | false => rfl
              | true => exact absurd ((alive_iff w L).1 ha) hd
            simp [Sys.step, this]
          rw [this]
          exact ⟨hT, fun _ => rfl, fun _ _ h => h, rfl⟩
        · refine hT.step hg hu hgs.1 ?_
          have hla1 := hla op (by simp)
          cases op with
          | exits i a =>
            intro hi
            simp only [List.mem_cons, List.not_mem_nil, or_false] at hi
            rcases hi with rfl | rfl
            · exact absurd ⟨a, rfl⟩ hex
            · exact hla1 (by simp)
          | _ => trivial
      obtain ⟨s1, s2, s3, s4⟩ := hstep
      obtain ⟨i1, i2, i3, i4⟩ := ih (w.step C op) (good_step henv hg op) (hu.step hg (step_trans C w op)) (down_stays hd op) s1 hgs.2
        (fun o ho => hla o (by simp [ho]))
      exact ⟨i1, fun k => by rw [← s2 k]; exact i2 k, fun k c hc => s3 k c (i3 k c hc), by rw [← s4]; exact i4⟩
  obtain ⟨t1, t2, t3, t4⟩ := hkeep more _ w1 w2 hL hT g2 hlast
  have hup : Up ((Sys.run C ops).runFrom C more).clu B := up_run (R := [B]) (inst := fun _ => b) (by simp) more hs.1.1 hlast
  have hB := t1.run B (by simp) hup
  rw [hrun]
  refine ⟨⟨⟨hup, hB.live⟩, hB.st, hB.starts, hB.results⟩, ?_, t2, t4⟩
  rintro i c ⟨hu, hc⟩
  by_cases e : i = B
  · subst e; exact ⟨rfl, hs.1.1, t3 _ _ hc⟩
  · by_cases e2 : i = L
    · subst e2; exact absurd hu (hdown more)
    · have : (((Sys.run C ops).runFrom C more).cl.mgr i).live = [] := (t1.lone.rest i (by simp [e, e2])).live
      rw [this] at hc; simp at hc

/-! ### The code does not ensure it -/

/-- **C112 refuted (silent end).** The process of `L` ends without its connections being found closed, so nobody takes it
for removed. The heartbeat of `B` finds that no older node answers and makes `B` the leader; the manager of `B` asks all
it knows, `L` among them, and waits for `L` for ever. Neither `B` nor any other node that knows `L` (and has no
acknowledgement of it) ever starts the singleton again. -/
theorem C112_silent_end_refuted (henv : ∀ t d, C.env.addOk t d = true) (L B : Nat) (ops : List JOp) (hops : NoRemoval ops)
    (hL : ¬ Up (Sys.run C ops).clu L) (hup : Up (Sys.run C ops).clu B) (hmade : (Sys.run C ops).made B = true)
    (hst : ((Sys.run C ops).cl.mgr B).st = .idle) (hs : ((Sys.run C ops).cl.mgr B).starts = 0)
    (hr : ((Sys.run C ops).cl.mgr B).results = []) (hel : Elects (Sys.run C ops).clu B)
    (hled : (Sys.run C ops).clu.leader B ≠ some B)
    (hno : ∀ k, Registered (Sys.run C ops).clu B k → Answered C (Sys.run C ops).clu B k → Before C B k)
    (hk : L ∈ ((Sys.run C ops).cl.mgr B).managers) (hack : (B, MMsg.ack L) ∉ (Sys.run C ops).cl.net) (more : List JOp)
    (hmore : NoRemoval more) :
    ∀ v, v = Sys.run C (ops ++ ([.beat (.tick B), .hear B (.leaderChanged B)] ++ more)) →
      (∃ l, (v.cl.mgr B).st = .starting l) ∧ (v.cl.mgr B).fresh = ((Sys.run C ops).cl.mgr B).fresh ∧
      ∀ Z, L ∈ ((Sys.run C ops).cl.mgr Z).managers → ((Sys.run C ops).cl.mgr Z).starts = 0 →
        (∀ l, ((Sys.run C ops).cl.mgr Z).st = .starting l → L ∉ l) → (Z, MMsg.ack L) ∉ (Sys.run C ops).cl.net →
        (v.cl.mgr Z).fresh = ((Sys.run C ops).cl.mgr Z).fresh := by
  intro v hv
  have hW : World C (Sys.run C ops) := (World.init C).runFrom henv ops hops
  have hv2 : v = ((Sys.run C ops).runFrom C [.beat (.tick B), .hear B (.leaderChanged B)]).runFrom C more := by
    rw [hv]
    show (Sys.init C).runFrom C _ = _
    rw [runFrom_append, runFrom_append]; rfl
  generalize Sys.run C ops = w at *
  have htwo : NoRemoval [.beat (.tick B), .hear B (.leaderChanged B)] := by intro i j hm; simp at hm
  have hold : (w.clu.hb B).up = true := (hW.ups.spent B (fun p hp2 => by rw [hst] at hp2; cases hp2)).1
  have hpub := elects_again henv hW.good hup hel hold hled hno
  obtain ⟨w1, hw1⟩ : ∃ w1, w1 = w.step C (.beat (.tick B)) := ⟨_, rfl⟩
  have h1cl : w1.cl = w.cl := by rw [hw1]; rfl
  have h1bus : (B, News.leaderChanged B) ∈ w1.bus := by
    rw [hw1]
    show _ ∈ w.bus ++ published C w.clu (.tick B)
    rw [hpub]; simp
  have hne : (w.cl.mgr B).managers ≠ [] := by intro e; rw [e] at hk; simp at hk
  obtain ⟨t1, t2, _, t4, _⟩ := Taking.begin (C := C) (w := w1) (B := B) (ms := (w.cl.mgr B).managers)
    (gone := (w.cl.mgr B).managers) (todo := (w.cl.mgr B).managers)
    (by rw [hw1]; exact step_up hup (by simp)) (by rw [hw1]; exact hmade) (by rw [h1cl]; exact hW.books.self B)
    (by rw [h1cl]; exact hst) (by rw [h1cl]; exact hs) (by rw [h1cl]; exact hr) (by rw [h1cl]; exact hW.books.nodup B)
    (by rw [h1cl]) (by rw [h1cl]; exact fun _ h => h) (fun k hk hn => absurd hk hn) h1bus
  rw [h1cl] at t4
  have hd : Dangles (w.runFrom C [.beat (.tick B), .hear B (.leaderChanged B)]).cl B L := by
    have e : w.runFrom C [.beat (.tick B), .hear B (.leaderChanged B)] = w1.step C (.hear B (.leaderChanged B)) := by
      rw [hw1]; rfl
    rw [e]
    refine ⟨⟨[], t1.st, by simp⟩, t1.perm.mem_iff.2 (by simpa using hk), ?_, t1.results, ?_⟩
    · rw [t1.starts, if_neg hne]
    · intro hm
      rw [t4] at hm
      rcases List.mem_append.1 hm with hm | hm
      · exact hack hm
      · simp at hm
  have hfresh2 : ((w.runFrom C [.beat (.tick B), .hear B (.leaderChanged B)]).cl.mgr B).fresh = (w.cl.mgr B).fresh := by
    have e : w.runFrom C [.beat (.tick B), .hear B (.leaderChanged B)] = w1.step C (.hear B (.leaderChanged B)) := by
      rw [hw1]; rfl
    rw [e, t1.fresh, h1cl]
  have hd2 := dangles_run henv more (hW.runFrom henv _ htwo) hmore (down_run _ hL) hd
  rw [← hv2] at hd2
  refine ⟨?_, ?_, ?_⟩
  · obtain ⟨l, hl, _⟩ := hd2.start
    exact ⟨l, hl⟩
  · rw [hv2, ← hfresh2]
    refine waits_down_run henv more (hW.runFrom henv _ htwo) hmore (down_run _ hL) ⟨?_, hd.knows, hd.starts, hd.ack⟩
    intro l hl
    obtain ⟨l0, h1, h2⟩ := hd.start
    rw [h1] at hl; cases hl; exact h2
  · intro Z z1 z2 z3 z4
    rw [hv2, ← runFrom_append]
    refine waits_down_run henv _ hW ?_ hL ⟨z3, z1, z2, z4⟩
    intro i j hm
    rcases List.mem_append.1 hm with hm | hm
    · exact htwo i j hm
    · exact hmore i j hm

/-- **C112 refuted (out of sight).** `L` runs its instance, but `B` has taken it for removed and has no answer of an older
node: it takes over although nobody has ended. From then on both run, for as long as they last, even if all nodes find
each other again and agree on a leader. -/
theorem C112_out_of_sight_refuted (henv : ∀ t d, C.env.addOk t d = true) (L B a : Nat) (order : List Nat) (ops more : List JOp)
    (hgs : Gentle C [L] (Sys.init C) ops) (hset : Settled (Sys.run C ops) L a)
    (hup : Up (Sys.run C ops).clu B) (hmade : (Sys.run C ops).made B = true)
    (hst : ((Sys.run C ops).cl.mgr B).st = .idle) (hel : Elects (Sys.run C ops).clu B)
    (hled : (Sys.run C ops).clu.leader B ≠ some B)
    (hno : ∀ k, Registered (Sys.run C ops).clu B k → Answered C (Sys.run C ops).clu B k → Before C B k)
    (hp : order.Perm ((Sys.run C ops).cl.mgr B).managers) (hrest : ∀ k ∈ order, Idle (Sys.run C ops) B k)
    (hrem : L ∉ ((Sys.run C ops).cl.mgr B).managers) (hnet : (B, MMsg.request L) ∉ (Sys.run C ops).cl.net) :
    ∀ v, v = Sys.run C (ops ++ takeover B [] order ((Sys.run C ops).cl.mgr B).fresh) → Gentle C [L, B] v more →
      (∀ op ∈ more, Lasting [L, B] (fun i => if i = L then a else ((Sys.run C ops).cl.mgr B).fresh) op) →
      Settled (v.runFrom C more) L a ∧ Settled (v.runFrom C more) B ((Sys.run C ops).cl.mgr B).fresh ∧
      (v.runFrom C more).stops = (Sys.run C ops).stops := by
  intro v hv hg2 hlast
  have hlo := (Lone.init C [L]).runFrom henv ops (Good.init C) hgs
  have hBL : B ≠ L := by
    rintro rfl
    have h1 : ((Sys.run C ops).cl.mgr B).st = .running a := hset.2.1
    rw [hst] at h1; cases h1
  have hrB := hlo.rest B (by simpa using hBL)
  obtain ⟨c1, _, _, c4, c5, c6, _, c8⟩ := takes_over henv B [] order ops (Sys.run C ops) rfl hup hmade hst hrB.starts hrB.results
    hel hled hno hp (fun k hk _ => hrest k hk) v (by rw [hv]; exact runFrom_append C _ _ _)
  have hgt : Gentle C [L, B] (Sys.run C ops) (takeover B [] order ((Sys.run C ops).cl.mgr B).fresh) := by
    have hq : ∀ (l : List JOp) (w : Sys), (∀ op ∈ l, ∀ o, op ≠ .beat o) → Gentle C [L, B] w l := by
      intro l
      induction l with
      | nil => exact fun _ _ => trivial
      | cons op l ih =>
        intro w h
        refine ⟨?_, ih _ fun o ho => h o (by simp [ho])⟩
        cases op with
        | beat o => exact absurd rfl (h (.beat o) (by simp) o)
        | _ => trivial
    unfold takeover
    refine ⟨fun hi => absurd (by simp) hi, ?_⟩
    refine hq _ _ ?_
    intro op hop o e
    subst e
    simp [deal] at hop
  obtain ⟨g1, g2⟩ := good_run henv (ops ++ takeover B [] order ((Sys.run C ops).cl.mgr B).fresh) (w := Sys.init C) (Good.init C) (Ups.init C)
  have hlv : Lone [L, B] v := by
    rw [hv]
    exact (Lone.init C [L, B]).runFrom henv _ (Good.init C) (gentle_append.2 ⟨gentle_mono (by simp) hgs, hgt⟩)
  have hg1 : Good C v.clu := by rw [hv]; exact g1
  have hu1 : Ups v := by rw [hv]; exact g2
  have hS : Serving [L, B] (fun i => if i = L then a else ((Sys.run C ops).cl.mgr B).fresh) v := by
    refine ⟨hlv, ?_, ?_, ?_⟩
    · intro i hi
      simp only [List.mem_cons, List.not_mem_nil, or_false] at hi
      rcases hi with rfl | rfl
      · exact c6 _ hset.1.1
      · exact c1.1.1
    · intro i hi
      simp only [List.mem_cons, List.not_mem_nil, or_false] at hi
      rcases hi with rfl | rfl
      · rw [c4 i (Ne.symm hBL), if_pos rfl]
        exact ⟨hset.2.1, hset.2.2.1, hset.2.2.2, hset.1.2⟩
      · rw [if_neg hBL]
        exact ⟨c1.2.1, c1.2.2.1, c1.2.2.2, c1.1.2⟩
    · intro i hi s hm
      obtain ⟨r1, r2⟩ := hlv.req _ _ hm
      simp only [List.mem_cons, List.not_mem_nil, or_false] at hi r1
      rcases c8 _ _ hm with hm | ⟨rfl, hm⟩
      · rcases hi with rfl | rfl
        · obtain ⟨r3, r4⟩ := hlo.req _ _ hm
          simp only [List.mem_cons, List.not_mem_nil, or_false] at r3
          exact r4 r3.symm
        · obtain ⟨r3, r4⟩ := hlo.req _ _ hm
          simp only [List.mem_cons, List.not_mem_nil, or_false] at r3
          subst r3
          exact hnet hm
      · rcases hi with rfl | rfl
        · exact hrem (hp.mem_iff.1 hm)
        · exact r2 rfl
  obtain ⟨s1, _, _, s4⟩ := hS.runFrom henv more hg1 hu1 hg2 hlast
  have rL := s1.run L (by simp)
  have rB := s1.run B (by simp)
  simp only [if_true] at rL
  simp only [if_neg hBL] at rB
  exact ⟨⟨⟨s1.up L (by simp), rL.live⟩, rL.st, rL.starts, rL.results⟩,
    ⟨⟨s1.up B (by simp), rB.live⟩, rB.st, rB.starts, rB.results⟩, by rw [s4, c5]⟩

/-! ### The hypotheses are met -/

theorem registered_of {c : Clu} {i j : Nat} (h : j ∈ (c.hb i).nodes.map (·.1)) : Registered c i j := by
  obtain ⟨⟨_, n⟩, h1, rfl⟩ := List.mem_map.1 h
  exact ⟨n, h1⟩

theorem of_registered {c : Clu} {i j : Nat} (h : Registered c i j) : j ∈ (c.hb i).nodes.map (·.1) := by
  obtain ⟨n, h⟩ := h
  exact List.mem_map.2 ⟨_, h, rfl⟩

/-- node 3 joins nodes 1 and 2. -/
def third : List JOp :=
  [.build 3, .beat (.learn 3 3), .beat (.learn 3 1), .beat (.learn 3 2), .beat (.learn 1 3), .beat (.learn 2 3), .beat (.tick 3),
   .beat (.pass 1000), .beat (.answer 3 1 10 1995 2000), .beat (.answer 2 1 10 1995 2000), .beat (.tick 3),
   .hear 3 (.memberUp 1 [1, 2, 3]), .hear 3 (.leaderChanged 1), .added 1 3, .hear 1 (.added 3), .added 2 3, .hear 2 (.added 3),
   .added 3 1, .hear 3 (.added 1), .added 3 2, .hear 3 (.added 2), .recv 3 (.started 1)]

/-- the process of node 1 ends, and twice the unhealthy time passes. -/
def widowed : List JOp := founded ++ joined ++ third ++ [.beat (.stop 1), .beat (.pass 3000000000)]

theorem demo_widowed : Gentle demo [1] (Sys.init demo) widowed := gentle_of_check (by decide +kernel)

theorem demo_elects : Elects (Sys.run demo widowed).clu 2 := ⟨by decide +kernel, registered_of (by decide +kernel)⟩

theorem demo_dead (k : Nat) (hk : Registered (Sys.run demo widowed).clu 2 k) (hb : ¬ Before demo 2 k) :
    ∃ t, (Sys.run demo widowed).clu.ended k = some t ∧ t + 2 * demo.hb.unhealthy ≤ (Sys.run demo widowed).clu.clock := by
  have h1 := of_registered hk
  have h2 : ∀ k ∈ ((Sys.run demo widowed).clu.hb 2).nodes.map (·.1), k ∈ [2, 1, 3] := by decide +kernel
  replace h1 := h2 k h1
  simp only [List.mem_cons, List.not_mem_nil, or_false] at h1
  rcases h1 with rfl | rfl | rfl
  · exact absurd (by unfold Before; decide) hb
  · exact ⟨2000, by decide +kernel, by decide +kernel⟩
  · exact absurd (by unfold Before; decide) hb

/-- node 2 takes over, having taken node 1 for removed after node 3 has answered. -/
theorem demo_takes_over : ∀ v, v = Sys.run demo (widowed ++ takeover 2 [1] [3, 1] ((Sys.run demo widowed).cl.mgr 2).fresh) →
    Settled v 2 ((Sys.run demo widowed).cl.mgr 2).fresh ∧ v.proxy 2 = some 2 ∧ (∀ k ∈ [3, 1], k ∉ [1] → v.proxy k = some 2) ∧
    (∀ i, i ≠ 2 → v.cl.mgr i = (Sys.run demo widowed).cl.mgr i) ∧ v.stops = (Sys.run demo widowed).stops :=
  C112_takes_over_partial (C := demo) (fun _ _ => rfl) 2 [1] [3, 1] widowed (by unfold Up; decide +kernel) (by decide +kernel)
    (by decide +kernel) (by decide +kernel) (by decide +kernel) demo_elects (by decide +kernel) demo_dead
    (by rw [show ((Sys.run demo widowed).cl.mgr 2).managers = [1, 3] by decide +kernel]; decide)
    (by
      intro k hk hg
      simp only [List.mem_cons, List.not_mem_nil, or_false] at hk hg
      rcases hk with rfl | rfl
      · exact ⟨by unfold Up; decide +kernel, by decide +kernel, by decide +kernel, by decide +kernel⟩
      · exact absurd rfl hg)

/-- what has become of the three nodes: manager, proxy, leader. Node 3 has the proxy right before its heartbeat does. -/
example : (fun w : Sys => [1, 2, 3].map fun i => ((w.cl.mgr i).st, w.proxy i, w.clu.leader i))
    (Sys.run demo (widowed ++ takeover 2 [1] [3, 1] 0)) =
    [(.running 0, some 1, some 1), (.running 0, some 2, some 2), (.idle, some 2, some 1)] := by decide +kernel

/-- the hypotheses of `C112_only_successor_partial`. -/
example : widowed ++ takeover 2 [1] [3, 1] 0 = (founded ++ joined ++ third) ++ .beat (.stop 1) ::
      (.beat (.pass 3000000000) :: takeover 2 [1] [3, 1] 0) ∧
    gentleB demo [1] (Sys.init demo) (founded ++ joined ++ third) = true ∧
    gentleB demo [1, 2] (Sys.run demo ((founded ++ joined ++ third) ++ [.beat (.stop 1)]))
      (.beat (.pass 3000000000) :: takeover 2 [1] [3, 1] 0) = true :=
  ⟨by simp [widowed], by decide +kernel, by decide +kernel⟩

/-- node 3 hears of node 2 at its pings and takes it for the leader: the hypotheses of `C112_goes_on_partial`. -/
example : (fun v : Sys => Settled v 2 0 ∧ ∀ i c, v.Runs i c → i = 2)
    (Sys.run demo ((widowed ++ takeover 2 [1] [3, 1] 0) ++ [.beat (.answer 3 2 20 3000001995 3000002000), .beat (.tick 3),
      .hear 3 (.leaderChanged 2), .beat (.tick 2)])) := by
  have hs := (demo_takes_over _ rfl).1
  have e : ((Sys.run demo widowed).cl.mgr 2).fresh = 0 := by decide +kernel
  rw [e] at hs
  have := C112_goes_on_partial (C := demo) (fun _ _ => rfl) 1 2 0 (widowed ++ takeover 2 [1] [3, 1] 0)
    [.beat (.answer 3 2 20 3000001995 3000002000), .beat (.tick 3), .hear 3 (.leaderChanged 2), .beat (.tick 2)]
    (gentle_of_check (by decide +kernel)) (by unfold Up; decide +kernel) hs (by decide +kernel) (by
      intro op hop
      simp only [List.mem_cons, List.not_mem_nil, or_false] at hop
      rcases hop with rfl | rfl | rfl | rfl <;> trivial)
  exact ⟨this.1, fun i c h => (this.2.1 i c h).1⟩

/-- the leader of node 3 is node 2 then. -/
example : (Sys.run demo ((widowed ++ takeover 2 [1] [3, 1] 0) ++ [.beat (.answer 3 2 20 3000001995 3000002000), .beat (.tick 3),
      .hear 3 (.leaderChanged 2), .beat (.tick 2)])).clu.leader 3 = some 2 := by decide +kernel

/-- **C112 refuted (silent end), a case.** Node 1 has ended and nobody has found its connections closed: the singleton is
gone for good, on all three nodes. -/
example (more : List JOp) (hmore : NoRemoval more) :
    ∀ v, v = Sys.run demo (widowed ++ ([.beat (.tick 2), .hear 2 (.leaderChanged 2)] ++ more)) →
      (∃ l, (v.cl.mgr 2).st = .starting l) ∧ (v.cl.mgr 2).fresh = 0 ∧ (v.cl.mgr 3).fresh = 0 := by
  intro v hv
  have e2 : ((Sys.run demo widowed).cl.mgr 2).fresh = 0 := by decide +kernel
  have e3 : ((Sys.run demo widowed).cl.mgr 3).fresh = 0 := by decide +kernel
  have hn : NoRemoval widowed := by
    intro i j hm
    simp [widowed, founded, joined, third] at hm
  obtain ⟨h1, h2, h3⟩ := C112_silent_end_refuted (C := demo) (fun _ _ => rfl) 1 2 widowed hn (by unfold Up; decide +kernel)
    (by unfold Up; decide +kernel) (by decide +kernel) (by decide +kernel) (by decide +kernel) (by decide +kernel) demo_elects
    (by decide +kernel) (by
      intro k hk ha
      refine Classical.byContradiction fun hb => ?_
      obtain ⟨t, h1, h2⟩ := demo_dead k hk hb
      exact Remote.OneLeader.not_answered_gone (good_run (fun _ _ => rfl) widowed (w := Sys.init demo) (Good.init demo)
        (Ups.init demo)).1 h1 h2 ha)
    (by decide +kernel) (by decide +kernel) more hmore v hv
  rw [e2] at h2
  refine ⟨h1, h2, ?_⟩
  have := h3 3 (by decide +kernel) (by decide +kernel) (by
    intro l hl
    rw [show ((Sys.run demo widowed).cl.mgr 3).st = .idle by decide +kernel] at hl
    cases hl) (by decide +kernel)
  rw [e3] at this
  exact this

/-- node 1 runs, but node 2 has had no answer of it for too long, and has found the connection closed. -/
def unseen : List JOp := founded ++ joined ++ [.beat (.pass 3000000000), .removed 2 1, .hear 2 (.removed 1)]

/-- **C112 refuted (out of sight), a case.** Both nodes run their instance, and go on to do so when they find each other
again and agree that node 1 is the leader. -/
example : (fun w : Sys => [1, 2].map fun i => ((w.cl.mgr i).st, w.proxy i, w.clu.leader i))
    (Sys.run demo (unseen ++ takeover 2 [] [] 0 ++ [.added 2 1, .hear 2 (.added 1), .recv 1 (.started 2),
      .beat (.answer 2 1 10 3000000995 3000001000), .beat (.tick 2), .hear 2 (.leaderChanged 1), .beat (.tick 1)])) =
    [(.running 0, some 2, some 1), (.running 0, some 2, some 1)] := by decide +kernel

example : (fun w : Sys => Settled w 1 0 ∧ Settled w 2 0)
    (Sys.run demo (unseen ++ takeover 2 [] [] 0 ++ [.added 2 1, .hear 2 (.added 1), .recv 1 (.started 2),
      .beat (.answer 2 1 10 3000000995 3000001000), .beat (.tick 2), .hear 2 (.leaderChanged 1), .beat (.tick 1)])) := by
  have e : ((Sys.run demo unseen).cl.mgr 2).fresh = 0 := by decide +kernel
  have hnodes : ((Sys.run demo unseen).clu.hb 2).nodes.map (·.1) = [2, 1] := by decide +kernel
  have h := C112_out_of_sight_refuted (C := demo) (fun _ _ => rfl) 1 2 0 [] unseen
    [.added 2 1, .hear 2 (.added 1), .recv 1 (.started 2),
      .beat (.answer 2 1 10 3000000995 3000001000), .beat (.tick 2), .hear 2 (.leaderChanged 1), .beat (.tick 1)]
    (gentle_of_check (by decide +kernel))
    ⟨⟨by unfold Up; decide +kernel, by decide +kernel⟩, by decide +kernel, by decide +kernel, by decide +kernel⟩
    (by unfold Up; decide +kernel) (by decide +kernel) (by decide +kernel)
    ⟨by decide +kernel, registered_of (by decide +kernel)⟩ (by decide +kernel) (by
      intro k hk ha
      have h1 := of_registered hk
      rw [hnodes] at h1
      simp only [List.mem_cons, List.not_mem_nil, or_false] at h1
      rcases h1 with rfl | rfl
      · unfold Before; decide
      · obtain ⟨l, r, h1, _, h2, _⟩ := ha
        rw [show ((Sys.run demo unseen).clu.hb 2).pings.get 1 = some (.ok 10 1000) by decide +kernel] at h1
        cases h1
        exact absurd h2 (by decide +kernel))
    (by rw [show ((Sys.run demo unseen).cl.mgr 2).managers = [] by decide +kernel]) (by simp) (by decide +kernel)
    (by decide +kernel) _ rfl (gentle_of_check (by rw [e]; decide +kernel)) (by
      intro op hop
      simp only [List.mem_cons, List.not_mem_nil, or_false] at hop
      rcases hop with rfl | rfl | rfl | rfl | rfl | rfl | rfl <;> trivial)
  rw [e] at h
  have hrun := runFrom_append demo (Sys.init demo) (unseen ++ takeover 2 [] [] 0) [.added 2 1, .hear 2 (.added 1),
    .recv 1 (.started 2), .beat (.answer 2 1 10 3000000995 3000001000), .beat (.tick 2), .hear 2 (.leaderChanged 1), .beat (.tick 1)]
  show Settled (Sys.runFrom demo (Sys.init demo) _) 1 0 ∧ Settled (Sys.runFrom demo (Sys.init demo) _) 2 0
  rw [hrun]
  exact ⟨h.1, h.2.1⟩

end Verif.Singleton.Joint
