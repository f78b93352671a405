import Verif.Singleton.JointSpec
import Verif.Remote.OneLeaderLemmas

namespace Verif.Singleton.Joint

open Verif.Remote
open Verif.Remote.OneLeader (Conf Clu Up Answered Before Sane Good)

/-- what one tick of a heartbeat publishes. -/
inductive Tells (env : Chrono) (cfg : HbConfig) (self : Nat) (now : Nat → Int) (σ : Hb) : List HbEvent → Bool → Prop where
  | nothing : Tells env cfg self now σ [] σ.up
  | leader (us : List HbNode) (l : Nat)
      (hus : refreshAll env cfg self now σ.pings (σ.nodes.map (·.2)) = some us)
      (ht : σ.ticked = true) (ho : oldestHealthy env us = some l) :
      Tells env cfg self now σ [.leaderChanged l] σ.up
  | up (us : List HbNode) (l : Nat)
      (hus : refreshAll env cfg self now σ.pings (σ.nodes.map (·.2)) = some us)
      (ht : σ.ticked = true) (ho : oldestHealthy env us = some l) (hup : σ.up = false) :
      Tells env cfg self now σ [.memberUp l ((isort (hbLe env) us).map (·.id)), .leaderChanged l] true

theorem tick_tells (env : Chrono) (cfg : HbConfig) (self : Nat) (now : Nat → Int) (σ : Hb) :
    ∃ es, (σ.tick env cfg self now).events = σ.events ++ es ∧
      Tells env cfg self now σ es (σ.tick env cfg self now).up := by
  unfold Hb.tick
  cases hus : refreshAll env cfg self now σ.pings (σ.nodes.map (·.2)) with
  | none => exact ⟨[], by simp, .nothing⟩
  | some us =>
    simp only
    unfold Hb.elect
    cases hp : σ.pickNew env us with
    | none => exact ⟨[], by simp, .nothing⟩
    | some l =>
      obtain ⟨h1, h2, h3⟩ := pickNew_some hp
      simp only
      by_cases hc : (!σ.up && minReached cfg σ.pings.length) = true
      · rw [if_pos hc]
        have hu : σ.up = false := by simp only [Bool.and_eq_true, Bool.not_eq_true'] at hc; exact hc.1
        exact ⟨[.memberUp l ((isort (hbLe env) us).map (·.id)), .leaderChanged l], by simp [Hb.memberUp, Hb.updateLeader],
          .up us l hus h1 h2 hu⟩
      · rw [if_neg hc]
        exact ⟨_, rfl, .leader us l hus h1 h2⟩

/-- the leader is not the node itself if an older node answers. -/
theorem sheltered_ne {C : Conf} {c : Clu} {i : Nat} {σ : Hb} (hs : Sane C c i σ) {us : List HbNode} {l k : Nat}
    (hus : refreshAll C.env C.hb i (fun _ => c.time C i) σ.pings (σ.nodes.map (·.2)) = some us)
    (ho : oldestHealthy C.env us = some l) (hk : ∃ n, (k, n) ∈ σ.nodes)
    (ha : ∃ latency received, σ.pings.get k = some (.ok latency received) ∧ latency ≤ C.hb.unhealthy ∧
      c.time C i - received < C.hb.unhealthy ∧ c.time C i - received < C.hb.terminated)
    (hold : ¬ Before C i k) : l ≠ i := by
  intro e
  subst e
  obtain ⟨a, ha1, ha2, ha3, ha4⟩ := (oldest_iff us l).1 ho
  obtain ⟨n, hn⟩ := hk
  obtain ⟨u, hu, hr⟩ := (refreshAll_spec hus).2.2 n (List.mem_map.2 ⟨(k, n), hn, rfl⟩)
  have hid : n.id = k := hs.wf.keyed _ hn
  have hh : u.status = .healthy := by
    rw [OneLeader.refresh_healthy hr (fun lat r hp => hs.past _ lat r hp), hid]
    exact .inr ha
  have hst : ∀ u ∈ us, started C.env u = C.born u.id := by
    intro u hu
    obtain ⟨n, hn, hr⟩ := (refreshAll_spec hus).2.1 u hu
    obtain ⟨p, hp, rfl⟩ := List.mem_map.1 hn
    obtain ⟨h1, h2⟩ := refresh_id hr
    rw [started, h2, hs.born p hp, h1, hs.wf.keyed p hp]
    rfl
  have := ha4 u hu hh
  rw [hst a ha1, hst u hu, (refresh_id hr).1, hid, ha2] at this
  exact hold this

/-- a node that has not registered itself does not choose itself. -/
theorem unregistered_ne {C : Conf} {c : Clu} {i : Nat} {σ : Hb} (hs : Sane C c i σ) {us : List HbNode} {l : Nat}
    (hus : refreshAll C.env C.hb i (fun _ => c.time C i) σ.pings (σ.nodes.map (·.2)) = some us)
    (ho : oldestHealthy C.env us = some l) (hk : ¬ ∃ n, (i, n) ∈ σ.nodes) : l ≠ i := by
  intro e
  subst e
  obtain ⟨a, ha1, ha2, _, _⟩ := (oldest_iff us l).1 ho
  obtain ⟨n, hn, hr⟩ := (refreshAll_spec hus).2.1 a ha1
  obtain ⟨p, hp, rfl⟩ := List.mem_map.1 hn
  refine hk ⟨p.2, ?_⟩
  rw [← ha2, (refresh_id hr).1, hs.wf.keyed p hp]
  exact hp

/-- the heartbeat before the tick that follows a notice. -/
def marked (σ : Hb) (j : Nat) : Hb :=
  { σ with nodes := σ.nodes.update j fun n => { n with status := .terminated }, pings := σ.pings.erase j }

theorem marked_sane {C : Conf} {c : Clu} {i j : Nat} {σ : Hb} (h : Sane C c i σ) : Sane C c i (marked σ j) := by
  refine ⟨⟨?_, ?_⟩, ?_, ?_, ?_, h.running⟩
  · unfold marked; dsimp only; exact Assoc.Uniq.update h.wf.uniq _ _
  · intro p hp
    simp only [marked, Assoc.update, List.mem_map] at hp
    obtain ⟨q, hq, rfl⟩ := hp
    have := h.wf.keyed q hq
    split <;> simpa using this
  · intro p hp
    simp only [marked, Assoc.update, List.mem_map] at hp
    obtain ⟨q, hq, rfl⟩ := hp
    have := h.born q hq
    split <;> simpa using this
  · intro k lat r hk
    simp only [marked] at hk
    rw [Assoc.get_erase] at hk
    split at hk
    · cases hk
    · exact h.past k lat r hk
  · intro k lat r t hk ht
    simp only [marked] at hk
    rw [Assoc.get_erase] at hk
    split at hk
    · cases hk
    · exact h.gone k lat r t hk ht

theorem marked_known (σ : Hb) (j k : Nat) : (∃ n, (k, n) ∈ (marked σ j).nodes) ↔ ∃ n, (k, n) ∈ σ.nodes := by
  simp only [marked, Assoc.update, List.mem_map]
  constructor
  · rintro ⟨n, q, hq, e⟩
    split at e
    · cases e; exact ⟨_, hq⟩
    · cases e; exact ⟨_, hq⟩
  · rintro ⟨n, hn⟩
    by_cases e : k = j
    · exact ⟨_, (k, n), hn, if_pos e⟩
    · exact ⟨n, (k, n), hn, if_neg e⟩

/-! ### The whole cluster -/

/-- the nodes whose heartbeat ticks in a step. -/
def ticks : OneLeader.Op → Option Nat
  | .tick i => some i
  | .notice i _ => some i
  | _ => none

theorem act_hb {C : Conf} (c : Clu) (i : Nat) (op : HbOp) (hup : Up c i) :
    ((c.act C i op).hb i) = (c.hb i).step C.env C.hb i op := by
  unfold Clu.act
  rw [if_neg (by rw [hup]; simp)]
  simp [Clu.put]

theorem act_down {C : Conf} (c : Clu) (i : Nat) (op : HbOp) (hup : ¬ Up c i) : c.act C i op = c := by
  unfold Clu.act
  rw [if_pos]
  cases h : c.ended i with
  | none => exact absurd h hup
  | some t => rfl

theorem act_hb_other {C : Conf} (c : Clu) {i k : Nat} (op : HbOp) (h : k ≠ i) : (c.act C i op).hb k = c.hb k := by
  unfold Clu.act
  split
  · rfl
  · simp [Clu.put, h]

/-- a step that is not a tick of `k` leaves alone what `k` has published. -/
theorem step_still {C : Conf} (c : Clu) (o : OneLeader.Op) (k : Nat) (h : ticks o ≠ some k) :
    ((c.step C o).hb k).up = (c.hb k).up ∧ ((c.step C o).hb k).events = (c.hb k).events := by
  have key : ∀ i hop, (((c.hb i).step C.env C.hb i hop).up = (c.hb i).up ∧
      ((c.hb i).step C.env C.hb i hop).events = (c.hb i).events) →
      ((c.act C i hop).hb k).up = (c.hb k).up ∧ ((c.act C i hop).hb k).events = (c.hb k).events := by
    intro i hop hi
    by_cases e : k = i
    · subst e
      by_cases hup : Up c k
      · rw [act_hb c k hop hup]; exact hi
      · rw [act_down c k hop hup]; exact ⟨rfl, rfl⟩
    · rw [act_hb_other c hop e]; exact ⟨rfl, rfl⟩
  cases o with
  | pass d => exact ⟨rfl, rfl⟩
  | stop j => simp only [Clu.step]; split <;> exact ⟨rfl, rfl⟩
  | answer i j lat s r =>
    simp only [Clu.step]
    split
    · apply key; simp only [Hb.step]; split <;> exact ⟨rfl, rfl⟩
    · exact ⟨rfl, rfl⟩
  | missed i j p =>
    simp only [Clu.step]
    cases p <;> first | exact ⟨rfl, rfl⟩ | (apply key; simp only [Hb.step]; split <;> exact ⟨rfl, rfl⟩)
  | tick i =>
    have hki : k ≠ i := by intro e; subst e; exact h rfl
    simp only [Clu.step]; rw [act_hb_other c _ hki]; exact ⟨rfl, rfl⟩
  | learn i j => simp only [Clu.step]; apply key; simp only [Hb.step]; exact ⟨trivial, trivial⟩
  | notice i j =>
    have hki : k ≠ i := by intro e; subst e; exact h rfl
    simp only [Clu.step]; rw [act_hb_other c _ hki]; exact ⟨rfl, rfl⟩

/-- what a step publishes on the node that ticks. -/
theorem step_tells {C : Conf} {c : Clu} (hg : Good C c) (o : OneLeader.Op) {i : Nat} (h : ticks o = some i) :
    ∃ es, published C c o = es.map (fun e => (i, News.of e)) ∧ (es ≠ [] → Up c i) ∧
      ((es = [] ∧ ((c.step C o).hb i).up = (c.hb i).up) ∨
       (∃ j, o = .notice i j ∧ Tells C.env C.hb i (fun _ => c.time C i) (marked (c.hb i) j) es ((c.step C o).hb i).up) ∨
       (o = .tick i ∧ Tells C.env C.hb i (fun _ => c.time C i) (c.hb i) es ((c.step C o).hb i).up)) := by
  cases o with
  | tick k =>
    cases h
    by_cases hup : Up c i
    · have hst : (c.step C (.tick i)).hb i = (c.hb i).tick C.env C.hb i (fun _ => c.time C i) := by
        simp only [Clu.step]
        rw [act_hb c i _ hup]
        simp [Hb.step, (hg i).running]
      obtain ⟨es, he, ht⟩ := tick_tells C.env C.hb i (fun _ => c.time C i) (c.hb i)
      refine ⟨es, ?_, fun _ => hup, .inr (.inr ⟨rfl, ?_⟩)⟩
      · simp only [published]; rw [hst, he, List.drop_left]
      · rw [hst]; exact ht
    · have hst : c.step C (.tick i) = c := by simp only [Clu.step]; exact act_down c i _ hup
      refine ⟨[], ?_, by simp, .inl ⟨rfl, by rw [hst]⟩⟩
      simp only [published]; rw [hst]; simp
  | notice k j =>
    cases h
    by_cases hup : Up c i
    · have hst : (c.step C (.notice i j)).hb i = (marked (c.hb i) j).tick C.env C.hb i (fun _ => c.time C i) := by
        simp only [Clu.step]
        rw [act_hb c i _ hup]
        simp [Hb.step, (hg i).running, marked]
      obtain ⟨es, he, ht⟩ := tick_tells C.env C.hb i (fun _ => c.time C i) (marked (c.hb i) j)
      refine ⟨es, ?_, fun _ => hup, .inr (.inl ⟨j, rfl, ?_⟩)⟩
      · simp only [published]; rw [hst, he]
        show List.map _ (List.drop (c.hb i).events.length ((c.hb i).events ++ es)) = _
        rw [List.drop_left]
      · rw [hst]; exact ht
    · have hst : c.step C (.notice i j) = c := by simp only [Clu.step]; exact act_down c i _ hup
      refine ⟨[], ?_, by simp, .inl ⟨rfl, by rw [hst]⟩⟩
      simp only [published]; rw [hst]; simp
  | _ => simp [ticks] at h

theorem published_none {C : Conf} (c : Clu) (o : OneLeader.Op) (h : ticks o = none) : published C c o = [] := by
  cases o <;> first | rfl | simp [ticks] at h

end Verif.Singleton.Joint
