import Verif.Remote.OneLeaderSpec
import Verif.Remote.HeartbeatProps

namespace Verif.Remote.OneLeader

open Verif.Remote

/-- what holds of one heartbeat in every history: it does not look at times to come, holds the start times the
nodes gave, and every answer it holds was given by a node that ran. -/
structure Sane (C : Conf) (c : Clu) (i : Nat) (σ : Hb) : Prop where
  wf : NodesWF σ
  born : ∀ p ∈ σ.nodes, p.2.startedAt = some (C.born p.1)
  past : ∀ j lat r, σ.pings.get j = some (.ok lat r) → r ≤ c.time C i
  gone : ∀ j lat r t, σ.pings.get j = some (.ok lat r) → c.ended j = some t → r - C.skew i ≤ t + lat
  running : σ.crashed = false

def Good (C : Conf) (c : Clu) : Prop := ∀ i, Sane C c i (c.hb i)

theorem refreshAll_some {env : Chrono} (henv : ∀ h d, env.addOk h d = true) {cfg : HbConfig} {self : Nat}
    {now : Nat → Int} {pings : Assoc Nat Ping} (ns : List HbNode)
    (hp : ∀ n ∈ ns, ∀ lat r, pings.get n.id = some (.ok lat r) → r ≤ now n.id) :
    ∃ us, refreshAll env cfg self now pings ns = some us := by
  induction ns with
  | nil => exact ⟨[], rfl⟩
  | cons n r ih =>
    obtain ⟨us, hus⟩ := ih fun m hm => hp m (List.mem_cons_of_mem _ hm)
    have hn : ∃ u, refresh env cfg self (now n.id) pings n = some u := by
      unfold refresh
      split
      · exact ⟨_, rfl⟩
      · unfold updateNode
        have h0 := hp n (List.mem_cons_self ..)
        rcases hq : pings.get n.id with _ | p
        · simp only [nodeStatus]
          split <;> exact ⟨_, rfl⟩
        · cases p with
          | ok lat at_ =>
            have := h0 lat at_ hq
            simp only [nodeStatus]
            rw [if_neg (by omega)]
            split
            · exact ⟨_, rfl⟩
            · split
              · exact ⟨_, rfl⟩
              · split <;> exact ⟨_, rfl⟩
          | timeout =>
            simp only [nodeStatus, henv, if_true]
            split
            · exact ⟨_, rfl⟩
            · split <;> exact ⟨_, rfl⟩
          | disconnected => exact ⟨_, rfl⟩
          | err =>
            simp only [nodeStatus]
            split <;> exact ⟨_, rfl⟩
    obtain ⟨u, hu⟩ := hn
    exact ⟨u :: us, by simp [refreshAll, hu, hus]⟩

theorem refresh_healthy {env : Chrono} {cfg : HbConfig} {self : Nat} {now : Int} {pings : Assoc Nat Ping}
    {n u : HbNode} (h : refresh env cfg self now pings n = some u)
    (hp : ∀ lat r, pings.get n.id = some (.ok lat r) → r ≤ now) :
    u.status = .healthy ↔ n.id = self ∨ ∃ (lat : Nat) (r : Int), pings.get n.id = some (.ok lat r) ∧
      lat ≤ cfg.unhealthy ∧ now - r < cfg.unhealthy ∧ now - r < cfg.terminated := by
  unfold refresh at h
  split at h
  · rename_i he
    cases h
    simp [he]
  · rename_i hne
    unfold updateNode at h
    obtain ⟨s, hs, rfl⟩ := Option.map_eq_some_iff.1 h
    simp only [hne, false_or]
    rcases hq : pings.get n.id with _ | p
    · rw [hq] at hs
      rw [C27_unpinged] at hs
      cases hs
      simp
      split <;> simp
    · rw [hq] at hs
      cases p with
      | ok lat at_ =>
        have hc := (C27_answered (env := env) (cfg := cfg) now _ _ lat at_ (hp lat at_ hq) s hs).2.1
        simp only [hc]
        constructor
        · intro ⟨h1, h2, h3⟩
          exact ⟨lat, at_, rfl, h3, h2, h1⟩
        · intro ⟨lat', r', he, h3, h2, h1⟩
          cases he
          exact ⟨h1, h2, h3⟩
      | timeout =>
        simp only [nodeStatus] at hs
        have : s ≠ .healthy := by
          split at hs
          · cases hs; simp
          · split at hs
            · split at hs <;> cases hs <;> simp
            · cases hs
        simp [this]
      | disconnected =>
        rw [C27_disconnected] at hs
        cases hs
        simp
      | err =>
        simp only [nodeStatus] at hs
        have : s ≠ .healthy := by split at hs <;> cases hs <;> simp
        simp [this]

/-! ### Steps -/

theorem tick_pingMap (env : Chrono) (cfg : HbConfig) (self : Nat) (now : Nat → Int) (σ : Hb) :
    (σ.tick env cfg self now).pings = σ.pings := by
  unfold Hb.tick
  split
  · rfl
  · unfold Hb.elect
    dsimp only
    split
    · rfl
    · split <;> rfl

theorem born_storeAll {C : Conf} (us : List HbNode) (m : Assoc Nat HbNode)
    (h : ∀ p ∈ m, p.2.startedAt = some (C.born p.1)) (hu : ∀ u ∈ us, u.startedAt = some (C.born u.id)) :
    ∀ p ∈ storeAll m us, p.2.startedAt = some (C.born p.1) := by
  induction us generalizing m with
  | nil => exact h
  | cons u r ih =>
    apply ih
    · intro p hp
      rcases Assoc.mem_insert.1 hp with rfl | ⟨hp, _⟩
      · exact hu u (List.mem_cons_self ..)
      · exact h p hp
    · exact fun v hv => hu v (List.mem_cons_of_mem _ hv)

/-- a heartbeat in order does not panic, and stays in order. -/
theorem tick_sane {C : Conf} (henv : ∀ h d, C.env.addOk h d = true) {c : Clu} {i : Nat} {σ : Hb}
    (h : Sane C c i σ) : ∃ us, refreshAll C.env C.hb i (fun _ => c.time C i) σ.pings (σ.nodes.map (·.2)) = some us ∧
      σ.tick C.env C.hb i (fun _ => c.time C i) = σ.elect C.env C.hb us ∧
      Sane C c i (σ.tick C.env C.hb i fun _ => c.time C i) := by
  obtain ⟨us, hus⟩ := refreshAll_some henv (cfg := C.hb) (self := i) (now := fun _ => c.time C i)
    (pings := σ.pings) (σ.nodes.map (·.2)) (fun n _ lat r hr => h.past n.id lat r hr)
  have he : σ.tick C.env C.hb i (fun _ => c.time C i) = σ.elect C.env C.hb us := by
    unfold Hb.tick
    rw [hus]
  refine ⟨us, hus, he, ?_⟩
  have hwf := h.wf.step (env := C.env) (cfg := C.hb) (self := i) (.tick fun _ => c.time C i)
  simp only [Hb.step, h.running, Bool.false_eq_true, if_false] at hwf
  refine ⟨hwf, ?_, ?_, ?_, ?_⟩
  · rw [he, elect_nodes]
    apply born_storeAll _ _ h.born
    intro u hu
    obtain ⟨n, hn, hr⟩ := (refreshAll_spec hus).2.1 u (mem_isort.1 hu)
    obtain ⟨h1, h2⟩ := refresh_id hr
    obtain ⟨p, hp, rfl⟩ := List.mem_map.1 hn
    rw [h1, h2, h.wf.keyed p hp]
    exact h.born p hp
  · rw [tick_pingMap]; exact h.past
  · rw [tick_pingMap]; exact h.gone
  · rw [he, elect_crashed]; exact h.running

theorem step_sane {C : Conf} (henv : ∀ h d, C.env.addOk h d = true) {c : Clu} {i : Nat} {σ : Hb}
    (h : Sane C c i σ) : Sane C c i (σ.step C.env C.hb i (.tick fun _ => c.time C i)) := by
  obtain ⟨us, _, he, hs⟩ := tick_sane henv h
  simp only [Hb.step, h.running, Bool.false_eq_true, if_false]
  exact hs

theorem Sane.ping {C : Conf} {c : Clu} {i j : Nat} {σ : Hb} {p : Ping} (h : Sane C c i σ)
    (hp : ∀ lat r, p = .ok lat r → r ≤ c.time C i ∧ ∀ t, c.ended j = some t → r - C.skew i ≤ t + lat) :
    Sane C c i (σ.step C.env C.hb i (.ping j p)) := by
  simp only [Hb.step, h.running, Bool.false_eq_true, if_false]
  refine ⟨⟨h.wf.uniq, h.wf.keyed⟩, h.born, ?_, ?_, rfl⟩
  · intro k lat r hk
    dsimp only at hk
    rw [Assoc.get_insert] at hk
    split at hk
    · cases hk; exact (hp lat r rfl).1
    · exact h.past k lat r hk
  · intro k lat r t hk ht
    dsimp only at hk
    rw [Assoc.get_insert] at hk
    split at hk
    · rename_i e
      cases hk
      subst e
      exact (hp lat r rfl).2 t ht
    · exact h.gone k lat r t hk ht

theorem Sane.learn {C : Conf} {c : Clu} {i j : Nat} {σ : Hb} (h : Sane C c i σ) :
    Sane C c i (σ.step C.env C.hb i (.learn j (some (C.born j)))) := by
  have hwf := h.wf.step (env := C.env) (cfg := C.hb) (self := i) (.learn j (some (C.born j)))
  refine ⟨hwf, ?_, h.past, h.gone, h.running⟩
  intro p hp
  simp only [Hb.step] at hp
  rcases Assoc.mem_insert.1 hp with rfl | ⟨hp, _⟩
  · rfl
  · exact h.born p hp

theorem Sane.notice {C : Conf} (henv : ∀ h d, C.env.addOk h d = true) {c : Clu} {i j : Nat} {σ : Hb}
    (h : Sane C c i σ) : Sane C c i (σ.step C.env C.hb i (.nodeTerminated j fun _ => c.time C i)) := by
  simp only [Hb.step, h.running, Bool.false_eq_true, if_false]
  have : Sane C c i { σ with
      nodes := σ.nodes.update j fun n => { n with status := .terminated }
      pings := σ.pings.erase j } := by
    refine ⟨⟨?_, ?_⟩, ?_, ?_, ?_, h.running⟩
    · dsimp only; exact Assoc.Uniq.update h.wf.uniq _ _
    · intro p hp
      simp only [Assoc.update, List.mem_map] at hp
      obtain ⟨q, hq, rfl⟩ := hp
      have := h.wf.keyed q hq
      split <;> simpa using this
    · intro p hp
      simp only [Assoc.update, List.mem_map] at hp
      obtain ⟨q, hq, rfl⟩ := hp
      have := h.born q hq
      split <;> simpa using this
    · intro k lat r hk
      dsimp only at hk
      rw [Assoc.get_erase] at hk
      split at hk
      · cases hk
      · exact h.past k lat r hk
    · intro k lat r t hk ht
      dsimp only at hk
      rw [Assoc.get_erase] at hk
      split at hk
      · cases hk
      · exact h.gone k lat r t hk ht
  simpa [h.running] using (tick_sane henv this).choose_spec.2.2

theorem Good.act {C : Conf} {c : Clu} (h : Good C c) (i : Nat) (op : HbOp)
    (hop : Sane C c i ((c.hb i).step C.env C.hb i op)) : Good C (c.act C i op) := by
  unfold Clu.act
  split
  · exact h
  · intro k
    have hk : (c.put i ((c.hb i).step C.env C.hb i op)).hb k =
        if k = i then (c.hb i).step C.env C.hb i op else c.hb k := rfl
    rw [hk]
    split
    · rename_i e
      subst e
      exact ⟨hop.wf, hop.born, hop.past, hop.gone, hop.running⟩
    · have := h k
      exact ⟨this.wf, this.born, this.past, this.gone, this.running⟩

theorem Good.step {C : Conf} (henv : ∀ h d, C.env.addOk h d = true) {c : Clu} (h : Good C c) (op : Op) :
    Good C (c.step C op) := by
  cases op with
  | pass d =>
    intro k
    have := h k
    refine ⟨this.wf, this.born, ?_, this.gone, this.running⟩
    intro j lat r hr
    have := this.past j lat r hr
    simp only [Clu.time, Clu.step] at this ⊢
    omega
  | stop j =>
    simp only [Clu.step]
    split
    · exact h
    · intro k
      have := h k
      refine ⟨this.wf, this.born, this.past, ?_, this.running⟩
      intro m lat r t hr ht
      dsimp only at ht
      split at ht
      · cases ht
        have := this.past m lat r hr
        simp only [Clu.time] at this
        omega
      · exact this.gone m lat r t hr ht
  | answer i j lat sent received =>
    simp only [Clu.step]
    split
    · rename_i hpos
      refine h.act i _ ((h i).ping ?_)
      intro lat' r' he
      cases he
      simp only [Clu.possible, Bool.and_eq_true, decide_eq_true_eq] at hpos
      obtain ⟨⟨⟨h1, h2⟩, h3⟩, h4⟩ := hpos
      refine ⟨by simp only [Clu.time]; omega, ?_⟩
      intro t ht
      rw [ht] at h1
      simp only [decide_eq_true_eq] at h1
      omega
    · exact h
  | missed i j p =>
    cases p with
    | ok _ _ => exact h
    | timeout => exact h.act i _ ((h i).ping (by simp))
    | disconnected => exact h.act i _ ((h i).ping (by simp))
    | err => exact h.act i _ ((h i).ping (by simp))
  | tick i => exact h.act i _ (step_sane henv (h i))
  | learn i j => exact h.act i _ (h i).learn
  | notice i j => exact h.act i _ ((h i).notice henv)

theorem Good.init (C : Conf) : Good C (Clu.init C) := by
  intro i
  refine ⟨⟨Assoc.Uniq.nil, by intro p hp; simp [Clu.init, Hb.init] at hp⟩, ?_, ?_, ?_, rfl⟩
  · intro p hp; simp [Clu.init, Hb.init] at hp
  · intro j lat r hr; simp [Clu.init, Hb.init] at hr
  · intro j lat r t hr; simp [Clu.init, Hb.init] at hr

theorem Good.runFrom {C : Conf} (henv : ∀ h d, C.env.addOk h d = true) {c : Clu} (h : Good C c) (ops : List Op) :
    Good C (runFrom C c ops) := by
  induction ops generalizing c with
  | nil => exact h
  | cons op ops ih => exact ih (h.step henv op)

theorem Good.run {C : Conf} (henv : ∀ h d, C.env.addOk h d = true) (ops : List Op) : Good C (run C ops) :=
  Good.runFrom henv (Good.init C) ops

/-! ### A tick of a node in order -/

/-- whom a tick of `i` takes for healthy: itself and those whose last ping was answered in time. -/
theorem tick_view {C : Conf} (henv : ∀ h d, C.env.addOk h d = true) {c : Clu} (h : Good C c) {i : Nat} :
    ∃ us, (c.hb i).step C.env C.hb i (.tick fun _ => c.time C i) = (c.hb i).elect C.env C.hb us ∧
      (∀ u ∈ us, started C.env u = C.born u.id) ∧
      (∀ u ∈ us, ∃ n, (u.id, n) ∈ (c.hb i).nodes) ∧
      (∀ j n, (j, n) ∈ (c.hb i).nodes → ∃ u ∈ us, u.id = j) ∧
      (∀ u ∈ us, u.status = .healthy ↔ u.id = i ∨ Answered C c i u.id) := by
  have hs := h i
  obtain ⟨us, hus, he, _⟩ := tick_sane henv hs
  refine ⟨us, ?_, ?_, ?_, ?_, ?_⟩
  · simp only [Hb.step, hs.running, Bool.false_eq_true, if_false]
    exact he
  · intro u hu
    obtain ⟨n, hn, hr⟩ := (refreshAll_spec hus).2.1 u hu
    obtain ⟨p, hp, rfl⟩ := List.mem_map.1 hn
    obtain ⟨h1, h2⟩ := refresh_id hr
    rw [started, h2, hs.born p hp, h1, hs.wf.keyed p hp]
    rfl
  · intro u hu
    obtain ⟨n, hn, hr⟩ := (refreshAll_spec hus).2.1 u hu
    obtain ⟨p, hp, rfl⟩ := List.mem_map.1 hn
    refine ⟨p.2, ?_⟩
    rw [(refresh_id hr).1, hs.wf.keyed p hp]
    exact hp
  · intro j n hn
    obtain ⟨u, hu, hr⟩ := (refreshAll_spec hus).2.2 n (List.mem_map.2 ⟨(j, n), hn, rfl⟩)
    exact ⟨u, hu, by rw [(refresh_id hr).1]; exact hs.wf.keyed (j, n) hn⟩
  · intro u hu
    obtain ⟨n, hn, hr⟩ := (refreshAll_spec hus).2.1 u hu
    have := refresh_healthy hr (fun lat r hp => hs.past n.id lat r hp)
    rw [(refresh_id hr).1]
    exact this

/-- a node that has ended long enough ago is not held for healthy by anyone. -/
theorem not_answered_gone {C : Conf} {c : Clu} (h : Good C c) {i j : Nat} {t : Int} (ht : c.ended j = some t)
    (hl : t + 2 * C.hb.unhealthy ≤ c.clock) : ¬ Answered C c i j := by
  intro ⟨lat, r, hp, h1, h2, _⟩
  have := (h i).gone j lat r t hp ht
  simp only [Clu.time] at h2
  omega

/-- the choice a tick makes in calm. -/
theorem calm_oldest {C : Conf} (henv : ∀ h d, C.env.addOk h d = true) {c : Clu} (h : Good C c) {S : List Nat}
    {i : Nat} (hi : i ∈ S) (hup : Up c i) (hc : Calm C c S i) :
    ∃ us, (c.hb i).step C.env C.hb i (.tick fun _ => c.time C i) = (c.hb i).elect C.env C.hb us ∧
      ∀ l, oldestHealthy C.env us = some l ↔ Oldest C c S l := by
  obtain ⟨us, he, hst, hk, hk', hh⟩ := tick_view henv h (i := i)
  refine ⟨us, he, ?_⟩
  have hiff : ∀ u ∈ us, u.status = .healthy ↔ Up c u.id := by
    intro u hu
    rw [hh u hu]
    have hS : u.id ∈ S := (hc.knows u.id).2 (hk u hu)
    constructor
    · rintro (rfl | ha)
      · exact hup
      · cases hend : c.ended u.id with
        | none => exact hend
        | some t => exact absurd ha (not_answered_gone h hend (hc.gone u.id hS t hend))
    · intro hu'
      by_cases hui : u.id = i
      · exact .inl hui
      · exact .inr (hc.answered u.id hS hui hu')
  intro l
  rw [oldest_iff]
  constructor
  · rintro ⟨a, ha, rfl, hs, hm⟩
    refine ⟨(hc.knows a.id).2 (hk a ha), (hiff a ha).1 hs, ?_⟩
    intro j hj hjup
    obtain ⟨n, hn⟩ := (hc.knows j).1 hj
    obtain ⟨b, hb, rfl⟩ := hk' j n hn
    have := hm b hb ((hiff b hb).2 hjup)
    rw [hst a ha, hst b hb] at this
    exact this
  · rintro ⟨hl, hlup, hm⟩
    obtain ⟨n, hn⟩ := (hc.knows l).1 hl
    obtain ⟨a, ha, rfl⟩ := hk' l n hn
    refine ⟨a, ha, rfl, (hiff a ha).2 hlup, ?_⟩
    intro b hb hbs
    rw [hst a ha, hst b hb]
    exact hm b.id ((hc.knows b.id).2 (hk b hb)) ((hiff b hb).1 hbs)

theorem Oldest.unique {C : Conf} {c : Clu} {S : List Nat} {l l' : Nat} (h : Oldest C c S l)
    (h' : Oldest C c S l') : l = l' := by
  have h1 := h.2.2 l' h'.1 h'.2.1
  have h2 := h'.2.2 l h.1 h.2.1
  simp only [Before] at h1 h2
  omega

/-- as long as some node of `S` runs, there is an oldest one. -/
theorem Oldest.exist (C : Conf) (c : Clu) (S : List Nat) (h : ∃ i ∈ S, Up c i) : ∃ l, Oldest C c S l := by
  induction S with
  | nil => obtain ⟨i, hi, _⟩ := h; simp at hi
  | cons a r ih =>
    by_cases hr : ∃ i ∈ r, Up c i
    · obtain ⟨l, hl, hlu, hm⟩ := ih hr
      by_cases ha : Up c a
      · by_cases hb : Before C a l
        · refine ⟨a, List.mem_cons_self .., ha, ?_⟩
          intro j hj hju
          rcases List.mem_cons.1 hj with rfl | hj
          · right; exact ⟨rfl, Nat.le_refl _⟩
          · have := hm j hj hju
            simp only [Before] at *
            omega
        · refine ⟨l, List.mem_cons_of_mem _ hl, hlu, ?_⟩
          intro j hj hju
          rcases List.mem_cons.1 hj with rfl | hj
          · simp only [Before] at *
            omega
          · exact hm j hj hju
      · refine ⟨l, List.mem_cons_of_mem _ hl, hlu, ?_⟩
        intro j hj hju
        rcases List.mem_cons.1 hj with rfl | hj
        · exact absurd hju ha
        · exact hm j hj hju
    · obtain ⟨i, hi, hiu⟩ := h
      rcases List.mem_cons.1 hi with rfl | hi
      · refine ⟨i, List.mem_cons_self .., hiu, ?_⟩
        intro j hj hju
        rcases List.mem_cons.1 hj with rfl | hj
        · right; exact ⟨rfl, Nat.le_refl _⟩
        · exact absurd ⟨j, hj, hju⟩ hr
      · exact absurd ⟨i, hi, hiu⟩ hr

/-! ### Ticks of different nodes do not touch each other -/

theorem tick_step {C : Conf} {c : Clu} {i : Nat} (hup : Up c i) :
    c.step C (.tick i) = c.put i ((c.hb i).step C.env C.hb i (.tick fun _ => c.time C i)) := by
  simp only [Clu.step, Clu.act]
  rw [if_neg (by rw [hup]; simp)]

theorem tick_other {C : Conf} (c : Clu) {i k : Nat} (h : k ≠ i) : (c.step C (.tick i)).hb k = c.hb k := by
  simp only [Clu.step, Clu.act]
  split
  · rfl
  · exact if_neg h

theorem tick_rest {C : Conf} (c : Clu) (i : Nat) :
    (c.step C (.tick i)).ended = c.ended ∧ (c.step C (.tick i)).clock = c.clock := by
  simp only [Clu.step, Clu.act]
  split <;> exact ⟨rfl, rfl⟩

theorem ticks_hb {C : Conf} (T : List Nat) (hnd : T.Nodup) (c : Clu) (i : Nat) :
    (runFrom C c (T.map .tick)).hb i = (if i ∈ T then (c.step C (.tick i)).hb i else c.hb i) ∧
    (runFrom C c (T.map .tick)).ended = c.ended ∧ (runFrom C c (T.map .tick)).clock = c.clock := by
  induction T generalizing c with
  | nil => simp [runFrom]
  | cons a r ih =>
    obtain ⟨har, hr⟩ := List.nodup_cons.1 hnd
    obtain ⟨h1, h2, h3⟩ := ih hr (c.step C (.tick a))
    obtain ⟨e1, e2⟩ := tick_rest (C := C) c a
    have hrun : runFrom C c ((a :: r).map .tick) = runFrom C (c.step C (.tick a)) (r.map .tick) := rfl
    rw [hrun]
    refine ⟨?_, by rw [h2, e1], by rw [h3, e2]⟩
    rw [h1]
    by_cases hia : i = a
    · subst hia
      simp [har]
    · by_cases hir : i ∈ r
      · have hc : ∀ c' : Clu, c'.hb i = c.hb i → c'.ended = c.ended → c'.clock = c.clock →
            (c'.step C (.tick i)).hb i = (c.step C (.tick i)).hb i := by
          intro c' g1 g2 g3
          simp only [Clu.step, Clu.act, Clu.time, g1, g2, g3]
          split
          · exact g1
          · simp [Clu.put]
        rw [if_pos hir, if_pos (List.mem_cons_of_mem _ hir)]
        exact hc _ (tick_other c hia) e1 e2
      · rw [if_neg hir, if_neg (by simp [hia, hir])]
        exact tick_other c hia

end Verif.Remote.OneLeader
