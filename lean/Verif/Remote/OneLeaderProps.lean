import Verif.Remote.OneLeaderLemmas

/-!
# C106: the nodes of a cluster agree on one leader
-/

namespace Verif.Remote.OneLeader

open Verif.Remote

variable (C : Conf)

/-- The full claim: in a cluster whose nodes all know each other and have agreed on a leader, no node comes to
think itself the leader while that leader runs. -/
def C106_full : Prop :=
  ∀ (C : Conf) (ops more : List Op) (S : List Nat) (l i : Nat), (∀ h d, C.env.addOk h d = true) →
    Oldest C (run C ops) S l →
    (∀ j ∈ S, Up (run C ops) j ∧ j < 2 ^ 63 ∧ Knows (run C ops) j S ∧ (run C ops).leader j = some l) →
    Up (run C (ops ++ more)) l → i ∈ S → (∀ j k, Op.learn j k ∉ more) →
    (run C (ops ++ more)).leader i = some i → i = l

/-- **C106.** In no history does the heartbeat of any node panic, as long as the clock of no node is set back
and times stay in range. -/
theorem C106_no_panic (henv : ∀ h d, C.env.addOk h d = true) (ops : List Op) (i : Nat) :
    ((run C ops).hb i).crashed = false := (Good.run henv ops i).running

/-- **C106 (agreement, ids below 2^63).** Whatever has happened before — nodes that joined, left, were cut off, missed pings,
two leaders —, once the nodes that run know the same nodes, get their pings answered, and the nodes that do
not run have not for a while, one tick of each of them makes them agree: the leader is the oldest running node,
the same for all. -/
theorem C106_agreement_partial (henv : ∀ h d, C.env.addOk h d = true) (ops : List Op) (S : List Nat) (hnd : S.Nodup)
    (hids : ∀ j ∈ S, j < 2 ^ 63) (hsome : ∃ i ∈ S, Up (run C ops) i)
    (hcalm : ∀ i ∈ S, Up (run C ops) i → Calm C (run C ops) S i ∧ ((run C ops).hb i).ticked = true) :
    ∃ l, Oldest C (run C ops) S l ∧
      ∀ i ∈ S, Up (run C ops) i → (run C (ops ++ S.map .tick)).leader i = some l := by
  have hg := Good.run henv ops
  have hrun : run C (ops ++ S.map .tick) = runFrom C (run C ops) (S.map .tick) := by
    simp [run, runFrom]
  rw [hrun]
  generalize run C ops = c at *
  obtain ⟨l, hl⟩ := Oldest.exist C c S hsome
  refine ⟨l, hl, ?_⟩
  intro i hi hup
  obtain ⟨hc, ht⟩ := hcalm i hi hup
  unfold Clu.leader
  rw [(ticks_hb S hnd c i).1, if_pos hi, tick_step hup]
  obtain ⟨us, he, ho⟩ := calm_oldest henv hg hi hup hc
  have : (c.put i ((c.hb i).step C.env C.hb i (.tick fun _ => c.time C i))).hb i =
      (c.hb i).elect C.env C.hb us := by rw [← he]; simp [Clu.put]
  rw [this]
  exact elect_leader (c.hb i) us ht l ((ho l).2 hl) (hids l hl.1)

/-- **C106 (one of them).** In that case exactly one of the running nodes takes itself for the leader. -/
theorem C106_exactly_one_partial (henv : ∀ h d, C.env.addOk h d = true) (ops : List Op) (S : List Nat) (hnd : S.Nodup)
    (hids : ∀ j ∈ S, j < 2 ^ 63) (hsome : ∃ i ∈ S, Up (run C ops) i)
    (hcalm : ∀ i ∈ S, Up (run C ops) i → Calm C (run C ops) S i ∧ ((run C ops).hb i).ticked = true) :
    ∃ l ∈ S, Up (run C ops) l ∧ ∀ i ∈ S, Up (run C ops) i →
      ((run C (ops ++ S.map .tick)).leader i = some i ↔ i = l) := by
  obtain ⟨l, hl, h⟩ := C106_agreement_partial C henv ops S hnd hids hsome hcalm
  refine ⟨l, hl.1, hl.2.1, ?_⟩
  intro i hi hup
  rw [h i hi hup]
  simp [eq_comm]

theorem snoc_run (ops : List Op) (op : Op) : run C (ops ++ [op]) = (run C ops).step C op := by
  simp [run, runFrom]

/-- **C106 (the dead do not lead, ids below 2^63).** In every history: twice the unhealthy time after the process of a node
has ended, no tick of any other node makes or keeps that node the leader. -/
theorem C106_dead_never_leads_partial (henv : ∀ h d, C.env.addOk h d = true) (ops : List Op) (i j : Nat) (t : Int)
    (hup : Up (run C ops) i) (hticked : ((run C ops).hb i).ticked = true)
    (hself : ∃ n, (i, n) ∈ ((run C ops).hb i).nodes)
    (hids : ∀ k n, (k, n) ∈ ((run C ops).hb i).nodes → k < 2 ^ 63)
    (hended : (run C ops).ended j = some t) (hlong : t + 2 * C.hb.unhealthy ≤ (run C ops).clock) :
    ∃ l, (run C (ops ++ [.tick i])).leader i = some l ∧ l ≠ j := by
  have hg := Good.run henv ops
  rw [snoc_run]
  generalize run C ops = c at *
  obtain ⟨us, he, hst, hk, hk', hh⟩ := tick_view henv hg (i := i)
  unfold Clu.leader
  rw [tick_step hup]
  have : (c.put i ((c.hb i).step C.env C.hb i (.tick fun _ => c.time C i))).hb i =
      (c.hb i).elect C.env C.hb us := by rw [← he]; simp [Clu.put]
  rw [this]
  obtain ⟨n, hn⟩ := hself
  obtain ⟨u, hu, hui⟩ := hk' i n hn
  rcases Option.eq_none_or_eq_some (oldestHealthy C.env us) with ho | ⟨l, ho⟩
  · exact absurd ((hh u hu).2 (.inl hui)) (oldest_none ho u hu)
  · obtain ⟨a, ha, rfl, hs, _⟩ := oldest_some ho
    obtain ⟨m, hm⟩ := hk a ha
    refine ⟨a.id, elect_leader (c.hb i) us hticked a.id ho (hids _ _ hm), ?_⟩
    rintro rfl
    rcases (hh a ha).1 hs with e | e
    · rw [e] at hended
      rw [hup] at hended
      cases hended
    · exact not_answered_gone hg hended hlong e

/-- the heartbeat of `i` after a step which is not one of its ticks or notices: leader and events are as
before. -/
theorem step_keeps (c : Clu) (op : Op) (i : Nat) (h1 : op ≠ .tick i) (h2 : ∀ j, op ≠ .notice i j) :
    ((c.step C op).hb i).cell = (c.hb i).cell ∧ ((c.step C op).hb i).events = (c.hb i).events ∧
    ((c.step C op).hb i).ticked = (c.hb i).ticked := by
  have hact : ∀ k hop, (k = i → (((c.hb i).step C.env C.hb i hop).cell = (c.hb i).cell ∧
      ((c.hb i).step C.env C.hb i hop).events = (c.hb i).events ∧
      ((c.hb i).step C.env C.hb i hop).ticked = (c.hb i).ticked)) →
      ((c.act C k hop).hb i).cell = (c.hb i).cell ∧ ((c.act C k hop).hb i).events = (c.hb i).events ∧
      ((c.act C k hop).hb i).ticked = (c.hb i).ticked := by
    intro k hop h
    unfold Clu.act
    split
    · exact ⟨rfl, rfl, rfl⟩
    · by_cases hki : k = i
      · subst hki
        have : (c.put k ((c.hb k).step C.env C.hb k hop)).hb k = (c.hb k).step C.env C.hb k hop := by
          simp [Clu.put]
        rw [this]
        exact h rfl
      · have : (c.put k ((c.hb k).step C.env C.hb k hop)).hb i = c.hb i := if_neg fun e => hki e.symm
        rw [this]
        exact ⟨rfl, rfl, rfl⟩
  have hping : ∀ j p, (((c.hb i).step C.env C.hb i (.ping j p)).cell = (c.hb i).cell ∧
      ((c.hb i).step C.env C.hb i (.ping j p)).events = (c.hb i).events ∧
      ((c.hb i).step C.env C.hb i (.ping j p)).ticked = (c.hb i).ticked) := by
    intro j p
    simp only [Hb.step]
    split <;> exact ⟨rfl, rfl, rfl⟩
  cases op with
  | pass d => exact ⟨rfl, rfl, rfl⟩
  | stop j => simp only [Clu.step]; split <;> exact ⟨rfl, rfl, rfl⟩
  | answer k j lat s r =>
    simp only [Clu.step]
    split
    · exact hact k _ fun _ => hping _ _
    · exact ⟨rfl, rfl, rfl⟩
  | missed k j p =>
    cases p with
    | ok _ _ => exact ⟨rfl, rfl, rfl⟩
    | timeout => exact hact k _ fun _ => hping _ _
    | disconnected => exact hact k _ fun _ => hping _ _
    | err => exact hact k _ fun _ => hping _ _
  | tick k => exact hact k _ fun e => absurd (e ▸ rfl) h1
  | learn k j => exact hact k _ fun _ => ⟨rfl, rfl, rfl⟩
  | notice k j => exact hact k _ fun e => absurd (e ▸ rfl) (h2 j)

/-- **C106 (it stays).** While each tick of a node finds the leader the oldest running node and its pings
answered, the node keeps its leader and announces nothing — whatever other nodes join, leave or do, and
however often pings were missed between two ticks. -/
theorem C106_stays (henv : ∀ h d, C.env.addOk h d = true) (ops more : List Op) (i l : Nat)
    (hlead : (run C ops).leader i = some l) (hnot : ∀ j, .notice i j ∉ more)
    (hcalm : ∀ pre post, more = pre ++ .tick i :: post → Up (run C (ops ++ pre)) i →
      ∃ S, i ∈ S ∧ Calm C (run C (ops ++ pre)) S i ∧ Oldest C (run C (ops ++ pre)) S l) :
    (run C (ops ++ more)).leader i = some l ∧
    ((run C (ops ++ more)).hb i).events = ((run C ops).hb i).events := by
  induction more using snoc_induction with
  | nil => simpa using hlead
  | snoc more op ih =>
    obtain ⟨h1, h2⟩ := ih (fun j hj => hnot j (List.mem_append_left _ hj)) (by
      intro pre post e
      exact hcalm pre (post ++ [op]) (by rw [e]; simp))
    rw [← List.append_assoc, snoc_run]
    by_cases ht : op = .tick i
    · subst ht
      have hc := hcalm more [] rfl
      have hg := Good.run henv (ops ++ more)
      generalize run C (ops ++ more) = c at *
      by_cases hup : Up c i
      · obtain ⟨S, hi, hcm, ho⟩ := hc hup
        obtain ⟨us, he, hol⟩ := calm_oldest henv hg hi hup hcm
        unfold Clu.leader
        rw [tick_step hup]
        have : (c.put i ((c.hb i).step C.env C.hb i (.tick fun _ => c.time C i))).hb i =
            (c.hb i).elect C.env C.hb us := by rw [← he]; simp [Clu.put]
        rw [this]
        have hnone : (c.hb i).pickNew C.env us = none := by
          unfold Hb.pickNew
          cases (c.hb i).ticked with
          | false => rfl
          | true =>
            simp only [if_true, (hol l).2 ho, newLeader]
            rw [if_neg]
            intro hne
            exact hne h1.symm
        unfold Hb.elect
        simp only [hnone]
        exact ⟨h1, h2⟩
      · have : c.step C (.tick i) = c := by
          simp only [Clu.step, Clu.act]
          rw [if_pos]
          cases he : c.ended i with
          | none => exact absurd he hup
          | some t => rfl
        rw [this]
        exact ⟨h1, h2⟩
    · have hn : ∀ j, op ≠ .notice i j := by
        intro j e
        exact hnot j (by simp [e])
      obtain ⟨k1, k2, _⟩ := step_keeps C (run C (ops ++ more)) op i ht hn
      unfold Clu.leader at h1 ⊢
      rw [k1, k2]
      exact ⟨h1, h2⟩

/-- **C106 refuted (one ping).** Whoever the leader is and however often it has just answered: if one result of a
ping to it is not an answer — say an old ping is given up at last after `ping_timeout`, while thirty later ones
have been answered — and the next tick comes before the next result, that tick takes another leader, and the
leader itself knows nothing of it. -/
theorem C106_missed_ping_refuted (henv : ∀ h d, C.env.addOk h d = true) (ops : List Op) (i l : Nat) (p : Ping)
    (hp : ∀ lat r, p ≠ .ok lat r) (hil : i ≠ l) (hup : Up (run C ops) i)
    (hticked : ((run C ops).hb i).ticked = true) (hself : ∃ n, (i, n) ∈ ((run C ops).hb i).nodes)
    (hids : ∀ k n, (k, n) ∈ ((run C ops).hb i).nodes → k < 2 ^ 63) :
    (∃ l', (run C (ops ++ [.missed i l p, .tick i])).leader i = some l' ∧ l' ≠ l) ∧
    (run C (ops ++ [.missed i l p, .tick i])).hb l = (run C ops).hb l := by
  have hrun : run C (ops ++ [.missed i l p, .tick i]) =
      ((run C ops).step C (.missed i l p)).step C (.tick i) := by simp [run, runFrom]
  rw [hrun]
  have hg := (Good.run henv ops).step henv (.missed i l p)
  have hr := (Good.run henv ops i).running
  generalize run C ops = c at *
  have hm : c.step C (.missed i l p) = c.put i ((c.hb i).step C.env C.hb i (.ping l p)) := by
    cases p with
    | ok lat r => exact absurd rfl (hp lat r)
    | timeout => simp only [Clu.step, Clu.act]; rw [if_neg (by rw [hup]; simp)]
    | disconnected => simp only [Clu.step, Clu.act]; rw [if_neg (by rw [hup]; simp)]
    | err => simp only [Clu.step, Clu.act]; rw [if_neg (by rw [hup]; simp)]
  have hhb : (c.step C (.missed i l p)).hb i = { c.hb i with pings := (c.hb i).pings.insert l p } := by
    rw [hm]
    simp [Clu.put, Hb.step, hr]
  have hup' : Up (c.step C (.missed i l p)) i := by rw [hm]; exact hup
  have hothers : (c.step C (.missed i l p)).hb l = c.hb l := by
    rw [hm]; exact if_neg fun e => hil e.symm
  have hnot : ¬ Answered C (c.step C (.missed i l p)) i l := by
    rintro ⟨lat, r, h, _⟩
    rw [hhb] at h
    dsimp only at h
    rw [Assoc.get_insert, if_pos rfl] at h
    exact hp lat r (Option.some.inj h)
  refine ⟨?_, by rw [tick_other _ fun e => hil e.symm, hothers]⟩
  obtain ⟨us, he, hst, hk, hk', hh⟩ := tick_view henv hg (i := i)
  have hself' : ∃ n, (i, n) ∈ ((c.step C (.missed i l p)).hb i).nodes := by rw [hhb]; exact hself
  have hids' : ∀ k n, (k, n) ∈ ((c.step C (.missed i l p)).hb i).nodes → k < 2 ^ 63 := by rw [hhb]; exact hids
  have hticked' : ((c.step C (.missed i l p)).hb i).ticked = true := by rw [hhb]; exact hticked
  generalize c.step C (.missed i l p) = d at *
  unfold Clu.leader
  rw [tick_step hup']
  have : (d.put i ((d.hb i).step C.env C.hb i (.tick fun _ => d.time C i))).hb i =
      (d.hb i).elect C.env C.hb us := by rw [← he]; simp [Clu.put]
  rw [this]
  obtain ⟨n, hn⟩ := hself'
  obtain ⟨u, hu, hui⟩ := hk' i n hn
  rcases Option.eq_none_or_eq_some (oldestHealthy C.env us) with ho | ⟨l', ho⟩
  · exact absurd ((hh u hu).2 (.inl hui)) (oldest_none ho u hu)
  · obtain ⟨a, ha, rfl, hs, _⟩ := oldest_some ho
    obtain ⟨m, hm⟩ := hk a ha
    refine ⟨a.id, elect_leader (d.hb i) us hticked' a.id ho (hids' _ _ hm), ?_⟩
    rintro rfl
    rcases (hh a ha).1 hs with e | e
    · exact hil e.symm
    · exact hnot e

open Classical in
/-- **C106 (ends).** When the process of a node ends, its end has the time at which it happened; a later end of the
same process changes nothing; nothing else ends a process. -/
theorem C106_ends (ops : List Op) (op : Op) (j : Nat) :
    (run C (ops ++ [op])).ended j =
      if op = .stop j ∧ (run C ops).ended j = none then some (run C ops).clock else (run C ops).ended j := by
  rw [snoc_run]
  have hact : ∀ i hop, ((run C ops).act C i hop).ended = (run C ops).ended := by
    intro i hop; unfold Clu.act; split <;> rfl
  cases op with
  | stop k =>
    simp only [Clu.step]
    by_cases e : k = j
    · subst e
      cases h : (run C ops).ended k with
      | none => simp
      | some t => simp [h]
    · have : ¬ j = k := fun e' => e e'.symm
      split <;> simp [e, this]
  | answer i k lat s r => simp only [Clu.step]; split <;> simp [hact]
  | missed i k p => cases p <;> simp [Clu.step, hact]
  | _ => simp [Clu.step, hact]

open Classical in
/-- **C106 (answers).** An answer counts exactly if the node that gives it ran when it was sent, it came in after it
was sent and not in the future, and it was under way no longer than the time since the ping. -/
theorem C106_answers (henv : ∀ h d, C.env.addOk h d = true) (ops : List Op) (i j lat : Nat) (s r : Int)
    (hup : Up (run C ops) i) :
    ((run C (ops ++ [.answer i j lat s r])).hb i).pings.get j =
      if (∀ t, (run C ops).ended j = some t → s ≤ t) ∧ s ≤ r ∧ r ≤ (run C ops).clock ∧ r - s ≤ lat
      then some (.ok lat (r + C.skew i)) else ((run C ops).hb i).pings.get j := by
  have hr := (Good.run henv ops i).running
  rw [snoc_run]
  generalize run C ops = c at *
  have hp : c.possible j lat s r = true ↔ (∀ t, c.ended j = some t → s ≤ t) ∧ s ≤ r ∧ r ≤ c.clock ∧ r - s ≤ lat := by
    unfold Clu.possible
    cases h : c.ended j <;> simp [and_assoc]
  simp only [Clu.step]
  by_cases h : c.possible j lat s r = true
  · rw [if_pos h, if_pos (hp.1 h)]
    unfold Clu.act
    rw [if_neg (by rw [hup]; simp)]
    simp [Clu.put, Hb.step, hr, Assoc.get_insert]
  · rw [if_neg h, if_neg fun e => h (hp.2 e)]

/-! ### Examples -/

/-- a configuration with the default timeouts (in nanoseconds), clocks a second apart and node 2 older than
node 1. -/
def demoConf : Conf where
  env := ⟨0, fun _ _ => true⟩
  hb := ⟨1500000000, 30000000000, none⟩
  skew := fun i => 1000000000 * i
  born := fun i => 10 - i
  single := fun _ => false

/-- two nodes which know themselves and each other and answer each other. -/
def demoStart : List Op :=
  [.learn 1 1, .learn 1 2, .learn 2 2, .learn 2 1, .tick 1, .tick 2, .pass 1000,
   .answer 1 2 10 995 1000, .answer 2 1 10 995 1000]

example : Calm demoConf (run demoConf demoStart) [1, 2] 1 ∧ Calm demoConf (run demoConf demoStart) [1, 2] 2 := by
  refine ⟨⟨?_, ?_, ?_⟩, ⟨?_, ?_, ?_⟩⟩
  · intro j
    have : ((run demoConf demoStart).hb 1).nodes.map (·.1) = [1, 2] := by decide +kernel
    rw [show (∃ n, (j, n) ∈ ((run demoConf demoStart).hb 1).nodes) ↔
      j ∈ ((run demoConf demoStart).hb 1).nodes.map (·.1) by simp, this]
  · intro j hj hne _
    have : j = 2 := by simp at hj; omega
    subst this
    exact ⟨10, 1000001000, by decide +kernel, by decide, by decide, by decide⟩
  · intro j hj t ht
    cases ht
  · intro j
    have : ((run demoConf demoStart).hb 2).nodes.map (·.1) = [1, 2] := by decide +kernel
    rw [show (∃ n, (j, n) ∈ ((run demoConf demoStart).hb 2).nodes) ↔
      j ∈ ((run demoConf demoStart).hb 2).nodes.map (·.1) by simp, this]
  · intro j hj hne _
    have : j = 1 := by simp at hj; omega
    subst this
    exact ⟨10, 2000001000, by decide +kernel, by decide, by decide, by decide⟩
  · intro j hj t ht
    cases ht

example : (run demoConf (demoStart ++ [.tick 1, .tick 2])).leader 1 = some 2 ∧
    (run demoConf (demoStart ++ [.tick 1, .tick 2])).leader 2 = some 2 := by decide +kernel

/-- node 2 ends; three seconds later node 1 leads although the last ping was answered. -/
example : (run demoConf (demoStart ++ [.tick 1, .tick 2, .stop 2, .pass 3000000000, .tick 1])).leader 1 = some 1 := by
  decide +kernel

/-- it stays for a tick after more answers, and a missed ping made good before the tick. -/
example : (run demoConf (demoStart ++ [.tick 1, .tick 2] ++
    [.pass 500000000, .missed 1 2 .timeout, .answer 1 2 7 500000990 500000997, .tick 1])).leader 1 = some 2 ∧
  ((run demoConf (demoStart ++ [.tick 1, .tick 2] ++
    [.pass 500000000, .missed 1 2 .timeout, .answer 1 2 7 500000990 500000997, .tick 1])).hb 1).events =
  ((run demoConf (demoStart ++ [.tick 1, .tick 2])).hb 1).events := by decide +kernel

/-- **C106 refuted (two leaders).** Two nodes know each other, answer each other and have agreed on the older one.
One ping of the younger is given up after answers to later ones, and at the next tick there are two nodes each taking
itself for the leader, both running, and both have announced it (as well as `MemberUp` with themselves or each
other as leader). -/
theorem C106_two_leaders_refuted : ¬ C106_full := by
  intro h
  have key := h demoConf (demoStart ++ [Op.tick 1, Op.tick 2])
    [.pass 500000000, .answer 1 2 7 500000990 500000997, .missed 1 2 .timeout, .tick 1] [1, 2] 2 1
    (fun _ _ => rfl)
    (by
      refine ⟨by simp, rfl, ?_⟩
      intro j hj _
      simp only [List.mem_cons, List.not_mem_nil, or_false] at hj
      rcases hj with rfl | rfl
      · left; decide
      · right; exact ⟨rfl, Nat.le_refl _⟩)
    (by
      intro j hj
      have hk : ∀ i, i = 1 ∨ i = 2 → Knows (run demoConf (demoStart ++ [.tick 1, .tick 2])) i [1, 2] := by
        intro i hi k
        have : (((run demoConf (demoStart ++ [.tick 1, .tick 2])).hb i).nodes.map (·.1)).Perm [1, 2] := by
          rcases hi with rfl | rfl <;> decide +kernel
        rw [← this.mem_iff]
        simp
      have hj' : j = 1 ∨ j = 2 := by simpa using hj
      refine ⟨rfl, by omega, hk j hj', ?_⟩
      rcases hj' with rfl | rfl <;> decide +kernel)
    (by unfold Up; decide +kernel) (by simp) (by simp) (by decide +kernel)
  cases key

example : ((run demoConf (demoStart ++ [.tick 1, .tick 2] ++
    [.pass 500000000, .answer 1 2 7 500000990 500000997, .missed 1 2 .timeout, .tick 1])).hb 1).events.getLast? =
      some (.leaderChanged 1) ∧
  (run demoConf (demoStart ++ [.tick 1, .tick 2] ++
    [.pass 500000000, .answer 1 2 7 500000990 500000997, .missed 1 2 .timeout, .tick 1])).leader 2 = some 2 := by
  decide +kernel

/-- **C106 refuted (cut off).** A node that gets no answer from any other leads, whatever the others do: the parts
of a cluster that cannot reach each other each have their leader; there is no quorum. -/
theorem C106_split_refuted (henv : ∀ h d, C.env.addOk h d = true) (ops : List Op) (i : Nat) (hi : i < 2 ^ 63)
    (hup : Up (run C ops) i) (hticked : ((run C ops).hb i).ticked = true)
    (hself : ∃ n, (i, n) ∈ ((run C ops).hb i).nodes) (hcut : ∀ j, j ≠ i → ¬ Answered C (run C ops) i j) :
    (run C (ops ++ [.tick i])).leader i = some i := by
  have hg := Good.run henv ops
  rw [snoc_run]
  generalize run C ops = c at *
  obtain ⟨us, he, hst, hk, hk', hh⟩ := tick_view henv hg (i := i)
  unfold Clu.leader
  rw [tick_step hup]
  have : (c.put i ((c.hb i).step C.env C.hb i (.tick fun _ => c.time C i))).hb i =
      (c.hb i).elect C.env C.hb us := by rw [← he]; simp [Clu.put]
  rw [this]
  obtain ⟨n, hn⟩ := hself
  obtain ⟨u, hu, hui⟩ := hk' i n hn
  rcases Option.eq_none_or_eq_some (oldestHealthy C.env us) with ho | ⟨l, ho⟩
  · exact absurd ((hh u hu).2 (.inl hui)) (oldest_none ho u hu)
  · obtain ⟨a, ha, rfl, hs, _⟩ := oldest_some ho
    have hai : a.id = i := by
      rcases (hh a ha).1 hs with e | e
      · exact e
      · exact Classical.byContradiction fun hne => hcut a.id hne e
    rw [hai] at ho
    exact elect_leader (c.hb i) us hticked i ho hi

/-- both of two nodes that lose each other lead, and both announce `MemberUp` (the default minimum size is
none). -/
example : (fun c : Clu => (c.leader 1, c.leader 2, (c.hb 1).events, (c.hb 2).events))
    (run demoConf [.learn 1 1, .learn 1 2, .learn 2 2, .learn 2 1, .tick 1, .tick 2, .missed 1 2 .disconnected,
      .missed 2 1 .disconnected, .pass 500000000, .tick 1, .tick 2]) =
    (some 1, some 2, [.memberUp 1 [2, 1], .leaderChanged 1], [.memberUp 2 [2, 1], .leaderChanged 2]) := by
  decide +kernel

end Verif.Remote.OneLeader
