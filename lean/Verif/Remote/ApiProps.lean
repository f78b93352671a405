import Verif.Remote.ApiLemmas
import Verif.Actor.DescribeProps
import Verif.Remote.HealthProps

/-! # C115: what the HTTP interface of a node shows is true -/

namespace Verif.Remote.Api

/-! ## Specification -/

/-- the word for a status in the cluster. -/
def word : NodeStatus → String
  | .joining => "Joining"
  | .healthy => "Healthy"
  | .unhealthy => "Unhealthy"
  | .terminated => "Terminated"

/-- the word shown. -/
def shownWord : Shown → String
  | .joining => "Joining"
  | .healthy => "Healthy"
  | .unhealthy => "Unhealthy"
  | .terminated => "Terminated"

/-- `c` says of a node what the directory knows of it. -/
structure Pictures (fmt : Int → String) (n : NodeFacts) (c : ClusterNode) : Prop where
  id : c.id = n.id
  addr : c.addr = n.addr
  tag : c.tag = n.tag
  ping : c.ping = n.ping
  heartbeat : c.heartbeat = n.heartbeat.map fmt
  started : c.started = n.started
  status : shownWord c.status = word n.status
  attributes : ∀ k, c.attributes.get k = n.attributes.get k

/-- `cs` is the directory `d`: every node of it, and nothing else. -/
def Lists (fmt : Int → String) (d : Assoc Nat NodeFacts) (cs : List ClusterNode) : Prop :=
  (∀ c ∈ cs, ∃ n, d.get c.id = some n ∧ Pictures fmt n c) ∧
  (∀ i n, d.get i = some n → ∃ c ∈ cs, c.id = i ∧ Pictures fmt n c) ∧
  (cs.map (·.id)).Nodup

variable {fmt : Int → String} {me : Nat} {tag : String} {single : Bool}

theorem pictures (n : NodeFacts) (hn : Assoc.Uniq n.attributes) : Pictures fmt n (showNode fmt n) where
  id := rfl
  addr := rfl
  tag := rfl
  ping := rfl
  heartbeat := rfl
  started := rfl
  status := by unfold showNode; cases n.status <;> rfl
  attributes := fun k => recollect_get n.attributes hn k

theorem lists {d : Assoc Nat NodeFacts} (h : Dir d) : Lists fmt d (d.vals.map (showNode fmt)) := by
  have hv : ∀ n ∈ d.vals, d.get n.id = some n := by
    intro n hn
    obtain ⟨p, hp, rfl⟩ := List.mem_map.1 hn
    have hg := Assoc.get_of_mem h.uniq (k := p.1) (v := p.2) hp
    rw [h.keyed _ _ hg]
    exact hg
  refine ⟨?_, ?_, ?_⟩
  · intro c hc
    obtain ⟨n, hn, rfl⟩ := List.mem_map.1 hc
    exact ⟨n, hv n hn, pictures n (h.attrs _ _ (hv n hn))⟩
  · intro i n hn
    refine ⟨showNode fmt n, List.mem_map.2 ⟨n, List.mem_map.2 ⟨(i, n), Assoc.mem_of_get hn, rfl⟩, rfl⟩,
      h.keyed _ _ hn, pictures n (h.attrs _ _ hn)⟩
  · have hk : (d.vals.map (showNode fmt)).map (·.id) = d.map (·.1) := by
      rw [List.map_map]
      unfold Assoc.vals
      rw [List.map_map]
      apply List.map_congr_left
      intro p hp
      exact h.keyed _ _ (Assoc.get_of_mem h.uniq hp)
    rw [hk]
    exact Assoc.uniq_iff.1 h.uniq

theorem Lists.perm {d : Assoc Nat NodeFacts} {cs cs' : List ClusterNode} (h : Lists fmt d cs) (hp : cs'.Perm cs) :
    Lists fmt d cs' :=
  ⟨fun c hc => h.1 c (hp.mem_iff.1 hc),
   fun i n hn => let ⟨c, hc, r⟩ := h.2.1 i n hn; ⟨c, hp.mem_iff.2 hc, r⟩,
   ((hp.map _).nodup_iff).2 h.2.2⟩

/-! ## The nodes of the cluster -/

theorem answer_eq {ops : List Op} {r r' : Nat} {a : ClusterNodes}
    (h : ((run fmt me tag single ops).step fmt (.answer r)).2 = .nodes r' a) :
    r' = r ∧ ∃ l, (run fmt me tag single ops).asking.get r = some l ∧
      a = clusterNodes fmt me tag l (run fmt me tag single ops).dir.vals := by
  simp only [Sys.step] at h
  split at h
  · cases h
  · rename_i l hl
    split at h
    · simp only [Out.nodes.injEq] at h
      obtain ⟨rfl, rfl⟩ := h
      rw [(run_me ops).1, (run_me ops).2]
      exact ⟨rfl, l, hl, rfl⟩
    · cases h

/-- A reply to `/cluster/nodes` lists exactly the nodes that the directory knows when it answers, each once, in the
order of their ids, with everything it knows of them; the leader is the one the node knew when the request was made.
-/
theorem C115_nodes (fmt : Int → String) (me : Nat) (tag : String) (single : Bool) (ops : List Op) (hm : Maps ops)
    (r r' : Nat) (a : ClusterNodes) (h : ((run fmt me tag single ops).step fmt (.answer r)).2 = .nodes r' a) :
    r' = r ∧ a.node = me ∧ Lists fmt (run fmt me tag single ops).dir a.nodes ∧
    a.nodes.Pairwise (fun x y => x.id < y.id) ∧
    ∃ pre suf, ops = pre ++ .ask :: suf ∧ asks pre = r ∧ .answer r ∉ suf ∧
      a.leader = (run fmt me tag single pre).leader := by
  obtain ⟨rfl, l, hl, rfl⟩ := answer_eq h
  have hd := run_dir (fmt := fmt) (me := me) (tag := tag) (single := single) ops hm
  have hL := (lists (fmt := fmt) hd).perm (isort_perm (fun a b => decide (a.id ≤ b.id)) _)
  refine ⟨rfl, rfl, hL, ?_, ?_⟩
  · have hs := isort_sorted (le := fun (a b : ClusterNode) => decide (a.id ≤ b.id))
      (by intro a b c; simp; omega) (by intro a b; simp; omega)
      ((run fmt me tag single ops).dir.vals.map (showNode fmt))
    have hn := hL.2.2
    rw [List.Nodup, List.pairwise_map] at hn
    refine (hs.and hn).imp ?_
    intro x y ⟨h1, h2⟩
    have := of_decide_eq_true h1
    omega
  · obtain ⟨pre, ⟨suf, e, hr, hn⟩, rfl⟩ := (run_asking ops r' l).1 hl
    exact ⟨pre, suf, e, hr, hn, rfl⟩

/-- The tag shown for the leader is its own if the node leads itself, else the one listed for the leader; it is missing
exactly if there is no leader or the leader is another node that is not listed. -/
theorem C115_leader_tag (fmt : Int → String) (me : Nat) (tag : String) (single : Bool) (ops : List Op) (hm : Maps ops)
    (r r' : Nat) (a : ClusterNodes) (h : ((run fmt me tag single ops).step fmt (.answer r)).2 = .nodes r' a) :
    (∀ t, a.leaderTag = some t ↔ (a.leader = some me ∧ t = tag) ∨
      ∃ l, l ≠ me ∧ a.leader = some l ∧ ∃ c ∈ a.nodes, c.id = l ∧ c.tag = t) ∧
    (a.leaderTag = none ↔ ∀ l, a.leader = some l → l ≠ me ∧ ∀ c ∈ a.nodes, c.id ≠ l) := by
  have hN := (C115_nodes fmt me tag single ops hm r r' a h).2.2.1.2.2
  obtain ⟨rfl, l, hl, rfl⟩ := answer_eq h
  unfold clusterNodes at hN ⊢
  dsimp only at hN ⊢
  generalize hcs : isort (fun a b => decide (a.id ≤ b.id))
    ((run fmt me tag single ops).dir.vals.map (showNode fmt)) = cs at hN ⊢
  have key : ∀ i t, (cs.find? fun n => decide (some n.id = some i)).map (·.tag) = some t ↔
      ∃ c ∈ cs, c.id = i ∧ c.tag = t := by
    intro i t
    constructor
    · intro h
      obtain ⟨c, hc, rfl⟩ := Option.map_eq_some_iff.1 h
      have := List.find?_some hc
      exact ⟨c, List.mem_of_find?_eq_some hc, by simpa using this, rfl⟩
    · rintro ⟨c, hc, rfl, rfl⟩
      cases hf : cs.find? fun n => decide (some n.id = some c.id) with
      | none => have := List.find?_eq_none.1 hf c hc; simp at this
      | some x =>
        have hx : x.id = c.id := by simpa using List.find?_some hf
        have : x = c := by
          have hxm := List.mem_of_find?_eq_some hf
          clear hcs hf
          induction cs with
          | nil => cases hc
          | cons y ys ih =>
            rw [List.map_cons, List.nodup_cons] at hN
            rcases List.mem_cons.1 hc with rfl | hc'
            · rcases List.mem_cons.1 hxm with rfl | hxm'
              · rfl
              · exact absurd (List.mem_map.2 ⟨x, hxm', hx⟩) hN.1
            · rcases List.mem_cons.1 hxm with rfl | hxm'
              · exact absurd (List.mem_map.2 ⟨c, hc', hx.symm⟩ : x.id ∈ ys.map (·.id)) hN.1
              · exact ih hN.2 hc' hxm'
        simp [this]
  cases l with
  | none =>
    have hnone : (cs.find? fun n => decide (some n.id = none)) = none := by
      rw [List.find?_eq_none]; intro x _; simp
    rw [hnone, if_neg (by simp)]
    refine ⟨fun t => ⟨(fun h => nomatch h), ?_⟩, ⟨(fun _ l e => nomatch e), fun _ => rfl⟩⟩
    rintro (⟨e, _⟩ | ⟨l, _, e, _⟩) <;> cases e
  | some i =>
    by_cases hi : i = me
    · subst hi
      refine ⟨fun t => ?_, ?_⟩
      · rw [if_pos rfl]
        constructor
        · intro h; cases h; exact Or.inl ⟨rfl, rfl⟩
        · rintro (⟨_, rfl⟩ | ⟨l, hl, e, _⟩)
          · rfl
          · cases e; exact absurd rfl hl
      · rw [if_pos rfl]
        refine ⟨(fun h => nomatch h), fun h => absurd rfl (h i rfl).1⟩
    · have hne : ¬ some i = some me := by simpa using hi
      refine ⟨fun t => ?_, ?_⟩
      · rw [if_neg hne, key]
        constructor
        · intro h; exact Or.inr ⟨i, hi, rfl, h⟩
        · rintro (⟨e, _⟩ | ⟨l, _, e, h⟩)
          · exact absurd e hne
          · cases e; exact h
      · rw [if_neg hne]
        constructor
        · intro h l e
          cases e
          refine ⟨hi, fun c hc e => ?_⟩
          have := (key i c.tag).2 ⟨c, hc, e, rfl⟩
          rw [h] at this
          cases this
        · intro h
          cases hf : (cs.find? fun n => decide (some n.id = some i)).map (·.tag) with
          | none => rfl
          | some t =>
            obtain ⟨c, hc, e, _⟩ := (key i t).1 hf
            exact absurd e ((h i rfl).2 c hc)

theorem leader_frame (σ : Sys) (o : Op) (h : ∀ n, o ≠ .elect n) : (σ.step fmt o).1.leader = σ.leader := by
  cases o <;> simp only [Sys.step] <;> repeat' split
  all_goals first | rfl | exact absurd rfl (h _)

theorem same_request {p pre s suf : List Op} (e : pre ++ Op.ask :: suf = p ++ Op.ask :: s) (hp : asks p = asks pre) :
    p = pre := by
  induction pre generalizing p with
  | nil =>
    cases p with
    | nil => rfl
    | cons x p => cases e; simp [asks] at hp
  | cons x pre ih =>
    cases p with
    | nil => cases e; simp [asks] at hp
    | cons y p =>
      simp only [List.cons_append, List.cons.injEq] at e
      obtain ⟨rfl, e⟩ := e
      rw [ih e (by unfold asks at hp ⊢; simp only [List.count_cons] at hp; omega)]

/-- If the leader did not change while the request was under way, the reply is wholly true at one moment: when the
directory answered. -/
theorem C115_steady (fmt : Int → String) (me : Nat) (tag : String) (single : Bool) (pre suf : List Op)
    (hm : Maps (pre ++ .ask :: suf)) (hs : ∀ n, .elect n ∉ suf) (r' : Nat) (a : ClusterNodes)
    (h : ((run fmt me tag single (pre ++ .ask :: suf)).step fmt (.answer (asks pre))).2 = .nodes r' a) :
    a.leader = (run fmt me tag single (pre ++ .ask :: suf)).leader ∧
    Lists fmt (run fmt me tag single (pre ++ .ask :: suf)).dir a.nodes := by
  obtain ⟨_, _, hL, _, p, s, e, hp, _, hl⟩ := C115_nodes fmt me tag single _ hm _ r' a h
  refine ⟨?_, hL⟩
  have hpre : p = pre := same_request e hp
  subst hpre
  rw [hl]
  have e2 : s = suf := by simpa using e.symm
  subst e2
  clear e h hm hL hl
  have aux : ∀ s : List Op, (∀ n, Op.elect n ∉ s) →
      (run fmt me tag single (p ++ Op.ask :: s)).leader = (run fmt me tag single p).leader := by
    intro s hs
    induction s using snoc_induction with
    | nil => rw [run_snoc]; exact leader_frame _ _ (by simp)
    | snoc s o ih =>
      rw [show p ++ Op.ask :: (s ++ [o]) = (p ++ Op.ask :: s) ++ [o] by simp, run_snoc,
        leader_frame _ _ (fun n e => hs n (by simp [e])), ih (fun n hn => hs n (by simp [hn]))]
  exact (aux s hs).symm

/-- A request is answered at most once, and answered when the directory comes to it, unless the directory has ended:
then the request fails (with a panic). -/
theorem C115_answered (fmt : Int → String) (me : Nat) (tag : String) (single : Bool) (ops : List Op) (r : Nat) :
    ((∃ pre suf, ops = pre ++ .ask :: suf ∧ asks pre = r ∧ .answer r ∉ suf) →
      if .down ∈ ops then ((run fmt me tag single ops).step fmt (.answer r)).2 = .panicked r
      else ∃ a, ((run fmt me tag single ops).step fmt (.answer r)).2 = .nodes r a) ∧
    ((¬ ∃ pre suf, ops = pre ++ .ask :: suf ∧ asks pre = r ∧ .answer r ∉ suf) →
      (run fmt me tag single ops).step fmt (.answer r) = (run fmt me tag single ops, .nothing)) := by
  constructor
  · rintro ⟨pre, suf, e, hr, hn⟩
    have hg := (run_asking (fmt := fmt) (me := me) (tag := tag) (single := single) ops r _).2
      ⟨pre, ⟨suf, e, hr, hn⟩, rfl⟩
    have hu := run_up (fmt := fmt) (me := me) (tag := tag) (single := single) ops
    split
    · rename_i hd
      have : (run fmt me tag single ops).up ≠ true := fun h => hu.1 h hd
      simp only [Sys.step, hg, if_neg this]
    · rename_i hd
      simp only [Sys.step, hg, if_pos (hu.2 hd)]
      exact ⟨_, rfl⟩
  · intro h
    cases hg : (run fmt me tag single ops).asking.get r with
    | none => simp only [Sys.step, hg]
    | some l =>
      obtain ⟨pre, ⟨suf, e⟩, _⟩ := (run_asking ops r l).1 hg
      exact absurd ⟨pre, suf, e⟩ h

/-- The leader shown is the last one elected (or the node itself, in a cluster of one), if its number is below 2^63. -/
theorem C115_elected (fmt : Int → String) (me : Nat) (tag : String) (single : Bool) (pre suf : List Op) (n : Nat)
    (hn : n < 2 ^ 63) (hs : ∀ m, .elect m ∉ suf) :
    (run fmt me tag single (pre ++ .elect n :: suf)).leader = some n := by
  induction suf using snoc_induction with
  | nil =>
    rw [run_snoc]
    simp only [Sys.step, Sys.leader, asI64, if_pos hn]
    simp
  | snoc s o ih =>
    rw [show pre ++ Op.elect n :: (s ++ [o]) = (pre ++ Op.elect n :: s) ++ [o] by simp, run_snoc,
      leader_frame _ _ (fun m e => hs m (by simp [e])), ih (fun m hm => hs m (by simp [hm]))]

/-- As long as nobody is elected, no leader is shown, or the node itself in a cluster of one. -/
theorem C115_not_elected (fmt : Int → String) (me : Nat) (tag : String) (single : Bool) (ops : List Op)
    (hn : me < 2 ^ 63) (hs : ∀ m, .elect m ∉ ops) :
    (run fmt me tag single ops).leader = if single then some me else none := by
  induction ops using snoc_induction with
  | nil =>
    have h : asI64 me = (me : Int) := by unfold asI64; rw [if_pos hn]
    cases single <;> simp [run, Sys.leader, h]
  | snoc s o ih =>
    rw [run_snoc, leader_frame _ _ (fun m e => hs m (by simp [e])), ih (fun m hm => hs m (by simp [hm]))]

/-- Refuted: that the leader is shown whoever it is: a node whose id is 2^63 or more is shown as no leader. -/
theorem C115_big_leader_refuted (fmt : Int → String) (me : Nat) (tag : String) (single : Bool) (pre suf : List Op)
    (n : Nat) (hn : 2 ^ 63 ≤ n) (hb : n < 2 ^ 64) (hs : ∀ m, .elect m ∉ suf) :
    (run fmt me tag single (pre ++ .elect n :: suf)).leader = none := by
  induction suf using snoc_induction with
  | nil =>
    rw [run_snoc]
    have h : ¬ 0 ≤ asI64 n := by unfold asI64; rw [if_neg (by omega)]; omega
    show (if 0 ≤ asI64 n then some (asI64 n).toNat else none) = none
    rw [if_neg h]
  | snoc s o ih =>
    rw [show pre ++ Op.elect n :: (s ++ [o]) = (pre ++ Op.elect n :: s) ++ [o] by simp, run_snoc,
      leader_frame _ _ (fun m e => hs m (by simp [e])), ih (fun m hm => hs m (by simp [hm]))]

/-- what is known of node `i`, from what has happened, the latest first. -/
def known (i : Nat) : List Op → Option NodeFacts
  | [] => none
  | .join n :: past =>
    if n.id = i then
      some { id := i, addr := n.addr, tag := n.tag, started := n.started, attributes := n.attributes }
    else known i past
  | .update n :: past => if n.id = i then some n else known i past
  | .terminated j :: past => if j = i then (known i past).map ({ · with status := .terminated }) else known i past
  | _ :: past => known i past

/-- The directory holds of a node what was said of it last: joining, without measurements, if it was registered since;
terminated if that was said since. -/
theorem C115_known (fmt : Int → String) (me : Nat) (tag : String) (single : Bool) (ops : List Op) (hd : .down ∉ ops)
    (i : Nat) : (run fmt me tag single ops).dir.get i = known i ops.reverse := by
  induction ops using snoc_induction with
  | nil => rfl
  | snoc ops o ih =>
    have hd' : Op.down ∉ ops := fun h => hd (by simp [h])
    have ih := ih hd'
    have hu := (run_up (fmt := fmt) (me := me) (tag := tag) (single := single) ops).2 hd'
    rw [run_snoc, List.reverse_append, List.reverse_singleton, List.singleton_append]
    cases o with
    | join n =>
      simp only [Sys.step, hu, if_true, known]
      rw [Assoc.get_insert]
      by_cases e : n.id = i
      · subst e; simp
      · have e2 : ¬ i = n.id := fun h => e h.symm
        simp [e, e2, ih]
    | update n =>
      simp only [Sys.step, hu, if_true, known]
      rw [Assoc.get_insert]
      by_cases e : n.id = i
      · subst e; simp
      · have e2 : ¬ i = n.id := fun h => e h.symm
        simp [e, e2, ih]
    | terminated j =>
      simp only [Sys.step, hu, if_true, known]
      rw [Assoc.get_update]
      by_cases e : j = i
      · subst e; simp [ih]
      · have e2 : ¬ i = j := fun h => e h.symm
        simp [e, e2, ih]
    | down => exact absurd (by simp) hd
    | _ =>
      simp only [Sys.step, known]
      repeat' split
      all_goals exact ih

/-- Refuted: that a reply is true at some moment. The leader is read before the directory is asked: here node 2 was
leader only while it alone was known, and node 3 known only when it had become leader, but the reply shows both nodes
and node 2 as the leader. -/
theorem C115_torn_refuted : ∃ (ops : List Op) (a : ClusterNodes), Maps ops ∧
    ((run toString 1 "a" false ops).step toString (.answer 0)).2 = .nodes 0 a ∧
    ∀ k, (run toString 1 "a" false (ops.take k)).leader = a.leader →
      ∃ c ∈ a.nodes, (run toString 1 "a" false (ops.take k)).dir.get c.id = none := by
  refine ⟨[Op.join { id := 2, addr := "", tag := "b" }, Op.elect 2, Op.ask, Op.elect 3,
    Op.join { id := 3, addr := "", tag := "c" }], ⟨1, some 2, some "b", [⟨2, "", "b", none, none, none, .joining, []⟩,
      ⟨3, "", "c", none, none, none, .joining, []⟩]⟩, ?_, by decide +kernel, ?_⟩
  · intro n hn
    simp at hn
    rcases hn with rfl | rfl <;> exact .nil
  · intro k
    match k with
    | 0 => decide +kernel
    | 1 => decide +kernel
    | 2 => decide +kernel
    | 3 => decide +kernel
    | 4 => decide +kernel
    | k + 5 => rw [List.take_of_length_le (by simp)]; decide +kernel

/-! ## The health of the node -/

/-- the results of a request that began when `actors` were registered, in order. -/
def outcomes (actors : List HcActor) (res : List (Option Nat)) : List (HcActor × Option Nat) := actors.zip res

theorem reply_eq {ops : List Op} {r r' : Nat} {h : HealthView}
    (hh : ((run fmt me tag single ops).step fmt (.reply r)).2 = .health r' h) :
    r' = r ∧ ∃ checks nodes, (run fmt me tag single ops).healthAsking.get r = some (.leader checks nodes) ∧
      h = healthView fmt me tag checks nodes (run fmt me tag single ops).leader := by
  simp only [Sys.step] at hh
  split at hh
  · rename_i checks nodes hl
    simp only [Out.health.injEq] at hh
    obtain ⟨rfl, rfl⟩ := hh
    rw [(run_me ops).1, (run_me ops).2]
    exact ⟨rfl, checks, nodes, hl, rfl⟩
  · cases hh

theorem Maps.prefix {a b : List Op} (h : Maps (a ++ b)) : Maps a :=
  fun n hn => h n (hn.imp (by simp +contextual) (by simp +contextual))

/-- The status shown is unhealthy exactly if some check failed, else degraded exactly if some check took more than a
second. -/
theorem C115_status (fmt : Int → String) (me : Nat) (tag : String) (checks : List (HcActor × Option Nat))
    (nodes : List NodeFacts) (leader : Option Nat) :
    ((healthView fmt me tag checks nodes leader).status = .unhealthy ↔ ∃ a, (a, none) ∈ checks) ∧
    ((healthView fmt me tag checks nodes leader).status = .degraded ↔
      (∀ a, (a, none) ∉ checks) ∧ ∃ a t, (a, some t) ∈ checks ∧ 1000000000 < t) ∧
    ((healthView fmt me tag checks nodes leader).status = .healthy ↔
      ∀ a x, (a, x) ∈ checks → ∃ t, x = some t ∧ t ≤ 1000000000) := by
  have hnone : none ∈ checks.map (·.2) ↔ ∃ a, (a, none) ∈ checks := by
    simp only [List.mem_map]
    constructor
    · rintro ⟨⟨a, x⟩, h, rfl⟩; exact ⟨a, h⟩
    · rintro ⟨a, h⟩; exact ⟨_, h, rfl⟩
  have hsome : ∀ t, some t ∈ checks.map (·.2) ↔ ∃ a, (a, some t) ∈ checks := by
    intro t
    simp only [List.mem_map]
    constructor
    · rintro ⟨⟨a, x⟩, h, rfl⟩; exact ⟨a, h⟩
    · rintro ⟨a, h⟩; exact ⟨_, h, rfl⟩
  have he := checkLoop_errors (checks.map (·.2)) false
  by_cases hn : none ∈ checks.map (·.2)
  · have hst : (healthView fmt me tag checks nodes leader).status = .unhealthy := by
      simp only [healthView, he.2 hn, if_true]
    obtain ⟨a, ha⟩ := hnone.1 hn
    rw [hst]
    refine ⟨⟨fun _ => ⟨a, ha⟩, fun _ => rfl⟩, ⟨(fun h => nomatch h), fun h => absurd ha (h.1 a)⟩,
      ⟨(fun h => nomatch h), fun h => ?_⟩⟩
    obtain ⟨t, e, _⟩ := h a none ha
    cases e
  · have he' : (checkLoop (checks.map (·.2)) false).1 = false := by
      cases h : (checkLoop (checks.map (·.2)) false).1 with
      | true => exact absurd (he.1 h) hn
      | false => rfl
    have hno : ∀ a, (a, none) ∉ checks := fun a ha => hn (hnone.2 ⟨a, ha⟩)
    have hs := checkLoop_slow (checks.map (·.2)) false hn
    by_cases hslow : ∃ a t, (a, some t) ∈ checks ∧ 1000000000 < t
    · have h2 : (checkLoop (checks.map (·.2)) false).2 = true := by
        obtain ⟨a, t, h1, h2⟩ := hslow
        exact hs.2 (Or.inr ⟨t, (hsome t).2 ⟨a, h1⟩, h2⟩)
      have hst : (healthView fmt me tag checks nodes leader).status = .degraded := by
        simp [healthView, he', h2]
      rw [hst]
      refine ⟨⟨(fun h => nomatch h), fun ⟨a, h⟩ => absurd h (hno a)⟩, ⟨fun _ => ⟨hno, hslow⟩, fun _ => rfl⟩,
        ⟨(fun h => nomatch h), fun h => ?_⟩⟩
      obtain ⟨a, t, h1, h2⟩ := hslow
      obtain ⟨t', e, h3⟩ := h a _ h1
      cases e
      omega
    · have h2 : (checkLoop (checks.map (·.2)) false).2 = false := by
        cases h : (checkLoop (checks.map (·.2)) false).2 with
        | false => rfl
        | true =>
          rcases hs.1 h with h | ⟨t, h1, h2⟩
          · cases h
          · obtain ⟨a, ha⟩ := (hsome t).1 h1
            exact absurd ⟨a, t, ha, h2⟩ hslow
      have hst : (healthView fmt me tag checks nodes leader).status = .healthy := by
        simp [healthView, he', h2]
      rw [hst]
      refine ⟨⟨(fun h => nomatch h), fun ⟨a, h⟩ => absurd h (hno a)⟩, ⟨(fun h => nomatch h), fun h => absurd h.2 hslow⟩,
        ⟨fun _ a x hx => ?_, fun _ => rfl⟩⟩
      cases x with
      | none => exact absurd hx (hno a)
      | some t =>
        refine ⟨t, rfl, ?_⟩
        by_cases h : t ≤ 1000000000
        · exact h
        · exact absurd ⟨a, t, hx, by omega⟩ hslow

/-- A reply to `/health` is made of the checks registered when the request was handled and their results, of the nodes
the directory knew when asked for this request, and of the leader known when replying. -/
theorem C115_health (fmt : Int → String) (me : Nat) (tag : String) (single : Bool) (ops : List Op) (hm : Maps ops)
    (r r' : Nat) (h : HealthView) (hh : ((run fmt me tag single ops).step fmt (.reply r)).2 = .health r' h) :
    r' = r ∧ h.node = me ∧ h.tag = tag ∧ h.leader = (run fmt me tag single ops).leader ∧
    ∃ p q d s1 s2 s3 res, ops = d ++ .healthNodes r :: s3 ∧ d = q ++ .probed r res :: s2 ∧
      q = p ++ .askHealth :: s1 ∧ healthAsks p = r ∧
      Lists fmt (run fmt me tag single d).dir h.nodes ∧
      res.length = (run fmt me tag single p).checks.length ∧
      h = healthView fmt me tag ((run fmt me tag single p).checks.zip res) (run fmt me tag single d).dir.vals
        (run fmt me tag single ops).leader := by
  obtain ⟨rfl, checks, nodes, hg, rfl⟩ := reply_eq hh
  obtain ⟨p, res, d, ⟨s3, e3, q, s2, e2, s1, e1, hp⟩, hl, rfl, rfl⟩ := run_health ops _ _ hg
  refine ⟨rfl, rfl, rfl, rfl, p, q, d, s1, s2, s3, res, e3, e2, e1, hp, ?_, hl, rfl⟩
  exact lists (run_dir d (by rw [e3] at hm; exact hm.prefix))

theorem probing_stays (p s : List Op) (h : ∀ res, .probed (healthAsks p) res ∉ s) :
    (run fmt me tag single (p ++ .askHealth :: s)).healthAsking.get (healthAsks p)
      = some (.probing (run fmt me tag single p).checks) := by
  induction s using snoc_induction with
  | nil =>
    rw [run_snoc]
    simp only [Sys.step]
    rw [Assoc.get_insert, run_healthAsked, if_pos rfl]
  | snoc s o ih =>
    have ih := ih (fun res hr => h res (by simp [hr]))
    rw [show p ++ Op.askHealth :: (s ++ [o]) = (p ++ Op.askHealth :: s) ++ [o] by simp, run_snoc]
    cases o with
    | askHealth =>
      simp only [Sys.step]
      rw [Assoc.get_insert, run_healthAsked, if_neg, ih]
      unfold healthAsks
      simp [List.count_append]
    | probed q res =>
      have hq : ¬ healthAsks p = q := fun e => h res (by simp [e])
      simp only [Sys.step]
      repeat' split
      · dsimp only; rw [Assoc.get_insert, if_neg hq, ih]
      · exact ih
      · exact ih
    | healthNodes q =>
      simp only [Sys.step]
      by_cases hq : healthAsks p = q
      · subst hq
        rw [ih]
        exact ih
      · repeat' split
        · dsimp only; rw [Assoc.get_insert, if_neg hq, ih]
        · dsimp only; rw [Assoc.get_erase, if_neg hq, ih]
        · exact ih
    | reply q =>
      simp only [Sys.step]
      by_cases hq : healthAsks p = q
      · subst hq
        rw [ih]
        exact ih
      · split
        · dsimp only; rw [Assoc.get_erase, if_neg hq, ih]
        · exact ih
    | _ =>
      simp only [Sys.step]
      repeat' split
      all_goals exact ih

/-- A request for the health is answered once all actors asked have answered, however long that takes and whatever else
happens; if the directory has ended by then, it fails instead. Before that there is no reply. -/
theorem C115_health_given (fmt : Int → String) (me : Nat) (tag : String) (single : Bool) (p s : List Op)
    (h : ∀ res, .probed (healthAsks p) res ∉ s) :
    (∀ r', ∀ v, ((run fmt me tag single (p ++ .askHealth :: s)).step fmt (.reply (healthAsks p))).2 ≠ .health r' v) ∧
    ∀ res, res.length = (run fmt me tag single p).checks.length →
      if .down ∈ p ++ .askHealth :: s then
        ((run fmt me tag single (p ++ .askHealth :: s ++ [.probed (healthAsks p) res])).step fmt
          (.healthNodes (healthAsks p))).2 = .panicked (healthAsks p)
      else ∃ v, ((run fmt me tag single (p ++ .askHealth :: s ++ [.probed (healthAsks p) res] ++
        [.healthNodes (healthAsks p)])).step fmt (.reply (healthAsks p))).2 = .health (healthAsks p) v := by
  have hg := probing_stays (fmt := fmt) (me := me) (tag := tag) (single := single) p s h
  have hu := run_up (fmt := fmt) (me := me) (tag := tag) (single := single) (p ++ .askHealth :: s)
  constructor
  · intro r' v
    simp only [Sys.step, hg]
    exact fun h => nomatch h
  · intro res hl
    have h1 : (run fmt me tag single (p ++ .askHealth :: s ++ [.probed (healthAsks p) res])).healthAsking.get
        (healthAsks p) = some (.nodes ((run fmt me tag single p).checks.zip res)) := by
      rw [run_snoc]
      simp only [Sys.step, hg, if_pos hl]
      rw [Assoc.get_insert, if_pos rfl]
    have hu1 : (run fmt me tag single (p ++ .askHealth :: s ++ [.probed (healthAsks p) res])).up
        = (run fmt me tag single (p ++ .askHealth :: s)).up := by
      rw [run_snoc]
      simp only [Sys.step, hg, if_pos hl]
    split
    · rename_i hd
      have : ¬ (run fmt me tag single (p ++ .askHealth :: s)).up = true := fun e => hu.1 e hd
      simp only [Sys.step, h1, hu1, if_neg this]
    · rename_i hd
      have hup := hu.2 hd
      have h2 : (run fmt me tag single (p ++ .askHealth :: s ++ [.probed (healthAsks p) res] ++
          [.healthNodes (healthAsks p)])).healthAsking.get (healthAsks p)
          = some (.leader ((run fmt me tag single p).checks.zip res)
              (run fmt me tag single (p ++ .askHealth :: s ++ [.probed (healthAsks p) res])).dir.vals) := by
        rw [run_snoc]
        simp only [Sys.step, h1, hu1, if_pos hup]
        rw [Assoc.get_insert, if_pos rfl]
      simp only [Sys.step, h2]
      exact ⟨_, rfl⟩

/-- The checks of which a report is made are those registered and not removed since, in the order of registration. -/
theorem C115_checks (fmt : Int → String) (me : Nat) (tag : String) (single : Bool) (ops : List Op) :
    (run fmt me tag single ops).checks = hcRun (ops.filterMap fun
      | .register a => some (.register a)
      | .unregister i => some (.remove i)
      | _ => none) := by
  induction ops using snoc_induction with
  | nil => rfl
  | snoc l o ih =>
    rw [run_snoc, List.filterMap_append]
    unfold hcRun at ih ⊢
    rw [List.foldl_append, ← ih]
    cases o <;> simp only [Sys.step] <;> repeat' split
    all_goals simp

/-- The response time shown for a path is that of the check registered last with this path; every check has an entry
under its path. -/
theorem C115_times (fmt : Int → String) (me : Nat) (tag : String) (checks : List (HcActor × Option Nat))
    (nodes : List NodeFacts) (leader : Option Nat) :
    (∀ a x l1 l2, checks = l1 ++ (a, x) :: l2 → (∀ c ∈ l2, c.1.path ++ "/" ++ c.1.id ≠ a.path ++ "/" ++ a.id) →
      (healthView fmt me tag checks nodes leader).times.get (a.path ++ "/" ++ a.id) = some x) ∧
    (∀ path, (∀ c ∈ checks, c.1.path ++ "/" ++ c.1.id ≠ path) →
      (healthView fmt me tag checks nodes leader).times.get path = none) := by
  have hg := fun path => collect_get (fun c : HcActor × Option Nat => checkPath c.1) (fun c => c.2) checks [] path
  constructor
  · intro a x l1 l2 e hl
    show (checks.foldl (fun m c => m.insert (checkPath c.1) c.2) [] : Assoc String (Option Nat)).get _ = _
    rw [hg]
    subst e
    rw [List.reverse_append, List.reverse_cons, List.append_assoc, List.find?_append]
    have h2 : (l2.reverse.find? fun b => decide (checkPath b.1 = a.path ++ "/" ++ a.id)) = none := by
      rw [List.find?_eq_none]
      intro c hc
      simp only [decide_eq_true_eq]
      exact hl c (List.mem_reverse.1 hc)
    rw [h2]
    simp [checkPath]
  · intro path hp
    show (checks.foldl (fun m c => m.insert (checkPath c.1) c.2) [] : Assoc String (Option Nat)).get _ = _
    rw [hg]
    have h2 : (checks.reverse.find? fun b => decide (checkPath b.1 = path)) = none := by
      rw [List.find?_eq_none]
      intro c hc
      simp only [decide_eq_true_eq]
      exact hp c (List.mem_reverse.1 hc)
    rw [h2]
    rfl

/-- A failed entry means an unhealthy node; and if no two checks have the same path, an unhealthy node has a failed
entry. Missing: two checks with the same path, `C115_no_cause_refuted`. -/
theorem C115_cause_partial (fmt : Int → String) (me : Nat) (tag : String) (checks : List (HcActor × Option Nat))
    (nodes : List NodeFacts) (leader : Option Nat) :
    (∀ path, (healthView fmt me tag checks nodes leader).times.get path = some none →
      (healthView fmt me tag checks nodes leader).status = .unhealthy) ∧
    ((checks.map fun c => c.1.path ++ "/" ++ c.1.id).Nodup →
      (healthView fmt me tag checks nodes leader).status = .unhealthy →
      ∃ path, (healthView fmt me tag checks nodes leader).times.get path = some none) := by
  constructor
  · intro path h
    rw [(C115_status fmt me tag checks nodes leader).1]
    have hg := collect_get (fun c : HcActor × Option Nat => checkPath c.1) (fun c => c.2) checks [] path
    have h' : (checks.foldl (fun m c => m.insert (checkPath c.1) c.2) [] : Assoc String (Option Nat)).get path
      = some none := h
    rw [hg, Assoc.get_nil, Option.or_none] at h'
    obtain ⟨c, hc, e⟩ := Option.map_eq_some_iff.1 h'
    have hm := List.mem_reverse.1 (List.mem_of_find?_eq_some hc)
    obtain ⟨a, x⟩ := c
    cases e
    exact ⟨a, hm⟩
  · intro hn h
    obtain ⟨a, ha⟩ := (C115_status fmt me tag checks nodes leader).1.1 h
    obtain ⟨l1, l2, e⟩ := List.append_of_mem ha
    refine ⟨_, (C115_times fmt me tag checks nodes leader).1 a none l1 l2 e ?_⟩
    intro c hc e2
    rw [e, List.map_append, List.map_cons, List.nodup_append, List.nodup_cons] at hn
    exact hn.2.1.1 (List.mem_map.2 ⟨c, hc, e2⟩)

/-- Refuted: that an unhealthy node shows what is wrong. An actor that has ended and was started again, and registered
again, leaves its old entry among the checks: the node stays unhealthy, but only the response of the new actor is
shown. -/
theorem C115_no_cause_refuted (t : Nat) : ∃ (ops : List Op) (h : HealthView),
    ((run toString 1 "a" false ops).step toString (.reply 0)).2 = .health 0 h ∧ h.status = .unhealthy ∧
    h.times = [("x/worker", some t)] := by
  refine ⟨[.register ⟨"x", "worker"⟩, .register ⟨"x", "worker"⟩, .askHealth, .probed 0 [none, some t], .healthNodes 0],
    _, rfl, rfl, ?_⟩
  rfl

/-- Refuted: that the health reply is true at some moment. Here the directory is read first: node 2 was known as
joining only before it was elected, but the reply shows it joining and leading. -/
theorem C115_health_torn_refuted : ∃ (ops : List Op) (h : HealthView), Maps ops ∧
    ((run toString 1 "a" false ops).step toString (.reply 0)).2 = .health 0 h ∧
    ∀ k, (run toString 1 "a" false (ops.take k)).leader = h.leader →
      ∃ c ∈ h.nodes, ∀ n, (run toString 1 "a" false (ops.take k)).dir.get c.id = some n →
        shownWord c.status ≠ word n.status := by
  refine ⟨[Op.join { id := 2, addr := "", tag := "b" }, Op.askHealth, Op.probed 0 [], Op.healthNodes 0,
    Op.update { id := 2, addr := "", tag := "b", status := .healthy }, Op.elect 2],
    ⟨.healthy, 1, "a", [], some 2, [⟨2, "", "b", none, none, none, .joining, []⟩]⟩, ?_, by decide +kernel, ?_⟩
  · intro n hn
    simp at hn
    rcases hn with rfl | rfl <;> exact .nil
  · intro k
    have key : ∀ (σ : Sys) (n0 : NodeFacts), σ.dir.get 2 = some n0 → "Joining" ≠ word n0.status →
        σ.leader = some 2 → ∃ c ∈ ([⟨2, "", "b", none, none, none, .joining, []⟩] : List ClusterNode),
          ∀ n, σ.dir.get c.id = some n → shownWord c.status ≠ word n.status := by
      intro σ n0 h1 h2 _
      refine ⟨_, List.mem_singleton.2 rfl, ?_⟩
      intro n hn
      have : n = n0 := by
        have := hn.symm.trans h1
        simpa using this
      subst this
      exact h2
    match k with
    | 0 => intro h; exact absurd h (by decide +kernel)
    | 1 => intro h; exact absurd h (by decide +kernel)
    | 2 => intro h; exact absurd h (by decide +kernel)
    | 3 => intro h; exact absurd h (by decide +kernel)
    | 4 => intro h; exact absurd h (by decide +kernel)
    | 5 => intro h; exact absurd h (by decide +kernel)
    | k + 6 =>
      rw [List.take_of_length_le (by simp)]
      exact key _ { id := 2, addr := "", tag := "b", status := .healthy } (by decide +kernel) (by decide +kernel)

/-! ## Actors -/

mutual
/-- id, path and type of every actor shown, in order. -/
def rows : ActorView → List (String × String × String)
  | .mk id path type _ _ _ none => [(id, path, type)]
  | .mk id path type _ _ _ (some vs) => (id, path, type) :: rowsOf vs
def rowsOf : List ActorView → List (String × String × String)
  | [] => []
  | v :: vs => rows v ++ rowsOf vs
end

/-- what should be shown of an actor: its id, the whole path to it, its type. -/
def row (f : Facts) : String × String × String := (f.id, f.path ++ "/" ++ f.id, f.type)

open Verif.Actor.Describe (Desc Tree describeAll idsOf treeIds)

mutual
theorem rows_view (who : Nat → Facts) (error : Bool → String) : ∀ d : Desc,
    rows (view (result who error d)) = d.ids.map fun i => row (who i)
  | .ok i none => by simp [result, view, rows, Desc.ids, row]
  | .ok i (some ds) => by
    simp only [result, view, rows, Desc.ids, List.map_cons, rows_views who error ds]
    rfl
  | .err i e => by simp [result, view, rows, Desc.ids, row]
  | .timeout i => by simp [result, view, rows, Desc.ids, row]
theorem rows_views (who : Nat → Facts) (error : Bool → String) : ∀ ds : List Desc,
    rowsOf (views (results who error ds)) = (idsOf ds).map fun i => row (who i)
  | [] => rfl
  | d :: ds => by
    simp only [results, views, rowsOf, idsOf, List.map_append, rows_view who error d, rows_views who error ds]
end

/-- `/actors/all` shows every actor that was described, each under its own id, whole path and type, whether it answered
or not. -/
theorem C115_actors (who : Nat → Facts) (error : Bool → String) (running tie : Bool) (q : Query) (actors : List Tree)
    (scheduler : Tree) :
    (getAll who error running tie q actors scheduler = none ↔ running = false) ∧
    ∀ vs, getAll who error running tie q actors scheduler = some vs →
      rowsOf vs = (idsOf (describeAll q.options tie actors scheduler).2).map fun i => row (who i) := by
  unfold getAll
  cases running with
  | false => exact ⟨⟨fun _ => rfl, fun _ => rfl⟩, (fun vs h => nomatch h)⟩
  | true =>
    refine ⟨⟨(fun h => nomatch h), (fun h => nomatch h)⟩, ?_⟩
    intro vs h
    cases h
    exact rows_views who error _

/-- Asked without limits, `/actors/all` shows the whole hierarchy if all actors are prompt. -/
theorem C115_all_actors (who : Nat → Facts) (error : Bool → String) (tie : Bool) (actors : List Tree) (scheduler : Tree)
    (hlive : ∀ t ∈ actors ++ [scheduler], t.live)
    (hlat : ∀ t ∈ actors ++ [scheduler], t.latency < 10000 ∧ ∀ k ∈ t.kids, k.latency < 5000) :
    ∃ vs, getAll who error true tie {} actors scheduler = some vs ∧
      rowsOf vs = (treeIds (actors ++ [scheduler])).map fun i => row (who i) := by
  refine ⟨_, rfl, ?_⟩
  rw [rows_views, Verif.Actor.Describe.C71_complete _ tie actors scheduler rfl rfl rfl hlive hlat]

/-- the outcome of a description, as words. -/
def outcome (error : Bool → String) : Desc → String
  | .ok _ _ => "ok"
  | .err _ e => "error: " ++ error e
  | .timeout _ => "timeout"

/-- the outcome shown. -/
def shownOutcome : ActorView → String
  | .mk _ _ _ .ok _ _ _ => "ok"
  | .mk _ _ _ (.err e) _ _ _ => "error: " ++ e
  | .mk _ _ _ .timeout _ _ _ => "timeout"

/-- whether number and tags are shown, and which. -/
def shownContext : ActorView → Option Nat × Option Tags
  | .mk _ _ _ _ c t _ => (c, t)

/-- Each entry shows the outcome, and number and tags of exactly the actors that answered. -/
theorem C115_outcome (who : Nat → Facts) (error : Bool → String) (d : Desc) :
    shownOutcome (view (result who error d)) = outcome error d ∧
    shownContext (view (result who error d)) =
      if outcome error d = "ok" then (some (who d.id).ctx, some (who d.id).tags) else (none, none) := by
  cases d with
  | ok i s => cases s <;> simp [result, view, shownOutcome, outcome, shownContext, Desc.id]
  | err i e =>
    have : ¬ "error: " ++ error e = "ok" := by
      intro h
      have h2 := congrArg String.length h
      rw [String.length_append] at h2
      have h3 : "error: ".length = 7 := by decide +kernel
      have h4 : "ok".length = 2 := by decide +kernel
      omega
    simp [result, view, shownOutcome, outcome, shownContext, this]
  | timeout i => simp [result, view, shownOutcome, outcome, shownContext]

/-- the children a query asks for: all, or without the attached ones, and no more than the given number. -/
def allowed (q : Query) (kids : List Tree) : List Tree :=
  let l := if q.attached = some false then kids.filter (fun t => !t.attached) else kids
  match q.maxChildren with
  | none => l
  | some n => l.take n

/-- what is shown of an actor: its own id, path and type. -/
def entryOf (f : Facts) : Status → Option Nat → Option Tags → Option (List ActorView) → ActorView :=
  .mk f.id (f.path ++ "/" ++ f.id) f.type

/-- `Sees q l t v`: `v` is a truthful view of the actor `t` at level `l` for the query `q`. -/
inductive Sees (who : Nat → Facts) (error : Bool → String) (q : Query) : Nat → Tree → ActorView → Prop
  | timeout (l : Nat) (t : Tree) : t.resp ≠ .invalid →
      Sees who error q l t (entryOf (who t.id) .timeout none none none)
  | invalid (l : Nat) (t : Tree) : t.resp = .invalid →
      Sees who error q l t (entryOf (who t.id) (.err (error false)) none none none)
  | lost (l : Nat) (t : Tree) (d : Nat) : t.resp = .lost d →
      Sees who error q l t (entryOf (who t.id) (.err (error true)) none none none)
  | leaf (l : Nat) (t : Tree) (d : Nat) : t.resp = .after d →
      (allowed q t.kids = [] ∨ ∃ m, q.maxDepth = some m ∧ m ≤ l) →
      Sees who error q l t (entryOf (who t.id) .ok (some (who t.id).ctx) (some (who t.id).tags) none)
  | deep (l : Nat) (t : Tree) (d : Nat) (vs : List ActorView) : t.resp = .after d → allowed q t.kids ≠ [] →
      (∀ m, q.maxDepth = some m → l < m) → vs.length = (allowed q t.kids).length →
      (∀ i (h : i < vs.length) (h' : i < (allowed q t.kids).length),
        Sees who error q (l + 1) ((allowed q t.kids)[i]) (vs[i])) →
      Sees who error q l t (entryOf (who t.id) .ok (some (who t.id).ctx) (some (who t.id).tags) (some vs))

theorem allowed_eq (q : Query) (kids : List Tree) : Verif.Actor.Describe.shown q.options kids = allowed q kids := by
  unfold Verif.Actor.Describe.shown allowed
  have : kids.filter (fun t => q.options.childDescribeAttached || !t.attached)
      = if q.attached = some false then kids.filter (fun t => !t.attached) else kids := by
    cases h : q.attached with
    | none => simp [Query.options, h]
    | some b => cases b <;> simp [Query.options, h]
  rw [this]
  rfl

theorem results_map (who : Nat → Facts) (error : Bool → String) (ds : List Desc) :
    views (results who error ds) = ds.map fun d => view (result who error d) := by
  induction ds with
  | nil => rfl
  | cons d ds ih => simp [results, views, ih]

theorem sees {who : Nat → Facts} {error : Bool → String} {q : Query} {l : Nat} {t : Tree} {d : Desc}
    (h : Verif.Actor.Describe.Faithful q.options l t d) : Sees who error q l t (view (result who error d)) := by
  induction h with
  | timeout l t h => exact .timeout l t h
  | invalid l t h => exact .invalid l t h
  | lost l t d h => exact .lost l t d h
  | leaf l t d h h2 =>
    refine .leaf l t d h ?_
    rw [allowed_eq] at h2
    refine h2.imp id ?_
    intro h3
    unfold Verif.Actor.Describe.levelShown at h3
    have h4 : ∃ m, ¬ (q.options.maxDepth = some m → l + 1 ≤ m) := Classical.not_forall.1 h3
    obtain ⟨m, hm⟩ := h4
    have := Classical.not_imp.1 hm
    exact ⟨m, this.1, by omega⟩
  | deep l t d ds h hne hlev hlen _ ih =>
    have hv : view (result who error (.ok t.id (some ds)))
        = entryOf (who t.id) .ok (some (who t.id).ctx) (some (who t.id).tags)
            (some (ds.map fun d => view (result who error d))) := by
      rw [← results_map]; rfl
    rw [hv]
    simp only [allowed_eq] at hne hlen ih
    refine .deep l t d _ h hne (fun m hm => hlev m hm) (by simpa using hlen) ?_
    intro i h1 h2
    simp only [List.getElem_map]
    exact ih i (by simpa using h1) h2

/-- `/actors/all` has one entry for each actor known to the scheduler and for the scheduler, in order, and each is
truthful, within the limits of the query: down to its depth, with as many children as it allows, without attached
children if it says so. -/
theorem C115_truthful (who : Nat → Facts) (error : Bool → String) (tie : Bool) (q : Query) (actors : List Tree)
    (scheduler : Tree) (vs : List ActorView) (h : getAll who error true tie q actors scheduler = some vs) :
    vs.length = actors.length + 1 ∧
    ∀ (i : Nat) t v, (actors ++ [scheduler])[i]? = some t → vs[i]? = some v → Sees who error q 1 t v := by
  unfold getAll at h
  cases h
  rw [results_map]
  constructor
  · have := congrArg List.length (Verif.Actor.Describe.C71_one_each q.options tie actors scheduler)
    simpa using this
  · intro i t v ht hv
    rw [List.getElem?_map, Option.map_eq_some_iff] at hv
    obtain ⟨d, hd, rfl⟩ := hv
    exact sees (Verif.Actor.Describe.C71_faithful q.options tie actors scheduler i t d ht hd)

/-- Refuted: that an actor is listed once. A shard is known to the scheduler and is a child of its host, which is known
to the scheduler too: by default it is shown twice. -/
theorem C115_twice_refuted (who : Nat → Facts) (error : Bool → String) :
    ∃ (shard host scheduler : Tree) (vs : List ActorView), host.kids = [shard] ∧
      getAll who error true false {} [host, shard] scheduler = some vs ∧
      rowsOf vs = [row (who 1), row (who 2), row (who 2), row (who 0)] := by
  refine ⟨.node 2 true (.after 0) [], .node 1 false (.after 0) [.node 2 true (.after 0) []], .node 0 false (.after 0) [],
    _, rfl, rfl, ?_⟩
  rw [rows_views]
  rfl

/-- Refuted: that the waiting time of the query counts: it changes nothing. -/
theorem C115_timeout_refuted (who : Nat → Facts) (error : Bool → String) (running tie : Bool) (q : Query)
    (x : Option Nat) (actors : List Tree) (scheduler : Tree) :
    getAll who error running tie { q with timeout := x } actors scheduler
      = getAll who error running tie q actors scheduler := by
  unfold getAll
  have := Verif.Actor.Describe.C72_timeout_option_refuted q.options x tie actors scheduler
  rw [show ({ q with timeout := x } : Query).options = { q.options with childDescribeTimeout := x } from rfl, this]

/-! ## Sharded entity types -/

/-- The entity types shown are exactly those attached, each once; and the host asked for a type is the one attached
last. -/
theorem C115_types (sharding : List (String × Nat)) :
    (shardTypes (attach sharding)).Nodup ∧
    (∀ t, t ∈ shardTypes (attach sharding) ↔ ∃ h, (t, h) ∈ sharding) ∧
    (∀ t h, hostAsked (attach sharding) t = some h ↔
      ∃ l1 l2, sharding = l1 ++ (t, h) :: l2 ∧ ∀ h', (t, h') ∉ l2) := by
  have hu : Assoc.Uniq (attach sharding) :=
    collect_uniq (fun p : String × Nat => p.1) (fun p => p.2) sharding [] .nil
  have hg : ∀ t, (attach sharding).get t = (sharding.reverse.find? fun b => decide (b.1 = t)).map (·.2) := by
    intro t
    have := collect_get (fun p : String × Nat => p.1) (fun p => p.2) sharding [] t
    rw [Assoc.get_nil, Option.or_none] at this
    exact this
  refine ⟨Assoc.uniq_iff.1 hu, ?_, ?_⟩
  · intro t
    show t ∈ (attach sharding).map (·.1) ↔ _
    rw [← Assoc.get_isSome_iff, hg, Option.isSome_map, List.find?_isSome]
    constructor
    · rintro ⟨⟨t', h⟩, hm, e⟩
      have : t' = t := by simpa using e
      subst this
      exact ⟨h, List.mem_reverse.1 hm⟩
    · rintro ⟨h, hm⟩
      exact ⟨(t, h), List.mem_reverse.2 hm, by simp⟩
  · intro t h
    unfold hostAsked
    rw [hg]
    constructor
    · intro hf
      obtain ⟨⟨t', h'⟩, hf', rfl⟩ := Option.map_eq_some_iff.1 hf
      rw [List.find?_eq_some_iff_append] at hf'
      obtain ⟨ht, as, bs, e, hn⟩ := hf'
      have ht : t' = t := by simpa using ht
      subst ht
      refine ⟨bs.reverse, as.reverse, ?_, ?_⟩
      · rw [← List.reverse_reverse sharding, e]
        simp
      · intro h2 hm
        have := hn _ (List.mem_reverse.1 hm)
        simp at this
    · rintro ⟨l1, l2, rfl, hn⟩
      rw [List.reverse_append, List.reverse_cons, List.append_assoc, List.find?_append]
      have h2 : (l2.reverse.find? fun b => decide (b.1 = t)) = none := by
        rw [List.find?_eq_none]
        rintro ⟨t', h'⟩ hc
        have hc := List.mem_reverse.1 hc
        simp only [decide_eq_true_eq]
        rintro rfl
        exact hn h' hc
      rw [h2]
      simp

theorem allStats_get (hosts m : Assoc String Nat) (ask : Nat → Option Nat) (hu : hosts.Uniq) (t : String) :
    (allStatsFrom hosts ask m).get t = ((hosts.get t).bind ask).or (m.get t) := by
  unfold allStatsFrom
  induction hosts generalizing m with
  | nil => simp
  | cons p hosts ih =>
    obtain ⟨h1, h2⟩ := List.pairwise_cons.1 hu
    rw [List.foldl_cons, ih _ h2, Assoc.get_cons]
    have hno : p.1 = t → Assoc.get hosts t = none := by
      intro e
      rw [Assoc.get_none_iff]
      intro v hv
      exact h1 _ hv e
    by_cases e : p.1 = t
    · rw [if_pos e, hno e]
      cases ha : ask p.2 with
      | none => simp [ha]
      | some k =>
        simp only [Option.bind_some, Option.bind_none, Option.none_or, ha, Option.some_or]
        rw [Assoc.get_insert, if_pos e.symm]
    · rw [if_neg e]
      cases ha : ask p.2 with
      | none => rfl
      | some k =>
        show _ = _
        rw [Assoc.get_insert, if_neg (fun e' => e e'.symm)]

/-- The statistics of all types have an entry for exactly the attached types whose host (the one attached last) answers,
and show what it says. -/
theorem C115_all_stats (sharding : List (String × Nat)) (ask : Nat → Option Nat) (t : String) (k : Nat) :
    (allStats (attach sharding) ask).get t = some k ↔
      ∃ h, hostAsked (attach sharding) t = some h ∧ ask h = some k := by
  have hu : Assoc.Uniq (attach sharding) :=
    collect_uniq (fun p : String × Nat => p.1) (fun p => p.2) sharding [] .nil
  have := allStats_get (attach sharding) [] ask hu t
  unfold hostAsked
  show (allStatsFrom (attach sharding) ask []).get t = some k ↔ _
  rw [this, Assoc.get_nil, Option.or_none, Option.bind_eq_some_iff]

/-! ## Examples: the hypotheses of the theorems are met -/

/-- three nodes, one of them terminated, made known out of order; the leader is node 2. -/
def story : List Op :=
  [.join { id := 3, addr := "10.0.0.3", tag := "c", attributes := [("zone", "west")] },
   .join { id := 1, addr := "10.0.0.1", tag := "a" },
   .update { id := 1, addr := "10.0.0.1", tag := "a", ping := some 5, heartbeat := some 7, status := .healthy },
   .join { id := 2, addr := "10.0.0.2", tag := "b" },
   .terminated 3, .elect 2, .register ⟨"sys", "db"⟩, .ask, .askHealth,
   .probed 0 [some 1500000000], .healthNodes 0]

-- for `C115_nodes`, `C115_leader_tag`, `C115_answered`
example : Maps story := by
  intro n hn
  simp [story] at hn
  rcases hn with (rfl | rfl | rfl) | rfl
  · exact List.pairwise_singleton ..
  all_goals exact .nil

example : ((run toString 1 "a" false story).step toString (.answer 0)).2 =
    .nodes 0 ⟨1, some 2, some "b",
      [⟨1, "10.0.0.1", "a", some 5, some "7", none, .healthy, []⟩,
       ⟨2, "10.0.0.2", "b", none, none, none, .joining, []⟩,
       ⟨3, "10.0.0.3", "c", none, none, none, .terminated, [("zone", "west")]⟩]⟩ := by decide +kernel

-- for `C115_steady`: the request is made before the health is asked for, nobody is elected since
example : story = story.take 7 ++ .ask :: story.drop 8 ∧ asks (story.take 7) = 0 ∧ ∀ n, .elect n ∉ story.drop 8 := by
  refine ⟨by decide +kernel, by decide +kernel, ?_⟩
  intro n
  simp [story]

-- for `C115_elected`
example : story = story.take 5 ++ .elect 2 :: story.drop 6 ∧ ∀ n, .elect n ∉ story.drop 6 := by
  refine ⟨by decide +kernel, ?_⟩
  intro n
  simp [story]

-- for `C115_health`
example : ∃ v, ((run toString 1 "a" false story).step toString (.reply 0)).2 = .health 0 v ∧ v.status = .degraded ∧
    v.times = [("sys/db", some 1500000000)] ∧ v.leader = some 2 ∧ v.nodes.length = 3 := by
  exact ⟨_, rfl, by decide +kernel, by decide +kernel, by decide +kernel, by decide +kernel⟩

-- for `C115_health_given`: the check is not answered yet
example : (∀ res, .probed (healthAsks (story.take 8)) res ∉ ([.elect 1, .reply 0] : List Op)) ∧
    (run toString 1 "a" false (story.take 8)).checks.length = 1 := by
  refine ⟨by intro res; simp, by decide +kernel⟩

-- for `C115_status`, `C115_times`, `C115_cause_partial`: two checks, one failed
example : (healthView toString 1 "a" [(⟨"sys", "db"⟩, none), (⟨"sys", "web"⟩, some 3)] [] none).status = .unhealthy ∧
    (healthView toString 1 "a" [(⟨"sys", "db"⟩, none), (⟨"sys", "web"⟩, some 3)] [] none).times.get "sys/db"
      = some none := by decide +kernel

-- for `C115_checks`
example : (run toString 1 "a" false [.register ⟨"s", "x"⟩, .elect 1, .register ⟨"s", "y"⟩, .unregister "x"]).checks
    = [⟨"s", "y"⟩] := by decide +kernel

-- for `C115_all_actors`: a parent with a child, and the scheduler
example : ∀ t ∈ [Tree.node 1 false (.after 3) [.node 2 false (.after 4) []]] ++ [Tree.node 0 false (.after 0) []],
    t.live ∧ t.latency < 10000 ∧ ∀ k ∈ t.kids, k.latency < 5000 := by
  intro t ht
  simp only [List.cons_append, List.nil_append, List.mem_cons, List.not_mem_nil, or_false] at ht
  rcases ht with rfl | rfl
  · refine ⟨⟨trivial, trivial⟩, by decide +kernel, ?_⟩
    intro k hk
    simp only [Tree.kids, List.mem_singleton] at hk
    subst hk
    decide +kernel
  · refine ⟨trivial, by decide +kernel, ?_⟩
    intro k hk
    simp [Tree.kids] at hk

-- for `C115_actors`, `C115_outcome`: the second child is stuck, it is shown with its path all the same
example : rowsOf (views (results (fun i => ⟨toString i, "sys", "T", i, .none⟩) (fun _ => "gone")
    [.ok 1 (some [.timeout 2, .err 3 true])])) = [("1", "sys/1", "T"), ("2", "sys/2", "T"), ("3", "sys/3", "T")] := by
  decide +kernel

-- for `C115_truthful`: an attached child, asked for or not
example : ∃ vs, getAll (fun i => ⟨toString i, "sys", "T", i, .none⟩) (fun _ => "gone") true false
      { attached := some false, maxDepth := some 2 }
      [.node 1 false (.after 0) [.node 2 true (.after 0) [], .node 3 false .stuck []]] (.node 0 false (.after 0) [])
      = some vs ∧ rowsOf vs = [("1", "sys/1", "T"), ("3", "sys/3", "T"), ("0", "sys/0", "T")] :=
  ⟨_, rfl, by decide +kernel⟩

-- for `C115_known`
example : .down ∉ story ∧ known 3 story.reverse = some
    ⟨3, "10.0.0.3", "c", none, none, none, .terminated, [("zone", "west")]⟩ := by decide +kernel

-- for `C115_types`, `C115_all_stats`: two types, one attached twice; the host of the other does not answer
example : shardTypes (attach [("user", 1), ("order", 2), ("user", 3)]) = ["user", "order"] ∧
    hostAsked (attach [("user", 1), ("order", 2), ("user", 3)]) "user" = some 3 ∧
    allStats (attach [("user", 1), ("order", 2), ("user", 3)]) (fun h => if h = 2 then none else some (10 * h))
      = [("user", 30)] := by decide +kernel

end Verif.Remote.Api
