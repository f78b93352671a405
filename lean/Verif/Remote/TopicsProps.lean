import Verif.Remote.TopicsLemmas

/-!
# C114: what is published to the cluster reaches the nodes of the cluster
-/

namespace Verif.Remote.Topics

open Verif.Sharding.Hosts (Ev lastWord lastWord_snoc moves drop_append_left Unasked)

variable {M B : Type}

/-- how often publication `s` has been handed to the mediator of node `j`. -/
def handedTo (w : Net M B) (j s : Nat) : Nat := w.handed.countP fun x => x.1 = j ∧ x.2.no = s

/-- how many copies of publication `s` for node `j` were dropped or lost with their connection. -/
def lostFor (w : Net M B) (j s : Nat) : Nat := w.lost.countP fun x => x.1 = j ∧ x.2.no = s

/-- every task has ended and nothing is on its way. -/
def Quiet (w : Net M B) : Prop := w.todo = [] ∧ w.wire = []

/-- what is published next on node `i` is for node `j`: another node, and the last event the mediator of `i` has
handled about it says that it was added. -/
def Addressed (w : Net M B) (i j : Nat) : Prop := j ≠ i ∧ lastWord j (w.hub i).heard = some true

instance (w : Net M B) (i j : Nat) : Decidable (Addressed w i j) := by unfold Addressed; infer_instance

theorem count_fresh (l : List Nat) (hl : l.Nodup) (p : Post B) (s : Nat) (hs : p.no = s) (j : Nat) :
    (l.map (·, p)).countP (fun x => x.1 = j ∧ x.2.no = s) = if j ∈ l then 1 else 0 := by
  subst hs
  induction l with
  | nil => rfl
  | cons n l ih =>
    rw [List.nodup_cons] at hl
    rw [List.map_cons, List.countP_cons, ih hl.2]
    by_cases e : n = j
    · subst e; simp [hl.1]
    · have : ¬ j = n := fun h => e h.symm
      simp [e, this]

/-- all copies of publication `s` for node `j`, wherever they are. -/
def allFor (w : Net M B) (j s : Nat) : Nat :=
  (w.todo ++ w.wire).countP (fun x => x.1 = j ∧ x.2.no = s) + handedTo w j s + lostFor w j s

theorem allFor_due (w : Net M B) (j s : Nat) : allFor w j s = (due w).countP fun x => x.1 = j ∧ x.2.no = s := by
  simp only [allFor, handedTo, lostFor, due, List.countP_append]; omega

theorem count_copies (cap : Nat) (cd : Codec M B) (before after : List (Op M)) (i : Nat) (t : TopicRef) (m : M) (j : Nat) :
    allFor (Net.run cap cd (before ++ .publish i t m :: after)) j (Net.run cap cd before).next =
      (fresh cap cd (Net.run cap cd before) (.publish i t m)).countP
        fun x => x.1 = j ∧ x.2.no = (Net.run cap cd before).next := by
  rw [allFor_due, ← (copies cap cd before after i t m).countP_eq, List.countP_filter]
  congr 1
  funext x
  by_cases h1 : x.1 = j <;> by_cases h2 : x.2.no = (Net.run cap cd before).next <;> simp [h1, h2]

theorem told_ok {cap : Nat} {cd : Codec M B} {w : Net M B} {i : Nat} {t : TopicRef} {m : M}
    (h : (w.publish cap cd i t m).2 ≠ .died) : ((w.med i).step cap (.publish t m)).dead = false := by
  unfold Net.publish at h
  simp only [act_med] at h
  cases hd : ((w.med i).step cap (.publish t m)).dead with
  | false => rfl
  | true => simp [hd] at h

/-- **C114 (addressees).** Whatever has happened and whatever happens afterwards: of a message published to the cluster
there is exactly one copy, to be sent, on its way, handed over or lost, for every other node that was added by the last
event the publisher's mediator has handled about it, and none for any other node. -/
theorem C114_addressees (cap : Nat) (cd : Codec M B) (before after : List (Op M)) (i : Nat) (t : TopicRef) (m : M) (b : B)
    (hb : cd.write m = some b) (hp : ((Net.run cap cd before).publish cap cd i t m).2 = .ok) (j : Nat) :
    allFor (Net.run cap cd (before ++ .publish i t m :: after)) j (Net.run cap cd before).next =
      if Addressed (Net.run cap cd before) i j then 1 else 0 := by
  rw [count_copies]
  have hs := sound_run cap cd before i
  simp only [fresh, told_ok (by rw [hp]; simp : ((Net.run cap cd before).publish cap cd i t m).2 ≠ .died), hb,
    Bool.false_eq_true, if_false]
  rw [count_fresh _ hs.nodup _ (Net.run cap cd before).next rfl]
  by_cases h : Addressed (Net.run cap cd before) i j
  · rw [if_pos h, if_pos ((hs.view j).2 h)]
  · rw [if_neg h, if_neg fun h' => h ((hs.view j).1 h')]

/-- **C114 (at most once, and only to them).** A message published to the cluster is handed to no node twice, never to
the publishing node, and to no node but those it is addressed to; nobody passes it on. What is handed over is what was
published. -/
theorem C114_once (cap : Nat) (cd : Codec M B) (before after : List (Op M)) (i : Nat) (t : TopicRef) (m : M) (j : Nat) :
    handedTo (Net.run cap cd (before ++ .publish i t m :: after)) j (Net.run cap cd before).next ≤ 1 ∧
    (0 < handedTo (Net.run cap cd (before ++ .publish i t m :: after)) j (Net.run cap cd before).next →
      Addressed (Net.run cap cd before) i j) ∧
    ∀ p, (j, p) ∈ (Net.run cap cd (before ++ .publish i t m :: after)).handed → p.no = (Net.run cap cd before).next →
      p.topic = t.name ∧ p.key = t.key ∧ cd.write m = some p.bytes := by
  have hs := sound_run cap cd before i
  have hc := count_copies cap cd before after i t m j
  have hle : handedTo (Net.run cap cd (before ++ .publish i t m :: after)) j (Net.run cap cd before).next ≤
      allFor (Net.run cap cd (before ++ .publish i t m :: after)) j (Net.run cap cd before).next := by
    simp only [allFor]; omega
  have hf : (fresh cap cd (Net.run cap cd before) (.publish i t m)).countP
        (fun x => x.1 = j ∧ x.2.no = (Net.run cap cd before).next) ≤ 1 ∧
      (0 < (fresh cap cd (Net.run cap cd before) (.publish i t m)).countP
        (fun x => x.1 = j ∧ x.2.no = (Net.run cap cd before).next) → Addressed (Net.run cap cd before) i j) := by
    simp only [fresh]
    split
    · simp
    · split
      · simp
      · rw [count_fresh _ hs.nodup _ (Net.run cap cd before).next rfl]
        split
        · rename_i h; exact ⟨Nat.le_refl _, fun _ => (hs.view j).1 h⟩
        · simp
  refine ⟨by omega, fun h => hf.2 (by omega), ?_⟩
  intro p hp hno
  have h1 : (j, p) ∈ (due (Net.run cap cd (before ++ .publish i t m :: after))).filter
      (fun x => x.2.no = (Net.run cap cd before).next) := by
    rw [List.mem_filter]
    exact ⟨by simp [due, hp], by simp [hno]⟩
  have h2 := (copies cap cd before after i t m).mem_iff.1 h1
  simp only [fresh] at h2
  split at h2
  · simp at h2
  · split at h2
    · simp at h2
    · rename_i b hb
      obtain ⟨n, _, e⟩ := List.mem_map.1 h2
      have e2 := (Prod.mk.injEq ..).mp e
      rw [← e2.2]
      exact ⟨rfl, rfl, hb⟩

/-- **C114 (everybody).** When all tasks have ended and nothing is on its way, a message published to the cluster has
been handed exactly once to every node it is addressed to, except where a copy was dropped for want of a connection or
lost with it. -/
theorem C114_everybody_partial (cap : Nat) (cd : Codec M B) (before after : List (Op M)) (i : Nat) (t : TopicRef) (m : M)
    (b : B) (hb : cd.write m = some b) (hp : ((Net.run cap cd before).publish cap cd i t m).2 = .ok) (j : Nat)
    (hj : Addressed (Net.run cap cd before) i j)
    (hq : Quiet (Net.run cap cd (before ++ .publish i t m :: after)))
    (hl : lostFor (Net.run cap cd (before ++ .publish i t m :: after)) j (Net.run cap cd before).next = 0) :
    handedTo (Net.run cap cd (before ++ .publish i t m :: after)) j (Net.run cap cd before).next = 1 := by
  have h := C114_addressees cap cd before after i t m b hb hp j
  rw [if_pos hj] at h
  simp only [allFor, hq.1, hq.2, hl, List.append_nil, List.countP_nil] at h
  omega

/-! ### Coming to rest -/

/-- the task's sending succeeds, or something arrives. -/
def carries : Op M → Bool
  | .send _ ok => ok
  | .deliver _ => true
  | _ => false

/-- **C114 (coming to rest).** At any time: if connections hold, sending and handing over what there is takes finitely
many steps, two for each copy to be sent and one for each on its way, after which everything is quiet and nothing more
has been lost. -/
theorem C114_rest (cap : Nat) (cd : Codec M B) (w : Net M B) :
    ∃ ops : List (Op M), (∀ o ∈ ops, carries o = true) ∧ ops.length = 2 * w.todo.length + w.wire.length ∧
      Quiet (w.runFrom cap cd ops) ∧ (w.runFrom cap cd ops).lost = w.lost := by
  generalize hn : 2 * w.todo.length + w.wire.length = n
  induction n generalizing w with
  | zero =>
    have h1 : w.todo = [] := List.length_eq_zero_iff.1 (by omega)
    have h2 : w.wire = [] := List.length_eq_zero_iff.1 (by omega)
    exact ⟨[], by simp, rfl, ⟨h1, h2⟩, rfl⟩
  | succ n ih =>
    cases ht : w.todo with
    | cons x l =>
      have hs : w.step cap cd (.send 0 true) = { w with todo := l, wire := w.wire ++ [x] } := by
        simp [Net.step, ht]
      have hl := congrArg List.length ht
      rw [List.length_cons] at hl
      obtain ⟨ops, h1, h2, h3, h4⟩ := ih (w.step cap cd (.send 0 true)) (by rw [hs]; simp; omega)
      exact ⟨.send 0 true :: ops, by
        intro o ho
        rcases List.mem_cons.1 ho with e | ho
        · subst e; rfl
        · exact h1 o ho, by simp [h2], h3, by rw [runFrom_cons, h4, hs]⟩
    | nil =>
      cases hw : w.wire with
      | nil => simp [ht, hw] at hn
      | cons x l =>
        obtain ⟨j, p⟩ := x
        have hs : (w.step cap cd (.deliver 0)).todo = [] ∧ (w.step cap cd (.deliver 0)).wire = l ∧
            (w.step cap cd (.deliver 0)).lost = w.lost := by
          simp [Net.step, hw, Net.act, ht]
        obtain ⟨ops, h1, h2, h3, h4⟩ := ih (w.step cap cd (.deliver 0)) (by rw [hs.1, hs.2.1]; simp [ht, hw] at hn ⊢; omega)
        exact ⟨.deliver 0 :: ops, by
          intro o ho
          rcases List.mem_cons.1 ho with e | ho
          · subst e; rfl
          · exact h1 o ho, by simp [h2], h3, by rw [runFrom_cons, h4, hs.2.2]⟩

/-! ### Subscribers -/

/-- **C114 (mediators).** The mediator of every node is what C33 has of it, with what its own node did and with what was
handed over from other nodes, each in its order. -/
theorem C114_mediator (cap : Nat) (cd : Codec M B) (ops : List (Op M)) (k : Nat) :
    (Net.run cap cd ops).med k = ({} : Med M).run cap ((Net.run cap cd ops).acts k) ∧
    ((Net.run cap cd ops).acts k).filter isRaw =
      ((Net.run cap cd ops).handed.filter fun x => x.1 = k).map
        fun x => .publishRaw x.2.topic x.2.key (cd.read k x.2.topic x.2.bytes) :=
  ⟨(kept_run cap cd ops).med k, (kept_run cap cd ops).raws k⟩

/-- what the mediator of node `k` has done since it had done the `n` first things. -/
def since (w : Net M B) (k n : Nat) : List (MedOp M) := (w.acts k).drop n

/-- **C114 (subscribers).** A subscriber on any node that has subscribed to a topic has received, in order and without
gaps, the beginning of what was published to the topic on its node or handed to it since. -/
theorem C114_prefix (cap : Nat) (cd : Codec M B) (before after : List (Op M)) (k id : Nat) (t : TopicRef)
    (hd : ((Net.run cap cd before).med k).dead = false)
    (hok : (((Net.run cap cd before).med k).subscribe id t).2 = true)
    (hn : ∀ o ∈ since (Net.run cap cd (before ++ .own k (.subscribe id t) :: after)) k
      (((Net.run cap cd before).acts k).length + 1), subscribes id o = false) :
    ((Net.run cap cd (before ++ .own k (.subscribe id t) :: after)).med k).received id <+:
      posts t.name t.key (since (Net.run cap cd (before ++ .own k (.subscribe id t) :: after)) k
        (((Net.run cap cd before).acts k).length + 1)) := by
  have hm := (kept_run cap cd (before ++ .own k (.subscribe id t) :: after)).med k
  rw [run_cons_append] at hm hn ⊢
  have hm0 := (kept_run cap cd before).med k
  generalize Net.run cap cd before = w at hm hm0 hn hd hok ⊢
  have hacts : (w.step cap cd (.own k (.subscribe id t))).acts k = w.acts k ++ [.subscribe id t] := by
    simp [Net.step, isRaw, Net.act]
  obtain ⟨l, hl⟩ := acts_from cap cd (w.step cap cd (.own k (.subscribe id t))) after k
  have hsince : since ((w.step cap cd (.own k (.subscribe id t))).runFrom cap cd after) k ((w.acts k).length + 1) = l := by
    unfold since
    rw [hl, hacts]
    rw [List.append_assoc]
    simp
  rw [hsince] at hn ⊢
  rw [hm, hl, hacts, List.append_assoc]
  have hr : ({} : Med M).run cap (w.acts k ++ ([.subscribe id t] ++ l)) = (w.med k).run cap (.subscribe id t :: l) := by
    rw [hm0]; simp [Med.run]
  rw [hr]
  obtain ⟨s, h1, h2⟩ := C33_prefix cap (w.med k) id t l hd hok hn
  simp only [Med.received, h1, Option.map_some, Option.getD_some]
  exact h2

/-- **C114 (subscribers).** A message of its topic that is handed to its node, and can be read there, is among what the
subscriber will receive. -/
theorem C114_reaches (cap : Nat) (cd : Codec M B) (before after : List (Op M)) (k : Nat) (j : Nat) (p : Post B) (m : M)
    (hw : (Net.run cap cd before).wire[j]? = some (k, p)) (hr : cd.read k p.topic p.bytes = some m) :
    m ∈ posts p.topic p.key (since (Net.run cap cd (before ++ .deliver j :: after)) k ((Net.run cap cd before).acts k).length) := by
  rw [run_cons_append]
  generalize Net.run cap cd before = w at hw ⊢
  have hacts : (w.step cap cd (.deliver j)).acts k = w.acts k ++ [.publishRaw p.topic p.key (some m)] := by
    simp [Net.step, hw, Net.act, hr]
  obtain ⟨l, hl⟩ := acts_from cap cd (w.step cap cd (.deliver j)) after k
  unfold since
  rw [hl, hacts, List.append_assoc, List.drop_left]
  simp [posts, post1]

/-! ### Nodes nothing happens to, and nodes that come back -/

theorem steady_hub {me n : Nat} {h : Hub} (hs : Ev.removed n ∉ h.heard ∧ Ev.removed n ∉ h.inbox) (o : HubOp)
    (ho : o ≠ .gone n) : Ev.removed n ∉ (h.step me o).heard ∧ Ev.removed n ∉ (h.step me o).inbox := by
  cases o with
  | disc o =>
    refine ⟨hs.1, ?_⟩
    simp only [Hub.step, Hub.disced]
    intro hi
    rcases List.mem_append.1 hi with hi | hi
    · exact hs.2 hi
    · obtain ⟨_, _, e⟩ := List.mem_map.1 hi
      nomatch e
  | gone m =>
    simp only [Hub.step]
    split
    · refine ⟨hs.1, ?_⟩
      intro hi
      rcases List.mem_append.1 hi with hi | hi
      · exact hs.2 hi
      · have : n = m := by simpa using hi
        exact ho (by rw [this])
    · exact hs
  | hear =>
    simp only [Hub.step]
    split
    · exact hs
    · rename_i e es he
      rw [he, List.mem_cons, not_or] at hs
      refine ⟨?_, hs.2.2⟩
      simp only [List.mem_append, List.mem_singleton, not_or]
      exact ⟨hs.1, hs.2.1⟩

theorem lastWord_added {n : Nat} {evs : List Ev} (ha : Ev.added n ∈ evs) (hr : Ev.removed n ∉ evs) :
    lastWord n evs = some true := by
  induction evs using snoc_induction with
  | nil => simp at ha
  | snoc evs e ih =>
    rw [lastWord_snoc]
    simp only [List.mem_append, List.mem_singleton, not_or] at ha hr
    rcases ha with ha | ha
    · rw [ih ha hr.1]
      cases e with
      | added m => simp only [Ev.word]; split <;> rfl
      | removed m =>
        have : ¬ m = n := fun e => hr.2 (by rw [e])
        simp [Ev.word, this]
    · subst ha; simp [Ev.word]

/-- **C114 (steady).** A node the discovery of node `i` has announced, and whose removal was never published there, is
addressed by what is published on `i`, or will be as soon as the mediator of `i` has handled what is waiting for it. -/
theorem C114_steady (cap : Nat) (cd : Codec M B) (ops : List (Op M)) (i n : Nat) (hne : n ≠ i)
    (ho : ∀ o ∈ ops, o ≠ .hub i (.gone n)) (hn : n ∈ ((Net.run cap cd ops).hub i).disc.added) :
    Addressed (Net.run cap cd ops) i n ∨ Ev.added n ∈ ((Net.run cap cd ops).hub i).inbox := by
  have key : ∀ w : Net M B, (Ev.removed n ∉ (w.hub i).heard ∧ Ev.removed n ∉ (w.hub i).inbox) →
      Ev.removed n ∉ ((w.runFrom cap cd ops).hub i).heard ∧ Ev.removed n ∉ ((w.runFrom cap cd ops).hub i).inbox := by
    clear hn
    induction ops with
    | nil => exact fun _ h => h
    | cons o ops ih =>
      intro w h
      refine ih (fun o' h' => ho o' (List.mem_cons_of_mem _ h')) _ ?_
      refine hub_step cap cd i (fun h => Ev.removed n ∉ h.heard ∧ Ev.removed n ∉ h.inbox) w o ?_ h
      intro o' he h'
      exact steady_hub h' o' fun e => ho o List.mem_cons_self (by rw [he, e])
  have hk := key {} (by simp [Hub.init])
  rcases (sound_run cap cd ops i).told n hn with h | h
  · exact .inl ⟨hne, lastWord_added h hk.1⟩
  · exact .inr h

theorem hears (cap : Nat) (cd : Codec M B) (w : Net M B) (i : Nat) (hd : (w.med i).dead = false) (k : Nat)
    (hk : (w.hub i).inbox.length = k) :
    ((w.runFrom cap cd (List.replicate k (.hub i .hear))).hub i).heard = (w.hub i).heard ++ (w.hub i).inbox ∧
      ((w.runFrom cap cd (List.replicate k (.hub i .hear))).hub i).inbox = [] := by
  induction k generalizing w with
  | zero =>
    have : (w.hub i).inbox = [] := List.length_eq_zero_iff.1 hk
    exact ⟨by simp [Net.runFrom, this], this⟩
  | succ k ih =>
    cases hin : (w.hub i).inbox with
    | nil => simp [hin] at hk
    | cons e es =>
      rw [List.replicate_succ, runFrom_cons]
      have hs : (w.step cap cd (.hub i .hear)).hub i =
          { w.hub i with inbox := es, heard := (w.hub i).heard ++ [e], nodes := learn i (w.hub i).nodes e } := by
        simp [Net.step, hd, Hub.step, hin]
      have hd' : ((w.step cap cd (.hub i .hear)).med i).dead = false := by simp [Net.step, hd]
      obtain ⟨h1, h2⟩ := ih _ hd' (by rw [hs]; simp [hin] at hk; exact hk)
      exact ⟨by rw [h1, hs]; simp, h2⟩

/-- **C114 (coming back).** A node that the registry of node `i` has as `Terminated`, or does not have, and that is not
stuck in a failed handshake, is addressed again once it has been discovered, its handshake has succeeded and the mediator
of `i` has handled what was waiting. -/
theorem C114_comes_back (cap : Nat) (cd : Codec M B) (before : List (Op M)) (i : Nat) (x : DNode) (env : DEnv)
    (hi : x.id ≠ i) (ha : ((Net.run cap cd before).med i).dead = false)
    (hr : ((Net.run cap cd before).hub i).disc.reg.get x.id ≠ some false)
    (hd : x.id ∉ ((Net.run cap cd before).hub i).disc.discovering) (he : env.client x.addr = true) :
    Addressed (Net.run cap cd (before ++ [.hub i (.disc (.nodes env [x])),
      .hub i (.disc (.shaken ((Net.run cap cd before).hub i).disc.shakes.length true))] ++
      List.replicate (((Net.run cap cd before).hub i).inbox.length + 1) (.hub i .hear))) i x.id := by
  have hS := sound_run cap cd before i
  rw [run_append, run_append]
  generalize Net.run cap cd before = w at hS ha hr hd ⊢
  have hcur : x.id ∉ (w.hub i).disc.current := fun h => hr ((mem_current _ hS.dwf.uniq x.id).1 h)
  have hd1 : (w.hub i).disc.step i (.nodes env [x]) =
      { (w.hub i).disc with reg := (w.hub i).disc.reg.insert x.id false,
                            discovering := x.id :: (w.hub i).disc.discovering,
                            shakes := (w.hub i).disc.shakes ++ [x] } := by
    simp only [Disc.step, Disc.discoverNodes, List.foldl_cons, List.foldl_nil, Disc.tryNode]
    rw [if_pos ⟨hcur, hd, he⟩]
  obtain ⟨w1, hw1⟩ : ∃ w1, w1 = w.step cap cd (.hub i (.disc (.nodes env [x]))) := ⟨_, rfl⟩
  have hh1 : w1.hub i = (w.hub i).disced ((w.hub i).disc.step i (.nodes env [x])) := by
    rw [hw1]; simp [Net.step, Hub.step]
  have e0 : (w1.med i).dead = false := by rw [hw1]; exact ha
  have e3 : (w1.hub i).inbox = (w.hub i).inbox := by rw [hh1, hd1]; simp [Hub.disced]
  have e4 : (w1.hub i).disc.discovering = x.id :: (w.hub i).disc.discovering := by rw [hh1, hd1]; rfl
  have e5 : (w1.hub i).disc.shakes = (w.hub i).disc.shakes ++ [x] := by rw [hh1, hd1]; rfl
  have hd2 : ((w1.hub i).disc.step i (.shaken (w.hub i).disc.shakes.length true)).added =
      (w1.hub i).disc.added ++ [x.id] := by
    have : (w1.hub i).disc.shakes[(w.hub i).disc.shakes.length]? = some x := by rw [e5]; simp
    simp only [Disc.step, this, Disc.nodeDiscovered, if_true]
    rw [if_pos (by rw [e4]; exact List.mem_cons_self)]
  obtain ⟨w2, hw2⟩ : ∃ w2, w2 = w1.step cap cd (.hub i (.disc (.shaken (w.hub i).disc.shakes.length true))) := ⟨_, rfl⟩
  have hh2 : w2.hub i = (w1.hub i).disced ((w1.hub i).disc.step i (.shaken (w.hub i).disc.shakes.length true)) := by
    rw [hw2]; simp [Net.step, Hub.step]
  have f0 : (w2.med i).dead = false := by rw [hw2]; exact e0
  have f2 : (w2.hub i).inbox = (w.hub i).inbox ++ [.added x.id] := by
    rw [hh2]
    simp only [Hub.disced, e3]
    rw [drop_append_left hd2]; rfl
  have er : (w.runFrom cap cd [.hub i (.disc (.nodes env [x])),
      .hub i (.disc (.shaken (w.hub i).disc.shakes.length true))]) = w2 := by
    rw [hw2, hw1]; rfl
  rw [er]
  obtain ⟨h1, _⟩ := hears cap cd w2 i f0 ((w.hub i).inbox.length + 1) (by rw [f2]; simp)
  refine ⟨hi, ?_⟩
  rw [h1, f2, ← List.append_assoc, lastWord_snoc]
  simp [Ev.word]

/-! ### Nodes shut out -/

/-- node `n` is in the registry of node `i`, not as `Terminated`; no handshake with it is under way and no announcement of
it is waiting; and what is published on `i` is not for it. -/
structure ShutOut (h : Hub) (n : Nat) : Prop where
  live : h.disc.reg.get n = some false
  shakes : n ∉ h.disc.shakes.map (·.id)
  inbox : Ev.added n ∉ h.inbox
  word : lastWord n h.heard ≠ some true

theorem ShutOut.step {me n : Nat} {h : Hub} (hs : Sound me h) (hc : ShutOut h n) (o : HubOp)
    (ho : o ≠ .disc (.status n true)) : ShutOut (h.step me o) n := by
  cases o with
  | disc o =>
    have hm := moves hs.dwf me o
    refine ⟨(hm.live n hc.live).resolve_right (fun e => ho (by rw [e])),
      fun h' => (hm.shakes n h').elim hc.shakes (fun h' => h' hc.live), ?_, hc.word⟩
    obtain ⟨l, ha, hl, _⟩ := hm.added
    simp only [Hub.step, Hub.disced, drop_append_left ha]
    intro hi
    rcases List.mem_append.1 hi with hi | hi
    · exact hc.inbox hi
    · obtain ⟨m, hm, e⟩ := List.mem_map.1 hi
      have : m = n := by simpa using e
      subst this
      exact hc.shakes (hl m hm).2
  | gone m =>
    simp only [Hub.step]
    split
    · refine ⟨hc.live, hc.shakes, ?_, hc.word⟩
      intro hi
      rcases List.mem_append.1 hi with hi | hi
      · exact hc.inbox hi
      · simp at hi
    · exact hc
  | hear =>
    simp only [Hub.step]
    split
    · exact hc
    · rename_i e es he
      have hin := hc.inbox
      rw [he, List.mem_cons, not_or] at hin
      refine ⟨hc.live, hc.shakes, hin.2, ?_⟩
      simp only [lastWord_snoc]
      cases e with
      | added m =>
        have : ¬ m = n := fun e => hin.1 (by rw [e])
        simp only [Ev.word, if_neg this, Option.none_or]
        exact hc.word
      | removed m =>
        simp only [Ev.word]
        split
        · simp
        · exact hc.word

/-- **C114 (refuted: everybody in the cluster).** A node that is in the registry of node `i`, alive and connected or not,
that is not addressed and whose announcement is not under way, never receives anything published on `i` again, whatever
happens, unless the registry of `i` has it as `Terminated` at some time: discovery passes over the nodes of the registry.
It is enough that the connection to it was lost and made again before the heartbeat's next turn. -/
theorem C114_shut_out_refuted (cap : Nat) (cd : Codec M B) (before mid after : List (Op M)) (i n : Nat) (t : TopicRef) (m : M)
    (hc : ShutOut ((Net.run cap cd before).hub i) n)
    (ho : ∀ o ∈ mid, o ≠ .hub i (.disc (.status n true))) :
    handedTo (Net.run cap cd (before ++ mid ++ .publish i t m :: after)) n (Net.run cap cd (before ++ mid)).next = 0 := by
  have key : ∀ w : Net M B, Sound i (w.hub i) → ShutOut (w.hub i) n → ShutOut ((w.runFrom cap cd mid).hub i) n := by
    induction mid with
    | nil => exact fun _ _ h => h
    | cons o mid ih =>
      intro w hw h
      have hb := hub_step cap cd i (fun h => Sound i h ∧ ShutOut h n) w o
        (fun o' he h' => ⟨h'.1.step o', h'.2.step h'.1 o' fun e => ho o List.mem_cons_self (by rw [he, e])⟩) ⟨hw, h⟩
      exact ih (fun o' h' => ho o' (List.mem_cons_of_mem _ h')) _ hb.1 hb.2
  have h := key _ (sound_run cap cd before i) hc
  rw [← run_append] at h
  have h1 := (C114_once cap cd (before ++ mid) after i t m n).2.1
  exact Classical.byContradiction fun hne => h.word (h1 (by omega)).2

/-- **C114 (the node itself).** As long as the registry of node `i` does not have `i` itself as `Terminated`, its
discovery neither contacts nor announces it, whoever names it as a peer. -/
theorem C114_not_itself (cap : Nat) (cd : Codec M B) (ops : List (Op M)) (i : Nat)
    (ho : ∀ o ∈ ops, o ≠ .hub i (.disc (.status i true))) :
    ((Net.run cap cd ops).hub i).disc.reg.get i = some false ∧ i ∉ ((Net.run cap cd ops).hub i).disc.added := by
  have key : ∀ w : Net M B, Sound i (w.hub i) ∧ Unasked (w.hub i).disc i →
      Sound i ((w.runFrom cap cd ops).hub i) ∧ Unasked ((w.runFrom cap cd ops).hub i).disc i := by
    induction ops with
    | nil => exact fun _ h => h
    | cons o ops ih =>
      intro w h
      refine ih (fun o' h' => ho o' (List.mem_cons_of_mem _ h')) _ ?_
      refine hub_step cap cd i (fun h => Sound i h ∧ Unasked h.disc i) w o ?_ h
      intro o' he h'
      refine ⟨h'.1.step o', ?_⟩
      cases o' with
      | disc d => exact h'.2.step h'.1.dwf i d fun e => ho o List.mem_cons_self (by rw [he, e])
      | gone m => simp only [Hub.step]; split <;> exact h'.2
      | hear => simp only [Hub.step]; split <;> exact h'.2
  have h := key {} ⟨Sound.init i, ⟨by simp [Hub.init, Assoc.get_cons], by simp [Hub.init], by simp [Hub.init]⟩⟩
  exact ⟨h.2.live, h.2.added⟩

/-! ### What the mediator is told -/

/-- the node an event says was added. -/
def addedOf : Ev → Option Nat
  | .added n => some n
  | .removed _ => none

/-- the node an event says was removed. -/
def removedOf : Ev → Option Nat
  | .added _ => none
  | .removed n => some n

structure Told2 (h : Hub) : Prop where
  added : (h.heard ++ h.inbox).filterMap addedOf = h.disc.added
  removed : ((h.heard ++ h.inbox).filterMap removedOf ++ h.leaving).Perm h.disc.removed

theorem Told2.step {me : Nat} {h : Hub} (hs : Sound me h) (ht : Told2 h) (o : HubOp) : Told2 (h.step me o) := by
  cases o with
  | disc o =>
    have hm := moves hs.dwf me o
    obtain ⟨l, ha, _⟩ := hm.added
    obtain ⟨l', hr, _⟩ := hm.removed
    refine ⟨?_, ?_⟩
    · simp only [Hub.step, Hub.disced, drop_append_left ha]
      rw [ha, ← ht.added, ← List.append_assoc, List.filterMap_append, List.filterMap_map]
      congr 1
      exact List.filterMap_some
    · simp only [Hub.step, Hub.disced, drop_append_left hr]
      have : List.filterMap removedOf ((List.drop h.disc.added.length (h.disc.step me o).added).map Ev.added) = [] := by
        rw [List.filterMap_eq_nil_iff]
        intro e he
        obtain ⟨_, _, e'⟩ := List.mem_map.1 he
        rw [← e']; rfl
      rw [hr, ← List.append_assoc h.heard, List.filterMap_append, this, List.append_nil, ← List.append_assoc]
      exact ht.removed.append_right _
  | gone n =>
    simp only [Hub.step]
    split
    · rename_i hn
      refine ⟨?_, ?_⟩
      · simp only
        rw [← List.append_assoc, List.filterMap_append, ht.added]; simp [addedOf]
      · simp only
        rw [← List.append_assoc, List.filterMap_append]
        refine List.Perm.trans ?_ ht.removed
        simp only [removedOf, List.filterMap_cons, List.filterMap_nil, List.append_assoc, List.singleton_append]
        exact List.Perm.append_left _ (List.perm_cons_erase hn).symm
    · exact ht
  | hear =>
    simp only [Hub.step]
    split
    · exact ht
    · rename_i e es he
      have h1 := ht.added
      have h2 := ht.removed
      rw [he] at h1 h2
      exact ⟨by simpa using h1, by simpa using h2⟩

/-- **C114 (what the mediator is told).** The announcements a mediator has handled or that are waiting for it are those
its discovery has made, in the same order; its removals are those of the discovery, except those whose task has yet to
publish. Nothing is told twice, nothing is left out. -/
theorem C114_told (cap : Nat) (cd : Codec M B) (ops : List (Op M)) (i : Nat) :
    let h := (Net.run cap cd ops).hub i
    (h.heard ++ h.inbox).filterMap addedOf = h.disc.added ∧
      ((h.heard ++ h.inbox).filterMap removedOf ++ h.leaving).Perm h.disc.removed := by
  have key : ∀ w : Net M B, Sound i (w.hub i) ∧ Told2 (w.hub i) →
      Sound i ((w.runFrom cap cd ops).hub i) ∧ Told2 ((w.runFrom cap cd ops).hub i) := by
    induction ops with
    | nil => exact fun _ h => h
    | cons o ops ih =>
      intro w h
      refine ih _ ?_
      exact hub_step cap cd i (fun h => Sound i h ∧ Told2 h) w o (fun o' _ h' => ⟨h'.1.step o', h'.2.step h'.1 o'⟩) h
  have h := key {} ⟨Sound.init i, ⟨by simp [Hub.init], by simp [Hub.init]⟩⟩
  exact ⟨h.2.added, h.2.removed⟩

theorem med_dead (cap : Nat) (σ : Med M) (o : MedOp M) (h : σ.dead = true) : (σ.step cap o).dead = true := by
  cases o <;> simp [Med.step, h]

/-- **C114 (a dead mediator).** A mediator that has panicked is gone for good: it learns of no more nodes and every
publication on its node panics in the publisher. -/
theorem C114_dead (cap : Nat) (cd : Codec M B) (before after : List (Op M)) (i : Nat)
    (hd : ((Net.run cap cd before).med i).dead = true) :
    ((Net.run cap cd (before ++ after)).hub i).nodes = ((Net.run cap cd before).hub i).nodes ∧
    ∀ t m, ((Net.run cap cd (before ++ after)).publish cap cd i t m).2 = .died := by
  rw [run_append]
  generalize Net.run cap cd before = w at hd ⊢
  have hact : ∀ (w : Net M B) k o, (w.med i).dead = true → ((w.act cap k o).med i).dead = true := by
    intro w k o hd
    simp only [Net.act]
    split
    · rename_i e; subst e; exact med_dead cap _ o hd
    · exact hd
  have key : ∀ w : Net M B, (w.med i).dead = true →
      ((w.runFrom cap cd after).hub i).nodes = (w.hub i).nodes ∧ ((w.runFrom cap cd after).med i).dead = true := by
    clear hd
    induction after with
    | nil => exact fun _ h => ⟨rfl, h⟩
    | cons o after ih =>
      intro w hd
      have hm : ((w.step cap cd o).med i).dead = true := by
        cases o with
        | hub k o =>
          cases o with
          | hear => simp only [Net.step]; split <;> exact hd
          | disc o => exact hd
          | gone n => exact hd
        | own k o =>
          simp only [Net.step]
          split
          · exact hd
          · exact hact w k o hd
        | publish k t m =>
          simp only [Net.step, Net.publish]
          split
          · exact hact w k _ hd
          · split
            · exact hact w k _ hd
            · split <;> exact hact w k _ hd
        | send k ok =>
          simp only [Net.step]
          split
          · exact hd
          · split <;> exact hd
        | deliver k =>
          simp only [Net.step]
          split
          · exact hd
          · exact hact w _ _ hd
        | lose k => simp only [Net.step]; split <;> exact hd
      have hn : ((w.step cap cd o).hub i).nodes = (w.hub i).nodes := by
        by_cases ha : apart o = true
        · rw [step_hub_apart cap cd w o ha]
        · cases o with
          | hub k o =>
            by_cases e : k = i
            · subst e
              cases o with
              | hear => simp [Net.step, hd]
              | disc o => simp [Net.step, Hub.step, Hub.disced]
              | gone n => simp only [Net.step, Hub.step, if_true]; split <;> rfl
            · rcases step_hub cap cd w k o i with e' | ⟨e', _⟩
              · rw [e']
              · exact absurd e'.symm e
          | _ => simp [apart] at ha
      obtain ⟨h1, h2⟩ := ih _ hm
      exact ⟨h1.trans hn, h2⟩
  obtain ⟨h1, h2⟩ := key w hd
  refine ⟨h1, fun t m => ?_⟩
  simp only [Net.publish, act_med, med_dead cap _ _ h2, if_true]

/-! ### What the publisher is told -/

/-- **C114 (the answer).** Publishing to the cluster is answered with an error exactly if the mediator lives, knows
another node and the message cannot be written as bytes. -/
theorem C114_answer (cap : Nat) (cd : Codec M B) (w : Net M B) (i : Nat) (t : TopicRef) (m : M) :
    (w.publish cap cd i t m).2 = .unwritable ↔
      ((w.med i).step cap (.publish t m)).dead = false ∧ (w.hub i).nodes ≠ [] ∧ cd.write m = none := by
  unfold Net.publish
  simp only [act_med]
  cases hd : ((w.med i).step cap (.publish t m)).dead with
  | true => simp
  | false =>
    by_cases hn : (w.hub i).nodes = []
    · simp [hn]
    · simp only [Bool.false_eq_true, if_false, if_neg hn]
      cases hw : cd.write m with
      | none => simp [hn]
      | some b => simp

/-! ### Cases -/

/-- nodes 1 and 2, at "a" and "b". -/
def both : DEnv := demoEnv [("a", ⟨⟨1, "a"⟩, []⟩), ("b", ⟨⟨2, "b"⟩, []⟩), ("c", ⟨⟨3, "c"⟩, []⟩)]

/-- node `i` discovers the node at an address, and its mediator hears of it. -/
def meet (i : Nat) (addr : String) : List (Op Nat) :=
  [.hub i (.disc (.discover both addr)), .hub i (.disc (.next both)), .hub i (.disc (.shaken 0 true)), .hub i .hear]

/-- the connection of node `i` to the node at an address is lost, and made again before the next heartbeat. -/
def blip (i n : Nat) (addr : String) : List (Op Nat) :=
  [.hub i (.disc (.forget addr)), .hub i (.gone n), .hub i .hear, .hub i (.disc (.discover both addr)),
    .hub i (.disc (.next both))]

/-- numbers are written as they are, but not 0; every node can read them. -/
def plain : Codec Nat Nat := ⟨fun m => if m = 0 then none else some m, fun _ _ b => some b⟩

def news : TopicRef := ⟨1, "news", 1, "k"⟩

/-- nodes 1, 2 and 3 know one another from node 1 and from node 2; there are subscribers on all. -/
def trio : List (Op Nat) :=
  meet 1 "b" ++ meet 1 "c" ++ meet 2 "a" ++
    [.own 1 (.subscribe 0 news), .own 2 (.subscribe 0 news), .own 3 (.subscribe 0 news)]

-- node 1 publishes, everybody receives once
example : ((Net.run 1024 plain trio).hub 1).nodes = [3, 2] ∧
    ((Net.run 1024 plain trio).publish 1024 plain 1 news 7).2 = .ok := by decide +kernel

/-- what is sent and arrives, and what the subscribers do. -/
def carry : List (Op Nat) :=
  [.send 0 true, .send 0 true, .deliver 1, .deliver 0, .own 1 (.pump 0), .own 2 (.pump 0), .own 3 (.pump 0)]

example : let w := Net.run 1024 plain (trio ++ .publish 1 news 7 :: carry)
    (w.med 1).received 0 = [7] ∧ (w.med 2).received 0 = [7] ∧ (w.med 3).received 0 = [7] ∧
    handedTo w 2 0 = 1 ∧ handedTo w 3 0 = 1 ∧ handedTo w 1 0 = 0 ∧ lostFor w 2 0 = 0 ∧ w.todo = [] ∧ w.wire = [] := by
  decide +kernel

example : Addressed (Net.run 1024 plain trio) 1 2 ∧ Addressed (Net.run 1024 plain trio) 1 3 ∧
    ¬ Addressed (Net.run 1024 plain trio) 2 3 := by decide +kernel

-- the hypotheses of the claims about subscribers
example : ((Net.run 1024 plain trio).med 2).dead = false ∧
    (((Net.run 1024 plain (meet 1 "b")).med 2).subscribe 0 news).2 = true := by decide +kernel

example : ∀ o ∈ since (Net.run 1024 plain (meet 1 "b" ++ .own 2 (.subscribe 0 news) :: .publish 1 news 7 :: carry)) 2 1,
    subscribes 0 o = false := by decide +kernel

example : (Net.run 1024 plain (trio ++ [.publish 1 news 7, .send 0 true])).wire[0]? = some (3, ⟨0, "news", "k", 7⟩) ∧
    plain.read 3 "news" 7 = some 7 := by decide +kernel

-- node 2 has been announced on node 1 and never removed
example : 2 ∈ ((Net.run 1024 plain trio).hub 1).disc.added := by decide +kernel

-- node 1 is told of itself
example : ((Net.run 1024 plain (.hub 1 (.disc (.nodes both [⟨1, "a"⟩, ⟨2, "b"⟩])) :: trio)).hub 1).disc.added = [2, 3] := by
  decide +kernel

-- a topic of the same name with messages of another type kills the mediator, which then learns nothing
example : let ops : List (Op Nat) := [.own 1 (.subscribe 0 news), .publish 1 ⟨2, "news", 2, "k"⟩ 5]
    ((Net.run 1024 plain ops).med 1).dead = true ∧ ((Net.run 1024 plain (ops ++ meet 1 "b")).hub 1).nodes = [] := by
  decide +kernel

-- the connection from node 1 to node 2 is lost and made again
theorem blip_shut_out : ShutOut ((Net.run 1024 plain (trio ++ blip 1 2 "b")).hub 1) 2 :=
  ⟨by decide +kernel, by decide +kernel, by decide +kernel, by decide +kernel⟩

-- node 1 never again publishes for node 2
example (mid after : List (Op Nat)) (m : Nat) (ho : ∀ o ∈ mid, o ≠ .hub 1 (.disc (.status 2 true))) :
    handedTo (Net.run 1024 plain (trio ++ blip 1 2 "b" ++ mid ++ .publish 1 news m :: after)) 2
      (Net.run 1024 plain (trio ++ blip 1 2 "b" ++ mid)).next = 0 :=
  C114_shut_out_refuted 1024 plain _ mid after 1 2 news m blip_shut_out ho

/-- **C114 (refuted: both ways).** Two nodes of which each can write to the other: what is published on node 2 reaches
the subscriber on node 1, what is published on node 1 does not reach the subscriber on node 2. Nothing was lost, the
publisher was told `Ok`, and everything is quiet. -/
theorem C114_one_way_refuted :
    let ops := trio ++ blip 1 2 "b" ++ [.publish 1 news 7, .publish 2 news 8, .send 0 true, .send 0 true, .deliver 0,
      .deliver 0, .own 1 (.pump 0), .own 1 (.pump 0), .own 2 (.pump 0), .own 2 (.pump 0)]
    let w := Net.run 1024 plain ops
    (w.med 1).received 0 = [7, 8] ∧ (w.med 2).received 0 = [8] ∧ w.lost = [] ∧ w.todo = [] ∧ w.wire = [] ∧
      ((Net.run 1024 plain (trio ++ blip 1 2 "b")).publish 1024 plain 1 news 7).2 = .ok := by decide +kernel

/-- **C114 (refuted: all or none).** A message that cannot be written as bytes is received by the subscribers of its own
node and by no others, and the publisher is told that it failed; alone in the cluster it would be told `Ok`. -/
theorem C114_half_refuted :
    ((Net.run 1024 plain trio).publish 1024 plain 1 news 0).2 = .unwritable ∧
    ((Net.run 1024 plain (trio ++ [.publish 1 news 0, .own 1 (.pump 0)])).med 1).received 0 = [0] ∧
    (Net.run 1024 plain (trio ++ [.publish 1 news 0, .own 1 (.pump 0)])).todo = [] ∧
    ((Net.run 1024 plain [.own 1 (.subscribe 0 news)]).publish 1024 plain 1 news 0).2 = .ok := by decide +kernel

/-- **C114 (refuted: everybody in the cluster).** A message published while a node has no connection is lost for that
node, although it is in the cluster before and after; the publisher is told `Ok`. -/
theorem C114_lost_refuted :
    let w := Net.run 1024 plain (trio ++ [.publish 1 news 7, .send 0 true, .send 0 false, .deliver 0, .publish 1 news 8,
      .send 0 true, .send 0 true, .deliver 0, .deliver 0, .own 2 (.pump 0), .own 2 (.pump 0), .own 3 (.pump 0),
      .own 3 (.pump 0)])
    (w.med 3).received 0 = [7, 8] ∧ (w.med 2).received 0 = [8] ∧ w.todo = [] ∧ w.wire = [] ∧ lostFor w 2 0 = 1 ∧
      ((Net.run 1024 plain trio).publish 1024 plain 1 news 7).2 = .ok := by decide +kernel

-- node 2 is `Terminated` and comes back
example : let ops := trio ++ blip 1 2 "b" ++ [.hub 1 (.disc (.status 2 true))]
    ((Net.run 1024 plain ops).hub 1).disc.reg.get 2 ≠ some false ∧
    2 ∉ ((Net.run 1024 plain ops).hub 1).disc.discovering ∧ both.client "b" = true ∧
    ¬ Addressed (Net.run 1024 plain ops) 1 2 := by decide +kernel

end Verif.Remote.Topics
