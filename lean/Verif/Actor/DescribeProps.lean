import Verif.Actor.DescribeModel

/-! C71 and C72: describing the actor hierarchy. -/

namespace Verif.Actor.Describe

/-! ### Equations -/

/-- What `describe_all` makes of one actor. -/
def one (o : Options) (tie : Bool) (currentDepth nextDepth : Nat) (t : Tree) : Nat × Desc :=
  match reply o tie nextDepth t with
  | none => (0, .err t.id false)
  | some r => await tie (waitFor currentDepth) t.id r

theorem results_eq (o : Options) (tie : Bool) (c n : Nat) (ts : List Tree) :
    results o tie c n ts = ts.map (fun t => (t.attached, one o tie c n t)) := by
  induction ts with
  | nil => simp [results]
  | cons t ts ih => simp only [results, List.map_cons, ih]; rfl

/-- Selecting before describing is the same as selecting afterwards. -/
theorem getDescribable_map (a : Bool) (m : Option Nat) (f : α → β) (l : List (Bool × α)) :
    getDescribable a m (l.map (fun x => (x.1, f x.2))) = (getDescribable a m l).map f := by
  cases m with
  | none => simp only [getDescribable, List.filter_map, List.map_map]; rfl
  | some n => simp only [getDescribable, List.filter_map, List.map_map, ← List.map_take]; rfl

/-! ### Specification -/

/-- The children a description may show: not the attached ones if those are excluded, and no more than the
limit. -/
def shown (o : Options) (kids : List Tree) : List Tree :=
  let l := kids.filter (fun t => o.childDescribeAttached || !t.attached)
  match o.maxChildren with
  | none => l
  | some n => l.take n

theorem shown_eq (o : Options) (f : Tree → β) (kids : List Tree) :
    getDescribable o.childDescribeAttached o.maxChildren (kids.map (fun t => (t.attached, f t)))
      = (shown o kids).map f := by
  unfold shown getDescribable
  cases o.maxChildren with
  | none => simp only [List.filter_map, List.map_map]; rfl
  | some n => simp only [List.filter_map, List.map_map, ← List.map_take]; rfl

/-- Level `l` (top level 1) may be shown. The top level always is. -/
def levelShown (o : Options) (l : Nat) : Prop := ∀ m, o.maxDepth = some m → l ≤ m

instance (o : Options) (l : Nat) : Decidable (levelShown o l) :=
  match h : o.maxDepth with
  | none => .isTrue (by intro m hm; rw [h] at hm; cases hm)
  | some m =>
    if hl : l ≤ m then .isTrue (by intro m' hm; rw [h] at hm; cases hm; exact hl)
    else .isFalse (fun hh => hl (hh m h))

/-- `Faithful o l t d`: `d` is a truthful account of the actor `t` at level `l`: it names `t`; an error means
that `t` cannot answer; an answer lists exactly the children to be shown, in order, each truthfully
described, and leaves them out only for lack of such children or because of the depth limit. -/
inductive Faithful (o : Options) : Nat → Tree → Desc → Prop
  | timeout (l : Nat) (t : Tree) : t.resp ≠ .invalid → Faithful o l t (.timeout t.id)
  | invalid (l : Nat) (t : Tree) : t.resp = .invalid → Faithful o l t (.err t.id false)
  | lost (l : Nat) (t : Tree) (d : Nat) : t.resp = .lost d → Faithful o l t (.err t.id true)
  | leaf (l : Nat) (t : Tree) (d : Nat) : t.resp = .after d →
      (shown o t.kids = [] ∨ ¬ levelShown o (l + 1)) → Faithful o l t (.ok t.id none)
  | deep (l : Nat) (t : Tree) (d : Nat) (ds : List Desc) : t.resp = .after d → shown o t.kids ≠ [] →
      levelShown o (l + 1) → ds.length = (shown o t.kids).length →
      (∀ i (h : i < ds.length) (h' : i < (shown o t.kids).length),
        Faithful o (l + 1) ((shown o t.kids)[i]) (ds[i])) → Faithful o l t (.ok t.id (some ds))

theorem goesDeeper_iff (o : Options) (l : Nat) : goesDeeper o l = true ↔ levelShown o (l + 1) := by
  unfold goesDeeper levelShown
  cases h : o.maxDepth with
  | none => simp
  | some m => simp

theorem shown_subset (o : Options) (kids : List Tree) : ∀ t ∈ shown o kids, t ∈ kids := by
  intro t ht
  unfold shown at ht
  cases h : o.maxChildren with
  | none => rw [h] at ht; exact (List.mem_filter.1 ht).1
  | some n => rw [h] at ht; exact (List.mem_filter.1 (List.mem_of_mem_take ht)).1

/-- The reply of an actor that handles the message. -/
theorem reply_after (o : Options) (tie : Bool) (l : Nat) (id : Nat) (a : Bool) (d : Nat) (kids : List Tree) :
    reply o tie l (.node id a (.after d) kids) =
      some (handlerReply id d (goesDeeper o l) ((shown o kids).map (one o tie l (l + 1)))) := by
  rw [reply, results_eq, shown_eq]

theorem await_cases (tie : Bool) (n id : Nat) (r : Reply) :
    await tie n id r = (n, .timeout id) ∨ (∃ t d, r = .desc t d ∧ t ≤ n ∧ await tie n id r = (t, d)) ∨
      (∃ t, r = .closed t ∧ t ≤ n ∧ await tie n id r = (t, .err id true)) := by
  cases r with
  | never => left; rfl
  | desc t d =>
    simp only [await]
    split
    · right; left; exact ⟨t, d, rfl, by omega, rfl⟩
    · left; rfl
  | closed t =>
    simp only [await]
    split
    · right; right; exact ⟨t, rfl, by omega, rfl⟩
    · left; rfl

theorem sizeOf_kid {t : Tree} {k : Tree} (h : k ∈ t.kids) : sizeOf k < sizeOf t := by
  cases t with
  | node i a r ks =>
    have := List.sizeOf_lt_of_mem (show k ∈ ks from h)
    simp only [Tree.node.sizeOf_spec]; omega

theorem tree_induction {P : Tree → Prop} (h : ∀ t, (∀ k ∈ t.kids, P k) → P t) (t : Tree) : P t :=
  h t (fun k _hk => tree_induction h k)
termination_by sizeOf t
decreasing_by exact sizeOf_kid _hk

theorem one_faithful (o : Options) (tie : Bool) (t : Tree) :
    ∀ c l, Faithful o l t (one o tie c l t).2 := by
  induction t using tree_induction with
  | h t ih =>
    intro c l
    cases t with
    | node id a resp kids =>
      cases resp with
      | invalid => simp only [one, reply]; exact .invalid l (.node id a .invalid kids) rfl
      | stuck => simp only [one, reply, await]; exact .timeout l (.node id a .stuck kids) (by simp [Tree.resp])
      | lost d =>
        simp only [one, reply]
        rcases await_cases tie (waitFor c) id (.closed d) with h | ⟨_, _, h, _⟩ | ⟨t', h, _, h'⟩
        · rw [Tree.id, h]; exact .timeout l (.node id a (.lost d) kids) (by simp [Tree.resp])
        · cases h
        · rw [Tree.id, h']; exact .lost l (.node id a (.lost d) kids) d rfl
      | after d =>
        simp only [one, reply_after]
        rcases await_cases tie (waitFor c) id
          (handlerReply id d (goesDeeper o l) ((shown o kids).map (one o tie l (l + 1)))) with
          h | ⟨t', d', h, _, h'⟩ | ⟨_, h, _⟩
        · rw [Tree.id, h]; exact .timeout l (.node id a (.after d) kids) (by simp [Tree.resp])
        · rw [Tree.id, h']
          unfold handlerReply at h
          split at h
          · rename_i hd
            obtain ⟨hd1, hd2⟩ := hd
            cases h
            refine .deep l (.node id a (.after d) kids) d _ rfl ?_ ((goesDeeper_iff o l).1 hd1) ?_ ?_
            · intro he; apply hd2; simp only [Tree.kids] at he; rw [he]; rfl
            · simp [Tree.kids]
            · intro i h1 h2
              simp only [List.getElem_map]
              exact ih _ (shown_subset o kids _ (List.getElem_mem _)) l (l + 1)
          · rename_i hd
            cases h
            refine .leaf l (.node id a (.after d) kids) d rfl ?_
            rw [Decidable.not_and_iff_or_not] at hd
            rcases hd with hd | hd
            · right; rw [← goesDeeper_iff]; exact hd
            · left
              have := Decidable.not_not.1 hd
              exact List.map_eq_nil_iff.1 this
        · unfold handlerReply at h
          split at h <;> cases h

theorem faithful_id {o : Options} {l : Nat} {t : Tree} {d : Desc} (h : Faithful o l t d) : d.id = t.id := by
  cases h <;> rfl

theorem describeAll_eq (o : Options) (tie : Bool) (as : List Tree) (s : Tree) :
    (describeAll o tie as s).2 = (as ++ [s]).map (fun t => (one o tie 0 1 t).2) := by
  simp only [describeAll, results_eq, List.map_map]; rfl

/-! ### C71: what is reported -/

/-- One entry for every tracked actor and the scheduler, in order, whatever the options and however the
actors react. -/
theorem C71_one_each (o : Options) (tie : Bool) (actors : List Tree) (scheduler : Tree) :
    (describeAll o tie actors scheduler).2.map Desc.id = (actors ++ [scheduler]).map Tree.id := by
  rw [describeAll_eq, List.map_map]
  apply List.map_congr_left
  intro t _
  exact faithful_id (one_faithful o tie t 0 1)

/-- Every entry is a truthful account of its actor. -/
theorem C71_faithful (o : Options) (tie : Bool) (actors : List Tree) (scheduler : Tree) (i : Nat)
    (t : Tree) (d : Desc) (ht : (actors ++ [scheduler])[i]? = some t)
    (hd : (describeAll o tie actors scheduler).2[i]? = some d) : Faithful o 1 t d := by
  rw [describeAll_eq, List.getElem?_map, ht] at hd
  cases hd
  exact one_faithful o tie t 0 1

mutual
/-- Levels of a description. -/
def Desc.depth : Desc → Nat
  | .ok _ (some ds) => 1 + depths ds
  | .ok _ none => 1
  | .err _ _ => 1
  | .timeout _ => 1
def depths : List Desc → Nat
  | [] => 0
  | d :: ds => max d.depth (depths ds)
end

theorem depths_le {ds : List Desc} {n : Nat} (h : ∀ i (hi : i < ds.length), (ds[i]).depth ≤ n) :
    depths ds ≤ n := by
  induction ds with
  | nil => simp [depths]
  | cons d ds ih =>
    have h0 := h 0 (by simp)
    have := ih (fun i hi => by have := h (i + 1) (by simp; omega); simpa using this)
    simp only [depths, List.getElem_cons_zero] at h0 ⊢
    omega

theorem faithful_depth {o : Options} {m : Nat} (hm : o.maxDepth = some m) {l : Nat} {t : Tree} {d : Desc}
    (h : Faithful o l t d) : d.depth ≤ max 1 (m + 1 - l) := by
  induction h with
  | timeout l t _ => simp only [Desc.depth]; omega
  | invalid l t _ => simp only [Desc.depth]; omega
  | lost l t d _ => simp only [Desc.depth]; omega
  | leaf l t d _ _ => simp only [Desc.depth]; omega
  | deep l t d ds _ _ hl hlen _ ih =>
    have := hl m hm
    simp only [Desc.depth]
    have : depths ds ≤ max 1 (m + 1 - (l + 1)) := depths_le (fun i hi => ih i hi (by omega))
    omega

/-- No more levels than asked for, but always one. -/
theorem C71_depth (o : Options) (tie : Bool) (actors : List Tree) (scheduler : Tree) (m : Nat)
    (hm : o.maxDepth = some m) (d : Desc) (hd : d ∈ (describeAll o tie actors scheduler).2) :
    d.depth ≤ max 1 m := by
  rw [describeAll_eq] at hd
  obtain ⟨t, _, rfl⟩ := List.mem_map.1 hd
  have := faithful_depth hm (one_faithful o tie t 0 1)
  omega

mutual
/-- Actors reported, in order. -/
def Desc.ids : Desc → List Nat
  | .ok i (some ds) => i :: idsOf ds
  | .ok i none => [i]
  | .err i _ => [i]
  | .timeout i => [i]
def idsOf : List Desc → List Nat
  | [] => []
  | d :: ds => d.ids ++ idsOf ds
end

mutual
/-- Actors of the hierarchy, in the same order. -/
def Tree.ids : Tree → List Nat
  | .node i _ _ kids => i :: treeIds kids
def treeIds : List Tree → List Nat
  | [] => []
  | t :: ts => t.ids ++ treeIds ts
end

mutual
/-- Every actor handles its messages. -/
def Tree.live : Tree → Prop
  | .node _ _ (.after _) kids => allLive kids
  | .node _ _ _ _ => False
def allLive : List Tree → Prop
  | [] => True
  | t :: ts => t.live ∧ allLive ts
end

mutual
/-- The longest chain of handling delays from an actor down. -/
def Tree.latency : Tree → Nat
  | .node _ _ (.after d) kids => d + latencies kids
  | .node _ _ _ _ => 0
def latencies : List Tree → Nat
  | [] => 0
  | t :: ts => max t.latency (latencies ts)
end

theorem allLive_mem {ts : List Tree} (h : allLive ts) : ∀ t ∈ ts, t.live := by
  induction ts with
  | nil => simp
  | cons a l ih =>
    intro t ht
    rcases List.mem_cons.1 ht with rfl | ht
    · exact h.1
    · exact ih h.2 t ht

theorem latency_mem {ts : List Tree} : ∀ t ∈ ts, t.latency ≤ latencies ts := by
  induction ts with
  | nil => simp
  | cons a l ih =>
    intro t ht
    rcases List.mem_cons.1 ht with rfl | ht
    · simp only [latencies]; omega
    · have := ih t ht; simp only [latencies]; omega

theorem idsOf_map {f : Tree → Desc} {ts : List Tree} (h : ∀ t ∈ ts, (f t).ids = t.ids) :
    idsOf (ts.map f) = treeIds ts := by
  induction ts with
  | nil => rfl
  | cons a l ih =>
    simp only [List.map_cons, idsOf, treeIds]
    rw [h a (by simp), ih (fun t ht => h t (by simp [ht]))]

theorem lastOf_map_le {α : Type} {f : α → Nat} {ts : List α} {n : Nat} (h : ∀ t ∈ ts, f t ≤ n) :
    lastOf (ts.map f) ≤ n := by
  induction ts with
  | nil => simp [lastOf]
  | cons a l ih =>
    have h1 := h a (by simp)
    have h2 := ih (fun t ht => h t (by simp [ht]))
    simp only [lastOf, List.map_cons, List.foldr_cons] at h2 ⊢
    omega

/-- With nothing excluded, an actor all of whose descendants are live and fast is described completely. -/
theorem one_complete (o : Options) (tie : Bool) (hd : o.maxDepth = none) (hc : o.maxChildren = none)
    (ha : o.childDescribeAttached = true) (t : Tree) :
    ∀ c l, t.live → t.latency < waitFor c → (∀ k ∈ t.kids, k.latency < 5000) → 0 < l →
      (one o tie c l t).1 ≤ t.latency ∧ (one o tie c l t).2.ids = t.ids := by
  induction t using tree_induction with
  | h t ih =>
    intro c l hlive hlat hk hl
    cases t with
    | node id a resp kids =>
      cases resp with
      | invalid => simp [Tree.live] at hlive
      | stuck => simp [Tree.live] at hlive
      | lost d => simp [Tree.live] at hlive
      | after d =>
        simp only [Tree.live] at hlive
        simp only [Tree.latency] at hlat ⊢
        have hsh : shown o kids = kids := by simp [shown, hc, ha]
        have hdeep : goesDeeper o l = true := by simp [goesDeeper, hd]
        have hw : waitFor l = 5000 := by simp [waitFor, hl]
        have hkid : ∀ k ∈ kids, (one o tie l (l + 1) k).1 ≤ k.latency ∧ (one o tie l (l + 1) k).2.ids = k.ids := by
          intro k hkm
          refine ih k hkm l (l + 1) (allLive_mem hlive k hkm) (by rw [hw]; exact hk k hkm) ?_ (by omega)
          intro k' hk'
          have h1 := hk k hkm
          cases k with
          | node i' a' r' ks' =>
            cases r' with
            | after d' =>
              simp only [Tree.latency] at h1
              have := latency_mem k' (show k' ∈ ks' from hk')
              omega
            | invalid => exact absurd (allLive_mem hlive _ hkm) (by simp [Tree.live])
            | stuck => exact absurd (allLive_mem hlive _ hkm) (by simp [Tree.live])
            | lost d => exact absurd (allLive_mem hlive _ hkm) (by simp [Tree.live])
        simp only [one, reply_after, hsh, hdeep, Tree.id]
        unfold handlerReply
        by_cases hkn : kids = []
        · subst hkn
          simp only [List.map_nil, ne_eq, not_true_eq_false, and_false, if_false, await]
          have : d < waitFor c := by omega
          rw [if_pos (Or.inl this)]
          simp [Desc.ids, Tree.ids, treeIds]
        · have hne : kids.map (one o tie l (l + 1)) ≠ [] := by simpa using hkn
          rw [if_pos ⟨rfl, hne⟩]
          have hmax : lastOf ((kids.map (one o tie l (l + 1))).map (·.1)) ≤ latencies kids := by
            rw [List.map_map]
            refine lastOf_map_le ?_
            intro t ht
            exact Nat.le_trans (hkid t ht).1 (latency_mem t ht)
          simp only [await]
          rw [if_pos (Or.inl (by omega))]
          refine ⟨by simp only []; omega, ?_⟩
          simp only [Desc.ids, Tree.ids, List.map_map]
          congr 1
          exact idsOf_map (fun t ht => (hkid t ht).2)

/-- With no limits, a system of live actors whose handling delays add up to less than the waiting times (5 s
below the top level, 10 s at the top) is reported completely: the same actors in the same order. -/
theorem C71_complete (o : Options) (tie : Bool) (actors : List Tree) (scheduler : Tree)
    (hd : o.maxDepth = none) (hc : o.maxChildren = none) (ha : o.childDescribeAttached = true)
    (hlive : ∀ t ∈ actors ++ [scheduler], t.live)
    (hlat : ∀ t ∈ actors ++ [scheduler], t.latency < 10000 ∧ ∀ k ∈ t.kids, k.latency < 5000) :
    idsOf (describeAll o tie actors scheduler).2 = treeIds (actors ++ [scheduler]) := by
  rw [describeAll_eq]
  refine idsOf_map ?_
  intro t ht
  exact (one_complete o tie hd hc ha t 0 1 (hlive t ht) (hlat t ht).1 (hlat t ht).2 (by omega)).2

/-! ### C72: time and unresponsive actors -/

theorem one_time (o : Options) (tie : Bool) (c n : Nat) (t : Tree) : (one o tie c n t).1 ≤ waitFor c := by
  unfold one
  split
  · simp
  · rename_i r _
    rcases await_cases tie (waitFor c) t.id r with h | ⟨_, _, _, hle, h⟩ | ⟨_, _, hle, h⟩ <;> rw [h]
    · simp
    · exact hle
    · exact hle

/-- The answer to `DescribeAll` is ready within ten seconds, whatever the actors do. -/
theorem C72_bounded (o : Options) (tie : Bool) (actors : List Tree) (scheduler : Tree) :
    (describeAll o tie actors scheduler).1 ≤ 10000 := by
  simp only [describeAll, results_eq, List.map_map]
  refine lastOf_map_le ?_
  intro t _
  exact one_time o tie 0 1 t

/-- What is said of one top-level actor does not depend on the others. -/
theorem C72_independent (o : Options) (tie : Bool) (as bs : List Tree) (t s : Tree) :
    (describeAll o tie (as ++ t :: bs) s).2[as.length]? = (describeAll o tie [] t).2[0]? := by
  rw [describeAll_eq, describeAll_eq]
  simp

/-- A live top-level actor that handles the message within five seconds is described with all its children:
children that are stuck are reported as timed out, and children without children of their own that answer
within five seconds are reported as they are. -/
theorem C72_two_levels (o : Options) (tie : Bool) (id : Nat) (a : Bool) (d : Nat) (kids : List Tree)
    (hd : d < 5000) (hm : levelShown o 2) (hne : shown o kids ≠ []) :
    ∃ ds, (one o tie 0 1 (.node id a (.after d) kids)).2 = .ok id (some ds) ∧
      ds.length = (shown o kids).length ∧
      ∀ i (h : i < ds.length) (h' : i < (shown o kids).length),
        ((shown o kids)[i].resp = .stuck → ds[i] = .timeout (shown o kids)[i].id) ∧
        (∀ d', (shown o kids)[i].resp = .after d' → d' < 5000 → (shown o kids)[i].kids = [] →
          ds[i] = .ok (shown o kids)[i].id none) := by
  have hdeep : goesDeeper o 1 = true := (goesDeeper_iff o 1).2 hm
  have hne' : (shown o kids).map (one o tie 1 2) ≠ [] := by simpa using hne
  have hmax : lastOf (((shown o kids).map (one o tie 1 2)).map (·.1)) ≤ 5000 := by
    rw [List.map_map]
    refine lastOf_map_le ?_
    intro t _
    exact one_time o tie 1 2 t
  refine ⟨((shown o kids).map (one o tie 1 2)).map (·.2), ?_, by simp, ?_⟩
  · simp only [one, reply_after, hdeep, handlerReply]
    rw [if_pos ⟨trivial, hne'⟩]
    simp only [await]
    have : waitFor 0 = 10000 := rfl
    have h12 : (1 + 1 : Nat) = 2 := rfl
    rw [h12, if_pos (Or.inl (by omega))]
  · intro i h h'
    simp only [List.getElem_map]
    generalize (shown o kids)[i] = k
    cases k with
    | node i' a' r' ks' =>
      constructor
      · intro hr
        simp only [Tree.resp] at hr
        subst hr
        simp [one, reply, await]
      · intro d' hr hd' hk
        simp only [Tree.resp] at hr
        simp only [Tree.kids] at hk
        subst hr; subst hk
        simp only [one, reply_after, handlerReply]
        have : shown o [] = [] := by unfold shown; cases o.maxChildren <;> simp
        rw [this]
        have h5 : waitFor 1 = 5000 := rfl
        simp [await, h5, hd', Tree.id]

/-- Below that, one stuck actor hides its parent: an actor at level 2 or deeper with a stuck child among the
children to be shown is itself reported as timed out, however fast it is, because both waits are five
seconds and its own began later. (`d = 0` is the race of two simultaneous events.) -/
theorem C72_hidden_parent_refuted (o : Options) (tie : Bool) (c : Nat) (id : Nat) (a : Bool) (d : Nat)
    (kids : List Tree) (hc : 0 < c) (hd : 0 < d ∨ tie = false) (hm : levelShown o (c + 2)) (k : Tree)
    (hk : k ∈ shown o kids) (hs : k.resp = .stuck) :
    (one o tie c (c + 1) (.node id a (.after d) kids)).2 = .timeout id := by
  have hdeep : goesDeeper o (c + 1) = true := (goesDeeper_iff o (c + 1)).2 hm
  have hne : (shown o kids).map (one o tie (c + 1) (c + 1 + 1)) ≠ [] := by
    intro h
    rw [List.map_eq_nil_iff] at h
    rw [h] at hk; cases hk
  have hlast : ∀ (l : List Nat) (x : Nat), x ∈ l → x ≤ lastOf l := by
    intro l
    induction l with
    | nil => simp
    | cons y l ih =>
      intro x hx
      simp only [lastOf, List.foldr_cons] at ih ⊢
      rcases List.mem_cons.1 hx with rfl | hx
      · omega
      · have := ih x hx; omega
  have h5 : 5000 ≤ lastOf (((shown o kids).map (one o tie (c + 1) (c + 1 + 1))).map (·.1)) := by
    apply hlast
    rw [List.map_map]
    refine List.mem_map.2 ⟨k, hk, ?_⟩
    cases k with
    | node i' a' r' ks' =>
      simp only [Tree.resp] at hs
      subst hs
      simp [one, reply, await, waitFor]
  have hw : waitFor c = 5000 := by simp [waitFor, hc]
  simp only [one, reply_after, hdeep, handlerReply, Tree.id]
  rw [if_pos ⟨trivial, hne⟩]
  simp only [await, hw]
  rw [if_neg]
  rintro (h | ⟨h, ht⟩)
  · omega
  · rcases hd with hd | hd
    · omega
    · rw [hd] at ht; cases ht

theorem one_timeout_ignored (o : Options) (x : Option Nat) (tie : Bool) (t : Tree) :
    ∀ c l, one { o with childDescribeTimeout := x } tie c l t = one o tie c l t := by
  induction t using tree_induction with
  | h t ih =>
    intro c l
    cases t with
    | node id a resp kids =>
      cases resp with
      | invalid => simp [one, reply]
      | stuck => simp [one, reply]
      | lost d => simp [one, reply]
      | after d =>
        simp only [one, reply_after]
        have h1 : shown { o with childDescribeTimeout := x } kids = shown o kids := rfl
        have h2 : goesDeeper { o with childDescribeTimeout := x } l = goesDeeper o l := rfl
        have h3 : (shown o kids).map (one { o with childDescribeTimeout := x } tie l (l + 1))
            = (shown o kids).map (one o tie l (l + 1)) :=
          List.map_congr_left (fun k hk => ih k (shown_subset o kids k hk) l (l + 1))
        rw [h1, h2, h3]

/-- The option for the timeout has no effect. -/
theorem C72_timeout_option_refuted (o : Options) (x : Option Nat) (tie : Bool) (actors : List Tree)
    (scheduler : Tree) :
    describeAll { o with childDescribeTimeout := x } tie actors scheduler = describeAll o tie actors scheduler := by
  simp only [describeAll, results_eq]
  have : ∀ t, one { o with childDescribeTimeout := x } tie 0 1 t = one o tie 0 1 t :=
    fun t => one_timeout_ignored o x tie t 0 1
  simp only [this]

/-! ### Cases -/

def exOpts : Options := ⟨none, none, none, true⟩
def exTree : Tree := .node 1 false (.after 3) [.node 2 false (.after 4) [.node 3 true (.after 5) []], .node 4 false .stuck []]

example : idsOf (describeAll exOpts true [.node 1 false (.after 3) [.node 2 false (.after 4) []]]
    (.node 9 false (.after 0) [])).2 = [1, 2, 9] := by decide +kernel
example : (describeAll exOpts true [exTree] (.node 9 false (.after 0) [])).1 = 5003 := by decide +kernel
example : idsOf (describeAll exOpts true [exTree] (.node 9 false (.after 0) [])).2 = [1, 2, 3, 4, 9] := by
  decide +kernel
example : idsOf (describeAll ⟨some 2, none, none, true⟩ true [exTree] (.node 9 false (.after 0) [])).2 = [1, 2, 4, 9] := by
  decide +kernel
example : idsOf (describeAll ⟨none, none, none, false⟩ true [exTree] (.node 9 false (.after 0) [])).2 = [1, 2, 4, 9] := by
  decide +kernel
example : idsOf (describeAll ⟨none, some 1, none, true⟩ true [exTree] (.node 9 false (.after 0) [])).2 = [1, 2, 3, 9] := by
  decide +kernel
-- a stuck actor at the third level: its parent 2 and the sibling 5 disappear
example : idsOf (describeAll exOpts true
    [.node 1 false (.after 1) [.node 2 false (.after 1) [.node 3 false .stuck [], .node 5 false (.after 0) []]]]
    (.node 9 false (.after 0) [])).2 = [1, 2, 9] := by decide +kernel

end Verif.Actor.Describe
