import Verif.Remote.TopicsModel
import Verif.Remote.PubSubProps
import Verif.Sharding.HostsLemmas

/-!
# Lemmas about publishing to the cluster
-/

namespace Verif.Remote.Topics

open Verif.Sharding.Hosts (Ev lastWord lastWord_snoc moves Moves drop_append_left)

variable {M B : Type}

/-! ### What a node knows -/

/-- what holds of a node at any time. -/
structure Sound (me : Nat) (h : Hub) : Prop where
  dwf : DWF h.disc
  nodup : h.nodes.Nodup
  view : ∀ n, n ∈ h.nodes ↔ n ≠ me ∧ lastWord n h.heard = some true
  told : ∀ n ∈ h.disc.added, Ev.added n ∈ h.heard ∨ Ev.added n ∈ h.inbox

theorem Sound.init (me : Nat) : Sound me (Hub.init me) := by
  refine ⟨⟨?_, by simp [Hub.init], by simp [Hub.init]⟩, by simp [Hub.init], ?_, by simp [Hub.init]⟩
  · simp [Hub.init, Assoc.Uniq]
  · simp [Hub.init, lastWord]

theorem mem_learn (me : Nat) (nodes : List Nat) (e : Ev) (n : Nat) :
    n ∈ learn me nodes e ↔ match e.word n with
      | some b => b = true ∧ (n ≠ me ∨ n ∈ nodes)
      | none => n ∈ nodes := by
  cases e with
  | added m =>
    simp only [learn, Ev.word]
    by_cases e : m = n
    · subst e
      simp only [if_true, true_and]
      split
      · rename_i h
        rcases h with h | h
        · simp [h]
        · simp [h]
      · rename_i h
        simp only [List.mem_cons, true_or, true_iff]
        exact .inl fun h' => h (.inl h')
    · simp only [if_neg e]
      split
      · rfl
      · have : n ≠ m := fun h => e h.symm
        simp [this]
  | removed m =>
    simp only [learn, Ev.word]
    by_cases e : m = n
    · subst e; simp
    · have : n ≠ m := fun h => e h.symm
      simp [e, this]

theorem learn_nodup (me : Nat) (nodes : List Nat) (e : Ev) (h : nodes.Nodup) : (learn me nodes e).Nodup := by
  cases e with
  | added m =>
    simp only [learn]
    split
    · exact h
    · rename_i hn
      exact List.nodup_cons.2 ⟨fun h' => hn (.inr h'), h⟩
  | removed m => exact h.filter _

theorem Sound.step {me : Nat} {h : Hub} (hs : Sound me h) (o : HubOp) : Sound me (h.step me o) := by
  cases o with
  | disc o =>
    obtain ⟨l, ha, hl, _⟩ := (moves hs.dwf me o).added
    refine ⟨hs.dwf.step me o, hs.nodup, hs.view, ?_⟩
    intro n hn
    simp only [Hub.step, Hub.disced, drop_append_left ha] at hn ⊢
    have hn : n ∈ h.disc.added ++ l := ha ▸ hn
    rcases List.mem_append.1 hn with hn | hn
    · exact (hs.told n hn).imp_right (List.mem_append_left _)
    · exact .inr (List.mem_append_right _ (List.mem_map_of_mem hn))
  | gone n =>
    simp only [Hub.step]
    split
    · exact ⟨hs.dwf, hs.nodup, hs.view, fun n hn => (hs.told n hn).imp_right (List.mem_append_left _)⟩
    · exact hs
  | hear =>
    simp only [Hub.step]
    split
    · exact hs
    · rename_i e es he
      refine ⟨hs.dwf, learn_nodup me _ e hs.nodup, ?_, ?_⟩
      · intro n
        simp only
        rw [mem_learn, lastWord_snoc]
        cases hw : e.word n with
        | none => simpa using hs.view n
        | some b =>
          simp only [Option.some_or, Option.some.injEq]
          constructor
          · rintro ⟨hb, hn⟩
            exact ⟨hn.elim id fun h => ((hs.view n).1 h).1, hb⟩
          · rintro ⟨hn, hb⟩; exact ⟨hb, .inl hn⟩
      · intro n hn
        rcases hs.told n hn with h1 | h1
        · exact .inl (List.mem_append_left _ h1)
        · rw [he] at h1
          rcases List.mem_cons.1 h1 with h1 | h1
          · exact .inl (List.mem_append_right _ (by simp [h1]))
          · exact .inr h1

/-! ### The cluster -/

theorem runFrom_cons (cap : Nat) (cd : Codec M B) (w : Net M B) (o : Op M) (ops : List (Op M)) :
    w.runFrom cap cd (o :: ops) = (w.step cap cd o).runFrom cap cd ops := rfl

theorem runFrom_append (cap : Nat) (cd : Codec M B) (w : Net M B) (a b : List (Op M)) :
    w.runFrom cap cd (a ++ b) = (w.runFrom cap cd a).runFrom cap cd b := by simp [Net.runFrom]

theorem run_append (cap : Nat) (cd : Codec M B) (a b : List (Op M)) :
    Net.run cap cd (a ++ b) = (Net.run cap cd a).runFrom cap cd b := runFrom_append cap cd _ a b

theorem run_cons_append (cap : Nat) (cd : Codec M B) (a b : List (Op M)) (o : Op M) :
    Net.run cap cd (a ++ o :: b) = ((Net.run cap cd a).step cap cd o).runFrom cap cd b := by
  rw [run_append]; rfl

theorem publish_hub (cap : Nat) (cd : Codec M B) (w : Net M B) (i : Nat) (t : TopicRef) (m : M) :
    (w.publish cap cd i t m).1.hub = w.hub := by
  unfold Net.publish
  dsimp only
  split
  · rfl
  · split
    · rfl
    · split <;> rfl

/-- the step leaves the discoveries and what the mediators know alone. -/
def apart : Op M → Bool
  | .hub _ _ => false
  | _ => true

theorem step_hub_apart (cap : Nat) (cd : Codec M B) (w : Net M B) (o : Op M) (h : apart o = true) :
    (w.step cap cd o).hub = w.hub := by
  cases o with
  | hub i o => simp [apart] at h
  | own i o => simp only [Net.step]; split <;> rfl
  | publish i t m => exact publish_hub cap cd w i t m
  | send k ok =>
    simp only [Net.step]
    split
    · rfl
    · split <;> rfl
  | deliver k => simp only [Net.step]; split <;> rfl
  | lose k => simp only [Net.step]; split <;> rfl

theorem step_hub (cap : Nat) (cd : Codec M B) (w : Net M B) (i : Nat) (o : HubOp) (k : Nat) :
    (w.step cap cd (.hub i o)).hub k = w.hub k ∨
      k = i ∧ (w.step cap cd (.hub i o)).hub k = (w.hub k).step k o := by
  by_cases e : k = i
  · subst e
    cases o with
    | hear =>
      simp only [Net.step]
      split
      · exact .inl rfl
      · exact .inr (by simp)
    | disc o => exact .inr ⟨rfl, by simp [Net.step]⟩
    | gone n => exact .inr ⟨rfl, by simp [Net.step]⟩
  · left
    cases o with
    | hear =>
      simp only [Net.step]
      split
      · rfl
      · simp [e]
    | disc o => simp [Net.step, e]
    | gone n => simp [Net.step, e]

/-- an invariant of one node carries over. -/
theorem hub_step (cap : Nat) (cd : Codec M B) (k : Nat) (P : Hub → Prop) (w : Net M B) (o : Op M)
    (hP : ∀ o', o = .hub k o' → P (w.hub k) → P ((w.hub k).step k o')) (h : P (w.hub k)) :
    P ((w.step cap cd o).hub k) := by
  by_cases ha : apart o = true
  · rw [step_hub_apart cap cd w o ha]; exact h
  · cases o with
    | hub i o =>
      rcases step_hub cap cd w i o k with e | ⟨e, e'⟩
      · rw [e]; exact h
      · subst e; rw [e']; exact hP o rfl h
    | _ => simp [apart] at ha

theorem sound_from (cap : Nat) (cd : Codec M B) (w : Net M B) (k : Nat) (h : Sound k (w.hub k)) (ops : List (Op M)) :
    Sound k ((w.runFrom cap cd ops).hub k) := by
  induction ops generalizing w with
  | nil => exact h
  | cons o ops ih =>
    exact ih _ (hub_step cap cd k (Sound k) w o (fun o' _ h => h.step o') h)

theorem sound_run (cap : Nat) (cd : Codec M B) (ops : List (Op M)) (k : Nat) :
    Sound k ((Net.run cap cd ops).hub k) := sound_from cap cd _ k (Sound.init k) ops

/-! ### Copies -/

/-- every copy there has been. -/
def due (w : Net M B) : List (Nat × Post B) := w.todo ++ (w.wire ++ (w.handed ++ w.lost))

/-- the copies one step makes. -/
def fresh (cap : Nat) (cd : Codec M B) (w : Net M B) : Op M → List (Nat × Post B)
  | .publish i t m =>
    if (((w.med i).step cap (.publish t m))).dead then []
    else match cd.write m with
      | none => []
      | some b => (w.hub i).nodes.map (·, ⟨w.next, t.name, t.key, b⟩)
  | _ => []

theorem eraseIdx_cons_perm {α : Type} (l : List α) (k : Nat) (x : α) (h : l[k]? = some x) :
    (x :: l.eraseIdx k).Perm l := by
  induction l generalizing k with
  | nil => simp at h
  | cons y l ih =>
    cases k with
    | zero =>
      have : y = x := by simpa using h
      subst this; exact .refl _
    | succ k =>
      have h' : l[k]? = some x := by simpa using h
      exact (List.Perm.swap _ _ _).trans ((ih k h').cons y)

theorem act_med (cap : Nat) (w : Net M B) (i : Nat) (o : MedOp M) : (w.act cap i o).med i = (w.med i).step cap o := by
  simp [Net.act]

theorem publish_due (cap : Nat) (cd : Codec M B) (w : Net M B) (i : Nat) (t : TopicRef) (m : M) :
    (due (w.publish cap cd i t m).1).Perm (due w ++ fresh cap cd w (.publish i t m)) := by
  unfold Net.publish fresh
  simp only [act_med]
  by_cases hd : ((w.med i).step cap (.publish t m)).dead = true
  · simp only [hd, if_true, List.append_nil]; exact .refl _
  · simp only [hd, Bool.false_eq_true, if_false]
    by_cases hn : (w.hub i).nodes = []
    · rw [if_pos hn]
      split
      · simp only [List.append_nil]; exact .refl _
      · simp only [hn, List.map_nil, List.append_nil]; exact .refl _
    · rw [if_neg hn]
      cases cd.write m with
      | none => simp only [List.append_nil]; exact .refl _
      | some b =>
        simp only [due, Net.act]
        rw [List.append_assoc, List.append_assoc]
        exact List.Perm.append_left _ List.perm_append_comm

theorem step_due (cap : Nat) (cd : Codec M B) (w : Net M B) (o : Op M) :
    (due (w.step cap cd o)).Perm (due w ++ fresh cap cd w o) := by
  have mid : ∀ (a b c : List (Nat × Post B)) x, (a ++ (b ++ x :: c)).Perm (x :: (a ++ (b ++ c))) := by
    intro a b c x
    rw [← List.append_assoc, ← List.append_assoc]
    exact List.perm_middle
  cases o with
  | hub i o =>
    simp only [fresh, List.append_nil]
    cases o with
    | hear => simp only [Net.step]; split <;> exact .refl _
    | disc o => exact .refl _
    | gone n => exact .refl _
  | own i o => simp only [fresh, List.append_nil, Net.step]; split <;> exact .refl _
  | publish i t m => exact publish_due cap cd w i t m
  | send k ok =>
    simp only [fresh, List.append_nil, Net.step]
    cases hk : w.todo[k]? with
    | none => exact .refl _
    | some x =>
      have he := eraseIdx_cons_perm _ _ _ hk
      cases ok with
      | true =>
        simp only [if_true, due, List.append_assoc, List.singleton_append]
        refine (mid _ _ _ _).trans ?_
        rw [← List.cons_append]
        exact he.append_right _
      | false =>
        simp only [Bool.false_eq_true, if_false, due]
        rw [← List.append_assoc, ← List.append_assoc, ← List.append_assoc]
        refine List.perm_append_comm.trans ?_
        rw [List.singleton_append, List.append_assoc, List.append_assoc, ← List.cons_append]
        exact he.append_right _
  | deliver k =>
    simp only [fresh, List.append_nil, Net.step]
    cases hk : w.wire[k]? with
    | none => exact .refl _
    | some x =>
      obtain ⟨j, p⟩ := x
      have he := eraseIdx_cons_perm _ _ _ hk
      simp only [due, Net.act, List.append_assoc, List.singleton_append]
      refine List.Perm.append_left _ ((mid _ _ _ _).trans ?_)
      rw [← List.cons_append]
      exact he.append_right _
  | lose k =>
    simp only [fresh, List.append_nil, Net.step]
    cases hk : w.wire[k]? with
    | none => exact .refl _
    | some x =>
      have he := eraseIdx_cons_perm _ _ _ hk
      simp only [due]
      refine List.Perm.append_left _ ?_
      rw [← List.append_assoc, ← List.append_assoc]
      refine List.perm_append_comm.trans ?_
      rw [List.singleton_append, List.append_assoc, ← List.cons_append]
      exact he.append_right _

theorem step_next (cap : Nat) (cd : Codec M B) (w : Net M B) (o : Op M) :
    (w.step cap cd o).next = match o with | .publish _ _ _ => w.next + 1 | _ => w.next := by
  cases o with
  | hub i o =>
    cases o with
    | hear => simp only [Net.step]; split <;> rfl
    | disc o => rfl
    | gone n => rfl
  | own i o => simp only [Net.step]; split <;> rfl
  | publish i t m =>
    simp only [Net.step, Net.publish]
    split
    · rfl
    · split
      · rfl
      · split <;> rfl
  | send k ok =>
    simp only [Net.step]
    split
    · rfl
    · split <;> rfl
  | deliver k => simp only [Net.step]; split <;> rfl
  | lose k => simp only [Net.step]; split <;> rfl

theorem fresh_no (cap : Nat) (cd : Codec M B) (w : Net M B) (o : Op M) (x : Nat × Post B) (hx : x ∈ fresh cap cd w o) :
    x.2.no = w.next ∧ w.next < (w.step cap cd o).next := by
  rw [step_next]
  cases o with
  | publish i t m =>
    simp only [fresh] at hx
    split at hx
    · simp at hx
    · split at hx
      · simp at hx
      · obtain ⟨n, _, rfl⟩ := List.mem_map.1 hx
        exact ⟨rfl, Nat.lt_succ_self _⟩
  | _ => simp [fresh] at hx

theorem next_le (cap : Nat) (cd : Codec M B) (w : Net M B) (o : Op M) : w.next ≤ (w.step cap cd o).next := by
  rw [step_next]
  cases o with
  | publish i t m => exact Nat.le_succ _
  | _ => exact Nat.le_refl _

theorem due_lt_from (cap : Nat) (cd : Codec M B) (w : Net M B) (h : ∀ x ∈ due w, x.2.no < w.next) (ops : List (Op M)) :
    ∀ x ∈ due (w.runFrom cap cd ops), x.2.no < (w.runFrom cap cd ops).next := by
  induction ops generalizing w with
  | nil => exact h
  | cons o ops ih =>
    refine ih _ ?_
    intro x hx
    rcases List.mem_append.1 ((step_due cap cd w o).mem_iff.1 hx) with hx | hx
    · exact Nat.lt_of_lt_of_le (h x hx) (next_le cap cd w o)
    · obtain ⟨h1, h2⟩ := fresh_no cap cd w o x hx
      rw [h1]; exact h2

theorem due_lt (cap : Nat) (cd : Codec M B) (ops : List (Op M)) :
    ∀ x ∈ due (Net.run cap cd ops), x.2.no < (Net.run cap cd ops).next :=
  due_lt_from cap cd _ (by simp [due]) ops

/-- later steps make no copies of an earlier publication. -/
theorem later_due (cap : Nat) (cd : Codec M B) (w : Net M B) (s : Nat) (hs : s < w.next) (ops : List (Op M)) :
    ((due (w.runFrom cap cd ops)).filter fun x => x.2.no = s).Perm ((due w).filter fun x => x.2.no = s) := by
  induction ops generalizing w with
  | nil => exact .refl _
  | cons o ops ih =>
    refine (ih _ (Nat.lt_of_lt_of_le hs (next_le cap cd w o))).trans ?_
    refine ((step_due cap cd w o).filter _).trans ?_
    rw [List.filter_append]
    have : (fresh cap cd w o).filter (fun x => x.2.no = s) = [] := by
      rw [List.filter_eq_nil_iff]
      intro x hx
      have := (fresh_no cap cd w o x hx).1
      simp only [decide_eq_true_eq]
      omega
    rw [this, List.append_nil]

/-- the copies of one publication, whatever happens afterwards. -/
theorem copies (cap : Nat) (cd : Codec M B) (before after : List (Op M)) (i : Nat) (t : TopicRef) (m : M) :
    ((due (Net.run cap cd (before ++ .publish i t m :: after))).filter fun x => x.2.no = (Net.run cap cd before).next).Perm
      (fresh cap cd (Net.run cap cd before) (.publish i t m)) := by
  rw [run_cons_append]
  generalize hw : Net.run cap cd before = w
  have hlt : ∀ x ∈ due w, x.2.no < w.next := hw ▸ due_lt cap cd before
  refine (later_due cap cd _ w.next (by rw [step_next]; exact Nat.lt_succ_self _) after).trans ?_
  refine ((step_due cap cd w (.publish i t m)).filter _).trans ?_
  rw [List.filter_append]
  have h1 : (due w).filter (fun x => x.2.no = w.next) = [] := by
    rw [List.filter_eq_nil_iff]
    intro x hx
    have := hlt x hx
    simp only [decide_eq_true_eq]
    omega
  have h2 : (fresh cap cd w (.publish i t m)).filter (fun x => x.2.no = w.next) = fresh cap cd w (.publish i t m) := by
    rw [List.filter_eq_self]
    intro x hx
    simp [(fresh_no cap cd w _ x hx).1]
  rw [h1, h2, List.nil_append]

/-! ### What the mediators do -/

/-- what is done by a mediator and recorded. -/
structure Kept (cap : Nat) (cd : Codec M B) (w : Net M B) : Prop where
  med : ∀ k, w.med k = ({} : Med M).run cap (w.acts k)
  raws : ∀ k, (w.acts k).filter isRaw =
    (w.handed.filter fun x => x.1 = k).map fun x => .publishRaw x.2.topic x.2.key (cd.read k x.2.topic x.2.bytes)

theorem med_run_snoc (cap : Nat) (σ : Med M) (ops : List (MedOp M)) (o : MedOp M) :
    σ.run cap (ops ++ [o]) = (σ.run cap ops).step cap o := by simp [Med.run]

theorem act_kept (cap : Nat) (cd : Codec M B) (w : Net M B) (h : Kept cap cd w) (i : Nat) (o : MedOp M)
    (ho : isRaw o = false) : Kept cap cd (w.act cap i o) := by
  refine ⟨?_, ?_⟩
  · intro k
    simp only [Net.act]
    by_cases e : k = i
    · subst e; simp only [if_true, med_run_snoc, h.med k]
    · simp only [if_neg e, h.med k]
  · intro k
    simp only [Net.act]
    by_cases e : k = i
    · subst e; simp only [if_true, List.filter_append, List.filter_cons, ho, Bool.false_eq_true, if_false, List.filter_nil,
        List.append_nil, h.raws k]
    · simp only [if_neg e, h.raws k]

theorem Kept.step {cap : Nat} {cd : Codec M B} {w : Net M B} (h : Kept cap cd w) (o : Op M) :
    Kept cap cd (w.step cap cd o) := by
  cases o with
  | hub i o =>
    cases o with
    | hear => simp only [Net.step]; split <;> exact ⟨h.med, h.raws⟩
    | disc o => exact ⟨h.med, h.raws⟩
    | gone n => exact ⟨h.med, h.raws⟩
  | own i o =>
    simp only [Net.step]
    split
    · exact h
    · rename_i ho; exact act_kept cap cd w h i o (by simpa using ho)
  | publish i t m =>
    have := act_kept cap cd w h i (.publish t m) rfl
    simp only [Net.step, Net.publish]
    split
    · exact ⟨this.med, this.raws⟩
    · split
      · exact ⟨this.med, this.raws⟩
      · split <;> exact ⟨this.med, this.raws⟩
  | send k ok =>
    simp only [Net.step]
    split
    · exact h
    · split <;> exact ⟨h.med, h.raws⟩
  | deliver n =>
    simp only [Net.step]
    split
    · exact h
    · rename_i j p hk
      refine ⟨?_, ?_⟩
      · intro k
        simp only [Net.act]
        by_cases e : k = j
        · subst e; simp only [if_true, med_run_snoc, h.med k]
        · simp only [if_neg e, h.med k]
      · intro k
        simp only [Net.act]
        by_cases e : k = j
        · subst e
          simp [List.filter_append, isRaw, h.raws k]
        · have e' : ¬ j = k := fun h => e h.symm
          simp [if_neg e, List.filter_append, e', h.raws k]
  | lose k =>
    simp only [Net.step]
    split
    · exact h
    · exact ⟨h.med, h.raws⟩

theorem kept_run (cap : Nat) (cd : Codec M B) (ops : List (Op M)) : Kept cap cd (Net.run cap cd ops) := by
  have : ∀ w : Net M B, Kept cap cd w → Kept cap cd (w.runFrom cap cd ops) := by
    induction ops with
    | nil => exact fun _ h => h
    | cons o ops ih => exact fun w h => ih _ (h.step o)
  exact this _ ⟨fun k => rfl, fun k => rfl⟩

theorem acts_step (cap : Nat) (cd : Codec M B) (w : Net M B) (o : Op M) (k : Nat) :
    ∃ l, (w.step cap cd o).acts k = w.acts k ++ l := by
  have ha : ∀ i (o : MedOp M), ∃ l, (w.act cap i o).acts k = w.acts k ++ l := by
    intro i o
    by_cases e : k = i
    · subst e; exact ⟨[o], by simp [Net.act]⟩
    · exact ⟨[], by simp [Net.act, e]⟩
  have h0 : ∃ l, w.acts k = w.acts k ++ l := ⟨[], by simp⟩
  cases o with
  | hub i o =>
    cases o with
    | hear => simp only [Net.step]; split <;> exact h0
    | disc o => exact h0
    | gone n => exact h0
  | own i o =>
    simp only [Net.step]
    split
    · exact h0
    · exact ha i o
  | publish i t m =>
    simp only [Net.step, Net.publish]
    split
    · exact ha i _
    · split
      · exact ha i _
      · split <;> exact ha i _
  | send k ok =>
    simp only [Net.step]
    split
    · exact h0
    · split <;> exact h0
  | deliver n =>
    simp only [Net.step]
    split
    · exact h0
    · exact ha _ _
  | lose k =>
    simp only [Net.step]
    split <;> exact h0

theorem acts_from (cap : Nat) (cd : Codec M B) (w : Net M B) (ops : List (Op M)) (k : Nat) :
    ∃ l, (w.runFrom cap cd ops).acts k = w.acts k ++ l := by
  induction ops generalizing w with
  | nil => exact ⟨[], by simp [Net.runFrom]⟩
  | cons o ops ih =>
    obtain ⟨l, hl⟩ := acts_step cap cd w o k
    obtain ⟨l', hl'⟩ := ih (w.step cap cd o)
    exact ⟨l ++ l', by rw [runFrom_cons, hl', hl, List.append_assoc]⟩

theorem handed_step (cap : Nat) (cd : Codec M B) (w : Net M B) (o : Op M) :
    ∃ l, (w.step cap cd o).handed = w.handed ++ l := by
  have h0 : ∃ l, w.handed = w.handed ++ l := ⟨[], by simp⟩
  cases o with
  | hub i o =>
    cases o with
    | hear => simp only [Net.step]; split <;> exact h0
    | disc o => exact h0
    | gone n => exact h0
  | own i o => simp only [Net.step]; split <;> exact h0
  | publish i t m =>
    simp only [Net.step, Net.publish]
    split
    · exact h0
    · split
      · exact h0
      · split <;> exact h0
  | send k ok =>
    simp only [Net.step]
    split
    · exact h0
    · split <;> exact h0
  | deliver n =>
    simp only [Net.step]
    split
    · exact h0
    · exact ⟨_, rfl⟩
  | lose k =>
    simp only [Net.step]
    split <;> exact h0

theorem handed_from (cap : Nat) (cd : Codec M B) (w : Net M B) (ops : List (Op M)) :
    ∃ l, (w.runFrom cap cd ops).handed = w.handed ++ l := by
  induction ops generalizing w with
  | nil => exact ⟨[], by simp [Net.runFrom]⟩
  | cons o ops ih =>
    obtain ⟨l, hl⟩ := handed_step cap cd w o
    obtain ⟨l', hl'⟩ := ih (w.step cap cd o)
    exact ⟨l ++ l', by rw [runFrom_cons, hl', hl, List.append_assoc]⟩

end Verif.Remote.Topics
