import Verif.Remote.ApiModel
import Verif.Util

/-! Lemmas for C115. -/

namespace Verif.Remote.Api

/-- how many requests for the nodes have been made. -/
def asks (ops : List Op) : Nat := ops.count .ask

/-- how many requests for the health have been made. -/
def healthAsks (ops : List Op) : Nat := ops.count .askHealth

/-- the attributes of every node that is made known are a map: no key twice. -/
def Maps (ops : List Op) : Prop := ∀ n, (.join n ∈ ops ∨ .update n ∈ ops) → Assoc.Uniq n.attributes

variable {fmt : Int → String} {me : Nat} {tag : String} {single : Bool}

theorem run_snoc (ops : List Op) (o : Op) :
    run fmt me tag single (ops ++ [o]) = ((run fmt me tag single ops).step fmt o).1 := by
  simp [run, List.foldl_append]

/-- what a step changes, piece by piece. -/
theorem step_me (σ : Sys) (o : Op) : (σ.step fmt o).1.me = σ.me ∧ (σ.step fmt o).1.tag = σ.tag := by
  cases o <;> simp only [Sys.step] <;> repeat' split
  all_goals first | exact ⟨rfl, rfl⟩ | simp

theorem run_me (ops : List Op) :
    (run fmt me tag single ops).me = me ∧ (run fmt me tag single ops).tag = tag := by
  induction ops using snoc_induction with
  | nil => exact ⟨rfl, rfl⟩
  | snoc l o ih => rw [run_snoc, (step_me _ o).1, (step_me _ o).2]; exact ih

theorem run_up (ops : List Op) : (run fmt me tag single ops).up = true ↔ .down ∉ ops := by
  induction ops using snoc_induction with
  | nil => simp [run]
  | snoc l o ih =>
    rw [run_snoc]
    cases o <;> simp only [Sys.step] <;> repeat' split
    all_goals simp_all

theorem run_asked (ops : List Op) : (run fmt me tag single ops).asked = asks ops := by
  induction ops using snoc_induction with
  | nil => rfl
  | snoc l o ih =>
    rw [run_snoc]
    unfold asks at ih ⊢
    cases o <;> simp only [Sys.step] <;> repeat' split
    all_goals simp [ih, List.count_append]

theorem run_healthAsked (ops : List Op) : (run fmt me tag single ops).healthAsked = healthAsks ops := by
  induction ops using snoc_induction with
  | nil => rfl
  | snoc l o ih =>
    rw [run_snoc]
    unfold healthAsks at ih ⊢
    cases o <;> simp only [Sys.step] <;> repeat' split
    all_goals simp [ih, List.count_append]

/-- the directory is a map by the ids of the nodes. -/
structure Dir (d : Assoc Nat NodeFacts) : Prop where
  uniq : d.Uniq
  keyed : ∀ k n, d.get k = some n → n.id = k
  attrs : ∀ k n, d.get k = some n → Assoc.Uniq n.attributes

theorem Dir.insert {d : Assoc Nat NodeFacts} (h : Dir d) (n : NodeFacts) (hn : Assoc.Uniq n.attributes) (i : Nat)
    (hi : n.id = i) : Dir (d.insert i n) := by
  refine ⟨h.uniq.insert _ _, ?_, ?_⟩
  · intro k m hm
    rw [Assoc.get_insert] at hm
    split at hm
    · rename_i e; cases hm; rw [e, hi]
    · exact h.keyed k m hm
  · intro k m hm
    rw [Assoc.get_insert] at hm
    split at hm
    · cases hm; exact hn
    · exact h.attrs k m hm

theorem Dir.terminated {d : Assoc Nat NodeFacts} (h : Dir d) (i : Nat) :
    Dir (d.update i fun n => { n with status := .terminated }) := by
  refine ⟨h.uniq.update _ _, ?_, ?_⟩
  · intro k m hm
    rw [Assoc.get_update] at hm
    split at hm
    · obtain ⟨m', hm', rfl⟩ := Option.map_eq_some_iff.1 hm
      exact h.keyed k m' hm'
    · exact h.keyed k m hm
  · intro k m hm
    rw [Assoc.get_update] at hm
    split at hm
    · obtain ⟨m', hm', rfl⟩ := Option.map_eq_some_iff.1 hm
      exact h.attrs k m' hm'
    · exact h.attrs k m hm

theorem run_dir (ops : List Op) (hm : Maps ops) : Dir (run fmt me tag single ops).dir := by
  induction ops using snoc_induction with
  | nil => exact ⟨.nil, (fun k n h => nomatch h), (fun k n h => nomatch h)⟩
  | snoc l o ih =>
    have ih := ih (fun n hn => hm n (hn.imp (by simp +contextual) (by simp +contextual)))
    rw [run_snoc]
    cases o with
    | join n =>
      simp only [Sys.step]
      split
      · exact ih.insert { n with ping := none, heartbeat := none, status := .joining }
          (hm n (Or.inl (by simp))) n.id rfl
      · exact ih
    | update n =>
      simp only [Sys.step]
      split
      · exact ih.insert n (hm n (Or.inr (by simp))) n.id rfl
      · exact ih
    | terminated i =>
      simp only [Sys.step]
      split
      · exact ih.terminated i
      · exact ih
    | _ =>
      simp only [Sys.step]
      repeat' split
      all_goals exact ih

/-! ## Requests for the nodes -/

/-- request `r` for the nodes was made after `pre`, and has not been answered since. -/
def Pending (ops : List Op) (r : Nat) (pre : List Op) : Prop :=
  ∃ suf, ops = pre ++ .ask :: suf ∧ asks pre = r ∧ .answer r ∉ suf

theorem Pending.snoc {ops : List Op} {r : Nat} {pre : List Op} (o : Op) (ho : o ≠ .answer r) (h : Pending ops r pre) :
    Pending (ops ++ [o]) r pre := by
  obtain ⟨suf, e, hr, hn⟩ := h
  refine ⟨suf ++ [o], by simp [e], hr, ?_⟩
  simp only [List.mem_append, List.mem_singleton, not_or]
  exact ⟨hn, fun e => ho e.symm⟩

theorem Pending.of_snoc {ops : List Op} {r : Nat} {pre : List Op} {o : Op} (h : Pending (ops ++ [o]) r pre) :
    (o = .ask ∧ pre = ops ∧ asks ops = r) ∨ (o ≠ .answer r ∧ Pending ops r pre) := by
  obtain ⟨suf, e, hr, hn⟩ := h
  rcases snoc_eq_append_cons e with ⟨_, rfl, rfl⟩ | ⟨p, rfl, e'⟩
  · exact Or.inl ⟨rfl, rfl, hr⟩
  · right
    simp only [List.mem_append, List.mem_singleton, not_or] at hn
    exact ⟨fun e => hn.2 e.symm, p, e', hr, hn.1⟩

theorem Pending.lt {ops : List Op} {r : Nat} {pre : List Op} (h : Pending ops r pre) : r < asks ops := by
  obtain ⟨suf, rfl, hr, _⟩ := h
  unfold asks at *
  simp [List.count_append]
  omega

theorem run_asking (ops : List Op) : ∀ r l, (run fmt me tag single ops).asking.get r = some l ↔
    ∃ pre, Pending ops r pre ∧ (run fmt me tag single pre).leader = l := by
  induction ops using snoc_induction with
  | nil =>
    intro r l
    refine ⟨(fun h => nomatch h), ?_⟩
    rintro ⟨pre, ⟨suf, e, _⟩, _⟩
    simp at e
  | snoc ops o ih =>
    intro r l
    -- every step but two leaves the table alone
    have frame (h : ((run fmt me tag single ops).step fmt o).1.asking = (run fmt me tag single ops).asking)
        (ha : o ≠ .ask) (hb : o ≠ .answer r) :
        (run fmt me tag single (ops ++ [o])).asking.get r = some l ↔
          ∃ pre, Pending (ops ++ [o]) r pre ∧ (run fmt me tag single pre).leader = l := by
      rw [run_snoc, h, ih]
      constructor
      · rintro ⟨pre, hp, e⟩; exact ⟨pre, hp.snoc o hb, e⟩
      · rintro ⟨pre, hp, e⟩
        rcases hp.of_snoc with ⟨h1, _⟩ | ⟨_, hp⟩
        · exact absurd h1 ha
        · exact ⟨pre, hp, e⟩
    cases o with
    | ask =>
      rw [run_snoc]
      simp only [Sys.step]
      rw [Assoc.get_insert, run_asked]
      split
      · rename_i e
        subst e
        constructor
        · intro h
          cases h
          exact ⟨ops, ⟨[], rfl, rfl, by simp⟩, rfl⟩
        · rintro ⟨pre, hp, rfl⟩
          rcases hp.of_snoc with ⟨_, rfl, _⟩ | ⟨_, hp⟩
          · rfl
          · exact absurd hp.lt (Nat.lt_irrefl _)
      · rename_i hne
        rw [ih]
        constructor
        · rintro ⟨pre, hp, e⟩; exact ⟨pre, hp.snoc _ (by simp), e⟩
        · rintro ⟨pre, hp, e⟩
          rcases hp.of_snoc with ⟨_, _, h1⟩ | ⟨_, hp⟩
          · exact absurd h1.symm hne
          · exact ⟨pre, hp, e⟩
    | answer q =>
      by_cases hq : q = r
      · subst hq
        have hno : (run fmt me tag single (ops ++ [.answer q])).asking.get q = none := by
          rw [run_snoc]
          simp only [Sys.step]
          split
          · assumption
          · split <;> simp [Assoc.get_erase]
        rw [hno]
        refine ⟨(fun h => nomatch h), ?_⟩
        rintro ⟨pre, hp, _⟩
        rcases hp.of_snoc with ⟨h1, _⟩ | ⟨h1, _⟩
        · cases h1
        · exact absurd rfl h1
      · have hsame : (run fmt me tag single (ops ++ [.answer q])).asking.get r
            = (run fmt me tag single ops).asking.get r := by
          rw [run_snoc]
          simp only [Sys.step]
          split
          · rfl
          · have hq' : ¬ r = q := fun e => hq e.symm
            split <;> (dsimp only; rw [Assoc.get_erase, if_neg hq'])
        rw [hsame, ih]
        constructor
        · rintro ⟨pre, hp, e⟩; exact ⟨pre, hp.snoc _ (by simpa using hq), e⟩
        · rintro ⟨pre, hp, e⟩
          rcases hp.of_snoc with ⟨h1, _⟩ | ⟨_, hp⟩
          · cases h1
          · exact ⟨pre, hp, e⟩
    | _ =>
      refine frame ?_ (by simp) (by simp)
      simp only [Sys.step]
      repeat' split
      all_goals rfl

/-! ## Requests for the health -/

/-- request `r` for the health was handled by the heartbeat after `p`. -/
def Begun (ops : List Op) (r : Nat) (p : List Op) : Prop := ∃ s, ops = p ++ .askHealth :: s ∧ healthAsks p = r

/-- the actors asked for request `r` had answered when `q` had happened. -/
def Probed (ops : List Op) (r : Nat) (p : List Op) (res : List (Option Nat)) : Prop :=
  ∃ q s, ops = q ++ .probed r res :: s ∧ Begun q r p

/-- the directory was asked for request `r` after `d`. -/
def Read (ops : List Op) (r : Nat) (p : List Op) (res : List (Option Nat)) (d : List Op) : Prop :=
  ∃ s, ops = d ++ .healthNodes r :: s ∧ Probed d r p res

theorem Begun.snoc {ops : List Op} {r : Nat} {p : List Op} (o : Op) (h : Begun ops r p) : Begun (ops ++ [o]) r p := by
  obtain ⟨s, e, hr⟩ := h
  exact ⟨s ++ [o], by simp [e], hr⟩

theorem Probed.snoc {ops : List Op} {r : Nat} {p : List Op} {res : List (Option Nat)} (o : Op)
    (h : Probed ops r p res) : Probed (ops ++ [o]) r p res := by
  obtain ⟨q, s, e, hb⟩ := h
  exact ⟨q, s ++ [o], by simp [e], hb⟩

theorem Read.snoc {ops : List Op} {r : Nat} {p : List Op} {res : List (Option Nat)} {d : List Op} (o : Op)
    (h : Read ops r p res d) : Read (ops ++ [o]) r p res d := by
  obtain ⟨s, e, hb⟩ := h
  exact ⟨s ++ [o], by simp [e], hb⟩

/-- what the stage of a request says of the past. -/
def StageOk (fmt : Int → String) (me : Nat) (tag : String) (single : Bool) (ops : List Op) (r : Nat) : Stage → Prop
  | .probing actors => ∃ p, Begun ops r p ∧ actors = (run fmt me tag single p).checks
  | .nodes checks => ∃ p res, Probed ops r p res ∧ res.length = (run fmt me tag single p).checks.length ∧
      checks = (run fmt me tag single p).checks.zip res
  | .leader checks nodes => ∃ p res d, Read ops r p res d ∧ res.length = (run fmt me tag single p).checks.length ∧
      checks = (run fmt me tag single p).checks.zip res ∧ nodes = (run fmt me tag single d).dir.vals

theorem StageOk.snoc {ops : List Op} {r : Nat} {st : Stage} (o : Op) (h : StageOk fmt me tag single ops r st) :
    StageOk fmt me tag single (ops ++ [o]) r st := by
  cases st with
  | probing a => obtain ⟨p, h1, h2⟩ := h; exact ⟨p, h1.snoc o, h2⟩
  | nodes c => obtain ⟨p, res, h1, h2⟩ := h; exact ⟨p, res, h1.snoc o, h2⟩
  | leader c n => obtain ⟨p, res, d, h1, h2⟩ := h; exact ⟨p, res, d, h1.snoc o, h2⟩

theorem run_health (ops : List Op) : ∀ r st, (run fmt me tag single ops).healthAsking.get r = some st →
    StageOk fmt me tag single ops r st := by
  induction ops using snoc_induction with
  | nil => intro r st h; cases h
  | snoc ops o ih =>
    intro r st h
    rw [run_snoc] at h
    have old (h : (run fmt me tag single ops).healthAsking.get r = some st) :
        StageOk fmt me tag single (ops ++ [o]) r st := (ih r st h).snoc o
    cases o with
    | askHealth =>
      simp only [Sys.step] at h
      rw [Assoc.get_insert, run_healthAsked] at h
      split at h
      · rename_i e
        cases h
        exact ⟨ops, ⟨[], rfl, e.symm⟩, rfl⟩
      · exact old h
    | probed q res =>
      simp only [Sys.step] at h
      split at h
      · rename_i actors hq
        split at h
        · rename_i hl
          dsimp only at h
          rw [Assoc.get_insert] at h
          split at h
          · rename_i e
            subst e
            cases h
            obtain ⟨p, hp, rfl⟩ := ih _ _ hq
            exact ⟨p, res, ⟨ops, [], rfl, hp⟩, hl, rfl⟩
          · exact old h
        · exact old h
      · exact old h
    | healthNodes q =>
      simp only [Sys.step] at h
      split at h
      · rename_i checks hq
        split at h
        · dsimp only at h
          rw [Assoc.get_insert] at h
          split at h
          · rename_i e
            subst e
            cases h
            obtain ⟨p, res, hp, hl, rfl⟩ := ih _ _ hq
            exact ⟨p, res, ops, ⟨[], rfl, hp⟩, hl, rfl, rfl⟩
          · exact old h
        · dsimp only at h
          rw [Assoc.get_erase] at h
          split at h
          · cases h
          · exact old h
      · exact old h
    | reply q =>
      simp only [Sys.step] at h
      split at h
      · dsimp only at h
        rw [Assoc.get_erase] at h
        split at h
        · cases h
        · exact old h
      · exact old h
    | _ =>
      refine old ?_
      simp only [Sys.step] at h
      repeat' split at h
      all_goals exact h

/-! ## Maps made from lists -/

/-- the entry of a map collected from pairs is the last one given for the key. -/
theorem collect_get {κ α β : Type} [DecidableEq κ] (key : β → κ) (val : β → α) (l : List β) (m : Assoc κ α) (k : κ) :
    (l.foldl (fun m b => m.insert (key b) (val b)) m).get k
      = ((l.reverse.find? fun b => decide (key b = k)).map val).or (m.get k) := by
  induction l generalizing m with
  | nil => simp
  | cons b l ih =>
    rw [List.foldl_cons, ih, Assoc.get_insert, List.reverse_cons, List.find?_append]
    cases hf : List.find? (fun b => decide (key b = k)) l.reverse with
    | some x => simp
    | none =>
      by_cases e : key b = k
      · simp [e]
      · have e2 : ¬ k = key b := fun e' => e e'.symm
        simp [e, e2]

theorem collect_uniq {κ α β : Type} [DecidableEq κ] (key : β → κ) (val : β → α) (l : List β) (m : Assoc κ α)
    (hm : m.Uniq) : (l.foldl (fun m b => m.insert (key b) (val b)) m).Uniq := by
  induction l generalizing m with
  | nil => exact hm
  | cons b l ih => exact ih _ (hm.insert _ _)

/-- collecting a map again gives the same entries. -/
theorem recollect_get {κ α : Type} [DecidableEq κ] (m : Assoc κ α) (hm : m.Uniq) (k : κ) :
    Assoc.get (m.foldl (fun m p => Assoc.insert m p.1 p.2) []) k = m.get k := by
  have h := collect_get (fun p : κ × α => p.1) (fun p => p.2) m [] k
  rw [show (m.foldl (fun m p => Assoc.insert m p.1 p.2) [] : Assoc κ α)
    = m.foldl (fun m b => Assoc.insert m (Prod.fst b) (Prod.snd b)) [] from rfl, h, Assoc.get_nil, Option.or_none]
  exact (Assoc.get_perm hm (List.reverse_perm m).symm k).symm

end Verif.Remote.Api
