import Verif.Persist.TrimsSpec
import Verif.Persist.ClientProps

namespace Verif.Persist.Trims

open Verif.Persist.Shared Verif.Persist.Client

/-! ### What commands leave -/

/-- the request takes the entry away. -/
def takes (k : String) (e : Entry) : Req → Prop
  | .deleteRange k' lo hi => k = k' ∧ lo ≤ e.seq ∧ e.seq ≤ hi
  | .delete ks => k ∈ ks
  | _ => False

theorem mem_exec_of {r : Req} {st : RedisStore} {k : String} {e : Entry} (h : e ∈ (r.exec st).1 k) :
    e ∈ st k ∨ e ∈ r.writes k := by
  have := (C116_commands st r k e).mp h
  cases r with
  | write k' e' =>
    rcases this with h1 | ⟨rfl, rfl⟩
    · exact .inl h1
    · exact .inr (by simp [Req.writes])
  | batch k' es =>
    rcases this with h1 | ⟨rfl, h1⟩
    · exact .inl h1
    · exact .inr (by simpa [Req.writes] using h1)
  | deleteRange k' a b => exact .inl this.1
  | delete ks => exact .inl this.1
  | latest k' => exact .inl this
  | one k' n => exact .inl this
  | range k' a b => exact .inl this

theorem mem_exec {r : Req} {st : RedisStore} {k : String} {e : Entry} (h : e ∈ st k ∨ e ∈ r.writes k)
    (ht : ¬ takes k e r) : e ∈ (r.exec st).1 k := by
  refine (C116_commands st r k e).mpr ?_
  cases r with
  | write k' e' =>
    rcases h with h | h
    · exact .inl h
    · simp only [Req.writes] at h
      split at h
      · rename_i hk
        exact .inr ⟨hk.symm, by simpa using h⟩
      · cases h
  | batch k' es =>
    rcases h with h | h
    · exact .inl h
    · simp only [Req.writes] at h
      split at h
      · rename_i hk
        exact .inr ⟨hk.symm, h⟩
      · cases h
  | deleteRange k' a b => exact ⟨h.resolve_right (by simp [Req.writes]), ht⟩
  | delete ks => exact ⟨h.resolve_right (by simp [Req.writes]), ht⟩
  | latest k' => exact h.resolve_right (by simp [Req.writes])
  | one k' n => exact h.resolve_right (by simp [Req.writes])
  | range k' a b => exact h.resolve_right (by simp [Req.writes])

theorem mem_run_of {P : List Effect} {st s : RedisStore} (h : InTurn st P s) {k : String} {e : Entry} (he : e ∈ s k) :
    e ∈ st k ∨ ∃ y ∈ P, e ∈ y.req.writes k := by
  induction P generalizing st with
  | nil => cases h; exact .inl he
  | cons x xs ih =>
    rcases ih h.2 with h1 | ⟨y, hy, h1⟩
    · rcases mem_exec_of h1 with h2 | h2
      · exact .inl h2
      · exact .inr ⟨x, by simp, h2⟩
    · exact .inr ⟨y, by simp [hy], h1⟩

theorem mem_run {P : List Effect} {st s : RedisStore} (h : InTurn st P s) {k : String} {e : Entry}
    (he : e ∈ st k ∨ ∃ y ∈ P, e ∈ y.req.writes k) (ht : ∀ y ∈ P, ¬ takes k e y.req) : e ∈ s k := by
  induction P generalizing st with
  | nil =>
    cases h
    rcases he with h1 | ⟨y, hy, _⟩
    · exact h1
    · cases hy
  | cons x xs ih =>
    refine ih h.2 ?_ fun y hy => ht y (by simp [hy])
    rcases he with h1 | ⟨y, hy, h1⟩
    · exact .inl (mem_exec (.inl h1) (ht x (by simp)))
    · rcases List.mem_cons.mp hy with rfl | hy
      · exact .inl (mem_exec (.inr h1) (ht _ (by simp)))
      · exact .inr ⟨y, hy, h1⟩

theorem zadd_nodup {l : List Entry} {e : Entry} (h : l.Nodup) : (zadd l e).Nodup := by
  by_cases he : e ∈ l
  · unfold zadd; rwa [if_pos he]
  · exact (zadd_perm he).nodup_iff.mpr (List.nodup_cons.mpr ⟨he, h⟩)

theorem foldl_zadd_nodup {es l : List Entry} (h : l.Nodup) : (es.foldl zadd l).Nodup := by
  induction es generalizing l with
  | nil => exact h
  | cons e es ih => exact ih (zadd_nodup h)

/-- sorted, and nothing twice. -/
def Neat (l : List Entry) : Prop := SortedSeq l ∧ l.Nodup

theorem exec_neat (r : Req) {st : RedisStore} {k : String} (hs : Neat (st k)) : Neat ((r.exec st).1 k) := by
  by_cases hk : k ∈ r.keys
  · cases r with
    | write k' e' =>
      have : k = k' := by simpa [Req.keys] using hk
      subst this
      simpa [Req.exec, redisWrite, RedisStore.set] using ⟨zadd_sorted hs.1, zadd_nodup hs.2⟩
    | batch k' es =>
      have : k = k' := by simpa [Req.keys] using hk
      subst this
      simpa [Req.exec, redisWriteBatch, RedisStore.set] using ⟨foldl_zadd_sorted hs.1, foldl_zadd_nodup hs.2⟩
    | deleteRange k' a b =>
      have : k = k' := by simpa [Req.keys] using hk
      subst this
      simp only [Req.exec, RedisStore.set, if_pos]
      exact ⟨List.Pairwise.filter _ hs.1, hs.2.filter _⟩
    | delete ks =>
      simp only [Req.exec]
      rw [foldl_set, if_pos (show k ∈ ks from hk)]
      exact ⟨List.Pairwise.nil, List.nodup_nil⟩
    | latest k' => exact hs
    | one k' n => exact hs
    | range k' a b => exact hs
  · rw [exec_other r st k hk]; exact hs

theorem run_neat {P : List Effect} {st s : RedisStore} (h : InTurn st P s) {k : String} (hs : Neat (st k)) :
    Neat (s k) := by
  induction P generalizing st with
  | nil => cases h; exact hs
  | cons x xs ih => exact ih h.2 (exec_neat x.req hs)

/-! ### The calls before a reading -/

theorem mem_of_replicate {α : Type} {u v x : α} (h1 : x ≠ u) (h2 : x ≠ v) : ∀ {l : List α} {n : Nat} {p q : List α},
    l ++ x :: p = List.replicate n u ++ v :: q → v ∈ l := by
  intro l
  induction l with
  | nil =>
    intro n p q h
    cases n with
    | zero => injection h with h3; exact absurd h3 h2
    | succ n => rw [List.replicate_succ] at h; injection h with h3; exact absurd h3 h1
  | cons y l ih =>
    intro n p q h
    cases n with
    | zero => injection h with h3; rw [h3]; exact List.mem_cons_self ..
    | succ n =>
      rw [List.replicate_succ] at h
      injection h with h3 h4
      exact List.mem_cons_of_mem _ (ih h4)

theorem writes_about {r : Req} {k : String} {e : Entry} (h : e ∈ r.writes k) :
    k ∈ r.keys ∧ reads r = false ∧ r.removes = false := by
  cases r <;> simp [Req.writes] at h <;> simp [Req.keys, reads, Req.removes]
  · rename_i k' e'
    by_cases hk : k' = k
    · exact hk.symm
    · simp [hk] at h
  · exact h.1.symm

/-- Redis as it is when a reading takes place, as far as it can be told from the own calls before: nothing is there that
was not written, and what was written is there unless its removal was asked for. -/
theorem at_reading {st : RedisStore} {σ : Shared.Sys} {h : List Shared.Ev} {log : List Effect} (I : Shared.Inv st σ h log) {K : List String}
    (hK : Waits K h) (hst : ∀ k ∈ K, st k = []) (hs : Stubborn (trace K h)) {pre post : Calls} {r : Req} {a : Ans}
    (htr : trace K h = pre ++ (r, some a) :: post) (hr : reads r = true) :
    ∃ s : RedisStore, a = (r.exec s).2 ∧ ∀ k ∈ K, Neat (s k) ∧ (∀ e ∈ s k, Wrote pre k e) ∧
      ∀ e, Wrote pre k e → ¬ Gone pre k e → e ∈ s k := by
  have hn : (log.map (·.id)).Nodup := I.explains.once
  have hlog : log.Nodup := (List.pairwise_map.mp hn).imp fun {a b} hne e => hne (by rw [e])
  have hends := I.nodups.2.2
  have htr0 := htr
  unfold trace at htr
  obtain ⟨c1, c2, hc, hpre, hpost⟩ := List.map_eq_append_iff.mp htr
  obtain ⟨⟨i, r'⟩, c3, rfl, he, rfl⟩ := List.map_eq_cons_iff.mp hpost
  injection he with e1 e2
  have e1 : r' = r := e1
  subst e1
  have e2 : answerTo i h = some a := e2
  have hsorted : (callsAbout K h).Pairwise (fun a b => a.1 < b.1) := by
    rw [← List.pairwise_map (f := fun a : Nat × Req => a.1) (R := fun a b => a < b)]
    refine List.Pairwise.sublist (callsAbout_ids K h) ?_
    rw [I.begun]; exact List.pairwise_lt_range
  rw [hc] at hsorted
  have hia : Shared.Ev.answered i a ∈ h := answerTo_mem e2
  have hmem : (i, r') ∈ callsAbout K h := by rw [hc]; simp
  obtain ⟨⟨n, hcall⟩, hiK⟩ := mem_callsAbout.mp hmem
  obtain ⟨q, hx⟩ := I.told _ _ hia
  obtain ⟨n', hx'⟩ := I.asked _ hx
  obtain ⟨_, e3⟩ := I.same hcall hx'
  have e3 : r' = q := e3
  subst e3
  obtain ⟨P, Q, hPQ⟩ := List.append_of_mem hx
  have ht := I.turn
  rw [hPQ] at ht
  obtain ⟨s, ht1, ht2⟩ := ht.split
  -- what is about `K` and done before was called before
  have hearly : ∀ y ∈ P, About K y.req → (y.id, y.req) ∈ c1 := by
    intro y hy hyK
    have hyl : y ∈ log := by rw [hPQ]; exact List.mem_append_left _ hy
    obtain ⟨m, hcy⟩ := I.asked y hyl
    have hym : (y.id, y.req) ∈ callsAbout K h := mem_callsAbout.mpr ⟨⟨m, hcy⟩, hyK⟩
    rw [hc] at hym
    rcases List.mem_append.mp hym with h1 | h1
    · exact h1
    · exfalso
      have hbefore : Before log y ⟨i, r', a⟩ := by rw [hPQ]; exact ⟨P, _, rfl, hy, by simp⟩
      rcases List.mem_cons.mp h1 with h1 | h1
      · injection h1 with h2 h3
        have hy2 : y = ⟨i, r', a⟩ := by
          refine filterMap_nodup_inj (fun z : Effect => some z.id) ?_ y hyl _ hx y.id rfl (by simp [h2])
          have : log.filterMap (fun z : Effect => some z.id) = log.map (·.id) :=
            congrFun (List.filterMap_eq_map (f := fun z : Effect => z.id)) log
          rw [this]; exact hn
        rw [hy2] at hbefore
        exact hbefore.asymm hlog hbefore
      · have hlt : i < y.id := by
          have := (List.pairwise_cons.mp (List.pairwise_append.mp hsorted).2.1).1 _ h1
          exact this
        obtain ⟨ev, he, hb⟩ := hK.waits _ _ _ _ _ _ hiK hyK (I.before_called hcall hcy hlt)
        have := ends_unique hends hia hb.fst rfl he
        subst this
        exact hbefore.asymm hlog (I.kept _ hx _ hyl _ _ _ hb)
  refine ⟨s, ht2.1, fun k hk => ⟨run_neat ht1 (by rw [hst k hk]; exact ⟨List.Pairwise.nil, List.nodup_nil⟩), ?_, ?_⟩⟩
  · intro e he
    rcases mem_run_of ht1 he with h1 | ⟨y, hy, h1⟩
    · rw [hst k hk] at h1; cases h1
    · obtain ⟨hkk, hrd, hrm⟩ := writes_about h1
      have hyl : y ∈ log := by rw [hPQ]; exact List.mem_append_left _ hy
      obtain ⟨m, hcy⟩ := I.asked y hyl
      have hyK : About K y.req := (hK.apart _ _ _ hcy).2.resolve_right fun hc => hc k hkk hk
      have hyc := hearly y hy hyK
      have hyp : (y.req, answerTo y.id h) ∈ pre := by rw [← hpre]; exact List.mem_map.mpr ⟨_, hyc, rfl⟩
      cases ha : answerTo y.id h with
      | some b => rw [ha] at hyp; exact ⟨_, b, hyp, h1⟩
      | none =>
        rw [ha] at hyp
        obtain ⟨p1, p2, hp⟩ := List.append_of_mem hyp
        rw [hp, List.append_assoc, List.cons_append] at htr0
        obtain ⟨n, b, post', hq⟩ := hs _ _ _ htr0 hrd hrm
        have hne : ∀ o, (r', some a) ≠ (y.req, o) := by
          intro o hc
          injection hc with hc _
          rw [hc, hrd] at hr; cases hr
        have := mem_of_replicate (hne _) (hne _) hq
        exact ⟨_, b, by rw [hp]; exact List.mem_append_right _ (List.mem_cons_of_mem _ this), h1⟩
  · rintro e ⟨q, b, hq, hw⟩ hg
    obtain ⟨hkk, hrd, hrm⟩ := writes_about hw
    refine mem_run ht1 (.inr ?_) ?_
    · rw [← hpre] at hq
      obtain ⟨⟨j, q'⟩, hj, hjq⟩ := List.mem_map.mp hq
      injection hjq with h1 h2
      have h1 : q' = q := h1
      subst h1
      have h2 : answerTo j h = some b := h2
      have hja := answerTo_mem h2
      have hlt : j < i := (List.pairwise_append.mp hsorted).2.2 (j, q') hj (i, r') (by simp)
      obtain ⟨⟨m, hcj⟩, hjK⟩ := mem_callsAbout.mp (show (j, q') ∈ callsAbout K h by rw [hc]; exact List.mem_append_left _ hj)
      obtain ⟨r2, hjl⟩ := I.told _ _ hja
      obtain ⟨m2, hcj2⟩ := I.asked _ hjl
      obtain ⟨_, h3⟩ := I.same hcj hcj2
      have h3 : q' = r2 := h3
      subst h3
      obtain ⟨ev, he, hb⟩ := hK.waits _ _ _ _ _ _ hjK hiK (I.before_called hcj hcall hlt)
      have := ends_unique hends hja hb.fst rfl he
      subst this
      have hbl := I.kept _ hjl _ hx _ _ _ hb
      refine ⟨⟨j, q', b⟩, ?_, hw⟩
      have hjm : (⟨j, q', b⟩ : Effect) ∈ P ++ ⟨i, r', a⟩ :: Q := by rw [← hPQ]; exact hjl
      rcases List.mem_append.mp hjm with h4 | h4
      · exact h4
      · exfalso
        rcases List.mem_cons.mp h4 with h4 | h4
        · rw [h4] at hbl; exact hbl.asymm hlog hbl
        · refine hbl.asymm hlog ?_
          rw [hPQ]
          exact ⟨P ++ [⟨i, r', a⟩], Q, by simp, by simp, h4⟩
    · intro y hy htk
      have hyl : y ∈ log := by rw [hPQ]; exact List.mem_append_left _ hy
      obtain ⟨m, hcy⟩ := I.asked y hyl
      have hky : k ∈ y.req.keys := by
        cases hyr : y.req with
        | deleteRange k' lo hi => rw [hyr] at htk; exact List.mem_singleton.mpr htk.1
        | delete ks => rw [hyr] at htk; exact htk
        | _ => rw [hyr] at htk; exact htk.elim
      have hyK : About K y.req := (hK.apart _ _ _ hcy).2.resolve_right fun hc => hc k hky hk
      have hyc := hearly y hy hyK
      have hyp : (y.req, answerTo y.id h) ∈ pre := by rw [← hpre]; exact List.mem_map.mpr ⟨_, hyc, rfl⟩
      cases hyr : y.req with
      | deleteRange k' lo hi =>
        rw [hyr] at htk hyp
        obtain ⟨rfl, h1, h2⟩ := htk
        exact hg ⟨lo, hi, _, hyp, h1, h2⟩
      | delete ks => rw [hyr] at hcy hyK; exact hK.ranges _ _ _ hcy hyK
      | _ => rw [hyr] at htk; exact htk.elim

/-! ### A life -/

variable {ε σ : Type}

/-- given up after the last attempt. -/
def _root_.Verif.Persist.Cmd.givenUp : Cmd ε → Bool
  | .event _ o => o != .ok
  | .events _ o => o != .ok
  | .save o => o != .ok
  | _ => false

theorem Wrote.append {a b : Calls} {k : String} {e : Entry} : Wrote (a ++ b) k e ↔ Wrote a k e ∨ Wrote b k e := by
  constructor
  · rintro ⟨q, o, h1, h2⟩
    rcases List.mem_append.mp h1 with h1 | h1
    · exact .inl ⟨q, o, h1, h2⟩
    · exact .inr ⟨q, o, h1, h2⟩
  · rintro (⟨q, o, h1, h2⟩ | ⟨q, o, h1, h2⟩)
    · exact ⟨q, o, List.mem_append_left _ h1, h2⟩
    · exact ⟨q, o, List.mem_append_right _ h1, h2⟩

theorem lastSeq_number (n : Int) (ps : List Payload) : lastSeq n (numberBatch n ps) = n + ps.length := by
  cases ps with
  | nil => simp [numberBatch, lastSeq]
  | cons p ps =>
    have h := numberBatch_getLast n (p :: ps) (by simp)
    cases hl : (numberBatch n (p :: ps)).getLast? with
    | none => rw [hl] at h; cases h
    | some e =>
      rw [hl] at h
      rw [lastSeq_getLast hl]
      simpa using h

theorem lastSeq_append' (n : Int) (a b : List Entry) : lastSeq n (a ++ b) = lastSeq (lastSeq n a) b := by
  simp [lastSeq]

/-- strictly sorted lists with the same members are the same. -/
theorem strict_ext {l m : List Entry} (hl : Neat l) (hm : StrictSeq m) (h : ∀ e, e ∈ l ↔ e ∈ m) : l = m := by
  have hmn : m.Nodup := hm.imp fun {a b} hlt e => by rw [e] at hlt; omega
  have hp : l.Perm m := (List.perm_ext_iff_of_nodup hl.2 hmn).mpr h
  refine List.Perm.eq_of_pairwise (le := fun a b : Entry => a.seq ≤ b.seq) ?_ hl.1 hm.sorted hp
  intro a b ha hb h1 h2
  have hb' := hb
  have ha' := (h a).mp ha
  have he : a.seq = b.seq := by omega
  by_cases hab : a = b
  · exact hab
  · exfalso
    have : ∀ {m : List Entry}, StrictSeq m → ∀ a ∈ m, ∀ b ∈ m, a.seq = b.seq → a = b := by
      intro m
      induction m with
      | nil => intro _ a ha; cases ha
      | cons x m ih =>
        intro hs a ha b hb he
        have hs := List.pairwise_cons.mp hs
        rcases List.mem_cons.mp ha with h3 | h3 <;> rcases List.mem_cons.mp hb with h4 | h4
        · rw [h3, h4]
        · have := hs.1 b h4; rw [h3] at he; omega
        · have := hs.1 a h3; rw [h4] at he; omega
        · exact ih hs.2 a h3 b h4 he
    exact hab (this hm a ha' b hb he)

section
variable (key : String → String → String) (pid : String) (A : App ε σ)

/-- the calls of a life as requests. -/
def asked (t : List (Method × Option Ans)) : Calls := t.map fun x => (x.1.req key pid, x.2)

/-- where an actor stands after the calls `p`: the newest snapshot `sn`, the events `L` since, and the state they make. -/
structure Stands (p : Calls) (sn : Option Entry) (L : List Entry) (cur : σ) : Prop where
  holds : Holds A ⟨sn.map Entry.payload, L.map Entry.payload⟩ cur
  newest : match sn with
    | none => ∀ e, ¬ Wrote p (key pid "snapshot") e
    | some x => Wrote p (key pid "snapshot") x ∧ ∀ e, Wrote p (key pid "snapshot") e → e = x ∨ e.seq < x.seq
  strict : StrictSeq L
  above : ∀ e ∈ L, (sn.map (·.seq)).getD 0 < e.seq
  mem : ∀ e, Wrote p (key pid "journal") e → e ∈ L ∨ e.seq < (sn.map (·.seq)).getD 0
  mem' : ∀ e ∈ L, Wrote p (key pid "journal") e
  low : ∀ lo hi o, (Req.deleteRange (key pid "journal") lo hi, o) ∈ p → hi ≤ (sn.map (·.seq)).getD 0
  kept : ∀ lo hi o, (Req.deleteRange (key pid "snapshot") lo hi, o) ∉ p

/-- the journal of an actor that stands there. -/
def journalOf (sn : Option Entry) (L : List Entry) : Journal :=
  ⟨pid, lastSeq ((sn.map (·.seq)).getD 0) L, sn.map (·.seq)⟩

/-- it runs, in this state and with this journal, or it does not run. -/
def Is (c : Actor σ) (sn : Option Entry) (L : List Entry) (cur : σ) : Prop :=
  c.state = none ∨ (c.state = some cur ∧ c.journal = journalOf pid sn L)

theorem Stands.base_le {p : Calls} {sn : Option Entry} {L : List Entry} {cur : σ} (h : Stands key pid A p sn L cur) :
    (sn.map (·.seq)).getD 0 ≤ lastSeq ((sn.map (·.seq)).getD 0) L := by
  by_cases hL : L = []
  · subst hL; exact Int.le_refl _
  · obtain ⟨e, he, h1⟩ := lastSeq_mem (l := (sn.map (·.seq)).getD 0) hL
    have := h.above e he
    omega

/-- calls that write and remove nothing make no difference. -/
theorem Stands.quiet {p t : Calls} {sn : Option Entry} {L : List Entry} {cur : σ} (h : Stands key pid A p sn L cur)
    (hw : ∀ x ∈ t, reads x.1 = true ∨ (x.2 = none ∧ x.1.removes = false)) : Stands key pid A (p ++ t) sn L cur := by
  have hn : ∀ k e, ¬ Wrote t k e := by
    rintro k e ⟨q, b, hq, he⟩
    obtain ⟨_, h1, _⟩ := writes_about he
    rcases hw _ hq with h2 | ⟨h2, _⟩
    · rw [h1] at h2; cases h2
    · cases h2
  have hd : ∀ k lo hi o, (Req.deleteRange k lo hi, o) ∉ t := by
    intro k lo hi o hm
    rcases hw _ hm with h2 | ⟨_, h2⟩ <;> cases h2
  have hiff : ∀ k e, Wrote (p ++ t) k e ↔ Wrote p k e := by
    intro k e
    rw [Wrote.append]
    exact ⟨fun h => h.resolve_right (hn k e), .inl⟩
  refine ⟨h.holds, ?_, h.strict, h.above, fun e he => h.mem e ((hiff _ _).mp he), fun e he => (hiff _ _).mpr (h.mem' e he),
    fun lo hi o hm => ?_, fun lo hi o hm => ?_⟩
  · have := h.newest
    cases sn with
    | none => exact fun e he => this e ((hiff _ _).mp he)
    | some x => exact ⟨(hiff _ _).mpr this.1, fun e he => this.2 e ((hiff _ _).mp he)⟩
  · rcases List.mem_append.mp hm with hm | hm
    · exact h.low _ _ _ hm
    · exact absurd hm (hd _ _ _ _)
  · rcases List.mem_append.mp hm with hm | hm
    · exact h.kept _ _ _ hm
    · exact hd _ _ _ _ hm

variable (hk : KeyOk key)
include hk

theorem keys_ne : key pid "journal" ≠ key pid "snapshot" := fun e =>
  absurd (hk _ _ _ _ e (.inl rfl) (.inr rfl)).2 (by decide)

/-- a batch is written. -/
theorem Stands.batch {p : Calls} {sn : Option Entry} {L : List Entry} {cur : σ} (h : Stands key pid A p sn L cur)
    (es : List ε) (a : Ans) :
    Stands key pid A (p ++ [(.batch (key pid "journal") (numberBatch (journalOf pid sn L).last (es.map A.enc)), some a)])
      sn (L ++ numberBatch (journalOf pid sn L).last (es.map A.enc)) (es.foldl A.app cur) := by
  have hne := keys_ne key pid hk
  have hb := h.base_le
  have hbd := numberBatch_bounds (journalOf pid sn L).last (es.map A.enc)
  have hwj : ∀ e, Wrote [(Req.batch (key pid "journal") (numberBatch (journalOf pid sn L).last (es.map A.enc)), some a)]
      (key pid "journal") e ↔ e ∈ numberBatch (journalOf pid sn L).last (es.map A.enc) := by
    intro e
    constructor
    · rintro ⟨q, b, hq, he⟩
      simp only [List.mem_singleton, Prod.mk.injEq] at hq
      rw [hq.1] at he
      simpa [Req.writes] using he
    · exact fun he => ⟨_, a, List.mem_singleton.mpr rfl, by simpa [Req.writes] using he⟩
  have hws : ∀ e, ¬ Wrote [(Req.batch (key pid "journal") (numberBatch (journalOf pid sn L).last (es.map A.enc)), some a)]
      (key pid "snapshot") e := by
    rintro e ⟨q, b, hq, he⟩
    simp only [List.mem_singleton, Prod.mk.injEq] at hq
    rw [hq.1] at he
    simp [Req.writes, hne] at he
  refine ⟨?_, ?_, ?_, ?_, ?_, ?_, ?_, ?_⟩
  · have := h.holds.add es
    simpa [numberBatch_payload] using this
  · have := h.newest
    cases sn with
    | none =>
      intro e he
      rcases Wrote.append.mp he with he | he
      · exact this e he
      · exact hws e he
    | some x =>
      refine ⟨Wrote.append.mpr (.inl this.1), fun e he => ?_⟩
      rcases Wrote.append.mp he with he | he
      · exact this.2 e he
      · exact absurd he (hws e)
  · refine List.pairwise_append.mpr ⟨h.strict, numberBatch_strict _ _, fun x hx y hy => ?_⟩
    have h1 := le_lastSeq (l := (sn.map (·.seq)).getD 0) h.strict.sorted x hx
    have h2 := (hbd y hy).1
    show x.seq < y.seq
    have h3 : (journalOf pid sn L).last = lastSeq ((sn.map (·.seq)).getD 0) L := rfl
    omega
  · intro e he
    rcases List.mem_append.mp he with he | he
    · exact h.above e he
    · have h2 := (hbd e he).1
      have h3 : (journalOf pid sn L).last = lastSeq ((sn.map (·.seq)).getD 0) L := rfl
      omega
  · intro e he
    rcases Wrote.append.mp he with he | he
    · rcases h.mem e he with h1 | h1
      · exact .inl (List.mem_append_left _ h1)
      · exact .inr h1
    · exact .inl (List.mem_append_right _ ((hwj e).mp he))
  · intro e he
    rcases List.mem_append.mp he with he | he
    · exact Wrote.append.mpr (.inl (h.mem' e he))
    · exact Wrote.append.mpr (.inr ((hwj e).mpr he))
  · intro lo hi o hm
    rcases List.mem_append.mp hm with hm | hm
    · exact h.low _ _ _ hm
    · simp at hm
  · intro lo hi o hm
    rcases List.mem_append.mp hm with hm | hm
    · exact h.kept _ _ _ hm
    · simp at hm

/-- the state is saved. -/
theorem Stands.save (hA : A.Lawful) {p : Calls} {sn : Option Entry} {L : List Entry} {cur : σ}
    (h : Stands key pid A p sn L cur) (a : Ans) :
    Stands key pid A (p ++ [(.write (key pid "snapshot")
      ⟨(journalOf pid sn L).last + 1, (A.encS cur).ptype, (A.encS cur).bytes⟩, some a)])
      (some ⟨(journalOf pid sn L).last + 1, (A.encS cur).ptype, (A.encS cur).bytes⟩) [] cur := by
  have hne := keys_ne key pid hk
  have hb := h.base_le
  have h3 : (journalOf pid sn L).last = lastSeq ((sn.map (·.seq)).getD 0) L := rfl
  generalize (journalOf pid sn L).last = n at *
  subst h3
  have hwj : ∀ e x, ¬ Wrote [(Req.write (key pid "snapshot") x, some a)] (key pid "journal") e := by
    rintro e x ⟨q, b, hq, he⟩
    simp only [List.mem_singleton, Prod.mk.injEq] at hq
    rw [hq.1] at he
    simp [Req.writes, hne.symm] at he
  have hws : ∀ e x, Wrote [(Req.write (key pid "snapshot") x, some a)] (key pid "snapshot") e ↔ e = x := by
    intro e x
    constructor
    · rintro ⟨q, b, hq, he⟩
      simp only [List.mem_singleton, Prod.mk.injEq] at hq
      rw [hq.1] at he
      simpa [Req.writes] using he
    · rintro rfl
      exact ⟨_, a, List.mem_singleton.mpr rfl, by simp [Req.writes]⟩
  refine ⟨⟨cur, [], ?_, rfl, rfl⟩, ⟨Wrote.append.mpr (.inr ((hws _ _).mpr rfl)), fun e he => ?_⟩, List.Pairwise.nil, ?_, ?_,
    ?_, ?_, ?_⟩
  · show (if A.known.snapshot (A.encS cur).ptype then A.decS (A.encS cur) else none) = some cur
    rw [if_pos (hA.knownS cur), hA.decS]
  · rcases Wrote.append.mp he with he1 | he1
    · right
      have := h.newest
      show e.seq < lastSeq _ L + 1
      cases sn with
      | none => exact absurd he1 (this e)
      | some x =>
        have hx : ((some x : Option Entry).map (·.seq)).getD 0 = x.seq := rfl
        rw [hx] at hb ⊢
        rcases this.2 e he1 with h1 | h1
        · rw [h1]; omega
        · omega
    · exact .inl ((hws _ _).mp he1)
  · intro e he; cases he
  · intro e he
    right
    show e.seq < lastSeq _ L + 1
    rcases Wrote.append.mp he with he | he
    · rcases h.mem e he with h1 | h1
      · have := le_lastSeq (l := (sn.map (·.seq)).getD 0) h.strict.sorted e h1
        omega
      · omega
    · exact absurd he (hwj _ _)
  · intro e he; cases he
  · intro lo hi o hm
    show hi ≤ lastSeq _ L + 1
    rcases List.mem_append.mp hm with hm | hm
    · have := h.low _ _ _ hm
      omega
    · simp at hm
  · intro lo hi o hm
    rcases List.mem_append.mp hm with hm | hm
    · exact h.kept _ _ _ hm
    · simp at hm

/-- old events are removed, or that is asked for. -/
theorem Stands.trim {p : Calls} {x : Entry} {L : List Entry} {cur : σ} (h : Stands key pid A p (some x) L cur)
    (o : Option Ans) : Stands key pid A (p ++ [(.deleteRange (key pid "journal") 0 x.seq, o)]) (some x) L cur := by
  have hne := keys_ne key pid hk
  have hn : ∀ k e, ¬ Wrote [(Req.deleteRange (key pid "journal") 0 x.seq, o)] k e := by
    rintro k e ⟨q, b, hq, he⟩
    simp only [List.mem_singleton, Prod.mk.injEq] at hq
    rw [hq.1] at he
    cases he
  have hiff : ∀ k e, Wrote (p ++ [(Req.deleteRange (key pid "journal") 0 x.seq, o)]) k e ↔ Wrote p k e := by
    intro k e
    rw [Wrote.append]
    exact ⟨fun h => h.resolve_right (hn k e), .inl⟩
  refine ⟨h.holds, ⟨(hiff _ _).mpr h.newest.1, fun e he => h.newest.2 e ((hiff _ _).mp he)⟩, h.strict, h.above,
    fun e he => h.mem e ((hiff _ _).mp he), fun e he => (hiff _ _).mpr (h.mem' e he), fun lo hi o' hm => ?_,
    fun lo hi o' hm => ?_⟩
  · rcases List.mem_append.mp hm with hm | hm
    · exact h.low _ _ _ hm
    · simp only [List.mem_singleton, Prod.mk.injEq, Req.deleteRange.injEq] at hm
      show hi ≤ x.seq
      omega
  · rcases List.mem_append.mp hm with hm | hm
    · exact h.kept _ _ _ hm
    · simp only [List.mem_singleton, Prod.mk.injEq, Req.deleteRange.injEq] at hm
      exact hne hm.1.1.symm

omit hk in
/-- what readings show, given the own calls before. -/
def SeesAll (K : List String) (full : Calls) : Prop := ∀ pre r a post, full = pre ++ (r, some a) :: post →
  reads r = true → ∃ s : RedisStore, a = (r.exec s).2 ∧ ∀ k ∈ K, Neat (s k) ∧ (∀ e ∈ s k, Wrote pre k e) ∧
    ∀ e, Wrote pre k e → ¬ Gone pre k e → e ∈ s k

omit hk in
/-- the newest snapshot is the one that is read. -/
theorem Stands.latest {p : Calls} {sn : Option Entry} {L : List Entry} {cur : σ} (h : Stands key pid A p sn L cur)
    {l : List Entry} (hn : Neat l) (h1 : ∀ e ∈ l, Wrote p (key pid "snapshot") e)
    (h2 : ∀ e, Wrote p (key pid "snapshot") e → ¬ Gone p (key pid "snapshot") e → e ∈ l) : l.getLast? = sn := by
  have hg : ∀ e, ¬ Gone p (key pid "snapshot") e := by
    rintro e ⟨lo, hi, o, hm, _⟩
    exact h.kept _ _ _ hm
  have hw := h.newest
  cases sn with
  | none =>
    rw [List.getLast?_eq_none_iff]
    exact List.eq_nil_iff_forall_not_mem.mpr fun e he => hw e (h1 e he)
  | some x =>
    have hx := h2 x hw.1 (hg x)
    cases hl : l.getLast? with
    | none => rw [List.getLast?_eq_none_iff] at hl; rw [hl] at hx; cases hx
    | some y =>
      have hy : y ∈ l := List.mem_of_getLast? hl
      have hle := le_getLast hn.1 hl x hx
      rcases hw.2 y (h1 y hy) with h3 | h3
      · rw [h3]
      · omega

omit hk in
/-- the events since the newest snapshot are those that are read. -/
theorem Stands.since {p : Calls} {sn : Option Entry} {L : List Entry} {cur : σ} (h : Stands key pid A p sn L cur)
    {s : RedisStore} (hn : Neat (s (key pid "journal"))) (h1 : ∀ e ∈ s (key pid "journal"), Wrote p (key pid "journal") e)
    (h2 : ∀ e, Wrote p (key pid "journal") e → ¬ Gone p (key pid "journal") e → e ∈ s (key pid "journal")) :
    redisReadRange s (key pid "journal") ((sn.map (·.seq)).getD 0) none = L := by
  refine strict_ext ⟨List.Pairwise.filter _ hn.1, hn.2.filter _⟩ h.strict fun e => ?_
  unfold redisReadRange
  simp only [Bool.and_true, List.mem_filter, decide_eq_true_eq]
  constructor
  · rintro ⟨he, hs⟩
    rcases h.mem e (h1 e he) with h3 | h3
    · exact h3
    · omega
  · intro he
    have ha := h.above e he
    refine ⟨h2 e (h.mem' e he) ?_, by omega⟩
    rintro ⟨lo, hi, o, hm, _, h4⟩
    have := h.low _ _ _ hm
    omega

omit hk in
/-- a start finds what there is, or fails with its last call. -/
theorem Stands.boot (hA : A.Lawful) {p rest : Calls} {sn : Option Entry} {L : List Entry} {cur : σ} {c' : Actor σ}
    {t : List (Method × Option Ans)} (h : Stands key pid A p sn L cur) (hr : (Client.boot A pid).Runs t c')
    (hs : SeesAll [key pid "journal", key pid "snapshot"] (p ++ asked key pid t ++ rest)) :
    Stands key pid A (p ++ asked key pid t) sn L cur ∧ Is pid c' sn L cur ∧
      (c'.state = none → ∃ t' m, t = t' ++ [(m, none)]) := by
  have hquiet : ∀ l : Calls, (∀ x ∈ l, reads x.1 = true) → Stands key pid A (p ++ l) sn L cur := fun l hl =>
    h.quiet key pid A fun x hx => .inl (hl x hx)
  obtain ⟨t1, t2, r, rfl, h1, h2⟩ := Runs.bind hr
  obtain ⟨o, l', rfl, h1⟩ := h1
  cases o with
  | none =>
    obtain ⟨rfl, rfl⟩ := h1
    obtain ⟨rfl, rfl⟩ := h2
    have hq := hquiet (asked key pid [(.readLatestSnapshot, none)]) (by simp [asked, Method.req, reads])
    exact ⟨by simpa using hq, .inl rfl, fun _ => ⟨[], _, rfl⟩⟩
  | some a =>
    obtain ⟨s, ha, hk1⟩ := hs p (.latest (key pid "snapshot")) a (asked key pid (l' ++ t2) ++ rest)
      (by simp [asked, Method.req]) rfl
    obtain ⟨n1, n2, n3⟩ := hk1 (key pid "snapshot") (by simp)
    have hl := h.latest key pid A n1 n2 n3
    have ha : a = .entry (s (key pid "snapshot")).getLast? := ha
    rw [hl] at ha
    subst ha
    have step : ∃ o, l' = [(.readLatestMessages ((sn.map (·.seq)).getD 0), o)] ∧
        (o = none → r = none) ∧ (o = some (.entries (some L)) → r = some (journalOf pid sn L,
          View.seen A.known ⟨sn.map Entry.payload, L.map Entry.payload⟩)) := by
      have hv : ∀ (sp : Option Payload),
          sp = (sn.map Entry.payload).filter (fun p => A.known.snapshot p.ptype) →
          (⟨sp, if ((L.filter fun e => A.known.message e.ptype).map Entry.payload).length = 0 then none
            else some ((L.filter fun e => A.known.message e.ptype).map Entry.payload)⟩ : Recovered) =
          View.seen A.known ⟨sn.map Entry.payload, L.map Entry.payload⟩ := by
        rintro sp rfl
        simp only [View.seen, ← filter_map_payload, List.length_eq_zero_iff]
      cases sn with
      | none =>
        obtain ⟨o, l'', rfl, h1⟩ := h1
        refine ⟨o, ?_, ?_, ?_⟩
        · cases o with
          | none => obtain ⟨rfl, _⟩ := h1; rfl
          | some b =>
            cases b with
            | entries es => cases es <;> (obtain ⟨rfl, _⟩ := h1; rfl)
            | done => obtain ⟨rfl, _⟩ := h1; rfl
            | entry e => obtain ⟨rfl, _⟩ := h1; rfl
        · rintro rfl; exact h1.2
        · rintro rfl
          rw [h1.2, ← hv none rfl]
          rfl
      | some x =>
        obtain ⟨o, l'', rfl, h1⟩ := h1
        refine ⟨o, ?_, ?_, ?_⟩
        · cases o with
          | none => obtain ⟨rfl, _⟩ := h1; rfl
          | some b =>
            cases b with
            | entries es => cases es <;> (obtain ⟨rfl, _⟩ := h1; rfl)
            | done => obtain ⟨rfl, _⟩ := h1; rfl
            | entry e => obtain ⟨rfl, _⟩ := h1; rfl
        · rintro rfl; exact h1.2
        · rintro rfl
          rw [h1.2, ← hv (if A.known.snapshot x.ptype then some x.payload else none) ?_]
          · rfl
          · by_cases hkn : A.known.snapshot x.ptype <;> simp [hkn, Entry.payload, Option.filter]
    obtain ⟨o, rfl, hn, hsome⟩ := step
    have hq := hquiet (asked key pid [(.readLatestSnapshot, some (.entry sn)),
      (.readLatestMessages ((sn.map (·.seq)).getD 0), o)]) (by simp [asked, Method.req, reads])
    have hq1 := hquiet (asked key pid [(.readLatestSnapshot, some (.entry sn))]) (by simp [asked, Method.req, reads])
    cases o with
    | none =>
      have hn := hn rfl
      subst hn
      obtain ⟨rfl, rfl⟩ := h2
      exact ⟨by simpa using hq, .inl rfl, fun _ => ⟨[_], _, rfl⟩⟩
    | some b =>
      obtain ⟨s', hb, hk2⟩ := hs (p ++ asked key pid [(.readLatestSnapshot, some (.entry sn))])
        (.range (key pid "journal") (some ((sn.map (·.seq)).getD 0)) none) b (asked key pid t2 ++ rest)
        (by simp [asked, Method.req]) rfl
      obtain ⟨m1, m2, m3⟩ := hk2 (key pid "journal") (by simp)
      have hL := hq1.since key pid A m1 m2 m3
      have hb : b = .entries (some (redisReadRange s' (key pid "journal") ((sn.map (·.seq)).getD 0) none)) := hb
      rw [hL] at hb
      subst hb
      have hsome := hsome rfl
      subst hsome
      obtain ⟨rfl, rfl⟩ := h2
      have hup : (started A.user (.retry .untilSuccess) A.init [true]
          (View.seen A.known ⟨sn.map Entry.payload, L.map Entry.payload⟩)).up = some cur := crash_state hA h.holds 0
      refine ⟨by simpa using hq, .inr ⟨hup, rfl⟩, fun hc => ?_⟩
      have hc : (started A.user (.retry .untilSuccess) A.init [true]
          (View.seen A.known ⟨sn.map Entry.payload, L.map Entry.payload⟩)).up = none := hc
      rw [hup] at hc; cases hc

omit hk in
theorem asked_append (a b : List (Method × Option Ans)) : asked key pid (a ++ b) = asked key pid a ++ asked key pid b := by
  simp [asked]

/-- a job is done. -/
theorem Stands.act (hA : A.Lawful) {p : Calls} {sn : Option Entry} {L : List Entry} {cur : σ} {c c' : Actor σ}
    {s : σ} {n : Nat} {j : Job ε} {x : Cmd ε} {t : List (Method × Option Ans)} (h : Stands key pid A p sn L cur)
    (hi : Is pid c sn L cur) (hc : c.state = some s) (hr : (c.act A s n j).Runs t (c', x)) (hx : x.isSingle = false)
    (hg : x.givenUp = false) :
    ∃ sn' L', Stands key pid A (p ++ asked key pid t) sn' L' (x.acked.foldl A.app cur) ∧
      Is pid c' sn' L' (x.acked.foldl A.app cur) := by
  rcases hi with hi | ⟨hi, hj⟩
  · rw [hi] at hc; cases hc
  rw [hi] at hc
  cases hc
  have hP := C117_persists A c cur n t (c', x)
  have hfail : ∀ (k : Nat) (m : Method), (m.req key pid).removes = false →
      Stands key pid A (p ++ asked key pid (List.replicate k (m, none))) sn L cur := by
    intro k m hm
    refine h.quiet key pid A fun y hy => .inr ?_
    unfold asked at hy
    rw [List.map_replicate] at hy
    have := List.eq_of_mem_replicate hy
    rw [this]
    exact ⟨rfl, hm⟩
  cases j with
  | event e =>
    obtain ⟨ok, _, h2⟩ := (hP.1 e).mp hr
    injection h2 with h2 h3
    subst h3
    cases hx
  | events es =>
    cases es with
    | nil =>
      obtain ⟨rfl, h2⟩ := hP.2.2.1.mp hr
      injection h2 with h2 h3
      subst h2 h3
      exact ⟨sn, L, by simpa [asked, Cmd.acked, WriteOutcome.acked] using h,
        .inr ⟨by simpa [Cmd.acked, WriteOutcome.acked] using hi, hj⟩⟩
    | cons e es =>
      obtain ⟨ok, h1, h2⟩ := (hP.2.1 e es).mp hr
      injection h2 with h2 h3
      subst h2 h3
      cases ok with
      | false => simp [Cmd.givenUp] at hg
      | true =>
        rcases h1 with ⟨_, k, a, _, rfl⟩ | ⟨h1, _⟩
        · refine ⟨sn, L ++ numberBatch (journalOf pid sn L).last ((e :: es).map A.enc), ?_, .inr ⟨rfl, ?_⟩⟩
          · have := Stands.batch key pid A hk (hfail k (.writeBatch (numberBatch c.journal.last ((e :: es).map A.enc))) rfl)
              (e :: es) a
            rw [asked_append, ← List.append_assoc]
            rw [hj] at this ⊢
            exact this
          · show (⟨c.journal.pid, c.journal.last + ((es.length : Int) + 1), c.journal.lastSnap⟩ : Journal) = _
            rw [hj]
            simp only [journalOf, lastSeq_append', lastSeq_number, List.length_map, List.length_cons]
            simp
        · cases h1
  | save =>
    obtain ⟨ok, h1, h2⟩ := hP.2.2.2.1.mp hr
    injection h2 with h2 h3
    subst h2 h3
    cases ok with
    | false => simp [Cmd.givenUp] at hg
    | true =>
      rcases h1 with ⟨_, k, a, _, rfl⟩ | ⟨h1, _⟩
      · refine ⟨some ⟨(journalOf pid sn L).last + 1, (A.encS cur).ptype, (A.encS cur).bytes⟩, [], ?_, .inr ⟨rfl, ?_⟩⟩
        · have := Stands.save key pid A hk hA
            (hfail k (.writeSnapshot ⟨c.journal.last + 1, (A.encS cur).ptype, (A.encS cur).bytes⟩) rfl) a
          rw [asked_append, ← List.append_assoc]
          rw [hj] at this ⊢
          exact this
        · show (⟨c.journal.pid, c.journal.last + 1, some (c.journal.last + 1)⟩ : Journal) = _
          rw [hj]
          rfl
      · cases h1
  | trim =>
    rcases hP.2.2.2.2.mp hr with ⟨_, rfl, h2⟩ | ⟨y, hy, a, rfl, h2⟩
    · injection h2 with h2 h3
      subst h2 h3
      exact ⟨sn, L, by simpa [asked, Cmd.acked] using h, .inr ⟨by simpa [Cmd.acked] using hi, hj⟩⟩
    · injection h2 with h2 h3
      subst h2 h3
      rw [hj] at hy
      have hy : sn.map (·.seq) = some y := hy
      obtain ⟨z, rfl, rfl⟩ := Option.map_eq_some_iff.mp hy
      exact ⟨some z, L, by simpa [asked, Cmd.acked, Method.req] using h.trim key pid A hk a,
        .inr ⟨by simpa [Cmd.acked] using hi, hj⟩⟩

/-- a life goes on. -/
theorem Stands.lives (hA : A.Lawful) {p rest : Calls} {sn : Option Entry} {L : List Entry} {cur : σ} {c c' : Actor σ}
    {t : List (Method × Option Ans)} {cs : List (Cmd ε)} (hl : Lives A pid c t cs c')
    (h : Stands key pid A p sn L cur) (hi : Is pid c sn L cur)
    (hs : SeesAll [key pid "journal", key pid "snapshot"] (p ++ asked key pid t ++ rest))
    (hx : ∀ x ∈ cs, x.isSingle = false) (hg : ∀ x ∈ cs, x.givenUp = false) :
    (c'.state = some ((cs.flatMap Cmd.acked).foldl A.app cur)) ∨
      (c'.state = none ∧ ((t = [] ∧ c.state = none) ∨ ∃ t' m, t = t' ++ [(m, none)])) := by
  induction hl generalizing p sn L cur rest with
  | nil c =>
    rcases hi with hi | ⟨hi, _⟩
    · exact .inr ⟨hi, .inl ⟨rfl, hi⟩⟩
    · exact .inl hi
  | @act c c1 c2 s n j x l l' cs hc hr _ ih =>
    obtain ⟨sn', L', h1, h2⟩ := h.act key pid A hk hA hi hc hr (hx x (by simp)) (hg x (by simp))
    rw [asked_append, ← List.append_assoc] at hs
    rcases ih h1 h2 hs (fun y hy => hx y (by simp [hy])) (fun y hy => hg y (by simp [hy])) with h3 | ⟨h3, h4⟩
    · exact .inl (by simpa [List.foldl_append] using h3)
    · refine .inr ⟨h3, .inr ?_⟩
      rcases h4 with ⟨_, h4⟩ | ⟨t', m, rfl⟩
      · exact absurd h4 (act_up A hc hr)
      · exact ⟨l ++ t', m, (List.append_assoc ..).symm⟩
  | @start c c1 c2 l l' cs hr _ ih =>
    rw [asked_append, ← List.append_assoc] at hs
    obtain ⟨h1, h2, h3⟩ := h.boot key pid A hA (rest := asked key pid l' ++ rest) hr (by rw [← List.append_assoc]; exact hs)
    rcases ih h1 h2 hs (fun y hy => hx y (by simp [hy])) (fun y hy => hg y (by simp [hy])) with h4 | ⟨h4, h5⟩
    · exact .inl h4
    · refine .inr ⟨h4, .inr ?_⟩
      rcases h5 with ⟨rfl, h5⟩ | ⟨t', m, rfl⟩
      · rw [List.append_nil]
        exact h3 h5
      · exact ⟨l ++ t', m, (List.append_assoc ..).symm⟩

omit hk in
theorem Stubborn.append {a b : Calls} (ha : Stubborn a) (hb : Stubborn b) : Stubborn (a ++ b) := by
  intro pre r post h hrd hrm
  rcases List.append_eq_append_iff.mp h with ⟨m, h1, h2⟩ | ⟨m, h1, h2⟩
  · exact hb m r post h2 hrd hrm
  · cases m with
    | nil => exact hb [] r post h2.symm hrd hrm
    | cons y m =>
      rw [List.cons_append] at h2
      injection h2 with h2 h3
      subst h2
      obtain ⟨n, o, post', h4⟩ := ha pre r m h1 hrd hrm
      exact ⟨n, o, post' ++ b, by rw [h3, h4]; simp⟩

omit hk in
theorem stubborn_of {l : Calls} (h : ∀ x ∈ l, reads x.1 = true ∨ x.1.removes = true) : Stubborn l := by
  rintro pre r post rfl hrd hrm
  rcases h (r, none) (by simp) with h1 | h1
  · rw [hrd] at h1; cases h1
  · rw [hrm] at h1; cases h1

omit hk in
theorem stubborn_attempts (k : Nat) (r : Req) (a : Ans) : Stubborn (List.replicate k (r, none) ++ [(r, some a)]) := by
  induction k with
  | zero =>
    intro pre q post h _ _
    cases pre with
    | nil => simp at h
    | cons y pre => simp at h
  | succ k ih =>
    intro pre q post h hrd hrm
    rw [List.replicate_succ, List.cons_append] at h
    cases pre with
    | nil =>
      injection h with h1 h2
      injection h1 with h1
      subst h1
      exact ⟨k, a, [], h2.symm⟩
    | cons y pre =>
      injection h with h1 h2
      exact ih pre q post h2 hrd hrm

omit hk in
theorem boot_calls {c : Actor σ} {t : List (Method × Option Ans)} (hr : (Client.boot A pid).Runs t c) :
    ∀ x ∈ t, reads (x.1.req key pid) = true := by
  obtain ⟨t1, t2, r, rfl, h1, h2⟩ := Runs.bind hr
  have h2 : t2 = [] := by cases r <;> exact h2.1
  subst h2
  rw [List.append_nil]
  obtain ⟨l1, l2, q, rfl, h6, h3⟩ := Runs.bind h1
  obtain ⟨o, l, rfl, h7⟩ := h6
  have hl : l = [] := by
    rcases o with _ | (_ | (_ | _) | _) <;> exact h7.1
  subst hl
  intro x hx
  rcases List.mem_append.mp hx with hx | hx
  · cases List.mem_singleton.mp hx; rfl
  · cases q with
    | none => obtain ⟨rfl, _⟩ := h3; cases hx
    | some q =>
      obtain ⟨m1, m2, q', rfl, h4, h5⟩ := Runs.bind h3
      obtain ⟨o, l, rfl, h4⟩ := h4
      have hl : l = [] := by
        rcases o with _ | (_ | _ | (_ | _)) <;> exact h4.1
      subst hl
      have h5 : m2 = [] := by cases q' <;> exact h5.1
      subst h5
      rw [List.append_nil] at hx
      cases List.mem_singleton.mp hx; rfl

omit hk in
/-- an actor that does not give up makes its calls again until they are answered. -/
theorem Lives.stubborn {c c' : Actor σ} {t : List (Method × Option Ans)} {cs : List (Cmd ε)} (hl : Lives A pid c t cs c')
    (hg : ∀ x ∈ cs, x.givenUp = false) : Stubborn (asked key pid t) := by
  induction hl with
  | nil c => exact stubborn_of fun x hx => by cases hx
  | @act c c1 c2 s n j x l l' cs hc hr _ ih =>
    rw [asked_append]
    refine Stubborn.append ?_ (ih fun y hy => hg y (by simp [hy]))
    have hgx := hg x (by simp)
    have hP := C117_persists A c s n l (c1, x)
    have hatt : ∀ (m : Method) ok, Attempts n m l ok → ok = true → Stubborn (asked key pid l) := by
      rintro m ok (⟨_, k, a, _, rfl⟩ | ⟨h1, _⟩) hok
      · rw [asked_append]
        have := stubborn_attempts k (m.req key pid) a
        simpa [asked, List.map_replicate] using this
      · rw [hok] at h1; cases h1
    cases j with
    | event e =>
      obtain ⟨ok, h1, h2⟩ := (hP.1 e).mp hr
      injection h2 with h2 h3
      subst h3
      cases ok with
      | true => exact hatt _ _ h1 rfl
      | false => simp [Cmd.givenUp] at hgx
    | events es =>
      cases es with
      | nil =>
        obtain ⟨rfl, _⟩ := hP.2.2.1.mp hr
        exact stubborn_of fun x hx => by cases hx
      | cons e es =>
        obtain ⟨ok, h1, h2⟩ := (hP.2.1 e es).mp hr
        injection h2 with h2 h3
        subst h3
        cases ok with
        | true => exact hatt _ _ h1 rfl
        | false => simp [Cmd.givenUp] at hgx
    | save =>
      obtain ⟨ok, h1, h2⟩ := hP.2.2.2.1.mp hr
      injection h2 with h2 h3
      subst h3
      cases ok with
      | true => exact hatt _ _ h1 rfl
      | false => simp [Cmd.givenUp] at hgx
    | trim =>
      rcases hP.2.2.2.2.mp hr with ⟨_, rfl, _⟩ | ⟨y, hy, a, rfl, _⟩
      · exact stubborn_of fun x hx => by cases hx
      · refine stubborn_of fun x hx => ?_
        cases List.mem_singleton.mp hx
        exact .inr rfl
  | @start c c1 c2 l l' cs hr _ ih =>
    rw [asked_append]
    refine Stubborn.append (stubborn_of ?_) (ih fun y hy => hg y (by simp [hy]))
    intro x hx
    obtain ⟨y, hy, rfl⟩ := List.mem_map.mp hx
    exact .inl (boot_calls key pid A hr y hy)

end

end Verif.Persist.Trims
