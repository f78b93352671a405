import Verif.Remote.TripSpec
import Verif.Remote.ClientProps
import Verif.Util

namespace Verif.Remote.Trip
open Verif.Proto

variable {S P : Type}

/-! ### Frames through a client -/

/-- what an operation adds. -/
def adds (c : Client) : ClientOp → List Bytes
  | .write bs => if accepts c then [bs] else []
  | _ => []

theorem step_flow (lim : Nat) (σ : Client) (op : ClientOp) :
    ∃ new, (σ.step lim op).sent = σ.sent ++ new ∧
      (new ++ (σ.step lim op).buf).Perm (σ.buf ++ adds σ op) := by
  have hd : ∀ τ : Client, ∃ new, τ.disconnected.sent = τ.sent ++ new ∧
      (new ++ τ.disconnected.buf).Perm τ.buf := by
    intro τ
    have := disc_buf τ
    exact ⟨[], by simp [this.2.2], by simp [this.1]⟩
  cases op with
  | connect o =>
    simp only [Client.step, Client.connect, adds, List.append_nil]
    split
    · exact ⟨[], by simp, by simp⟩
    · split
      · exact ⟨[], by simp, by simp⟩
      · exact ⟨[], by simp, by simp⟩
      · cases o with
        | failed => exact hd _
        | closedEarly => exact ⟨[], by simp, by simp⟩
        | identified lasts =>
          refine ⟨(flushLoop lim lasts σ.buf).1, rfl, ?_⟩
          have := flush_split lim lasts σ.buf
          simp only [Client.flush]
          rw [this]
  | write bs =>
    cases hs : σ.st with
    | idle n =>
      simp only [Client.step, Client.write, adds, accepts, hs]
      exact ⟨[], by simp [Client.buffer], by simp [Client.buffer]⟩
    | connected =>
      simp only [Client.step, Client.write, adds, accepts, hs]
      split
      · refine ⟨[bs], rfl, ?_⟩
        simp only [if_true]
        exact List.perm_append_comm
      · obtain ⟨h1, _, h3⟩ := disc_buf (σ.buffer bs)
        refine ⟨[], by rw [h3]; simp [Client.buffer], ?_⟩
        rw [h1]
        simp [Client.buffer]
    | terminated =>
      simp only [Client.step, Client.write, adds, accepts, hs]
      have := disc_buf σ
      exact ⟨[], by simp [this.2.2], by simp [this.1]⟩
    | stuck =>
      simp only [Client.step, Client.write, adds, accepts, hs]
      exact ⟨[], by simp, by simp⟩
  | breakLink => exact ⟨[], by simp [Client.step], by simp [Client.step, adds]⟩
  | loopEnds =>
    simp only [Client.step, adds, List.append_nil]
    split
    · exact ⟨[], by simp, by simp⟩
    · split
      · exact ⟨[], by simp, by simp⟩
      · exact hd _

/-- every frame a client has been given and that has not been read. -/
def Link.all (l : Link) : List Bytes := l.there.map (·.2) ++ l.client.buf

theorem does_flow (lim : Nat) (l : Link) (op : ClientOp) :
    (l.does lim op).all.Perm (l.all ++ adds l.client op) := by
  obtain ⟨new, h1, h2⟩ := step_flow lim l.client op
  simp only [Link.all, Link.does, h1, List.drop_left, List.map_append, List.map_map, List.append_assoc]
  refine List.Perm.append_left _ ?_
  have hm : List.map ((fun x => x.2) ∘ fun b => ((if (l.client.step lim op).st = CState.connected ∧
      l.client.st ≠ CState.connected then l.made + 1 else l.made), b)) new = new := by
    simp [Function.comp_def]
  rw [hm]
  exact h2

theorem net_flow (lim : Nat) (l : Link) (e : Net) : (l.net lim e).all.Perm l.all := by
  cases e with
  | connect o => simpa [Link.net, adds] using does_flow lim l (.connect o)
  | broken => simpa [Link.net, adds] using does_flow lim l .breakLink
  | ended => simpa [Link.net, adds] using does_flow lim l .loopEnds
  | removed => simp only [Link.net]; split <;> exact List.Perm.refl _

theorem net_back (lim : Nat) (l : Link) (e : Net) :
    (l.net lim e).back = l.back ∧ (l.net lim e).cut = l.cut := by
  cases e <;> simp only [Link.net, Link.does] <;> (try split) <;> simp

theorem write_flow (lim : Nat) (l : Link) (bs : Bytes) :
    (l.write lim bs).all.Perm (l.all ++ if l.takes then [bs] else []) := by
  unfold Link.write
  split
  · rename_i h
    have := does_flow lim l (.write bs)
    simp only [adds] at this
    simpa [Link.takes, h] using this
  · rename_i h
    simp [Link.takes, h]

theorem write_back (lim : Nat) (l : Link) (bs : Bytes) :
    (l.write lim bs).back = l.back ∧ (l.write lim bs).cut = l.cut := by
  unfold Link.write Link.does
  split <;> simp

theorem pull_perm {k : Nat} {l r : List (Nat × Bytes)} {b : Bytes} (h : pull k l = some (b, r)) :
    l.Perm ((k, b) :: r) := by
  induction l generalizing r with
  | nil => simp [pull] at h
  | cons x l ih =>
    simp only [pull] at h
    split at h
    · rename_i hx
      injection h with h
      injection h with h1 h2
      subst h1 h2 hx
      exact List.Perm.refl _
    · split at h
      · cases h
      · rename_i b' r' hp
        injection h with h
        injection h with h1 h2
        subst h1 h2
        exact ((ih hp).cons x).trans (List.Perm.swap _ _ _)

theorem on_off (k : Nat) (l : List (Nat × Bytes)) :
    ((offConn k l).map (·.2) ++ onConn k l).Perm (l.map (·.2)) := by
  have h := (List.filter_append_perm (fun x : Nat × Bytes => decide (x.1 = k)) l).map (·.2)
  simp only [List.map_append] at h
  refine List.perm_append_comm.trans ?_
  have h2 : offConn k l = List.filter (fun x => !decide (x.1 = k)) l := by
    simp [offConn]
  rw [h2]
  exact h

/-! ### Counting -/

theorem ids_append {α : Type} (w : Wire (Nat × α)) (a b : List Bytes) :
    w.ids (a ++ b) = w.ids a ++ w.ids b := by simp [Wire.ids]

theorem ids_perm {α : Type} (w : Wire (Nat × α)) {a b : List Bytes} (h : a.Perm b) :
    (w.ids a).Perm (w.ids b) := h.filterMap _

theorem ids_put {α : Type} (w : Wire (Nat × α)) (u : Nat) (x : α) (hl : w.get (w.put (u, x)) = some (u, x)) :
    w.ids [w.put (u, x)] = [u] := by simp [Wire.ids, hl]

/-- the invariant. -/
structure Inv (c : Cfg S P) (s : S) (σ : Sys S P) : Prop where
  early : ∀ u, (c.ask.ids σ.a.all).count u + (σ.tasks.map (·.id)).count u + σ.lostAsks.count u +
    (σ.served.map (·.id)).count u = if u < σ.asked.length then 1 else 0
  late : ∀ u, (σ.served.map (·.id)).count u = (c.good.ids (σ.a.back.map (·.2))).count u +
    (c.bad.ids σ.b.all).count u + σ.lostReplies.count u + (σ.rpc.done.map (·.1)).count u
  pend : ∀ u, (σ.rpc.pending.map (·.1)).count u + (σ.rpc.done.map (·.1)).count u =
    if u < σ.asked.length then 1 else 0
  frames : ∀ f ∈ σ.a.all, ∃ u p, f = c.ask.put (u, p) ∧ σ.asked[u]? = some p
  tasks : ∀ t ∈ σ.tasks, σ.asked[t.id]? = some t.msg
  served : ∀ x ∈ σ.served, σ.asked[x.id]? = some x.msg ∧ ∃ s', (c.act s' x.msg).2 = x.res
  back : ∀ f ∈ σ.a.back.map (·.2), ∃ x ∈ σ.served, ∃ bs, x.res = .ok bs ∧ f = c.good.put (x.id, bs)
  bad : ∀ f ∈ σ.b.all, ∃ x ∈ σ.served, ∃ e, x.res = .error e ∧ f = c.bad.put (x.id, e)
  done : ∀ d ∈ σ.rpc.done, ∃ x ∈ σ.served, x.id = d.1 ∧ d.2.2 = told x.res
  replay : alone c.act s (σ.served.map (·.msg)) = (σ.actor, σ.served.map (·.res))

theorem alone_snoc (act : S → P → S × Except ActorRefErr Bytes) (s : S) (l : List P) (p : P) :
    alone act s (l ++ [p]) = ((act (alone act s l).1 p).1, (alone act s l).2 ++ [(act (alone act s l).1 p).2]) := by
  induction l generalizing s with
  | nil => rfl
  | cons q l ih => simp only [List.cons_append, alone, ih]

theorem inv_init (c : Cfg S P) (s : S) : Inv c s (Sys.init s) := by
  constructor <;> simp [Sys.init, Link.all, Client.init, Rpc.init, Wire.ids, alone]

theorem push_fresh (r : Rpc Nat Unit) (u : Nat) (h : (r.pending.map (·.1)).count u = 0) :
    r.push u () = ⟨(u, ()) :: r.pending, r.done⟩ := by
  have h0 : u ∉ r.pending.map (·.1) := List.count_eq_zero.mp h
  have h1 : ∀ p ∈ r.pending, p.1 ≠ u := fun p hp e => h0 (List.mem_map.mpr ⟨p, hp, e⟩)
  unfold Rpc.push
  congr 1
  · congr 1
    exact List.filter_eq_self.mpr (fun p hp => by simpa using h1 p hp)
  · rw [List.filter_eq_nil_iff.mpr (fun p hp => by simpa using h1 p hp)]
    simp

theorem answer_waiting (r : Rpc Nat Unit) (u : Nat) (x : Answer) (h : (r.pending.map (·.1)).count u = 1) :
    ∃ q, r.answer u x = ⟨q, r.done ++ [(u, (), x)]⟩ ∧
      ∀ v, (q.map (·.1)).count v = if v = u then 0 else (r.pending.map (·.1)).count v := by
  have hm : u ∈ r.pending.map (·.1) := List.count_pos_iff.mp (by omega)
  obtain ⟨p, hp, he⟩ := List.mem_map.mp hm
  unfold Rpc.answer
  cases hf : r.pending.find? (fun p => decide (p.1 = u)) with
  | none =>
    have := List.find?_eq_none.mp hf p hp
    simp [he] at this
  | some p' =>
    refine ⟨_, rfl, fun v => ?_⟩
    have hgen : ∀ l : List (Nat × Unit), (List.map (·.1) (List.filter (fun q => decide (q.1 ≠ u)) l)).count v =
        if v = u then 0 else (l.map (·.1)).count v := by
      intro l
      induction l with
      | nil => simp
      | cons y l ih =>
        simp only [List.filter_cons, List.map_cons, List.count_cons]
        by_cases hy : y.1 = u
        · simp only [hy, ne_eq, not_true, decide_false]
          rw [if_neg (by simp), ih]
          by_cases hv : v = u
          · simp [hv]
          · have : ¬ (u = v) := fun e => hv e.symm
            simp [hv, this]
        · simp only [ne_eq, hy, not_false_eq_true, decide_true, if_true, List.map_cons, List.count_cons]
          rw [ih]
          by_cases hv : v = u
          · subst hv; simp [hy]
          · simp [hv]
    exact hgen r.pending

/-! ### The invariant is kept -/

theorem Inv.lt {c : Cfg S P} {s : S} {σ : Sys S P} (h : Inv c s σ) (u : Nat) :
    (σ.served.map (·.id)).count u ≤ 1 := by
  have := h.early u
  split at this <;> omega

/-- a reply that is still on its way finds its caller waiting. -/
theorem Inv.waiting {c : Cfg S P} {s : S} {σ : Sys S P} (h : Inv c s σ) (u : Nat)
    (hu : 1 ≤ (c.good.ids (σ.a.back.map (·.2))).count u + (c.bad.ids σ.b.all).count u) :
    (σ.rpc.pending.map (·.1)).count u = 1 ∧ (σ.rpc.done.map (·.1)).count u = 0 := by
  have h1 := h.early u
  have h2 := h.late u
  have h3 := h.pend u
  split at h1 <;> split at h3 <;> omega

theorem getElem?_snoc {α : Type} {l : List α} {i : Nat} {x y : α} (h : l[i]? = some x) :
    (l ++ [y])[i]? = some x := by
  have hi : i < l.length := by
    rcases Nat.lt_or_ge i l.length with h' | h'
    · exact h'
    · rw [List.getElem?_eq_none h'] at h; cases h
  rw [List.getElem?_append_left hi, h]

theorem inv_ask {c : Cfg S P} {s : S} {σ : Sys S P} (h : Inv c s σ) (p : P)
    (hl : c.Reads (σ.asked ++ [p])) :
    Inv c s (σ.ask c p) := by
  have hw := write_flow c.lim σ.a (c.ask.put (σ.asked.length, p))
  have hb := write_back c.lim σ.a (c.ask.put (σ.asked.length, p))
  have hz : (σ.rpc.pending.map (·.1)).count σ.asked.length = 0 := by
    have := h.pend σ.asked.length
    rw [if_neg (by omega)] at this
    omega
  have hlt : ∀ u, (if u < (σ.asked ++ [p]).length then 1 else 0) =
      (if u < σ.asked.length then 1 else 0) + if u = σ.asked.length then 1 else 0 := by
    intro u
    simp only [List.length_append, List.length_singleton]
    split <;> split <;> (try split) <;> omega
  have hids := ids_perm c.ask hw
  have hcnt : ∀ u, (c.ask.ids (σ.a.write c.lim (c.ask.put (σ.asked.length, p))).all).count u +
      (if σ.a.takes then σ.lostAsks else σ.lostAsks ++ [σ.asked.length]).count u =
      (c.ask.ids σ.a.all).count u + σ.lostAsks.count u + if u = σ.asked.length then 1 else 0 := by
    intro u
    rw [hids.count_eq, ids_append, List.count_append]
    cases σ.a.takes with
    | true =>
      simp only [if_true]
      rw [ids_put _ _ _ (hl.ask _ _ (by simp))]
      simp only [List.count_singleton, beq_iff_eq]
      by_cases hu : u = σ.asked.length
      · simp [hu]; omega
      · have : ¬ σ.asked.length = u := fun e => hu e.symm
        simp [hu, this]
    | false =>
      simp only [Bool.false_eq_true, if_false, List.count_append, List.count_singleton, beq_iff_eq]
      have : c.ask.ids [] = [] := rfl
      rw [this]
      by_cases hu : u = σ.asked.length
      · simp [hu]; omega
      · have : ¬ σ.asked.length = u := fun e => hu e.symm
        simp [hu, this]
  unfold Sys.ask
  simp only
  rw [push_fresh _ _ hz]
  constructor
  · intro u
    have h1 := h.early u
    have h2 := hcnt u
    simp only
    rw [hlt u]
    omega
  · intro u
    simp only [hb.1]
    exact h.late u
  · intro u
    have h1 := h.pend u
    simp only
    rw [hlt u]
    simp only [List.map_cons, List.count_cons, beq_iff_eq]
    by_cases hu : u = σ.asked.length
    · rw [hu] at h1 ⊢
      simp only [if_true] at h1 ⊢
      omega
    · have : ¬ σ.asked.length = u := fun e => hu e.symm
      simp only [hu, this, if_false]
      omega
  · intro f hf
    have := (hw.mem_iff (a := f)).mp hf
    rcases List.mem_append.mp this with hf | hf
    · obtain ⟨u, q, h1, h2⟩ := h.frames f hf
      exact ⟨u, q, h1, getElem?_snoc h2⟩
    · split at hf
      · rw [List.mem_singleton] at hf
        exact ⟨_, p, hf, by simp⟩
      · cases hf
  · exact fun t ht => getElem?_snoc (h.tasks t ht)
  · exact fun x hx => ⟨getElem?_snoc (h.served x hx).1, (h.served x hx).2⟩
  · intro f hf
    rw [hb.1] at hf
    exact h.back f hf
  · exact h.bad
  · exact h.done
  · exact h.replay

theorem inv_recv {c : Cfg S P} {s : S} {σ : Sys S P} (h : Inv c s σ) (k : Nat) (hl : c.Reads σ.asked) :
    Inv c s (σ.recv c k) := by
  unfold Sys.recv
  split
  · exact h
  · rename_i f r hp
    have hperm := pull_perm hp
    have hall : σ.a.all.Perm (f :: (r.map (·.2) ++ σ.a.client.buf)) := by
      unfold Link.all
      exact (hperm.map (·.2)).append_right _
    obtain ⟨u, p, hf, hu⟩ := h.frames f ((hall.mem_iff).mpr List.mem_cons_self)
    have hg : c.ask.get f = some (u, p) := by rw [hf]; exact hl.ask u p hu
    have hids : ∀ v, (c.ask.ids σ.a.all).count v = (if v = u then 1 else 0) +
        (c.ask.ids (r.map (·.2) ++ σ.a.client.buf)).count v := by
      intro v
      rw [(ids_perm c.ask hall).count_eq]
      simp only [Wire.ids, List.filterMap_cons, hg, Option.map_some, List.count_cons, beq_iff_eq]
      by_cases hv : v = u
      · simp [hv]; omega
      · have : ¬ u = v := fun e => hv e.symm
        simp [hv, this]
    rw [hg]
    refine ⟨fun v => ?_, h.late, h.pend, fun g hg' => ?_, fun t ht => ?_, h.served, h.back, h.bad, h.done,
      h.replay⟩
    · have h1 := h.early v
      rw [hids v] at h1
      simp only [Link.all, List.map_append, List.count_append, List.map_cons, List.map_nil,
        List.count_singleton, beq_iff_eq]
      by_cases hv : v = u
      · subst hv; simp only [if_true] at h1 ⊢; omega
      · have : ¬ u = v := fun e => hv e.symm
        simp only [hv, this, if_false] at h1 ⊢
        omega
    · exact h.frames g ((hall.mem_iff).mpr (List.mem_cons_of_mem _ hg'))
    · rcases List.mem_append.mp ht with ht | ht
      · exact h.tasks t ht
      · rw [List.mem_singleton] at ht
        subst ht
        exact hu

theorem inv_good {c : Cfg S P} {s : S} {σ : Sys S P} (h : Inv c s σ) (k : Nat) (hl : c.Reads σ.asked) :
    Inv c s (σ.good c k) := by
  unfold Sys.good
  split
  · exact h
  · rename_i f r hp
    have hall := (pull_perm hp).map (·.2)
    simp only [List.map_cons] at hall
    obtain ⟨x, hx, bs, hr, hf⟩ := h.back f ((hall.mem_iff).mpr List.mem_cons_self)
    obtain ⟨hxa, s', hxs⟩ := h.served x hx
    have hg : c.good.get f = some (x.id, bs) := by rw [hf]; exact hl.good _ _ hxa s' bs (hxs.trans hr)
    have hids : ∀ v, (c.good.ids (σ.a.back.map (·.2))).count v = (if v = x.id then 1 else 0) +
        (c.good.ids (r.map (·.2))).count v := by
      intro v
      rw [(ids_perm c.good hall).count_eq]
      simp only [Wire.ids, List.filterMap_cons, hg, Option.map_some, List.count_cons, beq_iff_eq]
      by_cases hv : v = x.id
      · simp [hv]; omega
      · have : ¬ x.id = v := fun e => hv e.symm
        simp [hv, this]
    rw [hg]
    have hw := h.waiting x.id (by rw [hids, if_pos rfl]; omega)
    obtain ⟨q, hq1, hq2⟩ := answer_waiting σ.rpc x.id (.ok bs) hw.1
    simp only [hq1]
    refine ⟨h.early, fun v => ?_, fun v => ?_, h.frames, h.tasks, h.served, fun g hg' => ?_, h.bad,
      fun d hd => ?_, h.replay⟩
    · have h1 := h.late v
      rw [hids v] at h1
      simp only [Link.all, List.map_append, List.count_append, List.map_cons, List.map_nil,
        List.count_singleton, beq_iff_eq] at h1 ⊢
      by_cases hv : v = x.id
      · subst hv; simp only [if_true] at h1 ⊢; omega
      · have : ¬ x.id = v := fun e => hv e.symm
        simp only [hv, this, if_false] at h1 ⊢
        omega
    · have h1 := h.pend v
      simp only [List.map_append, List.count_append, List.map_cons, List.map_nil, List.count_singleton,
        beq_iff_eq, hq2]
      by_cases hv : v = x.id
      · subst hv; simp only [if_true]; omega
      · have : ¬ x.id = v := fun e => hv e.symm
        simp only [hv, this, if_false]
        omega
    · exact h.back g ((hall.mem_iff).mpr (List.mem_cons_of_mem _ hg'))
    · rcases List.mem_append.mp hd with hd | hd
      · exact h.done d hd
      · rw [List.mem_singleton] at hd
        subst hd
        exact ⟨x, hx, rfl, by rw [hr]; rfl⟩

theorem inv_bad {c : Cfg S P} {s : S} {σ : Sys S P} (h : Inv c s σ) (k : Nat) (hl : c.Reads σ.asked) :
    Inv c s (σ.bad c k) := by
  unfold Sys.bad
  split
  · exact h
  · rename_i f r hp
    have hall : σ.b.all.Perm (f :: (r.map (·.2) ++ σ.b.client.buf)) := by
      unfold Link.all
      exact ((pull_perm hp).map (·.2)).append_right _
    obtain ⟨x, hx, e, hr, hf⟩ := h.bad f ((hall.mem_iff).mpr List.mem_cons_self)
    obtain ⟨hxa, s', hxs⟩ := h.served x hx
    have hg : c.bad.get f = some (x.id, e) := by rw [hf]; exact hl.bad _ _ hxa s' e (hxs.trans hr)
    have hids : ∀ v, (c.bad.ids σ.b.all).count v = (if v = x.id then 1 else 0) +
        (c.bad.ids (r.map (·.2) ++ σ.b.client.buf)).count v := by
      intro v
      rw [(ids_perm c.bad hall).count_eq]
      simp only [Wire.ids, List.filterMap_cons, hg, Option.map_some, List.count_cons, beq_iff_eq]
      by_cases hv : v = x.id
      · simp [hv]; omega
      · have : ¬ x.id = v := fun e => hv e.symm
        simp [hv, this]
    rw [hg]
    have hw := h.waiting x.id (by rw [hids, if_pos rfl]; omega)
    obtain ⟨q, hq1, hq2⟩ := answer_waiting σ.rpc x.id (.err e) hw.1
    simp only [hq1]
    refine ⟨h.early, fun v => ?_, fun v => ?_, h.frames, h.tasks, h.served, h.back, fun g hg' => ?_,
      fun d hd => ?_, h.replay⟩
    · have h1 := h.late v
      rw [hids v] at h1
      simp only [Link.all, List.map_append, List.count_append, List.map_cons, List.map_nil,
        List.count_singleton, beq_iff_eq] at h1 ⊢
      by_cases hv : v = x.id
      · subst hv; simp only [if_true] at h1 ⊢; omega
      · have : ¬ x.id = v := fun e => hv e.symm
        simp only [hv, this, if_false] at h1 ⊢
        omega
    · have h1 := h.pend v
      simp only [List.map_append, List.count_append, List.map_cons, List.map_nil, List.count_singleton,
        beq_iff_eq, hq2]
      by_cases hv : v = x.id
      · subst hv; simp only [if_true]; omega
      · have : ¬ x.id = v := fun e => hv e.symm
        simp only [hv, this, if_false]
        omega
    · exact h.bad g ((hall.mem_iff).mpr (List.mem_cons_of_mem _ hg'))
    · rcases List.mem_append.mp hd with hd | hd
      · exact h.done d hd
      · rw [List.mem_singleton] at hd
        subst hd
        exact ⟨x, hx, rfl, by rw [hr]; rfl⟩

theorem inv_aDrop {c : Cfg S P} {s : S} {σ : Sys S P} (h : Inv c s σ) (k : Nat) :
    Inv c s (σ.aDrop c k) := by
  unfold Sys.aDrop
  split
  · have h1 := on_off k σ.a.there
    have h2 := on_off k σ.a.back
    have hall : σ.a.all.Perm (((offConn k σ.a.there).map (·.2) ++ σ.a.client.buf) ++ onConn k σ.a.there) := by
      unfold Link.all
      refine (h1.symm.append_right _).trans ?_
      rw [List.append_assoc, List.append_assoc]
      exact (List.perm_append_comm).append_left _
    refine ⟨fun v => ?_, fun v => ?_, h.pend, fun f hf => ?_, h.tasks, h.served, fun f hf => ?_, h.bad, h.done,
      h.replay⟩
    · have h3 := h.early v
      rw [(ids_perm c.ask hall).count_eq, ids_append, List.count_append] at h3
      simp only [Link.all, List.count_append]
      omega
    · have h3 := h.late v
      rw [(ids_perm c.good h2.symm).count_eq, ids_append, List.count_append] at h3
      simp only [List.count_append]
      omega
    · exact h.frames f ((hall.mem_iff).mpr (List.mem_append_left _ hf))
    · exact h.back f ((h2.mem_iff).mp (List.mem_append_left _ hf))
  · exact h

theorem inv_bDrop {c : Cfg S P} {s : S} {σ : Sys S P} (h : Inv c s σ) (k : Nat) :
    Inv c s (σ.bDrop c k) := by
  unfold Sys.bDrop
  split
  · have h1 := on_off k σ.b.there
    have hall : σ.b.all.Perm (((offConn k σ.b.there).map (·.2) ++ σ.b.client.buf) ++ onConn k σ.b.there) := by
      unfold Link.all
      refine (h1.symm.append_right _).trans ?_
      rw [List.append_assoc, List.append_assoc]
      exact (List.perm_append_comm).append_left _
    refine ⟨h.early, fun v => ?_, h.pend, h.frames, h.tasks, h.served, h.back, fun f hf => ?_, h.done, h.replay⟩
    · have h3 := h.late v
      rw [(ids_perm c.bad hall).count_eq, ids_append, List.count_append] at h3
      simp only [Link.all, List.count_append] at h3 ⊢
      omega
    · exact h.bad f ((hall.mem_iff).mpr (List.mem_append_left _ hf))
  · exact h

theorem inv_aRenew {c : Cfg S P} {s : S} {σ : Sys S P} (h : Inv c s σ) : Inv c s (σ.aRenew c) := by
  unfold Sys.aRenew
  split
  · have hall : σ.a.renew.all = σ.a.there.map (·.2) := by simp [Link.all, Link.renew, Client.init]
    refine ⟨fun v => ?_, h.late, h.pend, fun f hf => ?_, h.tasks, h.served, h.back, h.bad, h.done, h.replay⟩
    · have h3 := h.early v
      rw [Link.all, ids_append, List.count_append] at h3
      simp only [hall, List.count_append]
      omega
    · simp only [hall] at hf
      exact h.frames f (List.mem_append_left _ hf)
  · exact h

theorem inv_bRenew {c : Cfg S P} {s : S} {σ : Sys S P} (h : Inv c s σ) : Inv c s (σ.bRenew c) := by
  unfold Sys.bRenew
  split
  · have hall : σ.b.renew.all = σ.b.there.map (·.2) := by simp [Link.all, Link.renew, Client.init]
    refine ⟨h.early, fun v => ?_, h.pend, h.frames, h.tasks, h.served, h.back, fun f hf => ?_, h.done, h.replay⟩
    · have h3 := h.late v
      rw [Link.all, ids_append, List.count_append] at h3
      simp only [hall, List.count_append]
      omega
    · simp only [hall] at hf
      exact h.bad f (List.mem_append_left _ hf)
  · exact h

theorem eraseIdx_count {α : Type} (f : α → Nat) (l : List α) (i : Nat) (x : α)
    (h : l[i]? = some x) (v : Nat) :
    (l.map f).count v = (if f x = v then 1 else 0) + ((l.eraseIdx i).map f).count v := by
  induction l generalizing i with
  | nil => simp at h
  | cons y l ih =>
    cases i with
    | zero =>
      simp only [List.getElem?_cons_zero, Option.some.injEq] at h
      subst h
      simp only [List.map_cons, List.count_cons, List.eraseIdx_cons_zero, beq_iff_eq]
      omega
    | succ i =>
      simp only [List.getElem?_cons_succ] at h
      have := ih i h
      simp only [List.map_cons, List.count_cons, List.eraseIdx_cons_succ]
      omega

theorem inv_serve {c : Cfg S P} {s : S} {σ : Sys S P} (h : Inv c s σ) (i : Nat) (hl : c.Reads σ.asked) :
    Inv c s (σ.serve c i) := by
  unfold Sys.serve
  split
  · exact h
  · rename_i t ht
    have htm := List.mem_of_getElem? ht
    have htask := h.tasks t htm
    have hcnt := fun v => eraseIdx_count (·.id) σ.tasks i t ht v
    have hearly : ∀ v, (c.ask.ids σ.a.all).count v + ((σ.tasks.eraseIdx i).map (·.id)).count v +
        σ.lostAsks.count v + ((σ.served ++ [(⟨t.id, t.msg, (c.act σ.actor t.msg).2⟩ : Served P)]).map (·.id)).count v =
        if v < σ.asked.length then 1 else 0 := by
      intro v
      have h1 := h.early v
      have h2 := hcnt v
      simp only [List.map_append, List.count_append, List.map_cons, List.map_nil, List.count_singleton,
        beq_iff_eq]
      omega
    have htasks : ∀ t' ∈ σ.tasks.eraseIdx i, σ.asked[t'.id]? = some t'.msg :=
      fun t' h' => h.tasks t' (List.mem_of_mem_eraseIdx h')
    have hserved : ∀ x ∈ σ.served ++ [(⟨t.id, t.msg, (c.act σ.actor t.msg).2⟩ : Served P)], σ.asked[x.id]? = some x.msg ∧
        ∃ s', (c.act s' x.msg).2 = x.res := by
      intro x hx
      rcases List.mem_append.mp hx with hx | hx
      · exact h.served x hx
      · rw [List.mem_singleton] at hx; subst hx; exact ⟨htask, _, rfl⟩
    have hreplay : alone c.act s ((σ.served ++ [(⟨t.id, t.msg, (c.act σ.actor t.msg).2⟩ : Served P)]).map (·.msg)) =
        ((c.act σ.actor t.msg).1, (σ.served ++ [(⟨t.id, t.msg, (c.act σ.actor t.msg).2⟩ : Served P)]).map (·.res)) := by
      simp only [List.map_append, List.map_cons, List.map_nil]
      rw [alone_snoc, h.replay]
    have hnew : (⟨t.id, t.msg, (c.act σ.actor t.msg).2⟩ : Served P) ∈
        σ.served ++ [(⟨t.id, t.msg, (c.act σ.actor t.msg).2⟩ : Served P)] := by simp
    have hdone : ∀ d ∈ σ.rpc.done, ∃ x ∈ σ.served ++ [(⟨t.id, t.msg, (c.act σ.actor t.msg).2⟩ : Served P)],
        x.id = d.1 ∧ d.2.2 = told x.res := by
      intro d hd
      obtain ⟨x, hx, h1⟩ := h.done d hd
      exact ⟨x, List.mem_append_left _ hx, h1⟩
    have hback : ∀ f ∈ σ.a.back.map (·.2), ∃ x ∈ σ.served ++ [(⟨t.id, t.msg, (c.act σ.actor t.msg).2⟩ : Served P)],
        ∃ bs, x.res = .ok bs ∧ f = c.good.put (x.id, bs) := by
      intro f hf
      obtain ⟨x, hx, h1⟩ := h.back f hf
      exact ⟨x, List.mem_append_left _ hx, h1⟩
    have hbad : ∀ f ∈ σ.b.all, ∃ x ∈ σ.served ++ [(⟨t.id, t.msg, (c.act σ.actor t.msg).2⟩ : Served P)],
        ∃ e, x.res = .error e ∧ f = c.bad.put (x.id, e) := by
      intro f hf
      obtain ⟨x, hx, h1⟩ := h.bad f hf
      exact ⟨x, List.mem_append_left _ hx, h1⟩
    have hlate : ∀ v, ((σ.served ++ [(⟨t.id, t.msg, (c.act σ.actor t.msg).2⟩ : Served P)]).map (·.id)).count v =
        (c.good.ids (σ.a.back.map (·.2))).count v + (c.bad.ids σ.b.all).count v + σ.lostReplies.count v +
        (σ.rpc.done.map (·.1)).count v + if t.id = v then 1 else 0 := by
      intro v
      have h1 := h.late v
      simp only [List.map_append, List.count_append, List.map_cons, List.map_nil, List.count_singleton,
        beq_iff_eq]
      omega
    simp only
    cases hres : (c.act σ.actor t.msg).2 with
    | ok bs =>
      rw [hres] at hearly hserved hreplay hnew hdone hback hbad hlate
      simp only [Sys.reply]
      split
      · refine ⟨hearly, fun v => ?_, h.pend, h.frames, htasks, hserved, fun f hf => ?_, hbad, hdone, hreplay⟩
        · have h1 := hlate v
          simp only at h1 ⊢
          rw [h1]
          simp only [List.map_append, List.map_cons, List.map_nil]
          rw [ids_append, ids_put _ _ _ (hl.good _ _ htask _ _ hres)]
          simp only [List.count_append, List.count_singleton, beq_iff_eq]
          omega
        · simp only [List.map_append, List.map_cons, List.map_nil] at hf
          rcases List.mem_append.mp hf with hf | hf
          · exact hback f hf
          · rw [List.mem_singleton] at hf
            exact ⟨_, hnew, bs, rfl, hf⟩
      · refine ⟨hearly, fun v => ?_, h.pend, h.frames, htasks, hserved, hback, hbad, hdone, hreplay⟩
        have h1 := hlate v
        simp only [List.count_append, List.count_singleton, beq_iff_eq] at h1 ⊢
        omega
    | error e =>
      rw [hres] at hearly hserved hreplay hnew hdone hback hbad hlate
      simp only [Sys.reply]
      have hw := write_flow c.lim σ.b (c.bad.put (t.id, e))
      refine ⟨hearly, fun v => ?_, h.pend, h.frames, htasks, hserved, hback, fun f hf => ?_, hdone, hreplay⟩
      · have h1 := hlate v
        simp only at h1 ⊢
        rw [h1, (ids_perm c.bad hw).count_eq, ids_append]
        cases σ.b.takes with
        | true =>
          simp only [if_true]
          rw [ids_put _ _ _ (hl.bad _ _ htask _ _ hres)]
          simp only [List.count_append, List.count_singleton, beq_iff_eq]
          omega
        | false =>
          simp only [Bool.false_eq_true, if_false]
          have : c.bad.ids [] = [] := rfl
          rw [this]
          simp only [List.count_append, List.count_singleton, beq_iff_eq, List.count_nil]
          omega
      · have := (hw.mem_iff (a := f)).mp hf
        rcases List.mem_append.mp this with hf | hf
        · exact hbad f hf
        · split at hf
          · rw [List.mem_singleton] at hf
            exact ⟨_, hnew, e, rfl, hf⟩
          · cases hf

theorem asked_step (c : Cfg S P) (σ : Sys S P) (o : Op P) :
    ∃ l, (σ.step c o).asked = σ.asked ++ l ∧ (o.asks = false → l = []) := by
  cases o with
  | ask p => exact ⟨[p], rfl, by simp [Op.asks]⟩
  | aNet e => exact ⟨[], by simp [Sys.step], fun _ => rfl⟩
  | bNet e => exact ⟨[], by simp [Sys.step], fun _ => rfl⟩
  | aCut k => exact ⟨[], by simp [Sys.step], fun _ => rfl⟩
  | bCut k => exact ⟨[], by simp [Sys.step], fun _ => rfl⟩
  | aDrop k => refine ⟨[], ?_, fun _ => rfl⟩; simp only [Sys.step, Sys.aDrop]; split <;> simp
  | bDrop k => refine ⟨[], ?_, fun _ => rfl⟩; simp only [Sys.step, Sys.bDrop]; split <;> simp
  | aRenew => refine ⟨[], ?_, fun _ => rfl⟩; simp only [Sys.step, Sys.aRenew]; split <;> simp
  | bRenew => refine ⟨[], ?_, fun _ => rfl⟩; simp only [Sys.step, Sys.bRenew]; split <;> simp
  | recv k =>
    refine ⟨[], ?_, fun _ => rfl⟩
    simp only [Sys.step, Sys.recv]
    split
    · simp
    · split <;> simp
  | serve i =>
    refine ⟨[], ?_, fun _ => rfl⟩
    simp only [Sys.step, Sys.serve]
    split
    · simp
    · simp only [Sys.reply]
      split
      · split <;> simp
      · simp
  | good k =>
    refine ⟨[], ?_, fun _ => rfl⟩
    simp only [Sys.step, Sys.good]
    split
    · simp
    · split <;> simp
  | bad k =>
    refine ⟨[], ?_, fun _ => rfl⟩
    simp only [Sys.step, Sys.bad]
    split
    · simp
    · split <;> simp

theorem reads_prefix {c : Cfg S P} {l r : List P} (h : c.Reads (l ++ r)) : c.Reads l := by
  have hl : ∀ (u : Nat) (p : P), l[u]? = some p → (l ++ r)[u]? = some p := by
    intro u p hu
    obtain ⟨hi, _⟩ := List.getElem?_eq_some_iff.mp hu
    rw [List.getElem?_append_left hi, hu]
  exact ⟨fun u p hu => h.ask u p (hl u p hu), fun u p hu => h.good u p (hl u p hu),
    fun u p hu => h.bad u p (hl u p hu)⟩

theorem run_append (c : Cfg S P) (σ : Sys S P) (a b : List (Op P)) :
    σ.run c (a ++ b) = (σ.run c a).run c b := by simp [Sys.run]

theorem run_snoc (c : Cfg S P) (σ : Sys S P) (a : List (Op P)) (o : Op P) :
    σ.run c (a ++ [o]) = (σ.run c a).step c o := by simp [Sys.run]

theorem inv_step {c : Cfg S P} {s : S} {σ : Sys S P} (h : Inv c s σ) (op : Op P)
    (hl' : c.Reads (σ.step c op).asked) : Inv c s (σ.step c op) := by
  have hl : c.Reads σ.asked := by
    obtain ⟨l, h1, _⟩ := asked_step c σ op
    rw [h1] at hl'
    exact reads_prefix hl'
  cases op with
  | ask p => exact inv_ask h p hl'
  | aNet e =>
    have hf := net_flow c.lim σ.a e
    have hb := net_back c.lim σ.a e
    refine ⟨fun v => ?_, fun v => ?_, h.pend, fun f hm => ?_, h.tasks, h.served, fun f hm => ?_, h.bad, h.done,
      h.replay⟩
    · simp only [Sys.step]
      rw [(ids_perm c.ask hf).count_eq]
      exact h.early v
    · simp only [Sys.step, hb.1]
      exact h.late v
    · exact h.frames f (hf.mem_iff.mp hm)
    · simp only [Sys.step, hb.1] at hm
      exact h.back f hm
  | bNet e =>
    have hf := net_flow c.lim σ.b e
    refine ⟨h.early, fun v => ?_, h.pend, h.frames, h.tasks, h.served, h.back, fun f hm => ?_, h.done, h.replay⟩
    · simp only [Sys.step]
      rw [(ids_perm c.bad hf).count_eq]
      exact h.late v
    · exact h.bad f (hf.mem_iff.mp hm)
  | aCut k => exact ⟨h.early, h.late, h.pend, h.frames, h.tasks, h.served, h.back, h.bad, h.done, h.replay⟩
  | bCut k => exact ⟨h.early, h.late, h.pend, h.frames, h.tasks, h.served, h.back, h.bad, h.done, h.replay⟩
  | aDrop k => exact inv_aDrop h k
  | bDrop k => exact inv_bDrop h k
  | aRenew => exact inv_aRenew h
  | bRenew => exact inv_bRenew h
  | recv k => exact inv_recv h k hl
  | serve i => exact inv_serve h i hl
  | good k => exact inv_good h k hl
  | bad k => exact inv_bad h k hl

theorem inv_run {c : Cfg S P} {s : S} (ops : List (Op P)) {σ : Sys S P} (h : Inv c s σ)
    (hl : c.Reads (σ.run c ops).asked) : Inv c s (σ.run c ops) := by
  induction ops using snoc_induction with
  | nil => exact h
  | snoc ops o ih =>
    rw [run_snoc] at hl ⊢
    obtain ⟨l, h1, _⟩ := asked_step c (σ.run c ops) o
    exact inv_step (ih (reads_prefix (h1 ▸ hl))) o hl

theorem served_step (c : Cfg S P) (σ : Sys S P) (o : Op P) : ∃ r, (σ.step c o).served = σ.served ++ r := by
  cases o with
  | ask p => exact ⟨[], by simp [Sys.step, Sys.ask]⟩
  | aNet e => exact ⟨[], by simp [Sys.step]⟩
  | bNet e => exact ⟨[], by simp [Sys.step]⟩
  | aCut k => exact ⟨[], by simp [Sys.step]⟩
  | bCut k => exact ⟨[], by simp [Sys.step]⟩
  | aDrop k => refine ⟨[], ?_⟩; simp only [Sys.step, Sys.aDrop]; split <;> simp
  | bDrop k => refine ⟨[], ?_⟩; simp only [Sys.step, Sys.bDrop]; split <;> simp
  | aRenew => refine ⟨[], ?_⟩; simp only [Sys.step, Sys.aRenew]; split <;> simp
  | bRenew => refine ⟨[], ?_⟩; simp only [Sys.step, Sys.bRenew]; split <;> simp
  | recv k =>
    refine ⟨[], ?_⟩
    simp only [Sys.step, Sys.recv]
    split
    · simp
    · split <;> simp
  | serve i =>
    simp only [Sys.step, Sys.serve]
    split
    · exact ⟨[], by simp⟩
    · simp only [Sys.reply]
      split
      · split <;> exact ⟨_, rfl⟩
      · exact ⟨_, rfl⟩
  | good k =>
    refine ⟨[], ?_⟩
    simp only [Sys.step, Sys.good]
    split
    · simp
    · split <;> simp
  | bad k =>
    refine ⟨[], ?_⟩
    simp only [Sys.step, Sys.bad]
    split
    · simp
    · split <;> simp

theorem served_run (c : Cfg S P) (σ : Sys S P) (ops : List (Op P)) : ∃ r, (σ.run c ops).served = σ.served ++ r := by
  induction ops using snoc_induction with
  | nil => exact ⟨[], by simp [Sys.run]⟩
  | snoc ops o ih =>
    obtain ⟨r, h⟩ := ih
    obtain ⟨r', h'⟩ := served_step c (σ.run c ops) o
    exact ⟨r ++ r', by rw [run_snoc, h', h, List.append_assoc]⟩

theorem pull_on (k : Nat) (l : List (Nat × Bytes)) : match pull k l with
    | none => onConn k l = [] ∧ offConn k l = l
    | some (_, r) => onConn k r = (onConn k l).drop 1 ∧ offConn k r = offConn k l := by
  induction l with
  | nil => exact ⟨rfl, rfl⟩
  | cons x l ih =>
    simp only [pull]
    by_cases h : x.1 = k
    · rw [if_pos h]; simp [onConn, offConn, h]
    · rw [if_neg h]
      cases hp : pull k l with
      | none => rw [hp] at ih; simp only [onConn, offConn] at ih ⊢; simp [h, ih.2] ; simpa using ih.1
      | some q =>
        obtain ⟨b, r⟩ := q
        rw [hp] at ih; simp only [onConn, offConn] at ih ⊢
        simpa [h] using ih

end Verif.Remote.Trip
