import Verif.Persist.ClientModel
import Verif.Persist.ClientSpec
import Verif.Persist.SharedProps
import Verif.Persist.RedisActorProps

namespace Verif.Persist.Shared

open Verif.Persist.Client (reads About answerTo trace answeredOnly Careful)

/-! ### Requests made again -/

theorem exec_reads {r : Req} (h : reads r = true) (st : RedisStore) : (r.exec st).1 = st := by
  cases r <;> first | rfl | cases h

theorem set_self (st : RedisStore) (k : String) : st.set k (st k) = st := by
  funext k'
  unfold RedisStore.set
  split
  · rename_i h; rw [h]
  · rfl

theorem foldl_zadd_noop {es l : List Entry} (h : ∀ e ∈ es, e ∈ l) : es.foldl zadd l = l := by
  induction es with
  | nil => rfl
  | cons e es ih =>
    have : zadd l e = l := by unfold zadd; rw [if_pos (h e (by simp))]
    rw [List.foldl_cons, this]
    exact ih fun x hx => h x (by simp [hx])

/-- what is there already is not written again. -/
theorem exec_noop {r : Req} {st : RedisStore} (hr : r.removes = false) (h : ∀ k, ∀ e ∈ r.writes k, e ∈ st k) :
    (r.exec st).1 = st := by
  cases r with
  | write k e =>
    have := h k e (by simp [Req.writes])
    simp only [Req.exec, redisWrite, zadd, if_pos this]
    exact set_self st k
  | batch k es =>
    simp only [Req.exec, redisWriteBatch]
    rw [foldl_zadd_noop fun e he => h k e (by simpa [Req.writes] using he)]
    exact set_self st k
  | deleteRange k a b => cases hr
  | delete ks => cases hr
  | latest k => rfl
  | one k n => rfl
  | range k a b => rfl

theorem exec_twice {r : Req} (hr : r.removes = false) (st : RedisStore) :
    (r.exec (r.exec st).1).1 = (r.exec st).1 :=
  exec_noop hr fun k e he => (exec_mem r st k (fun h => by rw [hr] at h; cases h) e).mpr (.inr he)

theorem exec_ans {r : Req} (hr : reads r = false) (st st' : RedisStore) : (r.exec st).2 = (r.exec st').2 := by
  cases r <;> first | rfl | cases hr

/-- readings that were not answered are left out. -/
theorem InTurn.leave {p : Effect → Bool} {order : List Effect} {st st' : RedisStore} (h : InTurn st order st')
    (hp : ∀ x ∈ order, p x = false → reads x.req = true) : InTurn st (order.filter p) st' := by
  induction order generalizing st with
  | nil => exact h
  | cons x xs ih =>
    have hp' : ∀ x ∈ xs, p x = false → reads x.req = true := fun y hy => hp y (List.mem_cons_of_mem _ hy)
    cases hx : p x with
    | true => rw [List.filter_cons, if_pos hx]; exact ⟨h.1, ih h.2 hp'⟩
    | false =>
      rw [List.filter_cons, if_neg (by simp [hx])]
      have := h.2
      rw [exec_reads (hp x (by simp) hx)] at this
      exact ih this hp'

theorem Before.of_split {α : Type} {a b : List α} {x y : α} (hx : x ∈ a) (hy : y ∈ b) : Before (a ++ b) x y :=
  ⟨a, b, rfl, hx, hy⟩

/-- attempts at a request other than the answered one are left out, if nothing is removed: an attempt that comes early
does what the answered one then need not do, one that comes late finds everything there. -/
theorem InTurn.leaveRepeats {p : Effect → Bool} {order : List Effect} {st st' : RedisStore} (h : InTurn st order st')
    (hn : order.Nodup) (hr : ∀ x ∈ order, x.req.removes = false)
    (hp : ∀ x ∈ order, p x = false → reads x.req = false → ∃ y ∈ order, p y = true ∧ y.req = x.req ∧
      ∀ z ∈ order, p z = true → Before order z y → Before order z x) :
    InTurn st (order.filter p) st' := by
  have key : ∀ (b a : List Effect) (sa s : RedisStore), order = a ++ b → InTurn st (a.filter p) s →
      (sa = s ∨ ∃ y, (b.filter p).head? = some y ∧ reads y.req = false ∧ sa = (y.req.exec s).1) → InTurn sa b st' →
      InTurn st (order.filter p) st' := by
    intro b
    induction b with
    | nil =>
      intro a sa s e ha hs hb
      rcases hs with rfl | ⟨y, hy, _⟩
      · rw [e, List.append_nil]
        have : st' = sa := hb
        rw [this]; exact ha
      · cases hy
    | cons x b ih =>
      intro a sa s e ha hs hb
      have hx : x ∈ order := by rw [e]; simp
      have hrx := hr x hx
      have e' : order = (a ++ [x]) ++ b := by rw [e]; simp
      obtain ⟨hb1, hb2⟩ := hb
      cases hpx : p x with
      | true =>
        have hf : (x :: b).filter p = x :: b.filter p := by rw [List.filter_cons, if_pos hpx]
        rw [hf] at hs
        have hsn := InTurn.snoc ha x.id x.req
        rcases hs with rfl | ⟨y, hy, hy2, rfl⟩
        · refine ih (a ++ [x]) _ _ e' ?_ (.inl rfl) hb2
          rw [List.filter_append, List.filter_cons, if_pos hpx, List.filter_nil]
          rw [← hb1] at hsn
          exact hsn
        · cases hy
          refine ih (a ++ [x]) _ (x.req.exec s).1 e' ?_ (.inl (exec_twice hrx s)) hb2
          rw [List.filter_append, List.filter_cons, if_pos hpx, List.filter_nil]
          rw [exec_ans hy2 _ s] at hb1
          rw [← hb1] at hsn
          exact hsn
      | false =>
        have hf : (x :: b).filter p = b.filter p := by rw [List.filter_cons, if_neg (by simp [hpx])]
        have hfa : (a ++ [x]).filter p = a.filter p := by
          rw [List.filter_append, List.filter_cons, if_neg (by simp [hpx]), List.filter_nil, List.append_nil]
        rw [hf] at hs
        cases hrd : reads x.req with
        | true =>
          rw [exec_reads hrd] at hb2
          exact ih (a ++ [x]) sa s e' (by rw [hfa]; exact ha) hs hb2
        | false =>
          obtain ⟨y, hy, hpy, hyx, hz⟩ := hp x hx hpx hrd
          by_cases hya : y ∈ a
          · have hin : ∀ k, ∀ w ∈ x.req.writes k, w ∈ s k := fun k w hw => by
              refine (ha.keeps (k := k) (fun z hz' => ?_) w).mpr (.inr ⟨y, List.mem_filter.mpr ⟨hya, hpy⟩, ?_⟩)
              · intro hc
                rw [hr z (by rw [e]; exact List.mem_append_left _ (List.mem_filter.mp hz').1)] at hc
                cases hc
              · rw [hyx]; exact hw
            have hsa : (x.req.exec sa).1 = sa := by
              refine exec_noop hrx fun k w hw => ?_
              rcases hs with rfl | ⟨y', hy', _, rfl⟩
              · exact hin k w hw
              · have hm : y' ∈ order := by
                  rw [e']
                  exact List.mem_append_right _ (List.mem_filter.mp (List.mem_of_mem_head? hy')).1
                exact (exec_mem _ _ _ (fun hc => by rw [hr y' hm] at hc; cases hc) _).mpr (.inl (hin k w hw))
            rw [hsa] at hb2
            exact ih (a ++ [x]) sa s e' (by rw [hfa]; exact ha) hs hb2
          · have hyb : y ∈ b := by
              rw [e'] at hy
              rcases List.mem_append.mp hy with h1 | h1
              · rcases List.mem_append.mp h1 with h1 | h1
                · exact absurd h1 hya
                · rw [List.mem_singleton] at h1
                  rw [h1, hpx] at hpy; cases hpy
              · exact h1
            have hhead : (b.filter p).head? = some y := by
              have hyf : y ∈ b.filter p := List.mem_filter.mpr ⟨hyb, hpy⟩
              cases hbf : b.filter p with
              | nil => rw [hbf] at hyf; cases hyf
              | cons z w =>
                rw [hbf] at hyf
                rcases List.mem_cons.mp hyf with rfl | hyw
                · rfl
                · have hzb : z ∈ b.filter p := by rw [hbf]; simp
                  obtain ⟨b1, b2, eb, _, hb2'⟩ := List.filter_eq_cons_iff.mp hbf
                  have hyb2 : y ∈ b2 := by
                    obtain ⟨_, hw⟩ := hb2'
                    rw [← hw] at hyw
                    exact (List.mem_filter.mp hyw).1
                  have hbz : Before order z y := by
                    refine ⟨a ++ [x] ++ b1 ++ [z], b2, ?_, by simp, hyb2⟩
                    rw [e', eb]; simp
                  have hzx := hz z (by rw [e']; exact List.mem_append_right _ (List.mem_filter.mp hzb).1)
                    (List.mem_filter.mp hzb).2 hbz
                  have hxz : Before order x z := by
                    rw [e']; exact ⟨_, _, rfl, by simp, (List.mem_filter.mp hzb).1⟩
                  exact (hxz.asymm hn hzx).elim
            rcases hs with rfl | ⟨y', hy', hrd', rfl⟩
            · exact ih (a ++ [x]) _ sa e' (by rw [hfa]; exact ha) (.inr ⟨y, hhead, by rw [hyx]; exact hrd, by rw [hyx]⟩) hb2
            · rw [hhead] at hy'
              cases hy'
              rw [hyx, exec_twice hrx] at hb2
              exact ih (a ++ [x]) _ s e' (by rw [hfa]; exact ha) (.inr ⟨y, hhead, hrd', by rw [hyx]⟩) hb2
  exact key order [] st st rfl rfl (.inl rfl) h

/-! ### Histories -/

theorem answerTo_mem {i : Nat} {a : Ans} : ∀ {h : List Ev}, answerTo i h = some a → Ev.answered i a ∈ h := by
  intro h
  induction h with
  | nil => intro e; cases e
  | cons e h ih =>
    intro he
    cases e with
    | answered j b =>
      unfold answerTo at he
      by_cases hj : j = i
      · rw [if_pos hj] at he; cases he; subst hj; exact List.mem_cons_self ..
      · rw [if_neg hj] at he; exact List.mem_cons_of_mem _ (ih he)
    | _ => exact List.mem_cons_of_mem _ (ih he)

theorem answerTo_isSome {i : Nat} {a : Ans} : ∀ {h : List Ev}, Ev.answered i a ∈ h → (answerTo i h).isSome = true := by
  intro h
  induction h with
  | nil => intro e; cases e
  | cons e h ih =>
    intro he
    cases e with
    | answered j b =>
      unfold answerTo
      by_cases hj : j = i
      · rw [if_pos hj]; rfl
      · rw [if_neg hj]
        rcases List.mem_cons.mp he with he | he
        · cases he; exact absurd rfl hj
        · exact ih he
    | _ =>
      rcases List.mem_cons.mp he with he | he
      · cases he
      · exact ih he

theorem ends_unique {h : List Ev} (hn : (h.filterMap Ev.ends).Nodup) {i : Nat} {e f : Ev} (he : e ∈ h) (hf : f ∈ h)
    (h1 : e.ends = some i) (h2 : f.ends = some i) : e = f := filterMap_nodup_inj Ev.ends hn e he f hf i h1 h2

theorem before_filter {α : Type} {q : α → Bool} {l : List α} (hn : l.Nodup) {x y : α} (hx : x ∈ l.filter q)
    (hy : y ∈ l.filter q) : Before l x y ↔ Before (l.filter q) x y := by
  obtain ⟨_, hqx⟩ := List.mem_filter.mp hx
  obtain ⟨_, hqy⟩ := List.mem_filter.mp hy
  constructor
  · rintro ⟨a, b, rfl, ha, hb⟩
    exact ⟨a.filter q, b.filter q, by rw [List.filter_append], List.mem_filter.mpr ⟨ha, hqx⟩,
      List.mem_filter.mpr ⟨hb, hqy⟩⟩
  · rintro ⟨a, b, e, ha, hb⟩
    obtain ⟨l1, l2, rfl, rfl, rfl⟩ := List.filter_eq_append_iff.mp e
    exact ⟨l1, l2, rfl, (List.mem_filter.mp ha).1, (List.mem_filter.mp hb).1⟩

/-- one who is careful has the answers and leaves the sets of one who has Redis to themselves and whose calls without
an answer were never made. -/
theorem careful_own {st : RedisStore} {σ : Sys} {h : List Ev} {log : List Effect} (I : Inv st σ h log) {K : List String}
    (hK : Careful K h) (s0 : RedisStore) (hs0 : ∀ k ∈ K, s0 k = st k) :
    ∃ own : List Effect, own.map (fun x => (x.req, x.ans)) = answeredOnly (trace K h) ∧
      ∃ s, InTurn s0 own s ∧ ∀ k ∈ K, s k = σ.store k := by
  have hn : (log.map (·.id)).Nodup := I.explains.once
  have hlog : log.Nodup := (List.pairwise_map.mp hn).imp fun {a b} hne e => hne (by rw [e])
  have hends := I.nodups.2.2
  have hinj : ∀ x ∈ log, ∀ y ∈ log, x.id = y.id → x = y := by
    intro x hx y hy e
    refine filterMap_nodup_inj (fun z : Effect => some z.id) ?_ x hx y hy x.id rfl (by simp [e])
    have : log.filterMap (fun z : Effect => some z.id) = log.map (·.id) :=
      congrFun (List.filterMap_eq_map (f := fun z : Effect => z.id)) log
    rw [this]; exact hn
  have hans : ∀ x ∈ log, ∀ a, Ev.answered x.id a ∈ h → a = x.ans := by
    intro x hx a ha
    obtain ⟨r, hr⟩ := I.told _ _ ha
    have := hinj x hx _ hr rfl
    rw [this]
  have hmemL : ∀ x, x ∈ log.filter (about K) ↔ x ∈ log ∧ About K x.req := by
    intro x
    rw [List.mem_filter]
    simp [about, About]
  have hfirst : ∀ x ∈ log, ∀ y ∈ log, About K x.req → About K y.req → x.id < y.id → (∃ a, Ev.answered x.id a ∈ h) →
      Before log x y := by
    intro x hx y hy hxK hyK hlt ⟨a, ha⟩
    obtain ⟨n, hcx⟩ := I.asked x hx
    obtain ⟨m, hcy⟩ := I.asked y hy
    obtain ⟨e, he, hb⟩ := hK.waits _ _ _ _ _ _ hxK hyK (I.before_called hcx hcy hlt)
    have := ends_unique hends ha hb.fst rfl he
    subst this
    exact I.kept x hx y hy _ _ _ hb
  obtain ⟨s, hturn, hagree⟩ := I.turn.restrict (K := K)
    (fun x hx => by obtain ⟨n, hc⟩ := I.asked x hx; exact (hK.apart _ _ _ hc).2)
    (fun x hx => by obtain ⟨n, hc⟩ := I.asked x hx; exact (hK.apart _ _ _ hc).1) s0 hs0
  let p : Effect → Bool := fun x => (answerTo x.id h).isSome
  have hp : ∀ x, p x = true ↔ ∃ a, Ev.answered x.id a ∈ h := by
    intro x
    constructor
    · intro hx
      obtain ⟨a, ha⟩ := Option.isSome_iff_exists.mp hx
      exact ⟨a, answerTo_mem ha⟩
    · rintro ⟨a, ha⟩
      exact answerTo_isSome ha
  have hbef : ∀ x y, x ∈ log → y ∈ log → About K x.req → About K y.req →
      (Before log x y ↔ Before (log.filter (about K)) x y) := fun x y hx hy hxK hyK =>
    before_filter hlog ((hmemL x).mpr ⟨hx, hxK⟩) ((hmemL y).mpr ⟨hy, hyK⟩)
  have hturn' : InTurn s0 ((log.filter (about K)).filter p) s := by
    rcases hK.settled with hset | ⟨hrem, hins⟩
    · refine InTurn.leave hturn fun x hx hpx => ?_
      obtain ⟨hx, hxK⟩ := (hmemL x).mp hx
      cases hrd : reads x.req with
      | true => rfl
      | false =>
        obtain ⟨n, hc⟩ := I.asked x hx
        have := (hp x).mpr (hset _ _ _ hc hxK hrd)
        rw [hpx] at this; cases this
    · refine InTurn.leaveRepeats hturn (hlog.filter _) (fun x hx => ?_) (fun x hx hpx hrd => ?_)
      · obtain ⟨hx, hxK⟩ := (hmemL x).mp hx
        obtain ⟨n, hc⟩ := I.asked x hx
        exact hrem _ _ _ hc hxK
      · obtain ⟨hx, hxK⟩ := (hmemL x).mp hx
        obtain ⟨n, hc⟩ := I.asked x hx
        obtain ⟨y, m, a, hle, hcy, hay, hbt⟩ := hins _ _ _ hc hxK hrd
        obtain ⟨r', hyl⟩ := I.told _ _ hay
        obtain ⟨m', hcy'⟩ := I.asked _ hyl
        obtain ⟨_, hr'⟩ := I.same hcy hcy'
        have hr' : x.req = r' := hr'
        subst hr'
        refine ⟨_, (hmemL _).mpr ⟨hyl, hxK⟩, (hp _).mpr ⟨a, hay⟩, rfl, fun z hz hpz hbz => ?_⟩
        obtain ⟨hz, hzK⟩ := (hmemL z).mp hz
        have hzy := (hbef _ _ hz hyl hzK hxK).mpr hbz
        refine (hbef _ _ hz hx hzK hxK).mp ?_
        have hzlt : z.id < y := by
          rcases Nat.lt_trichotomy z.id y with h1 | h1 | h1
          · exact h1
          · have := hinj z hz _ hyl h1
            rw [this] at hzy
            exact (hzy.asymm hlog hzy).elim
          · exact (hzy.asymm hlog (hfirst _ hyl z hz hxK hzK h1 ⟨a, hay⟩)).elim
        have hza := (hp z).mp hpz
        rcases Nat.lt_or_ge z.id x.id with h1 | h1
        · exact hfirst z hz x hx hzK hxK h1 hza
        · obtain ⟨nz, hcz⟩ := I.asked z hz
          obtain ⟨b, hb⟩ := hza
          exact absurd hb ((hbt _ _ _ hcz hzK h1 hzlt).2 b)
  refine ⟨(log.filter (about K)).filter p, ?_, s, hturn', hagree⟩
  have hsort : ((log.filter (about K)).filter p).Pairwise (fun x y => x.id < y.id) := by
    rw [List.pairwise_filter, List.pairwise_filter]
    refine pairwise_of_before fun x y hb hx hy hpx hpy => ?_
    have hxK := ((hmemL x).mp (List.mem_filter.mpr ⟨hb.fst, hx⟩)).2
    have hyK := ((hmemL y).mp (List.mem_filter.mpr ⟨hb.snd, hy⟩)).2
    rcases Nat.lt_trichotomy x.id y.id with h1 | h1 | h1
    · exact h1
    · have := hinj x hb.fst y hb.snd h1
      subst this
      exact (hb.asymm hlog hb).elim
    · exact (hb.asymm hlog (hfirst y hb.snd x hb.fst hyK hxK h1 ((hp y).mp hpy))).elim
  have hids : ((log.filter (about K)).filter p).map (fun x => (x.id, x.req)) =
      (callsAbout K h).filter (fun c => (answerTo c.1 h).isSome) := by
    have hp1 : (((log.filter (about K)).filter p).map fun x => (x.id, x.req)).Pairwise (fun a b => a.1 < b.1) :=
      List.pairwise_map.mpr hsort
    have hp2 : ((callsAbout K h).filter (fun c => (answerTo c.1 h).isSome)).Pairwise (fun a b => a.1 < b.1) := by
      refine List.Pairwise.filter _ ?_
      rw [← List.pairwise_map (f := fun a : Nat × Req => a.1) (R := fun a b => a < b)]
      refine List.Pairwise.sublist (callsAbout_ids K h) ?_
      rw [I.begun]; exact List.pairwise_lt_range
    have hd : ∀ {l : List (Nat × Req)}, l.Pairwise (fun a b => a.1 < b.1) → l.Nodup := fun hp =>
      hp.imp fun {a b} hl e => by rw [e] at hl; omega
    have hperm : (((log.filter (about K)).filter p).map fun x => (x.id, x.req)).Perm
        ((callsAbout K h).filter (fun c => (answerTo c.1 h).isSome)) := by
      rw [List.perm_ext_iff_of_nodup (hd hp1) (hd hp2)]
      rintro ⟨i, r⟩
      rw [List.mem_filter, mem_callsAbout, List.mem_map]
      constructor
      · rintro ⟨x, hx, e⟩
        injection e with e1 e2
        subst e1 e2
        obtain ⟨hx, hpx⟩ := List.mem_filter.mp hx
        obtain ⟨hx, hxK⟩ := (hmemL x).mp hx
        exact ⟨⟨I.asked x hx, hxK⟩, hpx⟩
      · rintro ⟨⟨⟨n, hc⟩, hk⟩, ha⟩
        obtain ⟨a, ha'⟩ := Option.isSome_iff_exists.mp ha
        obtain ⟨r', hr⟩ := I.told _ _ (answerTo_mem ha')
        obtain ⟨m, hm⟩ := I.asked _ hr
        obtain ⟨_, rfl⟩ := I.same hc hm
        exact ⟨_, List.mem_filter.mpr ⟨(hmemL _).mpr ⟨hr, hk⟩, ha⟩, rfl⟩
    refine hperm.eq_of_pairwise (le := fun a b => a.1 < b.1) ?_ hp1 hp2
    intro a b _ _ h1 h2
    omega
  have e1 : answeredOnly (trace K h) =
      ((callsAbout K h).filter (fun c => (answerTo c.1 h).isSome)).filterMap
        fun c => (answerTo c.1 h).map fun a => (c.2, a) := by
    unfold answeredOnly trace
    rw [List.filterMap_map]
    generalize callsAbout K h = l
    induction l with
    | nil => rfl
    | cons c l ih =>
      cases hc : answerTo c.1 h with
      | none => rw [List.filterMap_cons_none (by simp [hc]), List.filter_cons, if_neg (by simp [hc]), ih]
      | some a =>
        rw [List.filterMap_cons_some (b := (c.2, a)) (by simp [hc]), List.filter_cons, if_pos (by simp [hc]),
          List.filterMap_cons_some (b := (c.2, a)) (by simp [hc]), ih]
  rw [e1, ← hids, List.filterMap_map]
  have hall : ∀ x ∈ (log.filter (about K)).filter p, answerTo x.id h = some x.ans := by
    intro x hx
    obtain ⟨hx, hpx⟩ := List.mem_filter.mp hx
    obtain ⟨a, ha⟩ := Option.isSome_iff_exists.mp hpx
    rw [ha, hans x ((hmemL x).mp hx).1 a (answerTo_mem ha)]
  generalize (log.filter (about K)).filter p = l at hall
  induction l with
  | nil => rfl
  | cons x l ih =>
    rw [List.map_cons, List.filterMap_cons_some (b := (x.req, x.ans)) (by simp [hall x (by simp)]),
      ih fun y hy => hall y (List.mem_cons_of_mem _ hy)]

end Verif.Persist.Shared

namespace Verif.Persist.Client

open Verif.Persist.Shared (Req Ans Method Effect InTurn)

/-! ### Calls done at once -/

/-- requests done one after another have these answers and leave this. -/
def Done : RedisStore → List (Req × Ans) → RedisStore → Prop
  | st, [], st' => st' = st
  | st, x :: xs, st' => x.2 = (x.1.exec st).2 ∧ Done (x.1.exec st).1 xs st'

theorem done_of_inTurn {own : List Effect} {st st' : RedisStore} (h : InTurn st own st') :
    Done st (own.map fun x => (x.req, x.ans)) st' := by
  induction own generalizing st with
  | nil => exact h
  | cons x xs ih => exact ⟨h.1, ih h.2⟩

theorem Done.split {a b : List (Req × Ans)} {st st' : RedisStore} (h : Done st (a ++ b) st') :
    ∃ s, Done st a s ∧ Done s b st' := by
  induction a generalizing st with
  | nil => exact ⟨st, rfl, h⟩
  | cons x xs ih =>
    obtain ⟨s, h1, h2⟩ := ih h.2
    exact ⟨s, ⟨h.1, h1⟩, h2⟩

/-- the requests of the calls that were answered. -/
def told (key : String → String → String) (pid : String) (l : List (Method × Option Ans)) : List (Req × Ans) :=
  answeredOnly (l.map fun x => (x.1.req key pid, x.2))

theorem told_append (key : String → String → String) (pid : String) (a b : List (Method × Option Ans)) :
    told key pid (a ++ b) = told key pid a ++ told key pid b := by
  simp [told, answeredOnly]

theorem Runs.bind {α β : Type} {t : Task α} {f : α → Task β} {l : List (Method × Option Ans)} {b : β}
    (h : (t.bind f).Runs l b) : ∃ l1 l2 a, l = l1 ++ l2 ∧ t.Runs l1 a ∧ (f a).Runs l2 b := by
  induction t generalizing l with
  | done a => exact ⟨[], l, a, rfl, ⟨rfl, rfl⟩, h⟩
  | call m k ih =>
    obtain ⟨r, l', rfl, h'⟩ := h
    obtain ⟨l1, l2, a, rfl, h1, h2⟩ := ih r h'
    exact ⟨(m, r) :: l1, l2, a, rfl, ⟨r, l1, rfl, h1⟩, h2⟩

section
variable (key : String → String → String) (pid : String)

/-- what a task does to the storage and how it ends, if its answered calls are done at once and the others not. -/
def Does {α : Type} (t : Task α) (P : RedisStore → RedisStore → α → Prop) : Prop :=
  ∀ l a st st', t.Runs l a → Done st (told key pid l) st' → P st st' a

/-- an attempt fails without effect or succeeds with its effect. -/
def Tries (f : RedisStore → RedisStore) (j j' : Journal) (st st' : RedisStore) (r : Journal × Bool) : Prop :=
  (st' = st ∧ r = (j, false)) ∨ (st' = f st ∧ r = (j', true))

theorem does_loop {attempt : Journal → Task (Journal × Bool)} {f : RedisStore → RedisStore} {j j' : Journal}
    (h : Does key pid (attempt j) (Tries f j j')) (n : Nat) : Does key pid (loop attempt n j) (Tries f j j') := by
  induction n with
  | zero => exact h
  | succ n ih =>
    intro l a st st' hr hd
    obtain ⟨l1, l2, r, rfl, h1, h2⟩ := Runs.bind hr
    rw [told_append] at hd
    obtain ⟨s, d1, d2⟩ := hd.split
    rcases h _ _ _ _ h1 d1 with ⟨rfl, rfl⟩ | ⟨rfl, rfl⟩
    · exact ih _ _ _ _ h2 d2
    · obtain ⟨rfl, rfl⟩ := h2
      exact .inr ⟨d2, rfl⟩

theorem does_message (p : Payload) (j : Journal) : Does key pid (persistMessage p j)
    (Tries (fun st => (redisStorage key).writeMessage st pid ⟨j.last, p.ptype, p.bytes⟩) j { j with last := j.last + 1 }) := by
  rintro l a st st' ⟨r, l', rfl, hr⟩ hd
  cases r with
  | none => obtain ⟨rfl, rfl⟩ := hr; exact .inl ⟨hd, rfl⟩
  | some x => obtain ⟨rfl, rfl⟩ := hr; exact .inr ⟨hd.2, rfl⟩

theorem does_batch (ps : List Payload) (j : Journal) : Does key pid (persistBatch ps j)
    (Tries (fun st => (redisStorage key).writeBatch st pid (numberBatch j.last ps)) j
      { j with last := j.last + ps.length }) := by
  rintro l a st st' ⟨r, l', rfl, hr⟩ hd
  cases r with
  | none => obtain ⟨rfl, rfl⟩ := hr; exact .inl ⟨hd, rfl⟩
  | some x => obtain ⟨rfl, rfl⟩ := hr; exact .inr ⟨hd.2, rfl⟩

theorem does_snapshot (p : Payload) (j : Journal) : Does key pid (persistSnapshot p j)
    (Tries (fun st => (redisStorage key).writeSnapshot st pid ⟨j.last + 1, p.ptype, p.bytes⟩) j
      { j with last := j.last + 1, lastSnap := some (j.last + 1) }) := by
  rintro l a st st' ⟨r, l', rfl, hr⟩ hd
  cases r with
  | none => obtain ⟨rfl, rfl⟩ := hr; exact .inl ⟨hd, rfl⟩
  | some x => obtain ⟨rfl, rfl⟩ := hr; exact .inr ⟨hd.2, rfl⟩

theorem does_clear (j : Journal) : Does key pid (clearOldMessages j) fun st st' ok =>
    (st' = st ∧ ok = false) ∨ ∃ s, j.lastSnap = some s ∧ st' = (redisStorage key).deleteMessagesTo st pid s ∧ ok = true := by
  unfold clearOldMessages
  cases hs : j.lastSnap with
  | none => rintro l a st st' ⟨rfl, rfl⟩ hd; exact .inl ⟨hd, rfl⟩
  | some s =>
    rintro l a st st' ⟨r, l', rfl, hr⟩ hd
    cases r with
    | none => obtain ⟨rfl, rfl⟩ := hr; exact .inl ⟨hd, rfl⟩
    | some x => obtain ⟨rfl, rfl⟩ := hr; exact .inr ⟨s, rfl, hd.2, rfl⟩

theorem does_load (K : Known) : Does key pid (loadJournal K pid) fun st st' r =>
    st' = st ∧ (r = none ∨ r = some (Verif.Persist.loadJournal (redisStorage key) K st pid)) := by
  rintro l a st st' ⟨r, l', rfl, hr⟩ hd
  cases r with
  | none => obtain ⟨rfl, rfl⟩ := hr; exact ⟨hd, .inl rfl⟩
  | some x =>
    obtain ⟨hx, hd⟩ := hd
    have hx : x = Ans.entry (redisReadSnapshot st (key pid "snapshot")) := hx
    subst hx
    have hd : Done st (told key pid l') st' := hd
    cases hs : redisReadSnapshot st (key pid "snapshot") with
    | none =>
      rw [hs] at hr
      obtain ⟨r, l'', rfl, hr⟩ := hr
      cases r with
      | none => obtain ⟨rfl, rfl⟩ := hr; exact ⟨hd, .inl rfl⟩
      | some y =>
        obtain ⟨hy, hd⟩ := hd
        have hy : y = Ans.entries (some (redisReadRange st (key pid "journal") _ none)) := hy
        subst hy
        obtain ⟨rfl, rfl⟩ := hr
        refine ⟨hd, .inr ?_⟩
        simp only [Verif.Persist.loadJournal, Verif.Persist.recoverSnapshot, Verif.Persist.recoverMessages,
          redisStorage, Journal.new, hs, Option.getD_some]
        rfl
    | some e =>
      rw [hs] at hr
      obtain ⟨r, l'', rfl, hr⟩ := hr
      cases r with
      | none => obtain ⟨rfl, rfl⟩ := hr; exact ⟨hd, .inl rfl⟩
      | some y =>
        obtain ⟨hy, hd⟩ := hd
        have hy : y = Ans.entries (some (redisReadRange st (key pid "journal") _ none)) := hy
        subst hy
        obtain ⟨rfl, rfl⟩ := hr
        refine ⟨hd, .inr ?_⟩
        simp only [Verif.Persist.loadJournal, Verif.Persist.recoverSnapshot, Verif.Persist.recoverMessages,
          redisStorage, Journal.new, hs, Option.getD_some]

/-- loading fails when a call does. -/
theorem load_none {K : Known} {t : List (Method × Option Ans)} {st st' : RedisStore}
    (hr : (loadJournal K pid).Runs t none) (hd : Done st (told key pid t) st') : ∃ t' m, t = t' ++ [(m, none)] := by
  obtain ⟨r, l', rfl, hr⟩ := hr
  cases r with
  | none => obtain ⟨rfl, _⟩ := hr; exact ⟨[], _, rfl⟩
  | some x =>
    obtain ⟨hx, hd⟩ := hd
    have hx : x = Ans.entry (redisReadSnapshot st (key pid "snapshot")) := hx
    subst hx
    have hd : Done st (told key pid l') st' := hd
    cases hs : redisReadSnapshot st (key pid "snapshot") with
    | none =>
      rw [hs] at hr
      obtain ⟨r, l'', rfl, hr⟩ := hr
      cases r with
      | none => obtain ⟨rfl, _⟩ := hr; exact ⟨[_], _, rfl⟩
      | some y =>
        obtain ⟨hy, hd⟩ := hd
        have hy : y = Ans.entries (some (redisReadRange st (key pid "journal") _ none)) := hy
        subst hy
        cases hr.2
    | some e =>
      rw [hs] at hr
      obtain ⟨r, l'', rfl, hr⟩ := hr
      cases r with
      | none => obtain ⟨rfl, _⟩ := hr; exact ⟨[_], _, rfl⟩
      | some y =>
        obtain ⟨hy, hd⟩ := hd
        have hy : y = Ans.entries (some (redisReadRange st (key pid "journal") _ none)) := hy
        subst hy
        cases hr.2

variable {ε σ : Type} (A : App ε σ)

/-- the actor and one that has Redis to itself. -/
structure Like (c : Actor σ) (st : RedisStore) (l : Alive RedisStore σ) : Prop where
  store : l.sys.store = st
  up : c.state = none ∨ (l.state = c.state ∧ l.sys.journals pid = c.journal ∧ c.journal.pid = pid)

theorem Like.act {c c' : Actor σ} {st st' : RedisStore} {l : Alive RedisStore σ} (h : Like pid c st l) {s : σ}
    (hs : c.state = some s) {n : Nat} {j : Job ε} {x : Cmd ε} {t : List (Method × Option Ans)}
    (hr : (c.act A s n j).Runs t (c', x)) (hd : Done st (told key pid t) st') :
    Like pid c' st' (l.step (redisStorage key) A pid x) := by
  obtain ⟨rfl, hup⟩ := h
  rcases hup with hup | ⟨hup, hj, hp⟩
  · rw [hs] at hup; cases hup
  rw [hs] at hup
  cases j with
  | event e =>
    obtain ⟨t1, t2, r, rfl, h1, h2⟩ := Runs.bind hr
    rw [told_append] at hd
    obtain ⟨m, d1, d2⟩ := hd.split
    obtain ⟨rfl, h2⟩ := h2
    obtain ⟨h2, h3⟩ := Prod.mk.inj h2
    subst h2 h3
    have d2 : st' = m := d2
    subst d2
    rcases does_loop key pid (does_message key pid (A.enc e) c.journal) n _ _ _ _ h1 d1 with ⟨e1, rfl⟩ | ⟨e1, rfl⟩
    · subst e1
      refine ⟨?_, .inr ?_⟩ <;> simp [Alive.step, hup, Cmd.op, Sys.step, outcome, applyWrite, Sys.setJ, hj, hp, WriteOutcome.stored,
        WriteOutcome.acked, Verif.Persist.persistMessage]
    · subst e1
      refine ⟨?_, .inr ?_⟩ <;> simp [Alive.step, hup, Cmd.op, Sys.step, outcome, applyWrite, Sys.setJ, hj, hp, WriteOutcome.stored,
        WriteOutcome.acked, Verif.Persist.persistMessage]
  | events es =>
    cases es with
    | nil =>
      obtain ⟨rfl, h2⟩ := hr
      obtain ⟨h2, h3⟩ := Prod.mk.inj h2
      subst h2 h3
      have hd : st' = l.sys.store := hd
      subst hd
      refine ⟨?_, .inr ?_⟩ <;> simp [Alive.step, hup, hs, Cmd.op, Sys.step, Sys.setJ, hj, hp, Verif.Persist.persistBatch,
        WriteOutcome.acked]
    | cons e es =>
      obtain ⟨t1, t2, r, rfl, h1, h2⟩ := Runs.bind hr
      rw [told_append] at hd
      obtain ⟨m, d1, d2⟩ := hd.split
      obtain ⟨rfl, h2⟩ := h2
      obtain ⟨h2, h3⟩ := Prod.mk.inj h2
      subst h2 h3
      have d2 : st' = m := d2
      subst d2
      rcases does_loop key pid (does_batch key pid ((e :: es).map A.enc) c.journal) n _ _ _ _ h1 d1 with ⟨e1, rfl⟩ | ⟨e1, rfl⟩
      · subst e1
        refine ⟨?_, .inr ?_⟩ <;> simp [Alive.step, hup, Cmd.op, Sys.step, outcome, applyWrite, Sys.setJ, hj, hp, WriteOutcome.stored,
          WriteOutcome.acked, Verif.Persist.persistBatch,
          journalPersistBatch]
      · subst e1
        refine ⟨?_, .inr ?_⟩ <;> simp [Alive.step, hup, Cmd.op, Sys.step, outcome, applyWrite, Sys.setJ, hj, hp, WriteOutcome.stored,
          WriteOutcome.acked, Verif.Persist.persistBatch,
          journalPersistBatch]
  | save =>
    obtain ⟨t1, t2, r, rfl, h1, h2⟩ := Runs.bind hr
    rw [told_append] at hd
    obtain ⟨m, d1, d2⟩ := hd.split
    obtain ⟨rfl, h2⟩ := h2
    obtain ⟨h2, h3⟩ := Prod.mk.inj h2
    subst h2 h3
    have d2 : st' = m := d2
    subst d2
    rcases does_loop key pid (does_snapshot key pid (A.encS s) c.journal) n _ _ _ _ h1 d1 with ⟨e1, rfl⟩ | ⟨e1, rfl⟩
    · subst e1
      refine ⟨?_, .inr ?_⟩ <;> simp [Alive.step, hup, Cmd.op, Sys.step, outcome, applyWrite, Sys.setJ, hj, hp, WriteOutcome.stored,
        WriteOutcome.acked, Verif.Persist.persistSnapshot]
    · subst e1
      refine ⟨?_, .inr ?_⟩ <;> simp [Alive.step, hup, Cmd.op, Sys.step, outcome, applyWrite, Sys.setJ, hj, hp, WriteOutcome.stored,
        WriteOutcome.acked, Verif.Persist.persistSnapshot]
  | trim =>
    obtain ⟨t1, t2, r, rfl, h1, h2⟩ := Runs.bind hr
    rw [told_append] at hd
    obtain ⟨m, d1, d2⟩ := hd.split
    obtain ⟨rfl, h2⟩ := h2
    obtain ⟨h2, h3⟩ := Prod.mk.inj h2
    subst h2 h3
    have d2 : st' = m := d2
    subst d2
    rcases does_clear key pid _ _ _ _ _ h1 d1 with ⟨e1, rfl⟩ | ⟨q, hq, e1, rfl⟩
    · subst e1
      refine ⟨?_, .inr ?_⟩
      · simp only [Alive.step, hup, Cmd.op, Sys.step, Verif.Persist.clearOldMessages, outcome]
        split <;> rfl
      · exact ⟨by simp [Alive.step, hup, hs], by simp [Alive.step, hup, Cmd.op, Sys.step, hj], hp⟩
    · subst e1
      refine ⟨?_, .inr ?_⟩
      · simp [Alive.step, hup, Cmd.op, Sys.step, Verif.Persist.clearOldMessages, outcome, hj, hq, hp, applyWrite,
          WriteOutcome.stored]
      · exact ⟨by simp [Alive.step, hup, hs], by simp [Alive.step, hup, Cmd.op, Sys.step, hj], hp⟩

theorem Like.boot {c c' : Actor σ} {st st' : RedisStore} {l : Alive RedisStore σ} (h : Like pid c st l)
    (hu : l.state.isSome = true) {t : List (Method × Option Ans)}
    (hr : (boot A pid).Runs t c') (hd : Done st (told key pid t) st') :
    Like pid c' st' (l.step (redisStorage key) A pid (.crash 0)) := by
  obtain ⟨rfl, _⟩ := h
  obtain ⟨s, hu⟩ := Option.isSome_iff_exists.mp hu
  obtain ⟨t1, t2, r, rfl, h1, h2⟩ := Runs.bind hr
  rw [told_append] at hd
  obtain ⟨m, d1, d2⟩ := hd.split
  obtain ⟨rfl, hr'⟩ := does_load key pid A.known _ _ _ _ h1 d1
  rcases hr' with rfl | rfl
  · obtain ⟨rfl, rfl⟩ := h2
    have d2 : st' = l.sys.store := d2
    subst d2
    exact ⟨by simp [Alive.step, hu, Cmd.op, Sys.step, Sys.setJ], .inl rfl⟩
  · have hp : (Verif.Persist.loadJournal (redisStorage key) A.known l.sys.store pid).1.pid = pid := loadJournal_pid _ _ _
    have e1 : (l.step (redisStorage key) A pid (.crash 0)) =
        ⟨l.sys.setJ pid l.sys.store (Verif.Persist.loadJournal (redisStorage key) A.known l.sys.store pid).1,
          (started A.user (.retry .untilSuccess) A.init [true]
            (Verif.Persist.loadJournal (redisStorage key) A.known l.sys.store pid).2).up⟩ := by
      simp only [Alive.step, hu]; rfl
    rw [e1]
    generalize Verif.Persist.loadJournal (redisStorage key) A.known l.sys.store pid = r at *
    obtain ⟨rfl, rfl⟩ := h2
    have d2 : st' = l.sys.store := d2
    subst d2
    exact ⟨rfl, .inr ⟨rfl, by simp [Sys.setJ], hp⟩⟩

theorem act_up {c c' : Actor σ} {s : σ} (hs : c.state = some s) {n : Nat} {j : Job ε} {x : Cmd ε}
    {t : List (Method × Option Ans)} (hr : (c.act A s n j).Runs t (c', x)) : c'.state ≠ none := by
  cases j with
  | event e =>
    obtain ⟨_, _, r, _, _, _, h2⟩ := Runs.bind hr
    rw [(Prod.mk.inj h2).1]; simp
  | events es =>
    cases es with
    | nil => obtain ⟨_, h2⟩ := hr; rw [(Prod.mk.inj h2).1, hs]; simp
    | cons e es =>
      obtain ⟨_, _, r, _, _, _, h2⟩ := Runs.bind hr
      rw [(Prod.mk.inj h2).1]; simp
  | save =>
    obtain ⟨_, _, r, _, _, _, h2⟩ := Runs.bind hr
    rw [(Prod.mk.inj h2).1]; simp
  | trim =>
    obtain ⟨_, _, r, _, _, _, h2⟩ := Runs.bind hr
    rw [(Prod.mk.inj h2).1, hs]; simp

theorem act_honest {c c' : Actor σ} {s : σ} {n : Nat} {j : Job ε} {x : Cmd ε} {t : List (Method × Option Ans)}
    (hr : (c.act A s n j).Runs t (c', x)) : x.Honest := by
  have ho : ∀ b, outcome b ≠ .lostAck := by intro b; cases b <;> simp [outcome]
  cases j with
  | event e =>
    obtain ⟨_, _, r, _, _, _, h2⟩ := Runs.bind hr
    rw [(Prod.mk.inj h2).2]; exact ho _
  | events es =>
    cases es with
    | nil => obtain ⟨_, h2⟩ := hr; rw [(Prod.mk.inj h2).2]; simp [Cmd.Honest]
    | cons e es =>
      obtain ⟨_, _, r, _, _, _, h2⟩ := Runs.bind hr
      rw [(Prod.mk.inj h2).2]; exact ho _
  | save =>
    obtain ⟨_, _, r, _, _, _, h2⟩ := Runs.bind hr
    rw [(Prod.mk.inj h2).2]; exact ho _
  | trim =>
    obtain ⟨_, _, r, _, _, _, h2⟩ := Runs.bind hr
    rw [(Prod.mk.inj h2).2]; trivial

theorem Lives.honest {c c' : Actor σ} {t : List (Method × Option Ans)} {cs : List (Cmd ε)} (hl : Lives A pid c t cs c') :
    ∀ x ∈ cs, x.Honest := by
  induction hl with
  | nil c => intro x hx; cases hx
  | act _ hr _ ih =>
    intro x hx
    rcases List.mem_cons.mp hx with rfl | hx
    · exact act_honest A hr
    · exact ih x hx
  | start _ _ ih =>
    intro x hx
    rcases List.mem_cons.mp hx with rfl | hx
    · trivial
    · exact ih x hx

/-- an actor that is not running after its starts has had no answer to its last call. -/
theorem Lives.down {c c' : Actor σ} {t : List (Method × Option Ans)} {cs : List (Cmd ε)} (hl : Lives A pid c t cs c')
    {st st' : RedisStore} {l : Alive RedisStore σ} (h : Like pid c st l)
    (hu : ∀ a b, cs = a ++ b → (l.run (redisStorage key) A pid a).state.isSome = true)
    (hd : Done st (told key pid t) st') (hn : c'.state = none) :
    (t = [] ∧ c.state = none) ∨ ∃ t' m, t = t' ++ [(m, none)] := by
  induction hl generalizing st l with
  | nil c => exact .inl ⟨rfl, hn⟩
  | act hs hr _ ih =>
    rw [told_append] at hd
    obtain ⟨m, d1, d2⟩ := hd.split
    rcases ih (h.act key pid A hs hr d1) (fun a b e => hu (_ :: a) b (by rw [e]; rfl)) d2 hn with ⟨_, h2⟩ | ⟨t', m, rfl⟩
    · exact absurd h2 (act_up A hs hr)
    · exact .inr ⟨_, _, (List.append_assoc ..).symm⟩
  | start hr _ ih =>
    rw [told_append] at hd
    obtain ⟨m, d1, d2⟩ := hd.split
    have hb := h.boot key pid A (hu [] _ rfl) hr d1
    rcases ih hb (fun a b e => hu (_ :: a) b (by rw [e]; rfl)) d2 hn with ⟨rfl, h2⟩ | ⟨t', m, rfl⟩
    · right
      rw [List.append_nil]
      obtain ⟨t1, t2, r, rfl, h1, h3⟩ := Runs.bind hr
      rw [told_append] at d1
      obtain ⟨q, q1, q2⟩ := d1.split
      cases r with
      | none =>
        obtain ⟨rfl, _⟩ := h3
        rw [List.append_nil]
        exact load_none key pid h1 q1
      | some p =>
        exfalso
        obtain ⟨rfl, hr'⟩ := does_load key pid A.known _ _ _ _ h1 q1
        have hst := h.store
        subst hst
        have hr' : p = Verif.Persist.loadJournal (redisStorage key) A.known l.sys.store pid := by
          rcases hr' with hc | hc
          · cases hc
          · injection hc
        have hx := hu [.crash 0] _ rfl
        obtain ⟨rfl, rfl⟩ := h3
        have h2 : (started A.user (.retry .untilSuccess) A.init [true] p.2).up = none := h2
        obtain ⟨s, hs⟩ := Option.isSome_iff_exists.mp (hu [] _ rfl)
        have hs : l.state = some s := hs
        have e1 : ((l.run (redisStorage key) A pid [.crash 0])).state =
            (started A.user (.retry .untilSuccess) A.init [true]
              (Verif.Persist.loadJournal (redisStorage key) A.known l.sys.store pid).2).up := by
          simp only [Alive.run, List.foldl_cons, List.foldl_nil, Alive.step, hs]; rfl
        rw [e1] at hx
        rw [hr'] at h2
        rw [h2] at hx
        cases hx
    · exact .inr ⟨_, _, (List.append_assoc ..).symm⟩

/-- a life among others is a life alone, as long as the latter goes on. -/
theorem Like.lives {c c' : Actor σ} {t : List (Method × Option Ans)} {cs : List (Cmd ε)} (hl : Lives A pid c t cs c')
    {st st' : RedisStore} {l : Alive RedisStore σ} (h : Like pid c st l)
    (hu : ∀ a b, cs = a ++ b → (l.run (redisStorage key) A pid a).state.isSome = true)
    (hd : Done st (told key pid t) st') : Like pid c' st' (l.run (redisStorage key) A pid cs) := by
  induction hl generalizing st l with
  | nil c =>
    have hd : st' = st := hd
    subst hd
    exact h
  | act hs hr _ ih =>
    rw [told_append] at hd
    obtain ⟨m, d1, d2⟩ := hd.split
    exact ih (h.act key pid A hs hr d1) (fun a b e => hu (_ :: a) b (by rw [e]; rfl)) d2
  | start hr _ ih =>
    rw [told_append] at hd
    obtain ⟨m, d1, d2⟩ := hd.split
    exact ih (h.boot key pid A (hu [] _ rfl) hr d1) (fun a b e => hu (_ :: a) b (by rw [e]; rfl)) d2

end

end Verif.Persist.Client
