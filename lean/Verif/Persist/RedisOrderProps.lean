import Verif.Persist.RefineRedis

/-! Property theorems C67: the Redis journal is a set ordered by number. -/

namespace Verif.Persist

open Verif.Proto

/-! ### The order of Redis sorted sets -/

/-- byte order, said without recursion: `a` is a proper beginning of `b`, or at the first difference `a` has
the smaller byte. -/
def ByteBefore (a b : Bytes) : Prop :=
  (∃ c, c ≠ [] ∧ b = a ++ c) ∨ ∃ p x y as bs, a = p ++ x :: as ∧ b = p ++ y :: bs ∧ x.toNat < y.toNat

theorem bytesLt_iff (a b : Bytes) : bytesLt a b = true ↔ ByteBefore a b := by
  induction a generalizing b with
  | nil =>
    cases b with
    | nil => simp [bytesLt, ByteBefore]
    | cons y bs => simp [bytesLt, ByteBefore]
  | cons x as ih =>
    cases b with
    | nil => simp [bytesLt, ByteBefore]
    | cons y bs =>
      rw [bytesLt]
      by_cases h1 : x.toNat < y.toNat
      · rw [if_pos h1]
        exact ⟨fun _ => .inr ⟨[], x, y, as, bs, rfl, rfl, h1⟩, fun _ => rfl⟩
      · rw [if_neg h1]
        by_cases h2 : y.toNat < x.toNat
        · rw [if_pos h2]
          refine ⟨fun h => (by cases h), ?_⟩
          rintro (⟨c, _, h⟩ | ⟨p, u, v, as', bs', e1, e2, h⟩)
          · simp only [List.cons_append, List.cons.injEq] at h
            rw [h.1] at h2; omega
          · cases p with
            | nil =>
              simp only [List.nil_append, List.cons.injEq] at e1 e2
              rw [e1.1, e2.1] at h2; omega
            | cons z p =>
              simp only [List.cons_append, List.cons.injEq] at e1 e2
              rw [e1.1, e2.1] at h2; omega
        · rw [if_neg h2, ih]
          have hxy : x = y := UInt8.toNat_inj.1 (by omega)
          subst hxy
          constructor
          · rintro (⟨c, hc, h⟩ | ⟨p, u, v, as', bs', e1, e2, h⟩)
            · exact .inl ⟨c, hc, by simp [h]⟩
            · exact .inr ⟨x :: p, u, v, as', bs', by simp [e1], by simp [e2], h⟩
          · rintro (⟨c, hc, h⟩ | ⟨p, u, v, as', bs', e1, e2, h⟩)
            · exact .inl ⟨c, hc, by simpa using h⟩
            · cases p with
              | nil =>
                simp only [List.nil_append, List.cons.injEq] at e1 e2
                rw [← e1.1, ← e2.1] at h; omega
              | cons z p =>
                simp only [List.cons_append, List.cons.injEq] at e1 e2
                exact .inr ⟨p, u, v, as', bs', e1.2, e2.2, h⟩

theorem bytesLt_irrefl (a : Bytes) : bytesLt a a = false := by
  induction a with
  | nil => rfl
  | cons x as ih => simp [bytesLt, ih]

theorem bytesLt_trans {a b c : Bytes} (h1 : bytesLt a b = true) (h2 : bytesLt b c = true) : bytesLt a c = true := by
  induction a generalizing b c with
  | nil =>
    cases b <;> cases c <;> simp_all [bytesLt]
  | cons x as ih =>
    cases b with
    | nil => simp [bytesLt] at h1
    | cons y bs =>
      cases c with
      | nil => simp [bytesLt] at h2
      | cons z cs =>
        rw [bytesLt] at h1 h2 ⊢
        by_cases a1 : x.toNat < y.toNat
        · by_cases a2 : y.toNat < z.toNat
          · rw [if_pos (by omega)]
          · rw [if_neg a2] at h2
            split at h2
            · cases h2
            · rw [if_pos (by omega)]
        · rw [if_neg a1] at h1
          split at h1
          · cases h1
          · by_cases a2 : y.toNat < z.toNat
            · rw [if_pos (by omega)]
            · rw [if_neg a2] at h2
              split at h2
              · cases h2
              · rw [if_neg (by omega), if_neg (by omega)]
                exact ih h1 h2

theorem bytesLt_total {a b : Bytes} (h : a ≠ b) : bytesLt a b = true ∨ bytesLt b a = true := by
  induction a generalizing b with
  | nil =>
    cases b with
    | nil => exact absurd rfl h
    | cons _ _ => simp [bytesLt]
  | cons x as ih =>
    cases b with
    | nil => simp [bytesLt]
    | cons y bs =>
      rw [bytesLt, bytesLt]
      by_cases a1 : x.toNat < y.toNat
      · simp [a1]
      · by_cases a2 : y.toNat < x.toNat
        · simp [a2]
        · rw [if_neg a1, if_neg a2, if_neg a2, if_neg a1]
          have hxy : x = y := UInt8.toNat_inj.1 (by omega)
          subst hxy
          exact ih (by simpa using h)

/-- the order of members: by number, then by bytes. -/
theorem zLt_iff (a b : Entry) : zLt a b = true ↔ a.seq < b.seq ∨ a.seq = b.seq ∧ ByteBefore a.write b.write := by
  rw [← bytesLt_iff]
  unfold zLt
  split
  · simp [*]
  · split
    · simp; omega
    · rename_i h1 h2
      have : a.seq = b.seq := by omega
      simp [this]

theorem zLt_irrefl (a : Entry) : zLt a a = false := by simp [zLt, bytesLt_irrefl]

theorem zLt_trans {a b c : Entry} (h1 : zLt a b = true) (h2 : zLt b c = true) : zLt a c = true := by
  rw [zLt_iff, ← bytesLt_iff] at *
  rcases h1 with h1 | ⟨h1, h1'⟩ <;> rcases h2 with h2 | ⟨h2, h2'⟩
  · left; omega
  · left; omega
  · left; omega
  · right; exact ⟨by omega, bytesLt_trans h1' h2'⟩

/-- entries the wire format can carry: 64-bit numbers and lengths. -/
def Entry.Fits (e : Entry) : Prop :=
  -2 ^ 63 ≤ e.seq ∧ e.seq < 2 ^ 63 ∧ (strBytes e.ptype).length < 2 ^ 64 ∧ e.bytes.length < 2 ^ 64

theorem zLt_total {a b : Entry} (ha : a.Fits) (hb : b.Fits) (h : a ≠ b) : zLt a b = true ∨ zLt b a = true := by
  have hw : a.write ≠ b.write := by
    intro hw
    have h1 := Entry.read_write a ha.1 ha.2.1 ha.2.2.1 ha.2.2.2
    rw [hw, Entry.read_write b hb.1 hb.2.1 hb.2.2.1 hb.2.2.2] at h1
    exact h (by simpa using h1.symm)
  rw [zLt_iff, zLt_iff, ← bytesLt_iff, ← bytesLt_iff]
  rcases bytesLt_total hw with h1 | h1 <;> (by_cases h2 : a.seq = b.seq <;> simp [h1, h2] <;> omega)

/-! ### Sorted sets -/

/-- strictly in the order of the set. -/
def ZSorted (l : List Entry) : Prop := l.Pairwise fun a b => zLt a b = true

theorem zadd_zsorted {l : List Entry} {e : Entry} (h : ZSorted l) (hl : ∀ x ∈ l, x.Fits) (he : e.Fits) :
    ZSorted (zadd l e) := by
  unfold zadd
  split
  · exact h
  · rename_i hn
    have hall := List.all_takeWhile (l := l) (p := fun x => zLt x e)
    rw [List.all_eq_true] at hall
    have hdrop : ∀ x ∈ l.dropWhile (fun x => zLt x e), zLt e x = true := by
      cases hd : l.dropWhile (fun x => zLt x e) with
      | nil => simp
      | cons a as =>
        have h2 := List.head?_dropWhile_not (fun x => zLt x e) l
        rw [hd] at h2
        simp only [List.head?_cons] at h2
        have hs : ZSorted (a :: as) := hd ▸ List.Pairwise.sublist (List.dropWhile_sublist _) h
        have hma : a ∈ l := (List.dropWhile_sublist (fun x => zLt x e)).subset (by rw [hd]; simp)
        have hea : zLt e a = true := by
          have hne : e ≠ a := fun hea => hn (hea ▸ hma)
          rcases zLt_total he (hl a hma) hne with h3 | h3
          · exact h3
          · simp [h3] at h2
        intro x hx
        rw [List.mem_cons] at hx
        rcases hx with rfl | hx
        · exact hea
        · exact zLt_trans hea ((List.pairwise_cons.1 hs).1 x hx)
    refine List.pairwise_append.2 ⟨List.Pairwise.sublist (List.takeWhile_sublist _) h, ?_, ?_⟩
    · exact List.pairwise_cons.2 ⟨hdrop, List.Pairwise.sublist (List.dropWhile_sublist _) h⟩
    · intro a ha b hb
      rw [List.mem_cons] at hb
      rcases hb with rfl | hb
      · exact hall a ha
      · exact zLt_trans (hall a ha) (hdrop b hb)

/-- a strictly sorted list is determined by its members. -/
theorem ZSorted.ext {l m : List Entry} (hl : ZSorted l) (hm : ZSorted m) (h : ∀ e, e ∈ l ↔ e ∈ m) : l = m := by
  induction l generalizing m with
  | nil =>
    cases m with
    | nil => rfl
    | cons b m => exact absurd ((h b).2 (by simp)) (by simp)
  | cons a l ih =>
    cases m with
    | nil => exact absurd ((h a).1 (by simp)) (by simp)
    | cons b m =>
      have hl' := List.pairwise_cons.1 hl
      have hm' := List.pairwise_cons.1 hm
      have hab : a = b := by
        have h1 := (h a).1 (by simp)
        have h2 := (h b).2 (by simp)
        rw [List.mem_cons] at h1 h2
        rcases h1 with h1 | h1
        · exact h1
        · rcases h2 with h2 | h2
          · exact h2.symm
          · have := zLt_trans (hl'.1 b h2) (hm'.1 a h1)
            rw [zLt_irrefl] at this; cases this
      subst hab
      congr 1
      refine ih hl'.2 hm'.2 fun e => ?_
      have := h e
      simp only [List.mem_cons] at this
      constructor
      · intro he
        rcases this.1 (.inr he) with h1 | h1
        · subst h1; have := hl'.1 e he; rw [zLt_irrefl] at this; cases this
        · exact h1
      · intro he
        rcases this.2 (.inr he) with h1 | h1
        · subst h1; have := hm'.1 e he; rw [zLt_irrefl] at this; cases this
        · exact h1

theorem foldl_zadd (es l : List Entry) (h : ZSorted l) (hl : ∀ x ∈ l, x.Fits) (he : ∀ x ∈ es, x.Fits) :
    ZSorted (es.foldl zadd l) ∧ ∀ x, x ∈ es.foldl zadd l ↔ x ∈ l ∨ x ∈ es := by
  induction es generalizing l with
  | nil => exact ⟨h, by simp⟩
  | cons e es ih =>
    have he' := he e (by simp)
    obtain ⟨h1, h2⟩ := ih (zadd l e) (zadd_zsorted h hl he')
      (fun x hx => (mem_zadd.1 hx).elim (hl x) fun h => h ▸ he')
      (fun x hx => he x (by simp [hx]))
    refine ⟨h1, fun x => ?_⟩
    rw [List.foldl_cons, h2, mem_zadd, List.mem_cons]
    constructor
    · rintro ((h | h) | h) <;> simp [h]
    · rintro (h | h | h) <;> simp [h]

/-- C67: what a Redis journal holds depends only on which entries were written, not on the order, the
grouping into batches, or the number of times each was written. -/
theorem C67_redis_set (es fs : List Entry) (he : ∀ x ∈ es, x.Fits) (h : ∀ x, x ∈ es ↔ x ∈ fs) :
    es.foldl zadd [] = fs.foldl zadd [] := by
  obtain ⟨h1, h2⟩ := foldl_zadd es [] List.Pairwise.nil (by simp) he
  obtain ⟨h3, h4⟩ := foldl_zadd fs [] List.Pairwise.nil (by simp) (fun x hx => he x ((h x).2 hx))
  exact h1.ext h3 fun x => by rw [h2, h4, h]

/-- C67: it holds exactly the written entries, ordered by number and then by their bytes. -/
theorem C67_redis_ordered (es : List Entry) (he : ∀ x ∈ es, x.Fits) :
    (es.foldl zadd []).Pairwise (fun a b => a.seq < b.seq ∨ a.seq = b.seq ∧ ByteBefore a.write b.write) ∧
    ∀ x, x ∈ es.foldl zadd [] ↔ x ∈ es := by
  obtain ⟨h1, h2⟩ := foldl_zadd es [] List.Pairwise.nil (by simp) he
  exact ⟨h1.imp fun {a b} h => (zLt_iff a b).1 h, fun x => by simp [h2]⟩

/-- three writes out of order, two of them with one number, one repeated. -/
example : [⟨2, "T", [1]⟩, ⟨1, "T", [5]⟩, ⟨2, "T", [0, 7]⟩, ⟨1, "T", [5]⟩].foldl zadd []
    = [⟨1, "T", [5]⟩, ⟨2, "T", [1]⟩, (⟨2, "T", [0, 7]⟩ : Entry)] := by decide +kernel

/-! ### Keys -/

/-- Redis Cluster's hash tag: what is between the first `{` and the next `}` (if both are there and it is
not empty); keys with equal tags are on the same node. -/
def hashTag (key : List Char) : Option (List Char) :=
  match key.dropWhile (· ≠ '{') with
  | [] => none
  | _ :: rest =>
    if '}' ∈ rest ∧ rest.takeWhile (· ≠ '}') ≠ [] then some (rest.takeWhile (· ≠ '}')) else none

/-- C67: with hash tags on, all keys of one actor carry one tag, so a command on several of them is legal
on a cluster. Every prefix, persistence id and kind of value. -/
theorem C67_one_slot (pre pre' pid t t' : String) :
    ∃ tag, hashTag (redisKey true pre pid t).toList = some tag ∧ hashTag (redisKey true pre' pid t').toList = some tag := by
  have key : ∀ pre t, hashTag (redisKey true pre pid t).toList
      = some ('_' :: '_' :: (pid.toList ++ ['}']).takeWhile (· ≠ '}')) := by
    intro pre t
    have e : (redisKey true pre pid t).toList
        = '{' :: '_' :: '_' :: (pid.toList ++ '}' :: (':' :: pre.toList ++ pid.toList ++ ':' :: t.toList)) := by
      simp [redisKey, clusterKey, String.toList_append]
    have tw : ∀ (a r : List Char), (a ++ '}' :: r).takeWhile (· ≠ '}') = (a ++ ['}']).takeWhile (· ≠ '}') := by
      intro a r
      induction a with
      | nil => simp
      | cons c a ih => simp only [List.cons_append, List.takeWhile_cons, ih]
    rw [e, hashTag]
    simpa using tw pid.toList (':' :: pre.toList ++ pid.toList ++ ':' :: t.toList)
  exact ⟨_, key pre t, key pre' t'⟩

/-- C67: the keys of two journals that differ in prefix, id or kind of value differ… if the prefixes are the
same (`redisKey_ok`) or the ids are. -/
theorem C67_prefix_separates (hashtags : Bool) (pre pre' pid t t' : String)
    (ht : t = "journal" ∨ t = "snapshot") (ht' : t' = "journal" ∨ t' = "snapshot")
    (h : redisKey hashtags pre pid t = redisKey hashtags pre' pid t') : pre = pre' ∧ t = t' := by
  cases hashtags with
  | false =>
    simp only [redisKey, plainKey, Bool.false_eq_true, if_false] at h
    have := suffix_type_inj h ht ht'
    subst this
    exact ⟨str_append_right_cancel (str_append_right_cancel (str_append_right_cancel h)), rfl⟩
  | true =>
    simp only [redisKey, clusterKey, if_true] at h
    have := suffix_type_inj h ht ht'
    subst this
    have := str_append_right_cancel (str_append_right_cancel (str_append_right_cancel h))
    exact ⟨str_append_left_cancel this, rfl⟩

/-- two deployments sharing one Redis can collide if one prefix continues the other. -/
theorem C67_prefix_collision_refuted : ∃ pre pre' pid pid' : String, pre ≠ pre' ∧ pid ≠ pid' ∧
    redisKey false pre pid "journal" = redisKey false pre' pid' "journal" :=
  ⟨"app", "app-b", "-b1", "1", by decide, by decide, by decide⟩

end Verif.Persist
