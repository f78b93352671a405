import Verif.Json.GrammarValues
import Verif.Json.TypesLemmas

namespace Verif.Json

theorem isNull_iff (j : Json) : j.isNull = true ↔ j = .null := by cases j <;> simp [Json.isNull]

theorem asBool_iff (j : Json) (b : Bool) : j.asBool = some b ↔ j = .bool b := by cases j <;> simp [Json.asBool]
theorem asInt_iff (j : Json) (i : Int) : j.asInt = some i ↔ j = .num i := by cases j <;> simp [Json.asInt]
theorem asStr_iff (j : Json) (s : List Char) : j.asStr = some s ↔ j = .str s := by cases j <;> simp [Json.asStr]
theorem asArr_iff (j : Json) (xs : List Json) : j.asArr = some xs ↔ j = .arr xs := by cases j <;> simp [Json.asArr]
theorem asObj_iff (j : Json) (ms : List (List Char × Json)) : j.asObj = some ms ↔ j = .obj ms := by
  cases j <;> simp [Json.asObj]

theorem tagged_plain (j : Json) (k : List Char) : tagged j = some (k, none) ↔ j = .str k := by
  unfold tagged; split <;> simp_all

theorem tagged_data (j : Json) (k : List Char) (x : Json) : tagged j = some (k, some x) ↔ j = .obj [(k, x)] := by
  unfold tagged; split <;> simp_all

theorem missing_iff : (t : Ty) → (v : t.den) → (missing t = some v ↔ Absent t v)
  | .opt _, none => by simp [missing, Absent]
  | .opt _, some _ => ⟨fun h => (nomatch Option.some.inj h), fun h => False.elim h⟩
  | .unit, _ => by simp [missing, Absent]
  | .bool, _ => by simp [missing, Absent]
  | .int _ _, _ => by simp [missing, Absent]
  | .str, _ => by simp [missing, Absent]
  | .seq _, _ => by simp [missing, Absent]
  | .tuple _, _ => by simp [missing, Absent]
  | .record _, _ => by simp [missing, Absent]
  | .choice _, _ => by simp [missing, Absent]

theorem mapM_each {α β : Type} {f : α → Option β} {R : α → β → Prop} (h : ∀ a b, f a = some b ↔ R a b) :
    ∀ (as : List α) (bs : List β), as.mapM f = some bs ↔ Each R as bs := by
  intro as
  induction as with
  | nil => intro bs; cases bs <;> simp [Each]
  | cons a as ih =>
    intro bs
    cases bs with
    | nil =>
      simp only [List.mapM_cons, Option.bind_eq_bind, Option.bind_eq_some_iff, Each, iff_false]
      rintro ⟨b', -, bs', -, he⟩
      simp at he
    | cons b bs =>
      simp only [List.mapM_cons, Option.bind_eq_bind, Option.bind_eq_some_iff, Each]
      constructor
      · rintro ⟨b', hb, bs', hbs, he⟩
        simp only [Option.pure_def, Option.some.injEq, List.cons.injEq] at he
        obtain ⟨rfl, rfl⟩ := he
        exact ⟨(h _ _).mp hb, (ih _).mp hbs⟩
      · rintro ⟨hb, hbs⟩
        exact ⟨b, (h _ _).mpr hb, bs, (ih _).mpr hbs, rfl⟩

theorem members_nil_iff (n : List Char) (ms : List (List Char × Json)) : members n ms = [] ↔ n ∉ ms.map Prod.fst := by
  constructor
  · intro h hn
    obtain ⟨m, hm, rfl⟩ := List.mem_map.mp hn
    have : m.2 ∈ members m.1 ms := by
      unfold members
      exact List.mem_map.mpr ⟨m, List.mem_filter.mpr ⟨hm, by simp⟩, rfl⟩
    rw [h] at this; simp at this
  · exact members_none

theorem members_cons (n : List Char) (m : List Char × Json) (ms : List (List Char × Json)) :
    members n (m :: ms) = if m.1 = n then m.2 :: members n ms else members n ms := by
  unfold members
  rw [List.filter_cons]
  split <;> split <;> simp_all

theorem members_one_iff (n : List Char) (ms : List (List Char × Json)) (j : Json) : members n ms = [j] ↔
    ∃ pre post, ms = pre ++ (n, j) :: post ∧ n ∉ pre.map Prod.fst ∧ n ∉ post.map Prod.fst := by
  constructor
  · intro h
    induction ms with
    | nil => simp [members] at h
    | cons m ms ih =>
      rw [members_cons] at h
      by_cases hm : m.1 = n
      · rw [if_pos hm] at h
        simp only [List.cons.injEq] at h
        obtain ⟨h1, h2⟩ := h
        refine ⟨[], ms, ?_, by simp, (members_nil_iff n ms).mp h2⟩
        rw [← hm, ← h1]; rfl
      · rw [if_neg hm] at h
        obtain ⟨pre, post, rfl, h1, h2⟩ := ih h
        refine ⟨m :: pre, post, rfl, ?_, h2⟩
        rw [List.map_cons, List.mem_cons, not_or]
        exact ⟨fun e => hm e.symm, h1⟩
  · rintro ⟨pre, post, rfl, h1, h2⟩
    rw [members_append, members_cons_self, members_none h1, members_none h2]
    rfl

theorem shapeVars_name : (vs : Vars) → (j : Json) → (v : vs.den) → ShapeVars vs j v →
    ∃ k x, tagged j = some (k, x) ∧ k ∈ vs.names
  | .nil, _, v, _ => nomatch v
  | .plain n _, j, .inl _, h => by
    rcases h with rfl | rfl
    · exact ⟨n, none, rfl, by simp [Vars.names]⟩
    · exact ⟨n, some .null, rfl, by simp [Vars.names]⟩
  | .plain _ r, j, .inr v, h => by
    obtain ⟨k, x, h1, h2⟩ := shapeVars_name r j v h
    exact ⟨k, x, h1, by simp [Vars.names, h2]⟩
  | .carrying n _ _, j, .inl x, h => by
    obtain ⟨d, rfl, -⟩ := h
    exact ⟨n, some d, rfl, by simp [Vars.names]⟩
  | .carrying _ _ r, j, .inr v, h => by
    obtain ⟨k, x, h1, h2⟩ := shapeVars_name r j v h
    exact ⟨k, x, h1, by simp [Vars.names, h2]⟩

/-! Options, with everything of plain types. -/

section
variable {α β : Type}

theorem bind_spec {x : Option α} {f : α → Option β} {P : α → Prop} {Q : α → β → Prop} (hx : ∀ a, x = some a ↔ P a)
    (hf : ∀ a b, f a = some b ↔ Q a b) (b : β) : x.bind f = some b ↔ ∃ a, P a ∧ Q a b := by
  simp only [Option.bind_eq_some_iff, hx, hf]

theorem pair_spec {x : Option α} {y : Option β} {P : α → Prop} {Q : β → Prop} (hx : ∀ a, x = some a ↔ P a)
    (hy : ∀ b, y = some b ↔ Q b) (a : α) (b : β) :
    (x.bind fun a => y.map fun b => (a, b)) = some (a, b) ↔ P a ∧ Q b := by
  rw [← hx, ← hy]
  cases x <;> cases y <;> simp

theorem opt_none_spec (j : Json) (x : Option α) : (if j.isNull then some none else x.map some) = some none ↔ j = .null := by
  rw [← isNull_iff]
  cases j.isNull <;> cases x <;> simp

theorem opt_some_spec (j : Json) {x : Option α} {P : α → Prop} (hx : ∀ a, x = some a ↔ P a) (a : α) :
    (if j.isNull then some none else x.map some) = some (some a) ↔ j ≠ .null ∧ P a := by
  rw [ne_eq, ← isNull_iff, ← hx]
  cases j.isNull <;> cases x <;> simp

theorem unit_spec (j : Json) (u : Unit) : (if j.isNull then some () else none) = some u ↔ j = .null := by
  rw [← isNull_iff]
  cases j.isNull <;> simp

theorem int_spec (lo hi : Int) (j : Json) (v : { i : Int // lo ≤ i ∧ i ≤ hi }) :
    (j.asInt.bind fun i => if h : lo ≤ i ∧ i ≤ hi then some (⟨i, h⟩ : { i : Int // lo ≤ i ∧ i ≤ hi }) else none) = some v ↔
      j = .num v.1 := by
  rw [← asInt_iff]
  cases j.asInt with
  | none => simp
  | some i =>
    simp only [Option.bind_some, Option.some.injEq]
    constructor
    · intro h
      split at h
      · simp only [Option.some.injEq] at h; rw [← h]
      · simp at h
    · rintro rfl
      rw [dif_pos v.2]

theorem record_spec (j : Json) {f : List Json → Option α} {g : List (List Char × Json) → Option α}
    {P : List Json → α → Prop} {Q : List (List Char × Json) → α → Prop} (hf : ∀ xs a, f xs = some a ↔ P xs a)
    (hg : ∀ ms a, g ms = some a ↔ Q ms a) (a : α) :
    (match j.asArr with
      | some xs => f xs
      | none => j.asObj.bind g) = some a ↔ (∃ ms, j = .obj ms ∧ Q ms a) ∨ (∃ js, j = .arr js ∧ P js a) := by
  cases j <;> simp [Json.asArr, Json.asObj, hf, hg]

/-- the first of the variants, without data. -/
theorem plain_inl_spec (j : Json) (n : List Char) (y : Option β) (u : Unit) :
    (match tagged j with
      | some (k, x) => if k = n then (if (x.getD .null).isNull then some (Sum.inl ()) else none) else y.map .inr
      | none => none) = some (Sum.inl u) ↔ j = .str n ∨ j = .obj [(n, .null)] := by
  cases ht : tagged j with
  | none =>
    simp only [reduceCtorEq, false_iff, not_or]
    constructor
    · rintro rfl; simp [tagged] at ht
    · rintro rfl; simp [tagged] at ht
  | some p =>
    obtain ⟨k, x⟩ := p
    cases x with
    | none =>
      have := (tagged_plain j k).mp ht
      subst this
      by_cases hk : k = n <;> simp [hk, Json.isNull]
    | some x =>
      have := (tagged_data j k x).mp ht
      subst this
      by_cases hk : k = n
      · subst hk
        by_cases hx : x.isNull = true
        · have := (isNull_iff x).mp hx
          subst this
          simp [Json.isNull]
        · have : x ≠ .null := fun e => hx ((isNull_iff x).mpr e)
          simp [hx, this]
      · simp [hk]

theorem plain_inr_spec (j : Json) (n : List Char) {y : Option β} {Q : β → Prop} (hy : ∀ b, y = some b ↔ Q b)
    (hn : ∀ b, Q b → ∃ k x, tagged j = some (k, x) ∧ k ≠ n) (b : β) :
    (match tagged j with
      | some (k, x) => if k = n then (if (x.getD .null).isNull then some (Sum.inl ()) else none) else y.map .inr
      | none => none) = some (Sum.inr b) ↔ Q b := by
  constructor
  · intro h
    cases ht : tagged j with
    | none => rw [ht] at h; simp at h
    | some p =>
      obtain ⟨k, x⟩ := p
      rw [ht] at h
      by_cases hk : k = n
      · simp only [if_pos hk] at h
        split at h <;> simp at h
      · simp only [if_neg hk, Option.map_eq_some_iff] at h
        obtain ⟨c, hc, e⟩ := h
        cases e
        exact (hy _).mp hc
  · intro h
    obtain ⟨k, x, ht, hk⟩ := hn b h
    rw [ht]
    simp only [if_neg hk, (hy b).mpr h, Option.map_some]

theorem carrying_inl_spec (j : Json) (n : List Char) {f : Json → Option α} {P : Json → α → Prop}
    (hf : ∀ d a, f d = some a ↔ P d a) (y : Option β) (a : α) :
    (match tagged j with
      | some (k, x) => if k = n then (x.bind f).map .inl else y.map .inr
      | none => none) = some (Sum.inl a) ↔ ∃ d, j = .obj [(n, d)] ∧ P d a := by
  constructor
  · intro h
    cases ht : tagged j with
    | none => rw [ht] at h; simp at h
    | some p =>
      obtain ⟨k, x⟩ := p
      rw [ht] at h
      by_cases hk : k = n
      · simp only [if_pos hk, Option.map_eq_some_iff, Option.bind_eq_some_iff] at h
        obtain ⟨z, ⟨d, rfl, hz⟩, e⟩ := h
        cases e
        subst hk
        exact ⟨d, (tagged_data j k d).mp ht, (hf d a).mp hz⟩
      · simp only [if_neg hk, Option.map_eq_some_iff, reduceCtorEq, and_false, exists_false] at h
  · rintro ⟨d, rfl, hd⟩
    simp [tagged, (hf d a).mpr hd]

theorem carrying_inr_spec (j : Json) (n : List Char) (f : Json → Option α) {y : Option β} {Q : β → Prop}
    (hy : ∀ b, y = some b ↔ Q b) (hn : ∀ b, Q b → ∃ k x, tagged j = some (k, x) ∧ k ≠ n) (b : β) :
    (match tagged j with
      | some (k, x) => if k = n then (x.bind f).map .inl else y.map .inr
      | none => none) = some (Sum.inr b) ↔ Q b := by
  constructor
  · intro h
    cases ht : tagged j with
    | none => rw [ht] at h; simp at h
    | some p =>
      obtain ⟨k, x⟩ := p
      rw [ht] at h
      by_cases hk : k = n
      · simp only [if_pos hk, Option.map_eq_some_iff, reduceCtorEq, and_false, exists_false] at h
      · simp only [if_neg hk, Option.map_eq_some_iff] at h
        obtain ⟨c, hc, e⟩ := h
        cases e
        exact (hy _).mp hc
  · intro h
    obtain ⟨k, x, ht, hk⟩ := hn b h
    rw [ht]
    simp only [if_neg hk, (hy b).mpr h, Option.map_some]

theorem field_spec (n : List Char) (ms : List (List Char × Json)) {m : Option α} {A : α → Prop} {f : Json → Option α}
    {P : Json → α → Prop} {y : Option β} {Q : β → Prop} (hm : ∀ a, m = some a ↔ A a) (hf : ∀ d a, f d = some a ↔ P d a)
    (hy : ∀ b, y = some b ↔ Q b) (a : α) (b : β) :
    (match members n ms with
      | [] => m.bind fun a => y.map fun v => (a, v)
      | [x] => (f x).bind fun a => y.map fun v => (a, v)
      | _ => none) = some (a, b) ↔
    ((∃ pre j post, ms = pre ++ (n, j) :: post ∧ n ∉ pre.map Prod.fst ∧ n ∉ post.map Prod.fst ∧ P j a) ∨
      (n ∉ ms.map Prod.fst ∧ A a)) ∧ Q b := by
  cases hms : members n ms with
  | nil =>
    have hn := (members_nil_iff n ms).mp hms
    simp only
    rw [pair_spec hm hy]
    constructor
    · rintro ⟨h1, h2⟩; exact ⟨Or.inr ⟨hn, h1⟩, h2⟩
    · rintro ⟨⟨pre, j, post, rfl, -, -, -⟩ | ⟨-, h⟩, hb⟩
      · exact absurd (by simp) hn
      · exact ⟨h, hb⟩
  | cons j js =>
    cases js with
    | nil =>
      have ho := (members_one_iff n ms j).mp hms
      simp only
      rw [pair_spec (hf j) hy]
      constructor
      · rintro ⟨h, hb⟩
        obtain ⟨pre, post, h1, h2, h3⟩ := ho
        exact ⟨Or.inl ⟨pre, j, post, h1, h2, h3, h⟩, hb⟩
      · rintro ⟨⟨pre, j', post, h1, h2, h3, h4⟩ | ⟨h, -⟩, hb⟩
        · have := (members_one_iff n ms j').mpr ⟨pre, post, h1, h2, h3⟩
          rw [hms] at this
          simp only [List.cons.injEq, and_true] at this
          subst this
          exact ⟨h4, hb⟩
        · have := (members_nil_iff n ms).mpr h
          rw [hms] at this; simp at this
    | cons j' js =>
      simp only [reduceCtorEq, false_iff, not_and]
      rintro (⟨pre, j'', post, h1, h2, h3, -⟩ | ⟨h, -⟩)
      · have := (members_one_iff n ms j'').mpr ⟨pre, post, h1, h2, h3⟩
        rw [hms] at this; simp at this
      · have := (members_nil_iff n ms).mpr h
        rw [hms] at this; simp at this

end

mutual
theorem de_iff : (t : Ty) → t.Wf → (j : Json) → (v : t.den) → (de t j = some v ↔ Shape t j v)
  | .unit, _, j, v => unit_spec j v
  | .bool, _, j, v => asBool_iff j v
  | .int lo hi, _, j, v => int_spec lo hi j v
  | .str, _, j, v => asStr_iff j v
  | .opt t, _, j, none => opt_none_spec j (de t j)
  | .opt t, hw, j, some x => opt_some_spec j (de_iff t hw j) x
  | .seq t, hw, j, v => bind_spec (asArr_iff j) (mapM_each (de_iff t hw)) v
  | .tuple ts, hw, j, v => bind_spec (asArr_iff j) (deTuple_iff ts hw) v
  | .record fs, hw, j, v => record_spec j (deTuple_iff fs hw.1) (deFields_iff fs hw.1) v
  | .choice vs, hw, j, v => deVars_iff vs hw.1 hw.2.1 j v

theorem deTuple_iff : (ts : Row) → ts.Wf → (js : List Json) → (v : ts.den) → (deTuple ts js = some v ↔ ShapeTuple ts js v)
  | .nil, _, [], _ => ⟨fun _ => rfl, fun _ => rfl⟩
  | .nil, _, _ :: _, _ => ⟨fun h => (nomatch h), fun h => (nomatch h)⟩
  | .cons _ _ _, _, [], _ => ⟨fun h => (nomatch h), fun ⟨_, _, h, _⟩ => (nomatch h)⟩
  | .cons n t r, hw, j :: js, (x, v) =>
    (pair_spec (de_iff t hw.1 j) (deTuple_iff r hw.2 js) x v).trans
      ⟨fun h => ⟨j, js, rfl, h.1, h.2⟩, fun ⟨_, _, e, h1, h2⟩ => by cases e; exact ⟨h1, h2⟩⟩

theorem deFields_iff : (fs : Row) → fs.Wf → (ms : List (List Char × Json)) → (v : fs.den) →
    (deFields fs ms = some v ↔ ShapeFields fs ms v)
  | .nil, _, ms, v => ⟨fun _ => trivial, fun _ => rfl⟩
  | .cons n t r, hw, ms, (x, v) =>
    field_spec n ms (missing_iff t) (de_iff t hw.1) (deFields_iff r hw.2 ms) x v

theorem deVars_iff : (vs : Vars) → vs.Wf → vs.names.Nodup → (j : Json) → (v : vs.den) →
    (deVars vs j = some v ↔ ShapeVars vs j v)
  | .nil, _, _, _, v => nomatch v
  | .plain n r, hw, hn, j, .inl u => plain_inl_spec j n (deVars r j) u
  | .plain n r, hw, hn, j, .inr v =>
    plain_inr_spec j n (deVars_iff r hw (List.nodup_cons.mp hn).2 j)
      (fun b hb => by
        obtain ⟨k, x, h1, h2⟩ := shapeVars_name r j b hb
        exact ⟨k, x, h1, fun e => (List.nodup_cons.mp hn).1 (e ▸ h2)⟩) v
  | .carrying n t r, hw, hn, j, .inl y => carrying_inl_spec j n (de_iff t hw.1) (deVars r j) y
  | .carrying n t r, hw, hn, j, .inr v =>
    carrying_inr_spec j n (de t) (deVars_iff r hw.2 (List.nodup_cons.mp hn).2 j)
      (fun b hb => by
        obtain ⟨k, x, h1, h2⟩ := shapeVars_name r j b hb
        exact ⟨k, x, h1, fun e => (List.nodup_cons.mp hn).1 (e ▸ h2)⟩) v
end

end Verif.Json
