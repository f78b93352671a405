import Verif.Proto.Lemmas

/-!
# Building blocks for generated protobuf messages

Helpers shared by `Verif.Proto.Network`, `Verif.Proto.Sharding` and `Verif.Proto.Singleton`: map
fields, enum fields, and the lemmas that let a `merge_from` loop be run over the fields a
`write_to_with_cached_sizes` emits.
-/

namespace Verif.Proto

/-- enum fields hold an `i32` (`EnumOrUnknown`), written sign-extended (`write_enum`); proto3 omits the zero value.
(`/repo/coerce/src/sharding/proto/sharding.rs` 966-980 writes fields in this way.) -/
def fEnum (no : Nat) (v : Int32) : List Field := fInt64 no v.toInt

/-- `read_enum_or_unknown`: the varint truncated to 32 bits. (Called from generated `merge_from`, as
`/repo/coerce/src/remote/net/proto/network.rs` 101-137.) -/
def readEnum (n : Nat) : Int32 := Int32.ofInt (n : Int)

/-- the body of one `map<string, string>` entry; both fields are always written
(`/repo/coerce/src/remote/net/proto/network.rs` 180-188). -/
def mapEntry (kv : String × String) : Bytes :=
  encodeFields [(1, .len (strBytes kv.1)), (2, .len (strBytes kv.2))]

/-- one field of a map entry, `/repo/coerce/src/remote/net/proto/network.rs` 116-130. -/
def mapEntryMerge (kv : String × String) : Field → Option (String × String)
  | (1, .len b) => (bytesStr b).map fun s => (s, kv.2)
  | (2, .len b) => (bytesStr b).map fun s => (kv.1, s)
  | _ => some kv

/-- the loop reading one map entry (`/repo/coerce/src/remote/net/proto/network.rs` 116-130). -/
def readMapEntry (bs : Bytes) : Option (String × String) :=
  (parseFields bs).bind fun fs => fs.foldlM mapEntryMerge ("", "")

/-- `HashMap::insert`, the map being a list of pairs in iteration order.
(`/repo/coerce/src/remote/net/proto/network.rs` 116-130.) -/
def mapInsert (l : List (String × String)) (kv : String × String) : List (String × String) :=
  if l.any (fun p => p.1 == kv.1) then l.map (fun p => if p.1 = kv.1 then kv else p)
  else l ++ [kv]

/-- the keys of a map are distinct. (`/repo/coerce/src/remote/net/proto/network.rs` 101-137 fills a `HashMap`.) -/
def MapOk (l : List (String × String)) : Prop := (l.map (·.1)).Nodup

/-! ### Sizes -/

/-- what a field has to satisfy apart from the size of its content. (A condition on what
`/repo/coerce/src/remote/net/proto/network.rs` 167-191 writes.) -/
def FieldPre (f : Field) : Prop :=
  0 < f.1 ∧ f.1 < 2 ^ 29 ∧
    match f.2 with
    | .varint n => n < 2 ^ 64
    | .fixed64 bs => bs.length = 8
    | .len _ => True
    | .fixed32 bs => bs.length = 4

/-- the same of several fields (a condition on what `/repo/coerce/src/remote/net/proto/network.rs` 167-191 writes). -/
def FieldsPre (fs : List Field) : Prop := ∀ f ∈ fs, FieldPre f

theorem length_le_encodeFields {fs : List Field} {no : Nat} {b : Bytes} (h : (no, .len b) ∈ fs) :
    b.length ≤ (encodeFields fs).length := by
  induction fs with
  | nil => simp at h
  | cons f fs ih =>
    simp only [List.mem_cons] at h
    simp only [encodeFields, List.flatMap_cons, List.length_append] at ih ⊢
    rcases h with rfl | h
    · simp [encodeField, WireVal.body]; omega
    · have := ih h; omega

/-- a message whose encoding is shorter than 2^32 bytes parses back into its fields. -/
theorem parse_of_small {fs : List Field} (hp : FieldsPre fs) (hs : (encodeFields fs).length < 2 ^ 32) :
    parseFields (encodeFields fs) = some fs := by
  apply parseFields_encodeFields
  rintro ⟨no, v⟩ hf
  obtain ⟨h0, h1, h2⟩ := hp _ hf
  refine ⟨h0, h1, ?_⟩
  cases v with
  | varint n => exact h2
  | fixed64 b => exact h2
  | fixed32 b => exact h2
  | len b =>
    have := length_le_encodeFields hf
    show b.length < 2 ^ 64
    omega

theorem fieldsPre_append {a b : List Field} (ha : FieldsPre a) (hb : FieldsPre b) :
    FieldsPre (a ++ b) := by
  intro f hf
  rcases List.mem_append.1 hf with h | h
  · exact ha f h
  · exact hb f h

theorem pre_fVarint {no n : Nat} (h : 0 < no ∧ no < 2 ^ 29) (hn : n < 2 ^ 64) :
    FieldsPre (fVarint no n) := by
  intro f hf
  unfold fVarint at hf
  split at hf <;> simp at hf
  subst hf; exact ⟨h.1, h.2, hn⟩

theorem pre_fInt64 {no : Nat} {i : Int} (h : 0 < no ∧ no < 2 ^ 29) : FieldsPre (fInt64 no i) := by
  intro f hf
  unfold fInt64 at hf
  split at hf <;> simp at hf
  subst hf; exact ⟨h.1, h.2, ofInt64_lt i⟩

theorem pre_fEnum {no : Nat} {i : Int32} (h : 0 < no ∧ no < 2 ^ 29) : FieldsPre (fEnum no i) :=
  pre_fInt64 h

theorem pre_fBool {no : Nat} {b : Bool} (h : 0 < no ∧ no < 2 ^ 29) : FieldsPre (fBool no b) := by
  intro f hf
  unfold fBool at hf
  split at hf <;> simp at hf
  subst hf; exact ⟨h.1, h.2, show 1 < 2 ^ 64 by decide⟩

theorem pre_fString {no : Nat} {s : String} (h : 0 < no ∧ no < 2 ^ 29) :
    FieldsPre (fString no s) := by
  intro f hf
  unfold fString at hf
  split at hf <;> simp at hf
  subst hf; exact ⟨h.1, h.2, trivial⟩

theorem pre_fBytes {no : Nat} {s : Bytes} (h : 0 < no ∧ no < 2 ^ 29) :
    FieldsPre (fBytes no s) := by
  intro f hf
  unfold fBytes at hf
  split at hf <;> simp at hf
  subst hf; exact ⟨h.1, h.2, trivial⟩

theorem pre_fMsg {no : Nat} {m : Option Bytes} (h : 0 < no ∧ no < 2 ^ 29) :
    FieldsPre (fMsg no m) := by
  intro f hf
  unfold fMsg at hf
  split at hf <;> simp at hf
  subst hf; exact ⟨h.1, h.2, trivial⟩

theorem pre_fRepeated {no : Nat} {m : List Bytes} (h : 0 < no ∧ no < 2 ^ 29) :
    FieldsPre (fRepeated no m) := by
  intro f hf
  unfold fRepeated at hf
  obtain ⟨b, _, rfl⟩ := List.mem_map.1 hf
  exact ⟨h.1, h.2, trivial⟩

/-! ### Scalars -/

theorem readEnum_ofInt64 (v : Int32) : readEnum (ofInt64 v.toInt) = v := by
  unfold readEnum ofInt64
  have h : (((v.toInt % 2 ^ 64).toNat : Nat) : Int) = v.toInt % 2 ^ 64 := by omega
  rw [h]
  apply Int32.toInt.inj
  rw [Int32.toInt_ofInt]
  have h1 := Int32.le_toInt v
  have h2 := Int32.toInt_lt v
  simp only [Int.bmod_def, Int32.size]
  omega

theorem ofInt64_toInt64' (v : Int64) : Int64.ofInt (toInt64 (ofInt64 v.toInt)) = v := by
  rw [toInt64_ofInt64 _ (Int64.le_toInt v) (Int64.toInt_lt v), Int64.ofInt_toInt]

theorem readMapEntry_mapEntry (kv : String × String) (h : (mapEntry kv).length < 2 ^ 32) :
    readMapEntry (mapEntry kv) = some kv := by
  unfold readMapEntry
  have hp : FieldsPre [(1, .len (strBytes kv.1)), (2, .len (strBytes kv.2))] := by
    intro f hf
    simp at hf
    rcases hf with rfl | rfl <;> exact ⟨by simp, by simp, trivial⟩
  have := parse_of_small hp h
  unfold mapEntry
  rw [this]
  simp [mapEntryMerge, bytesStr_strBytes]

/-! ### Running `merge_from` over emitted fields -/

section
variable {M : Type} {merge : M → Field → Option M}

theorem fold_fVarint {no n : Nat} {m : M} (m' : M) (h0 : n = 0 → m' = m)
    (h1 : merge m (no, .varint n) = some m') : (fVarint no n).foldlM merge m = some m' := by
  unfold fVarint; split
  · rename_i h; simp [h0 h]
  · simp [h1]

theorem fold_fInt64 {no : Nat} {i : Int} {m : M} (m' : M) (h0 : i = 0 → m' = m)
    (h1 : merge m (no, .varint (ofInt64 i)) = some m') :
    (fInt64 no i).foldlM merge m = some m' := by
  unfold fInt64; split
  · rename_i h; simp [h0 h]
  · simp [h1]

theorem fold_fEnum {no : Nat} {v : Int32} {m : M} (m' : M) (h0 : v = 0 → m' = m)
    (h1 : merge m (no, .varint (ofInt64 v.toInt)) = some m') :
    (fEnum no v).foldlM merge m = some m' := by
  refine fold_fInt64 m' (fun h => h0 ?_) h1
  apply Int32.toInt.inj; rw [h]; rfl

theorem fold_fBool {no : Nat} {b : Bool} {m : M} (m' : M) (h0 : b = false → m' = m)
    (h1 : b = true → merge m (no, .varint 1) = some m') : (fBool no b).foldlM merge m = some m' := by
  unfold fBool; cases b
  · simp [h0 rfl]
  · simp [h1 rfl]

theorem fold_fString {no : Nat} {s : String} {m : M} (m' : M) (h0 : s = "" → m' = m)
    (h1 : merge m (no, .len (strBytes s)) = some m') :
    (fString no s).foldlM merge m = some m' := by
  unfold fString; split
  · rename_i h; simp [h0 h]
  · simp [h1]

theorem fold_fBytes {no : Nat} {s : Bytes} {m : M} (m' : M) (h0 : s = [] → m' = m)
    (h1 : merge m (no, .len s) = some m') :
    (fBytes no s).foldlM merge m = some m' := by
  unfold fBytes; split
  · rename_i h; simp [h0 h]
  · simp [h1]

theorem fold_fMsg {α : Type} {no : Nat} {enc : α → Bytes} {o : Option α} {m : M} (m' : M)
    (h0 : o = none → m' = m) (h1 : ∀ a, o = some a → merge m (no, .len (enc a)) = some m') :
    (fMsg no (o.map enc)).foldlM merge m = some m' := by
  cases o with
  | none => simp [fMsg, h0 rfl]
  | some a => simp [fMsg, h1 a rfl]

theorem fold_fRepeated {α : Type} {no : Nat} {enc : α → Bytes} {xs : List α} (set : List α → M)
    (h : ∀ ys x, x ∈ xs → merge (set ys) (no, .len (enc x)) = some (set (ys ++ [x]))) :
    (fRepeated no (xs.map enc)).foldlM merge (set []) = some (set xs) := by
  suffices ∀ ys, (fRepeated no (xs.map enc)).foldlM merge (set ys) = some (set (ys ++ xs)) by
    simpa using this []
  induction xs with
  | nil => intro ys; simp [fRepeated]
  | cons x xs ih =>
    intro ys
    have hx := h ys x (by simp)
    have := ih (fun ys x hx => h ys x (by simp [hx])) (ys ++ [x])
    simp only [fRepeated, List.map_cons, List.foldlM_cons, hx] at this ⊢
    simpa using this

theorem mapInsert_fresh {l : List (String × String)} {kv : String × String}
    (h : kv.1 ∉ l.map (·.1)) : mapInsert l kv = l ++ [kv] := by
  unfold mapInsert
  rw [if_neg]
  simp only [List.any_eq_true, beq_iff_eq, not_exists, not_and]
  intro p hp he
  exact h (List.mem_map.2 ⟨p, hp, he⟩)

theorem fold_fMap {no : Nat} {xs : List (String × String)} (set : List (String × String) → M)
    (hok : MapOk xs)
    (h : ∀ ys x, x ∈ xs → merge (set ys) (no, .len (mapEntry x)) = some (set (mapInsert ys x))) :
    (fRepeated no (xs.map mapEntry)).foldlM merge (set []) = some (set xs) := by
  suffices ∀ ys, MapOk (ys ++ xs) →
      (fRepeated no (xs.map mapEntry)).foldlM merge (set ys) = some (set (ys ++ xs)) by
    simpa using this [] (by simpa using hok)
  clear hok
  induction xs with
  | nil => intro ys _; simp [fRepeated]
  | cons x xs ih =>
    intro ys hok
    have hx := h ys x (by simp)
    have hfresh : x.1 ∉ ys.map (·.1) := by
      unfold MapOk at hok
      rw [List.map_append, List.map_cons, List.nodup_append] at hok
      intro hm
      exact hok.2.2 _ hm x.1 (by simp) rfl
    rw [mapInsert_fresh hfresh] at hx
    have := ih (fun ys x hx => h ys x (by simp [hx])) (ys ++ [x]) (by simpa using hok)
    simp only [fRepeated, List.map_cons, List.foldlM_cons, hx] at this ⊢
    simpa using this

end

end Verif.Proto
