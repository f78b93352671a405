import Verif.Proto.SchemaSpec
import Verif.Proto.NetworkLemmas
import Verif.Proto.ShardingLemmas
import Verif.Proto.SingletonLemmas
import Verif.Proto.ChatLemmas
import Verif.Persist.Lemmas

/-!
# The messages of the code and the `.proto` files

One lemma each: what the code writes is what the `.proto` file says, and what a newer version adds is skipped.
-/

set_option linter.unusedSimpArgs false

namespace Verif.Proto

theorem emit_u64 (no : Nat) (n : UInt64) : (FVal.u64 n).emit no = fVarint no n.toNat := by
  unfold FVal.emit fVarint
  have : n = 0 ↔ n.toNat = 0 := ⟨fun h => by subst h; rfl, fun h => UInt64.toNat_inj.1 (h.trans UInt64.toNat_zero.symm)⟩
  simp only [this]

theorem emit_u32 (no : Nat) (n : UInt32) : (FVal.u32 n).emit no = fVarint no n.toNat := by
  unfold FVal.emit fVarint
  have : n = 0 ↔ n.toNat = 0 := ⟨fun h => by subst h; rfl, fun h => UInt32.toNat_inj.1 (h.trans UInt32.toNat_zero.symm)⟩
  simp only [this]

theorem ofInt64_eq (n : Int64) : ofInt64 n.toInt = n.toUInt64.toNat := by
  unfold ofInt64
  have h : n.toInt = n.toBitVec.toInt := rfl
  have h2 : n.toUInt64.toNat = n.toBitVec.toNat := rfl
  rw [h, h2, BitVec.toInt_eq_toNat_bmod]
  have := n.toBitVec.isLt
  rw [Int.bmod_def]
  split <;> omega

theorem emit_i64 (no : Nat) (n : Int64) : (FVal.i64 n).emit no = fInt64 no n.toInt := by
  unfold FVal.emit fInt64
  have : n = 0 ↔ n.toInt = 0 := ⟨fun h => by subst h; rfl, fun h => Int64.toInt_inj.1 h⟩
  simp only [this, ofInt64_eq]

theorem emit_i32 (no : Nat) (n : Int32) : (FVal.i32 n).emit no = fEnum no n := by
  unfold FVal.emit fEnum fInt64
  have : n = 0 ↔ n.toInt = 0 := ⟨fun h => by subst h; rfl, fun h => Int32.toInt_inj.1 h⟩
  have h2 : n.toInt64.toInt = n.toInt := Int32.toInt_toInt64 n
  simp only [this, ← ofInt64_eq, h2]

theorem emit_enum (no : Nat) (n : Int32) : (FVal.enum n).emit no = fEnum no n := emit_i32 no n

theorem emit_bool (no : Nat) (b : Bool) : (FVal.bool b).emit no = fBool no b := rfl

theorem emit_str (no : Nat) (s : String) : (FVal.str s).emit no = fString no s := by
  unfold FVal.emit fString
  simp only [String.isEmpty_iff]

theorem emit_bytes (no : Nat) (b : Bytes) : (FVal.bytes b).emit no = fBytes no b := by
  unfold FVal.emit fBytes
  simp only [List.isEmpty_iff]

theorem emit_msg (no : Nat) (b : Option Bytes) : (FVal.msg b).emit no = fMsg no b := by
  cases b <;> rfl

theorem emit_strs (no : Nat) (l : List String) : (FVal.strs l).emit no = fRepeated no (l.map strBytes) := by
  simp [FVal.emit, fRepeated]

theorem emit_msgs (no : Nat) (l : List Bytes) : (FVal.msgs l).emit no = fRepeated no l := rfl

theorem emit_map (no : Nat) (l : List (String × String)) : (FVal.map l).emit no = fRepeated no (l.map mapEntry) := by
  simp [FVal.emit, fRepeated, mapEntry]

theorem fieldOk_of_small {fs : List Field} (hp : FieldsPre fs) (hs : (encodeFields fs).length < 2 ^ 32) :
    ∀ f ∈ fs, FieldOk f := by
  rintro ⟨no, v⟩ hf
  obtain ⟨h0, h1, h2⟩ := hp _ hf
  refine ⟨h0, h1, ?_⟩
  cases v with
  | varint n => exact h2
  | fixed64 b => exact h2
  | fixed32 b => exact h2
  | len b =>
    have := length_le_encodeFields hf
    show b.length < 2 ^ 64
    omega

theorem comm_map_map {M α β : Type} (A : Option α) (B : Option β) (f : α → β → M) (g : β → α → M)
    (h : ∀ x y, f x y = g y x) : (A.bind fun x => B.map (f x)) = B.bind fun y => A.map (g y) := by
  cases A <;> cases B <;> simp [h]

theorem comm_some_map {M β : Type} (B : Option β) (f g : β → M) (h : ∀ x, f x = g x) :
    B.map f = B.bind fun y => some (g y) := by
  cases B <;> simp [h]

theorem comm_skip {M : Type} (o : Option M) : (o.bind fun m => some m) = o := by cases o <;> rfl

/-- two fields of different numbers of a message set different fields of it, in whatever order they are read. -/
macro "merge_comm " m:ident s:ident : tactic => `(tactic| (
  intro acc f g hf hg hne
  obtain ⟨a, v⟩ := f
  obtain ⟨b, w⟩ := g
  simp only [$s:ident, Schema.numbers, Schema.fields, List.map, List.mem_cons, List.not_mem_nil, or_false] at hf hg
  all_goals repeat' (rcases hf with hf | hf)
  all_goals cases v
  all_goals try (exact (comm_skip _).symm)
  all_goals repeat' (rcases hg with hg | hg)
  all_goals try (exact absurd rfl hne)
  all_goals cases w
  all_goals try (exact comm_skip _)
  all_goals simp only [$m:ident, Option.bind_map, Option.bind_some, Function.comp_def]
  all_goals first
    | exact comm_map_map _ _ _ _ (fun _ _ => rfl)
    | exact comm_some_map _ _ _ (fun _ => rfl)
    | exact (comm_some_map _ _ _ (fun _ => rfl)).symm))

theorem fold_newer {M : Type} {merge : M → Field → Option M} {S : Schema} (m₀ : M)
    (hskip : ∀ acc no v, no ∉ S.numbers → merge acc (no, v) = some acc)
    (hsub : ∀ acc no T, (no, some T) ∈ S.fields → ∀ gs gs', NewerF T gs gs' → (∀ f ∈ gs, FieldOk f) →
      (∀ f ∈ gs', FieldOk f) → merge acc (no, .len (encodeFields gs)) = merge acc (no, .len (encodeFields gs')))
    (hcomm : ∀ acc f g, f.1 ∈ S.numbers → g.1 ∈ S.numbers → f.1 ≠ g.1 →
      ((merge acc f).bind fun m => merge m g) = (merge acc g).bind fun m => merge m f)
    {fs fs' : List Field} (h : NewerF S fs fs') (h1 : ∀ f ∈ fs, FieldOk f) (h2 : ∀ f ∈ fs', FieldOk f) :
    ((parseFields (encodeFields fs)).bind fun gs => gs.foldlM merge m₀) =
      (parseFields (encodeFields fs')).bind fun gs => gs.foldlM merge m₀ := by
  rw [parseFields_encodeFields fs h1, parseFields_encodeFields fs' h2]
  simp only [Option.bind_some]
  clear h1 h2
  suffices ∀ acc, fs.foldlM merge acc = fs'.foldlM merge acc from this m₀
  induction h with
  | nil => intro acc; rfl
  | unknown hno _ ih =>
    intro acc
    rw [List.foldlM_cons, hskip acc _ _ hno]
    exact ih hskip hsub hcomm acc
  | same _ ih =>
    intro acc
    rw [List.foldlM_cons, List.foldlM_cons]
    exact congrArg _ (funext fun x => ih hskip hsub hcomm x)
  | sub hm hn g1 g2 _ _ ih =>
    intro acc
    rw [List.foldlM_cons, List.foldlM_cons, hsub acc _ _ hm _ _ hn g1 g2]
    exact congrArg _ (funext fun x => ih hskip hsub hcomm x)
  | @swap S f g fs fs' pre hne _ ih =>
    intro acc
    rw [ih hskip hsub hcomm acc, List.foldlM_append, List.foldlM_append]
    refine congrArg _ (funext fun x => ?_)
    have hc : ((merge x f).bind fun m => merge m g) = (merge x g).bind fun m => merge m f := by
      by_cases h1 : f.1 ∈ S.numbers
      · by_cases h2 : g.1 ∈ S.numbers
        · exact hcomm x f g h1 h2 hne
        · have hs : ∀ a, merge a g = some a := fun a => hskip a g.1 g.2 h2
          simp only [hs, Option.bind_some, comm_skip]
      · have hs : ∀ a, merge a f = some a := fun a => hskip a f.1 f.2 h1
        simp only [hs, Option.bind_some, comm_skip]
    have e : ∀ a b, (a :: b :: fs').foldlM merge x = ((merge x a).bind fun m => merge m b).bind fun m => fs'.foldlM merge m := by
      intro a b
      simp only [List.foldlM_cons, Option.bind_eq_bind, Option.bind_assoc]
    rw [e f g, e g f, hc]

theorem entry_read_newer {gs gs' : List Field} (h : NewerF entrySchema gs gs') (h1 : ∀ f ∈ gs, FieldOk f)
    (h2 : ∀ f ∈ gs', FieldOk f) : readMapEntry (encodeFields gs) = readMapEntry (encodeFields gs') :=
  fold_newer (merge := mapEntryMerge) (S := entrySchema) ("", "") (fun acc no v h => by
    simp only [entrySchema, Schema.numbers, Schema.fields, List.map_cons, List.map_nil, List.mem_cons, not_or, List.not_mem_nil] at h
    unfold mapEntryMerge
    split <;> first | rfl | simp_all) (fun acc no T h => by simp [entrySchema, Schema.fields] at h)
    (by merge_comm mapEntryMerge entrySchema) h h1 h2

namespace Network

theorem Timestamp.fields_values (m : Timestamp) : m.fields = m.values.flatMap fun p => p.2.emit p.1 := by
  simp only [Timestamp.values, Timestamp.fields, List.flatMap_cons, List.flatMap_nil, List.append_nil, List.append_assoc, emit_u64, emit_u32, emit_i64, emit_i32,
    emit_bool, emit_str, emit_bytes, emit_enum, emit_msg, emit_strs, emit_msgs, emit_map]

theorem Timestamp.write_spec (m : Timestamp) : m.write = m.spec := by
  unfold Timestamp.write Timestamp.spec wire; rw [Timestamp.fields_values]

theorem Timestamp.write_funext : Timestamp.write = Timestamp.spec := funext Timestamp.write_spec

theorem Timestamp.read_newer {gs gs' : List Field} (h : NewerF Timestamp.schema gs gs') (h1 : ∀ f ∈ gs, FieldOk f)
    (h2 : ∀ f ∈ gs', FieldOk f) : Timestamp.read (encodeFields gs) = Timestamp.read (encodeFields gs') :=
  fold_newer (merge := Timestamp.merge) (S := Timestamp.schema) {} (fun acc no v h => by
    have hne : ∀ k ∈ Timestamp.schema.numbers, no ≠ k := fun k hk hx => h (hx ▸ hk)
    simp only [Timestamp.schema, Schema.numbers, Schema.fields, List.map, List.forall_mem_cons] at hne
    unfold Timestamp.merge
    split <;> first | (rename_i hx; simp only [Prod.mk.injEq] at hx; simp [hx.1] at hne; done) | rfl) (fun acc no T h => by simp [Timestamp.schema, Schema.fields] at h)
    (by
      rintro acc ⟨a, v⟩ ⟨b, w⟩ hf hg hne
      simp only [Timestamp.schema, Schema.numbers, Schema.fields, List.map, List.mem_cons, List.not_mem_nil, or_false] at hf hg
      rcases hf with rfl | rfl <;> rcases hg with rfl | rfl <;> first
        | exact absurd rfl hne
        | (cases v <;> cases w <;> simp [Timestamp.merge])) h h1 h2

/-- the codec of `Timestamp`. -/
def Timestamp.codec : Codec Timestamp where
  schema := Timestamp.schema
  values := Timestamp.values
  Ok := fun _ => True
  write := Timestamp.write
  read := Timestamp.read

theorem Timestamp.faithful : Timestamp.codec.Faithful where
  numbers := fun _ => rfl
  distinct := by decide
  follows := fun m _ => m.write_spec
  robust := fun m fs' hok hs hn hf => by
    have hs' : m.write.length < 2 ^ 32 := hs
    have hn' : NewerF Timestamp.schema m.fields fs' := by rw [Timestamp.fields_values]; exact hn
    show Timestamp.read (encodeFields fs') = some m
    rw [← Timestamp.read_newer hn' (fieldOk_of_small m.fields_pre hs') hf]
    exact m.read_write hs'

theorem UInt64Value.fields_values (m : UInt64Value) : m.fields = m.values.flatMap fun p => p.2.emit p.1 := by
  simp only [UInt64Value.values, UInt64Value.fields, List.flatMap_cons, List.flatMap_nil, List.append_nil, List.append_assoc, emit_u64, emit_u32, emit_i64, emit_i32,
    emit_bool, emit_str, emit_bytes, emit_enum, emit_msg, emit_strs, emit_msgs, emit_map]

theorem UInt64Value.write_spec (m : UInt64Value) : m.write = m.spec := by
  unfold UInt64Value.write UInt64Value.spec wire; rw [UInt64Value.fields_values]

theorem UInt64Value.write_funext : UInt64Value.write = UInt64Value.spec := funext UInt64Value.write_spec

theorem UInt64Value.read_newer {gs gs' : List Field} (h : NewerF UInt64Value.schema gs gs') (h1 : ∀ f ∈ gs, FieldOk f)
    (h2 : ∀ f ∈ gs', FieldOk f) : UInt64Value.read (encodeFields gs) = UInt64Value.read (encodeFields gs') :=
  fold_newer (merge := UInt64Value.merge) (S := UInt64Value.schema) {} (fun acc no v h => by
    have hne : ∀ k ∈ UInt64Value.schema.numbers, no ≠ k := fun k hk hx => h (hx ▸ hk)
    simp only [UInt64Value.schema, Schema.numbers, Schema.fields, List.map, List.forall_mem_cons] at hne
    unfold UInt64Value.merge
    split <;> first | (rename_i hx; simp only [Prod.mk.injEq] at hx; simp [hx.1] at hne; done) | rfl) (fun acc no T h => by simp [UInt64Value.schema, Schema.fields] at h)
    (by merge_comm UInt64Value.merge UInt64Value.schema) h h1 h2

/-- the codec of `UInt64Value`. -/
def UInt64Value.codec : Codec UInt64Value where
  schema := UInt64Value.schema
  values := UInt64Value.values
  Ok := fun _ => True
  write := UInt64Value.write
  read := UInt64Value.read

theorem UInt64Value.faithful : UInt64Value.codec.Faithful where
  numbers := fun _ => rfl
  distinct := by decide
  follows := fun m _ => m.write_spec
  robust := fun m fs' hok hs hn hf => by
    have hs' : m.write.length < 2 ^ 32 := hs
    have hn' : NewerF UInt64Value.schema m.fields fs' := by rw [UInt64Value.fields_values]; exact hn
    show UInt64Value.read (encodeFields fs') = some m
    rw [← UInt64Value.read_newer hn' (fieldOk_of_small m.fields_pre hs') hf]
    exact m.read_write hs'

theorem RemoteNode.fields_values (m : RemoteNode) : m.fields = m.values.flatMap fun p => p.2.emit p.1 := by
  simp only [RemoteNode.values, RemoteNode.fields, List.flatMap_cons, List.flatMap_nil, List.append_nil, List.append_assoc, emit_u64, emit_u32, emit_i64, emit_i32,
    emit_bool, emit_str, emit_bytes, emit_enum, emit_msg, emit_strs, emit_msgs, emit_map, Timestamp.write_funext]

theorem RemoteNode.write_spec (m : RemoteNode) : m.write = m.spec := by
  unfold RemoteNode.write RemoteNode.spec wire; rw [RemoteNode.fields_values]

theorem RemoteNode.write_funext : RemoteNode.write = RemoteNode.spec := funext RemoteNode.write_spec

theorem RemoteNode.read_newer {gs gs' : List Field} (h : NewerF RemoteNode.schema gs gs') (h1 : ∀ f ∈ gs, FieldOk f)
    (h2 : ∀ f ∈ gs', FieldOk f) : RemoteNode.read (encodeFields gs) = RemoteNode.read (encodeFields gs') :=
  fold_newer (merge := RemoteNode.merge) (S := RemoteNode.schema) {} (fun acc no v h => by
    have hne : ∀ k ∈ RemoteNode.schema.numbers, no ≠ k := fun k hk hx => h (hx ▸ hk)
    simp only [RemoteNode.schema, Schema.numbers, Schema.fields, List.map, List.forall_mem_cons] at hne
    unfold RemoteNode.merge
    split <;> first | (rename_i hx; simp only [Prod.mk.injEq] at hx; simp [hx.1] at hne; done) | rfl) (fun acc no T h gs gs' hn h1 h2 => by
    simp only [RemoteNode.schema, Schema.fields, List.mem_cons, Prod.mk.injEq, Option.some.injEq, reduceCtorEq, and_false, false_or, or_false,
      List.not_mem_nil] at h
    rcases h with ⟨rfl, rfl⟩ | ⟨rfl, rfl⟩
    · simp only [RemoteNode.merge, Timestamp.read_newer hn h1 h2]
    · simp only [RemoteNode.merge, entry_read_newer hn h1 h2])
    (by merge_comm RemoteNode.merge RemoteNode.schema) h h1 h2

/-- the codec of `RemoteNode`. -/
def RemoteNode.codec : Codec RemoteNode where
  schema := RemoteNode.schema
  values := RemoteNode.values
  Ok := RemoteNode.Ok
  write := RemoteNode.write
  read := RemoteNode.read

theorem RemoteNode.faithful : RemoteNode.codec.Faithful where
  numbers := fun _ => rfl
  distinct := by decide
  follows := fun m _ => m.write_spec
  robust := fun m fs' hok hs hn hf => by
    have hs' : m.write.length < 2 ^ 32 := hs
    have hn' : NewerF RemoteNode.schema m.fields fs' := by rw [RemoteNode.fields_values]; exact hn
    show RemoteNode.read (encodeFields fs') = some m
    rw [← RemoteNode.read_newer hn' (fieldOk_of_small m.fields_pre hs') hf]
    exact m.read_write hok hs'

theorem IdentifyEvent.fields_values (m : IdentifyEvent) : m.fields = m.values.flatMap fun p => p.2.emit p.1 := by
  simp only [IdentifyEvent.values, IdentifyEvent.fields, List.flatMap_cons, List.flatMap_nil, List.append_nil, List.append_assoc, emit_u64, emit_u32, emit_i64, emit_i32,
    emit_bool, emit_str, emit_bytes, emit_enum, emit_msg, emit_strs, emit_msgs, emit_map]

theorem IdentifyEvent.write_spec (m : IdentifyEvent) : m.write = m.spec := by
  unfold IdentifyEvent.write IdentifyEvent.spec wire; rw [IdentifyEvent.fields_values]

theorem IdentifyEvent.write_funext : IdentifyEvent.write = IdentifyEvent.spec := funext IdentifyEvent.write_spec

theorem IdentifyEvent.read_newer {gs gs' : List Field} (h : NewerF IdentifyEvent.schema gs gs') (h1 : ∀ f ∈ gs, FieldOk f)
    (h2 : ∀ f ∈ gs', FieldOk f) : IdentifyEvent.read (encodeFields gs) = IdentifyEvent.read (encodeFields gs') :=
  fold_newer (merge := IdentifyEvent.merge) (S := IdentifyEvent.schema) {} (fun acc no v h => by
    have hne : ∀ k ∈ IdentifyEvent.schema.numbers, no ≠ k := fun k hk hx => h (hx ▸ hk)
    simp only [IdentifyEvent.schema, Schema.numbers, Schema.fields, List.map, List.forall_mem_cons] at hne
    unfold IdentifyEvent.merge
    split <;> first | (rename_i hx; simp only [Prod.mk.injEq] at hx; simp [hx.1] at hne; done) | rfl) (fun acc no T h => by simp [IdentifyEvent.schema, Schema.fields] at h)
    (by merge_comm IdentifyEvent.merge IdentifyEvent.schema) h h1 h2

/-- the codec of `IdentifyEvent`. -/
def IdentifyEvent.codec : Codec IdentifyEvent where
  schema := IdentifyEvent.schema
  values := IdentifyEvent.values
  Ok := fun _ => True
  write := IdentifyEvent.write
  read := IdentifyEvent.read

theorem IdentifyEvent.faithful : IdentifyEvent.codec.Faithful where
  numbers := fun _ => rfl
  distinct := by decide
  follows := fun m _ => m.write_spec
  robust := fun m fs' hok hs hn hf => by
    have hs' : m.write.length < 2 ^ 32 := hs
    have hn' : NewerF IdentifyEvent.schema m.fields fs' := by rw [IdentifyEvent.fields_values]; exact hn
    show IdentifyEvent.read (encodeFields fs') = some m
    rw [← IdentifyEvent.read_newer hn' (fieldOk_of_small m.fields_pre hs') hf]
    exact m.read_write hs'

theorem SystemCapabilities.fields_values (m : SystemCapabilities) : m.fields = m.values.flatMap fun p => p.2.emit p.1 := by
  simp only [SystemCapabilities.values, SystemCapabilities.fields, List.flatMap_cons, List.flatMap_nil, List.append_nil, List.append_assoc, emit_u64, emit_u32, emit_i64, emit_i32,
    emit_bool, emit_str, emit_bytes, emit_enum, emit_msg, emit_strs, emit_msgs, emit_map]

theorem SystemCapabilities.write_spec (m : SystemCapabilities) : m.write = m.spec := by
  unfold SystemCapabilities.write SystemCapabilities.spec wire; rw [SystemCapabilities.fields_values]

theorem SystemCapabilities.write_funext : SystemCapabilities.write = SystemCapabilities.spec := funext SystemCapabilities.write_spec

theorem SystemCapabilities.read_newer {gs gs' : List Field} (h : NewerF SystemCapabilities.schema gs gs') (h1 : ∀ f ∈ gs, FieldOk f)
    (h2 : ∀ f ∈ gs', FieldOk f) : SystemCapabilities.read (encodeFields gs) = SystemCapabilities.read (encodeFields gs') :=
  fold_newer (merge := SystemCapabilities.merge) (S := SystemCapabilities.schema) {} (fun acc no v h => by
    have hne : ∀ k ∈ SystemCapabilities.schema.numbers, no ≠ k := fun k hk hx => h (hx ▸ hk)
    simp only [SystemCapabilities.schema, Schema.numbers, Schema.fields, List.map, List.forall_mem_cons] at hne
    unfold SystemCapabilities.merge
    split <;> first | (rename_i hx; simp only [Prod.mk.injEq] at hx; simp [hx.1] at hne; done) | rfl) (fun acc no T h => by simp [SystemCapabilities.schema, Schema.fields] at h)
    (by merge_comm SystemCapabilities.merge SystemCapabilities.schema) h h1 h2

/-- the codec of `SystemCapabilities`. -/
def SystemCapabilities.codec : Codec SystemCapabilities where
  schema := SystemCapabilities.schema
  values := SystemCapabilities.values
  Ok := fun _ => True
  write := SystemCapabilities.write
  read := SystemCapabilities.read

theorem SystemCapabilities.faithful : SystemCapabilities.codec.Faithful where
  numbers := fun _ => rfl
  distinct := by decide
  follows := fun m _ => m.write_spec
  robust := fun m fs' hok hs hn hf => by
    have hs' : m.write.length < 2 ^ 32 := hs
    have hn' : NewerF SystemCapabilities.schema m.fields fs' := by rw [SystemCapabilities.fields_values]; exact hn
    show SystemCapabilities.read (encodeFields fs') = some m
    rw [← SystemCapabilities.read_newer hn' (fieldOk_of_small m.fields_pre hs') hf]
    exact m.read_write hs'

theorem NodeIdentity.fields_values (m : NodeIdentity) : m.fields = m.values.flatMap fun p => p.2.emit p.1 := by
  simp only [NodeIdentity.values, NodeIdentity.fields, List.flatMap_cons, List.flatMap_nil, List.append_nil, List.append_assoc, emit_u64, emit_u32, emit_i64, emit_i32,
    emit_bool, emit_str, emit_bytes, emit_enum, emit_msg, emit_strs, emit_msgs, emit_map, RemoteNode.write_funext, SystemCapabilities.write_funext, Timestamp.write_funext]

theorem NodeIdentity.write_spec (m : NodeIdentity) : m.write = m.spec := by
  unfold NodeIdentity.write NodeIdentity.spec wire; rw [NodeIdentity.fields_values]

theorem NodeIdentity.write_funext : NodeIdentity.write = NodeIdentity.spec := funext NodeIdentity.write_spec

theorem NodeIdentity.read_newer {gs gs' : List Field} (h : NewerF NodeIdentity.schema gs gs') (h1 : ∀ f ∈ gs, FieldOk f)
    (h2 : ∀ f ∈ gs', FieldOk f) : NodeIdentity.read (encodeFields gs) = NodeIdentity.read (encodeFields gs') :=
  fold_newer (merge := NodeIdentity.merge) (S := NodeIdentity.schema) {} (fun acc no v h => by
    have hne : ∀ k ∈ NodeIdentity.schema.numbers, no ≠ k := fun k hk hx => h (hx ▸ hk)
    simp only [NodeIdentity.schema, Schema.numbers, Schema.fields, List.map, List.forall_mem_cons] at hne
    unfold NodeIdentity.merge
    split <;> first | (rename_i hx; simp only [Prod.mk.injEq] at hx; simp [hx.1] at hne; done) | rfl) (fun acc no T h gs gs' hn h1 h2 => by
    simp only [NodeIdentity.schema, Schema.fields, List.mem_cons, Prod.mk.injEq, Option.some.injEq, reduceCtorEq, and_false, false_or, or_false,
      List.not_mem_nil] at h
    rcases h with ⟨rfl, rfl⟩ | ⟨rfl, rfl⟩ | ⟨rfl, rfl⟩ | ⟨rfl, rfl⟩
    · simp only [NodeIdentity.merge, Timestamp.read_newer hn h1 h2]
    · simp only [NodeIdentity.merge, RemoteNode.read_newer hn h1 h2]
    · simp only [NodeIdentity.merge, SystemCapabilities.read_newer hn h1 h2]
    · simp only [NodeIdentity.merge, entry_read_newer hn h1 h2])
    (by merge_comm NodeIdentity.merge NodeIdentity.schema) h h1 h2

/-- the codec of `NodeIdentity`. -/
def NodeIdentity.codec : Codec NodeIdentity where
  schema := NodeIdentity.schema
  values := NodeIdentity.values
  Ok := NodeIdentity.Ok
  write := NodeIdentity.write
  read := NodeIdentity.read

theorem NodeIdentity.faithful : NodeIdentity.codec.Faithful where
  numbers := fun _ => rfl
  distinct := by decide
  follows := fun m _ => m.write_spec
  robust := fun m fs' hok hs hn hf => by
    have hs' : m.write.length < 2 ^ 32 := hs
    have hn' : NewerF NodeIdentity.schema m.fields fs' := by rw [NodeIdentity.fields_values]; exact hn
    show NodeIdentity.read (encodeFields fs') = some m
    rw [← NodeIdentity.read_newer hn' (fieldOk_of_small m.fields_pre hs') hf]
    exact m.read_write hok hs'

theorem ClientHandshake.fields_values (m : ClientHandshake) : m.fields = m.values.flatMap fun p => p.2.emit p.1 := by
  simp only [ClientHandshake.values, ClientHandshake.fields, List.flatMap_cons, List.flatMap_nil, List.append_nil, List.append_assoc, emit_u64, emit_u32, emit_i64, emit_i32,
    emit_bool, emit_str, emit_bytes, emit_enum, emit_msg, emit_strs, emit_msgs, emit_map, RemoteNode.write_funext, Timestamp.write_funext]

theorem ClientHandshake.write_spec (m : ClientHandshake) : m.write = m.spec := by
  unfold ClientHandshake.write ClientHandshake.spec wire; rw [ClientHandshake.fields_values]

theorem ClientHandshake.write_funext : ClientHandshake.write = ClientHandshake.spec := funext ClientHandshake.write_spec

theorem ClientHandshake.read_newer {gs gs' : List Field} (h : NewerF ClientHandshake.schema gs gs') (h1 : ∀ f ∈ gs, FieldOk f)
    (h2 : ∀ f ∈ gs', FieldOk f) : ClientHandshake.read (encodeFields gs) = ClientHandshake.read (encodeFields gs') :=
  fold_newer (merge := ClientHandshake.merge) (S := ClientHandshake.schema) {} (fun acc no v h => by
    have hne : ∀ k ∈ ClientHandshake.schema.numbers, no ≠ k := fun k hk hx => h (hx ▸ hk)
    simp only [ClientHandshake.schema, Schema.numbers, Schema.fields, List.map, List.forall_mem_cons] at hne
    unfold ClientHandshake.merge
    split <;> first | (rename_i hx; simp only [Prod.mk.injEq] at hx; simp [hx.1] at hne; done) | rfl) (fun acc no T h gs gs' hn h1 h2 => by
    simp only [ClientHandshake.schema, Schema.fields, List.mem_cons, Prod.mk.injEq, Option.some.injEq, reduceCtorEq, and_false, false_or, or_false,
      List.not_mem_nil] at h
    rcases h with ⟨rfl, rfl⟩ | ⟨rfl, rfl⟩
    · simp only [ClientHandshake.merge, RemoteNode.read_newer hn h1 h2]
    · simp only [ClientHandshake.merge, Timestamp.read_newer hn h1 h2])
    (by merge_comm ClientHandshake.merge ClientHandshake.schema) h h1 h2

/-- the codec of `ClientHandshake`. -/
def ClientHandshake.codec : Codec ClientHandshake where
  schema := ClientHandshake.schema
  values := ClientHandshake.values
  Ok := ClientHandshake.Ok
  write := ClientHandshake.write
  read := ClientHandshake.read

theorem ClientHandshake.faithful : ClientHandshake.codec.Faithful where
  numbers := fun _ => rfl
  distinct := by decide
  follows := fun m _ => m.write_spec
  robust := fun m fs' hok hs hn hf => by
    have hs' : m.write.length < 2 ^ 32 := hs
    have hn' : NewerF ClientHandshake.schema m.fields fs' := by rw [ClientHandshake.fields_values]; exact hn
    show ClientHandshake.read (encodeFields fs') = some m
    rw [← ClientHandshake.read_newer hn' (fieldOk_of_small m.fields_pre hs') hf]
    exact m.read_write hok hs'

theorem ClientResult.fields_values (m : ClientResult) : m.fields = m.values.flatMap fun p => p.2.emit p.1 := by
  simp only [ClientResult.values, ClientResult.fields, List.flatMap_cons, List.flatMap_nil, List.append_nil, List.append_assoc, emit_u64, emit_u32, emit_i64, emit_i32,
    emit_bool, emit_str, emit_bytes, emit_enum, emit_msg, emit_strs, emit_msgs, emit_map]

theorem ClientResult.write_spec (m : ClientResult) : m.write = m.spec := by
  unfold ClientResult.write ClientResult.spec wire; rw [ClientResult.fields_values]

theorem ClientResult.write_funext : ClientResult.write = ClientResult.spec := funext ClientResult.write_spec

theorem ClientResult.read_newer {gs gs' : List Field} (h : NewerF ClientResult.schema gs gs') (h1 : ∀ f ∈ gs, FieldOk f)
    (h2 : ∀ f ∈ gs', FieldOk f) : ClientResult.read (encodeFields gs) = ClientResult.read (encodeFields gs') :=
  fold_newer (merge := ClientResult.merge) (S := ClientResult.schema) {} (fun acc no v h => by
    have hne : ∀ k ∈ ClientResult.schema.numbers, no ≠ k := fun k hk hx => h (hx ▸ hk)
    simp only [ClientResult.schema, Schema.numbers, Schema.fields, List.map, List.forall_mem_cons] at hne
    unfold ClientResult.merge
    split <;> first | (rename_i hx; simp only [Prod.mk.injEq] at hx; simp [hx.1] at hne; done) | rfl) (fun acc no T h => by simp [ClientResult.schema, Schema.fields] at h)
    (by merge_comm ClientResult.merge ClientResult.schema) h h1 h2

/-- the codec of `ClientResult`. -/
def ClientResult.codec : Codec ClientResult where
  schema := ClientResult.schema
  values := ClientResult.values
  Ok := fun _ => True
  write := ClientResult.write
  read := ClientResult.read

theorem ClientResult.faithful : ClientResult.codec.Faithful where
  numbers := fun _ => rfl
  distinct := by decide
  follows := fun m _ => m.write_spec
  robust := fun m fs' hok hs hn hf => by
    have hs' : m.write.length < 2 ^ 32 := hs
    have hn' : NewerF ClientResult.schema m.fields fs' := by rw [ClientResult.fields_values]; exact hn
    show ClientResult.read (encodeFields fs') = some m
    rw [← ClientResult.read_newer hn' (fieldOk_of_small m.fields_pre hs') hf]
    exact m.read_write hs'

theorem ActorRefErr.fields_values (m : ActorRefErr) : m.fields = m.values.flatMap fun p => p.2.emit p.1 := by
  simp only [ActorRefErr.values, ActorRefErr.fields, List.flatMap_cons, List.flatMap_nil, List.append_nil, List.append_assoc, emit_u64, emit_u32, emit_i64, emit_i32,
    emit_bool, emit_str, emit_bytes, emit_enum, emit_msg, emit_strs, emit_msgs, emit_map]

theorem ActorRefErr.write_spec (m : ActorRefErr) : m.write = m.spec := by
  unfold ActorRefErr.write ActorRefErr.spec wire; rw [ActorRefErr.fields_values]

theorem ActorRefErr.write_funext : ActorRefErr.write = ActorRefErr.spec := funext ActorRefErr.write_spec

theorem ActorRefErr.read_newer {gs gs' : List Field} (h : NewerF ActorRefErr.schema gs gs') (h1 : ∀ f ∈ gs, FieldOk f)
    (h2 : ∀ f ∈ gs', FieldOk f) : ActorRefErr.read (encodeFields gs) = ActorRefErr.read (encodeFields gs') :=
  fold_newer (merge := ActorRefErr.merge) (S := ActorRefErr.schema) {} (fun acc no v h => by
    have hne : ∀ k ∈ ActorRefErr.schema.numbers, no ≠ k := fun k hk hx => h (hx ▸ hk)
    simp only [ActorRefErr.schema, Schema.numbers, Schema.fields, List.map, List.forall_mem_cons] at hne
    unfold ActorRefErr.merge
    split <;> first | (rename_i hx; simp only [Prod.mk.injEq] at hx; simp [hx.1] at hne; done) | rfl) (fun acc no T h => by simp [ActorRefErr.schema, Schema.fields] at h)
    (by merge_comm ActorRefErr.merge ActorRefErr.schema) h h1 h2

/-- the codec of `ActorRefErr`. -/
def ActorRefErr.codec : Codec ActorRefErr where
  schema := ActorRefErr.schema
  values := ActorRefErr.values
  Ok := fun _ => True
  write := ActorRefErr.write
  read := ActorRefErr.read

theorem ActorRefErr.faithful : ActorRefErr.codec.Faithful where
  numbers := fun _ => rfl
  distinct := by decide
  follows := fun m _ => m.write_spec
  robust := fun m fs' hok hs hn hf => by
    have hs' : m.write.length < 2 ^ 32 := hs
    have hn' : NewerF ActorRefErr.schema m.fields fs' := by rw [ActorRefErr.fields_values]; exact hn
    show ActorRefErr.read (encodeFields fs') = some m
    rw [← ActorRefErr.read_newer hn' (fieldOk_of_small m.fields_pre hs') hf]
    exact m.read_write hs'

theorem ClientErr.fields_values (m : ClientErr) : m.fields = m.values.flatMap fun p => p.2.emit p.1 := by
  simp only [ClientErr.values, ClientErr.fields, List.flatMap_cons, List.flatMap_nil, List.append_nil, List.append_assoc, emit_u64, emit_u32, emit_i64, emit_i32,
    emit_bool, emit_str, emit_bytes, emit_enum, emit_msg, emit_strs, emit_msgs, emit_map, ActorRefErr.write_funext]

theorem ClientErr.write_spec (m : ClientErr) : m.write = m.spec := by
  unfold ClientErr.write ClientErr.spec wire; rw [ClientErr.fields_values]

theorem ClientErr.write_funext : ClientErr.write = ClientErr.spec := funext ClientErr.write_spec

theorem ClientErr.read_newer {gs gs' : List Field} (h : NewerF ClientErr.schema gs gs') (h1 : ∀ f ∈ gs, FieldOk f)
    (h2 : ∀ f ∈ gs', FieldOk f) : ClientErr.read (encodeFields gs) = ClientErr.read (encodeFields gs') :=
  fold_newer (merge := ClientErr.merge) (S := ClientErr.schema) {} (fun acc no v h => by
    have hne : ∀ k ∈ ClientErr.schema.numbers, no ≠ k := fun k hk hx => h (hx ▸ hk)
    simp only [ClientErr.schema, Schema.numbers, Schema.fields, List.map, List.forall_mem_cons] at hne
    unfold ClientErr.merge
    split <;> first | (rename_i hx; simp only [Prod.mk.injEq] at hx; simp [hx.1] at hne; done) | rfl) (fun acc no T h gs gs' hn h1 h2 => by
    simp only [ClientErr.schema, Schema.fields, List.mem_cons, Prod.mk.injEq, Option.some.injEq, reduceCtorEq, and_false, false_or, or_false,
      List.not_mem_nil] at h
    obtain ⟨rfl, rfl⟩ := h
    · simp only [ClientErr.merge, ActorRefErr.read_newer hn h1 h2])
    (by merge_comm ClientErr.merge ClientErr.schema) h h1 h2

/-- the codec of `ClientErr`. -/
def ClientErr.codec : Codec ClientErr where
  schema := ClientErr.schema
  values := ClientErr.values
  Ok := fun _ => True
  write := ClientErr.write
  read := ClientErr.read

theorem ClientErr.faithful : ClientErr.codec.Faithful where
  numbers := fun _ => rfl
  distinct := by decide
  follows := fun m _ => m.write_spec
  robust := fun m fs' hok hs hn hf => by
    have hs' : m.write.length < 2 ^ 32 := hs
    have hn' : NewerF ClientErr.schema m.fields fs' := by rw [ClientErr.fields_values]; exact hn
    show ClientErr.read (encodeFields fs') = some m
    rw [← ClientErr.read_newer hn' (fieldOk_of_small m.fields_pre hs') hf]
    exact m.read_write hs'

theorem PingEvent.fields_values (m : PingEvent) : m.fields = m.values.flatMap fun p => p.2.emit p.1 := by
  simp only [PingEvent.values, PingEvent.fields, List.flatMap_cons, List.flatMap_nil, List.append_nil, List.append_assoc, emit_u64, emit_u32, emit_i64, emit_i32,
    emit_bool, emit_str, emit_bytes, emit_enum, emit_msg, emit_strs, emit_msgs, emit_map]

theorem PingEvent.write_spec (m : PingEvent) : m.write = m.spec := by
  unfold PingEvent.write PingEvent.spec wire; rw [PingEvent.fields_values]

theorem PingEvent.write_funext : PingEvent.write = PingEvent.spec := funext PingEvent.write_spec

theorem PingEvent.read_newer {gs gs' : List Field} (h : NewerF PingEvent.schema gs gs') (h1 : ∀ f ∈ gs, FieldOk f)
    (h2 : ∀ f ∈ gs', FieldOk f) : PingEvent.read (encodeFields gs) = PingEvent.read (encodeFields gs') :=
  fold_newer (merge := PingEvent.merge) (S := PingEvent.schema) {} (fun acc no v h => by
    have hne : ∀ k ∈ PingEvent.schema.numbers, no ≠ k := fun k hk hx => h (hx ▸ hk)
    simp only [PingEvent.schema, Schema.numbers, Schema.fields, List.map, List.forall_mem_cons] at hne
    unfold PingEvent.merge
    split <;> first | (rename_i hx; simp only [Prod.mk.injEq] at hx; simp [hx.1] at hne; done) | rfl) (fun acc no T h => by simp [PingEvent.schema, Schema.fields] at h)
    (by merge_comm PingEvent.merge PingEvent.schema) h h1 h2

/-- the codec of `PingEvent`. -/
def PingEvent.codec : Codec PingEvent where
  schema := PingEvent.schema
  values := PingEvent.values
  Ok := fun _ => True
  write := PingEvent.write
  read := PingEvent.read

theorem PingEvent.faithful : PingEvent.codec.Faithful where
  numbers := fun _ => rfl
  distinct := by decide
  follows := fun m _ => m.write_spec
  robust := fun m fs' hok hs hn hf => by
    have hs' : m.write.length < 2 ^ 32 := hs
    have hn' : NewerF PingEvent.schema m.fields fs' := by rw [PingEvent.fields_values]; exact hn
    show PingEvent.read (encodeFields fs') = some m
    rw [← PingEvent.read_newer hn' (fieldOk_of_small m.fields_pre hs') hf]
    exact m.read_write hs'

theorem PongEvent.fields_values (m : PongEvent) : m.fields = m.values.flatMap fun p => p.2.emit p.1 := by
  simp only [PongEvent.values, PongEvent.fields, List.flatMap_cons, List.flatMap_nil, List.append_nil, List.append_assoc, emit_u64, emit_u32, emit_i64, emit_i32,
    emit_bool, emit_str, emit_bytes, emit_enum, emit_msg, emit_strs, emit_msgs, emit_map]

theorem PongEvent.write_spec (m : PongEvent) : m.write = m.spec := by
  unfold PongEvent.write PongEvent.spec wire; rw [PongEvent.fields_values]

theorem PongEvent.write_funext : PongEvent.write = PongEvent.spec := funext PongEvent.write_spec

theorem PongEvent.read_newer {gs gs' : List Field} (h : NewerF PongEvent.schema gs gs') (h1 : ∀ f ∈ gs, FieldOk f)
    (h2 : ∀ f ∈ gs', FieldOk f) : PongEvent.read (encodeFields gs) = PongEvent.read (encodeFields gs') :=
  fold_newer (merge := PongEvent.merge) (S := PongEvent.schema) {} (fun acc no v h => by
    have hne : ∀ k ∈ PongEvent.schema.numbers, no ≠ k := fun k hk hx => h (hx ▸ hk)
    simp only [PongEvent.schema, Schema.numbers, Schema.fields, List.map, List.forall_mem_cons] at hne
    unfold PongEvent.merge
    split <;> first | (rename_i hx; simp only [Prod.mk.injEq] at hx; simp [hx.1] at hne; done) | rfl) (fun acc no T h => by simp [PongEvent.schema, Schema.fields] at h)
    (by merge_comm PongEvent.merge PongEvent.schema) h h1 h2

/-- the codec of `PongEvent`. -/
def PongEvent.codec : Codec PongEvent where
  schema := PongEvent.schema
  values := PongEvent.values
  Ok := fun _ => True
  write := PongEvent.write
  read := PongEvent.read

theorem PongEvent.faithful : PongEvent.codec.Faithful where
  numbers := fun _ => rfl
  distinct := by decide
  follows := fun m _ => m.write_spec
  robust := fun m fs' hok hs hn hf => by
    have hs' : m.write.length < 2 ^ 32 := hs
    have hn' : NewerF PongEvent.schema m.fields fs' := by rw [PongEvent.fields_values]; exact hn
    show PongEvent.read (encodeFields fs') = some m
    rw [← PongEvent.read_newer hn' (fieldOk_of_small m.fields_pre hs') hf]
    exact m.read_write hs'

theorem CreateActorEvent.fields_values (m : CreateActorEvent) : m.fields = m.values.flatMap fun p => p.2.emit p.1 := by
  simp only [CreateActorEvent.values, CreateActorEvent.fields, List.flatMap_cons, List.flatMap_nil, List.append_nil, List.append_assoc, emit_u64, emit_u32, emit_i64, emit_i32,
    emit_bool, emit_str, emit_bytes, emit_enum, emit_msg, emit_strs, emit_msgs, emit_map]

theorem CreateActorEvent.write_spec (m : CreateActorEvent) : m.write = m.spec := by
  unfold CreateActorEvent.write CreateActorEvent.spec wire; rw [CreateActorEvent.fields_values]

theorem CreateActorEvent.write_funext : CreateActorEvent.write = CreateActorEvent.spec := funext CreateActorEvent.write_spec

theorem CreateActorEvent.read_newer {gs gs' : List Field} (h : NewerF CreateActorEvent.schema gs gs') (h1 : ∀ f ∈ gs, FieldOk f)
    (h2 : ∀ f ∈ gs', FieldOk f) : CreateActorEvent.read (encodeFields gs) = CreateActorEvent.read (encodeFields gs') :=
  fold_newer (merge := CreateActorEvent.merge) (S := CreateActorEvent.schema) {} (fun acc no v h => by
    have hne : ∀ k ∈ CreateActorEvent.schema.numbers, no ≠ k := fun k hk hx => h (hx ▸ hk)
    simp only [CreateActorEvent.schema, Schema.numbers, Schema.fields, List.map, List.forall_mem_cons] at hne
    unfold CreateActorEvent.merge
    split <;> first | (rename_i hx; simp only [Prod.mk.injEq] at hx; simp [hx.1] at hne; done) | rfl) (fun acc no T h => by simp [CreateActorEvent.schema, Schema.fields] at h)
    (by merge_comm CreateActorEvent.merge CreateActorEvent.schema) h h1 h2

/-- the codec of `CreateActorEvent`. -/
def CreateActorEvent.codec : Codec CreateActorEvent where
  schema := CreateActorEvent.schema
  values := CreateActorEvent.values
  Ok := fun _ => True
  write := CreateActorEvent.write
  read := CreateActorEvent.read

theorem CreateActorEvent.faithful : CreateActorEvent.codec.Faithful where
  numbers := fun _ => rfl
  distinct := by decide
  follows := fun m _ => m.write_spec
  robust := fun m fs' hok hs hn hf => by
    have hs' : m.write.length < 2 ^ 32 := hs
    have hn' : NewerF CreateActorEvent.schema m.fields fs' := by rw [CreateActorEvent.fields_values]; exact hn
    show CreateActorEvent.read (encodeFields fs') = some m
    rw [← CreateActorEvent.read_newer hn' (fieldOk_of_small m.fields_pre hs') hf]
    exact m.read_write hs'

theorem FindActorEvent.fields_values (m : FindActorEvent) : m.fields = m.values.flatMap fun p => p.2.emit p.1 := by
  simp only [FindActorEvent.values, FindActorEvent.fields, List.flatMap_cons, List.flatMap_nil, List.append_nil, List.append_assoc, emit_u64, emit_u32, emit_i64, emit_i32,
    emit_bool, emit_str, emit_bytes, emit_enum, emit_msg, emit_strs, emit_msgs, emit_map]

theorem FindActorEvent.write_spec (m : FindActorEvent) : m.write = m.spec := by
  unfold FindActorEvent.write FindActorEvent.spec wire; rw [FindActorEvent.fields_values]

theorem FindActorEvent.write_funext : FindActorEvent.write = FindActorEvent.spec := funext FindActorEvent.write_spec

theorem FindActorEvent.read_newer {gs gs' : List Field} (h : NewerF FindActorEvent.schema gs gs') (h1 : ∀ f ∈ gs, FieldOk f)
    (h2 : ∀ f ∈ gs', FieldOk f) : FindActorEvent.read (encodeFields gs) = FindActorEvent.read (encodeFields gs') :=
  fold_newer (merge := FindActorEvent.merge) (S := FindActorEvent.schema) {} (fun acc no v h => by
    have hne : ∀ k ∈ FindActorEvent.schema.numbers, no ≠ k := fun k hk hx => h (hx ▸ hk)
    simp only [FindActorEvent.schema, Schema.numbers, Schema.fields, List.map, List.forall_mem_cons] at hne
    unfold FindActorEvent.merge
    split <;> first | (rename_i hx; simp only [Prod.mk.injEq] at hx; simp [hx.1] at hne; done) | rfl) (fun acc no T h => by simp [FindActorEvent.schema, Schema.fields] at h)
    (by merge_comm FindActorEvent.merge FindActorEvent.schema) h h1 h2

/-- the codec of `FindActorEvent`. -/
def FindActorEvent.codec : Codec FindActorEvent where
  schema := FindActorEvent.schema
  values := FindActorEvent.values
  Ok := fun _ => True
  write := FindActorEvent.write
  read := FindActorEvent.read

theorem FindActorEvent.faithful : FindActorEvent.codec.Faithful where
  numbers := fun _ => rfl
  distinct := by decide
  follows := fun m _ => m.write_spec
  robust := fun m fs' hok hs hn hf => by
    have hs' : m.write.length < 2 ^ 32 := hs
    have hn' : NewerF FindActorEvent.schema m.fields fs' := by rw [FindActorEvent.fields_values]; exact hn
    show FindActorEvent.read (encodeFields fs') = some m
    rw [← FindActorEvent.read_newer hn' (fieldOk_of_small m.fields_pre hs') hf]
    exact m.read_write hs'

theorem ActorAddress.fields_values (m : ActorAddress) : m.fields = m.values.flatMap fun p => p.2.emit p.1 := by
  simp only [ActorAddress.values, ActorAddress.fields, List.flatMap_cons, List.flatMap_nil, List.append_nil, List.append_assoc, emit_u64, emit_u32, emit_i64, emit_i32,
    emit_bool, emit_str, emit_bytes, emit_enum, emit_msg, emit_strs, emit_msgs, emit_map, UInt64Value.write_funext]

theorem ActorAddress.write_spec (m : ActorAddress) : m.write = m.spec := by
  unfold ActorAddress.write ActorAddress.spec wire; rw [ActorAddress.fields_values]

theorem ActorAddress.write_funext : ActorAddress.write = ActorAddress.spec := funext ActorAddress.write_spec

theorem ActorAddress.read_newer {gs gs' : List Field} (h : NewerF ActorAddress.schema gs gs') (h1 : ∀ f ∈ gs, FieldOk f)
    (h2 : ∀ f ∈ gs', FieldOk f) : ActorAddress.read (encodeFields gs) = ActorAddress.read (encodeFields gs') :=
  fold_newer (merge := ActorAddress.merge) (S := ActorAddress.schema) {} (fun acc no v h => by
    have hne : ∀ k ∈ ActorAddress.schema.numbers, no ≠ k := fun k hk hx => h (hx ▸ hk)
    simp only [ActorAddress.schema, Schema.numbers, Schema.fields, List.map, List.forall_mem_cons] at hne
    unfold ActorAddress.merge
    split <;> first | (rename_i hx; simp only [Prod.mk.injEq] at hx; simp [hx.1] at hne; done) | rfl) (fun acc no T h gs gs' hn h1 h2 => by
    simp only [ActorAddress.schema, Schema.fields, List.mem_cons, Prod.mk.injEq, Option.some.injEq, reduceCtorEq, and_false, false_or, or_false,
      List.not_mem_nil] at h
    obtain ⟨rfl, rfl⟩ := h
    · simp only [ActorAddress.merge, UInt64Value.read_newer hn h1 h2])
    (by merge_comm ActorAddress.merge ActorAddress.schema) h h1 h2

/-- the codec of `ActorAddress`. -/
def ActorAddress.codec : Codec ActorAddress where
  schema := ActorAddress.schema
  values := ActorAddress.values
  Ok := fun _ => True
  write := ActorAddress.write
  read := ActorAddress.read

theorem ActorAddress.faithful : ActorAddress.codec.Faithful where
  numbers := fun _ => rfl
  distinct := by decide
  follows := fun m _ => m.write_spec
  robust := fun m fs' hok hs hn hf => by
    have hs' : m.write.length < 2 ^ 32 := hs
    have hn' : NewerF ActorAddress.schema m.fields fs' := by rw [ActorAddress.fields_values]; exact hn
    show ActorAddress.read (encodeFields fs') = some m
    rw [← ActorAddress.read_newer hn' (fieldOk_of_small m.fields_pre hs') hf]
    exact m.read_write hs'

theorem MessageRequest.fields_values (m : MessageRequest) : m.fields = m.values.flatMap fun p => p.2.emit p.1 := by
  simp only [MessageRequest.values, MessageRequest.fields, List.flatMap_cons, List.flatMap_nil, List.append_nil, List.append_assoc, emit_u64, emit_u32, emit_i64, emit_i32,
    emit_bool, emit_str, emit_bytes, emit_enum, emit_msg, emit_strs, emit_msgs, emit_map]

theorem MessageRequest.write_spec (m : MessageRequest) : m.write = m.spec := by
  unfold MessageRequest.write MessageRequest.spec wire; rw [MessageRequest.fields_values]

theorem MessageRequest.write_funext : MessageRequest.write = MessageRequest.spec := funext MessageRequest.write_spec

theorem MessageRequest.read_newer {gs gs' : List Field} (h : NewerF MessageRequest.schema gs gs') (h1 : ∀ f ∈ gs, FieldOk f)
    (h2 : ∀ f ∈ gs', FieldOk f) : MessageRequest.read (encodeFields gs) = MessageRequest.read (encodeFields gs') :=
  fold_newer (merge := MessageRequest.merge) (S := MessageRequest.schema) {} (fun acc no v h => by
    have hne : ∀ k ∈ MessageRequest.schema.numbers, no ≠ k := fun k hk hx => h (hx ▸ hk)
    simp only [MessageRequest.schema, Schema.numbers, Schema.fields, List.map, List.forall_mem_cons] at hne
    unfold MessageRequest.merge
    split <;> first | (rename_i hx; simp only [Prod.mk.injEq] at hx; simp [hx.1] at hne; done) | rfl) (fun acc no T h => by simp [MessageRequest.schema, Schema.fields] at h)
    (by merge_comm MessageRequest.merge MessageRequest.schema) h h1 h2

/-- the codec of `MessageRequest`. -/
def MessageRequest.codec : Codec MessageRequest where
  schema := MessageRequest.schema
  values := MessageRequest.values
  Ok := fun _ => True
  write := MessageRequest.write
  read := MessageRequest.read

theorem MessageRequest.faithful : MessageRequest.codec.Faithful where
  numbers := fun _ => rfl
  distinct := by decide
  follows := fun m _ => m.write_spec
  robust := fun m fs' hok hs hn hf => by
    have hs' : m.write.length < 2 ^ 32 := hs
    have hn' : NewerF MessageRequest.schema m.fields fs' := by rw [MessageRequest.fields_values]; exact hn
    show MessageRequest.read (encodeFields fs') = some m
    rw [← MessageRequest.read_newer hn' (fieldOk_of_small m.fields_pre hs') hf]
    exact m.read_write hs'

theorem SessionHandshake.fields_values (m : SessionHandshake) : m.fields = m.values.flatMap fun p => p.2.emit p.1 := by
  simp only [SessionHandshake.values, SessionHandshake.fields, List.flatMap_cons, List.flatMap_nil, List.append_nil, List.append_assoc, emit_u64, emit_u32, emit_i64, emit_i32,
    emit_bool, emit_str, emit_bytes, emit_enum, emit_msg, emit_strs, emit_msgs, emit_map, RemoteNode.write_funext]

theorem SessionHandshake.write_spec (m : SessionHandshake) : m.write = m.spec := by
  unfold SessionHandshake.write SessionHandshake.spec wire; rw [SessionHandshake.fields_values]

theorem SessionHandshake.write_funext : SessionHandshake.write = SessionHandshake.spec := funext SessionHandshake.write_spec

theorem SessionHandshake.read_newer {gs gs' : List Field} (h : NewerF SessionHandshake.schema gs gs') (h1 : ∀ f ∈ gs, FieldOk f)
    (h2 : ∀ f ∈ gs', FieldOk f) : SessionHandshake.read (encodeFields gs) = SessionHandshake.read (encodeFields gs') :=
  fold_newer (merge := SessionHandshake.merge) (S := SessionHandshake.schema) {} (fun acc no v h => by
    have hne : ∀ k ∈ SessionHandshake.schema.numbers, no ≠ k := fun k hk hx => h (hx ▸ hk)
    simp only [SessionHandshake.schema, Schema.numbers, Schema.fields, List.map, List.forall_mem_cons] at hne
    unfold SessionHandshake.merge
    split <;> first | (rename_i hx; simp only [Prod.mk.injEq] at hx; simp [hx.1] at hne; done) | rfl) (fun acc no T h gs gs' hn h1 h2 => by
    simp only [SessionHandshake.schema, Schema.fields, List.mem_cons, Prod.mk.injEq, Option.some.injEq, reduceCtorEq, and_false, false_or, or_false,
      List.not_mem_nil] at h
    obtain ⟨rfl, rfl⟩ := h
    · simp only [SessionHandshake.merge, RemoteNode.read_newer hn h1 h2])
    (by merge_comm SessionHandshake.merge SessionHandshake.schema) h h1 h2

/-- the codec of `SessionHandshake`. -/
def SessionHandshake.codec : Codec SessionHandshake where
  schema := SessionHandshake.schema
  values := SessionHandshake.values
  Ok := SessionHandshake.Ok
  write := SessionHandshake.write
  read := SessionHandshake.read

theorem SessionHandshake.faithful : SessionHandshake.codec.Faithful where
  numbers := fun _ => rfl
  distinct := by decide
  follows := fun m _ => m.write_spec
  robust := fun m fs' hok hs hn hf => by
    have hs' : m.write.length < 2 ^ 32 := hs
    have hn' : NewerF SessionHandshake.schema m.fields fs' := by rw [SessionHandshake.fields_values]; exact hn
    show SessionHandshake.read (encodeFields fs') = some m
    rw [← SessionHandshake.read_newer hn' (fieldOk_of_small m.fields_pre hs') hf]
    exact m.read_write hok hs'

theorem StreamPublishEvent.fields_values (m : StreamPublishEvent) : m.fields = m.values.flatMap fun p => p.2.emit p.1 := by
  simp only [StreamPublishEvent.values, StreamPublishEvent.fields, List.flatMap_cons, List.flatMap_nil, List.append_nil, List.append_assoc, emit_u64, emit_u32, emit_i64, emit_i32,
    emit_bool, emit_str, emit_bytes, emit_enum, emit_msg, emit_strs, emit_msgs, emit_map]

theorem StreamPublishEvent.write_spec (m : StreamPublishEvent) : m.write = m.spec := by
  unfold StreamPublishEvent.write StreamPublishEvent.spec wire; rw [StreamPublishEvent.fields_values]

theorem StreamPublishEvent.write_funext : StreamPublishEvent.write = StreamPublishEvent.spec := funext StreamPublishEvent.write_spec

theorem StreamPublishEvent.read_newer {gs gs' : List Field} (h : NewerF StreamPublishEvent.schema gs gs') (h1 : ∀ f ∈ gs, FieldOk f)
    (h2 : ∀ f ∈ gs', FieldOk f) : StreamPublishEvent.read (encodeFields gs) = StreamPublishEvent.read (encodeFields gs') :=
  fold_newer (merge := StreamPublishEvent.merge) (S := StreamPublishEvent.schema) {} (fun acc no v h => by
    have hne : ∀ k ∈ StreamPublishEvent.schema.numbers, no ≠ k := fun k hk hx => h (hx ▸ hk)
    simp only [StreamPublishEvent.schema, Schema.numbers, Schema.fields, List.map, List.forall_mem_cons] at hne
    unfold StreamPublishEvent.merge
    split <;> first | (rename_i hx; simp only [Prod.mk.injEq] at hx; simp [hx.1] at hne; done) | rfl) (fun acc no T h => by simp [StreamPublishEvent.schema, Schema.fields] at h)
    (by merge_comm StreamPublishEvent.merge StreamPublishEvent.schema) h h1 h2

/-- the codec of `StreamPublishEvent`. -/
def StreamPublishEvent.codec : Codec StreamPublishEvent where
  schema := StreamPublishEvent.schema
  values := StreamPublishEvent.values
  Ok := fun _ => True
  write := StreamPublishEvent.write
  read := StreamPublishEvent.read

theorem StreamPublishEvent.faithful : StreamPublishEvent.codec.Faithful where
  numbers := fun _ => rfl
  distinct := by decide
  follows := fun m _ => m.write_spec
  robust := fun m fs' hok hs hn hf => by
    have hs' : m.write.length < 2 ^ 32 := hs
    have hn' : NewerF StreamPublishEvent.schema m.fields fs' := by rw [StreamPublishEvent.fields_values]; exact hn
    show StreamPublishEvent.read (encodeFields fs') = some m
    rw [← StreamPublishEvent.read_newer hn' (fieldOk_of_small m.fields_pre hs') hf]
    exact m.read_write hs'

theorem NewNodeEvent.fields_values (m : NewNodeEvent) : m.fields = m.values.flatMap fun p => p.2.emit p.1 := by
  simp only [NewNodeEvent.values, NewNodeEvent.fields, List.flatMap_cons, List.flatMap_nil, List.append_nil, List.append_assoc, emit_u64, emit_u32, emit_i64, emit_i32,
    emit_bool, emit_str, emit_bytes, emit_enum, emit_msg, emit_strs, emit_msgs, emit_map, RemoteNode.write_funext]

theorem NewNodeEvent.write_spec (m : NewNodeEvent) : m.write = m.spec := by
  unfold NewNodeEvent.write NewNodeEvent.spec wire; rw [NewNodeEvent.fields_values]

theorem NewNodeEvent.write_funext : NewNodeEvent.write = NewNodeEvent.spec := funext NewNodeEvent.write_spec

theorem NewNodeEvent.read_newer {gs gs' : List Field} (h : NewerF NewNodeEvent.schema gs gs') (h1 : ∀ f ∈ gs, FieldOk f)
    (h2 : ∀ f ∈ gs', FieldOk f) : NewNodeEvent.read (encodeFields gs) = NewNodeEvent.read (encodeFields gs') :=
  fold_newer (merge := NewNodeEvent.merge) (S := NewNodeEvent.schema) {} (fun acc no v h => by
    have hne : ∀ k ∈ NewNodeEvent.schema.numbers, no ≠ k := fun k hk hx => h (hx ▸ hk)
    simp only [NewNodeEvent.schema, Schema.numbers, Schema.fields, List.map, List.forall_mem_cons] at hne
    unfold NewNodeEvent.merge
    split <;> first | (rename_i hx; simp only [Prod.mk.injEq] at hx; simp [hx.1] at hne; done) | rfl) (fun acc no T h gs gs' hn h1 h2 => by
    simp only [NewNodeEvent.schema, Schema.fields, List.mem_cons, Prod.mk.injEq, Option.some.injEq, reduceCtorEq, and_false, false_or, or_false,
      List.not_mem_nil] at h
    obtain ⟨rfl, rfl⟩ := h
    · simp only [NewNodeEvent.merge, RemoteNode.read_newer hn h1 h2])
    (by merge_comm NewNodeEvent.merge NewNodeEvent.schema) h h1 h2

/-- the codec of `NewNodeEvent`. -/
def NewNodeEvent.codec : Codec NewNodeEvent where
  schema := NewNodeEvent.schema
  values := NewNodeEvent.values
  Ok := NewNodeEvent.Ok
  write := NewNodeEvent.write
  read := NewNodeEvent.read

theorem NewNodeEvent.faithful : NewNodeEvent.codec.Faithful where
  numbers := fun _ => rfl
  distinct := by decide
  follows := fun m _ => m.write_spec
  robust := fun m fs' hok hs hn hf => by
    have hs' : m.write.length < 2 ^ 32 := hs
    have hn' : NewerF NewNodeEvent.schema m.fields fs' := by rw [NewNodeEvent.fields_values]; exact hn
    show NewNodeEvent.read (encodeFields fs') = some m
    rw [← NewNodeEvent.read_newer hn' (fieldOk_of_small m.fields_pre hs') hf]
    exact m.read_write hok hs'

theorem NodeRemovedEvent.fields_values (m : NodeRemovedEvent) : m.fields = m.values.flatMap fun p => p.2.emit p.1 := by
  simp only [NodeRemovedEvent.values, NodeRemovedEvent.fields, List.flatMap_cons, List.flatMap_nil, List.append_nil, List.append_assoc, emit_u64, emit_u32, emit_i64, emit_i32,
    emit_bool, emit_str, emit_bytes, emit_enum, emit_msg, emit_strs, emit_msgs, emit_map, RemoteNode.write_funext]

theorem NodeRemovedEvent.write_spec (m : NodeRemovedEvent) : m.write = m.spec := by
  unfold NodeRemovedEvent.write NodeRemovedEvent.spec wire; rw [NodeRemovedEvent.fields_values]

theorem NodeRemovedEvent.write_funext : NodeRemovedEvent.write = NodeRemovedEvent.spec := funext NodeRemovedEvent.write_spec

theorem NodeRemovedEvent.read_newer {gs gs' : List Field} (h : NewerF NodeRemovedEvent.schema gs gs') (h1 : ∀ f ∈ gs, FieldOk f)
    (h2 : ∀ f ∈ gs', FieldOk f) : NodeRemovedEvent.read (encodeFields gs) = NodeRemovedEvent.read (encodeFields gs') :=
  fold_newer (merge := NodeRemovedEvent.merge) (S := NodeRemovedEvent.schema) {} (fun acc no v h => by
    have hne : ∀ k ∈ NodeRemovedEvent.schema.numbers, no ≠ k := fun k hk hx => h (hx ▸ hk)
    simp only [NodeRemovedEvent.schema, Schema.numbers, Schema.fields, List.map, List.forall_mem_cons] at hne
    unfold NodeRemovedEvent.merge
    split <;> first | (rename_i hx; simp only [Prod.mk.injEq] at hx; simp [hx.1] at hne; done) | rfl) (fun acc no T h gs gs' hn h1 h2 => by
    simp only [NodeRemovedEvent.schema, Schema.fields, List.mem_cons, Prod.mk.injEq, Option.some.injEq, reduceCtorEq, and_false, false_or, or_false,
      List.not_mem_nil] at h
    obtain ⟨rfl, rfl⟩ := h
    · simp only [NodeRemovedEvent.merge, RemoteNode.read_newer hn h1 h2])
    (by merge_comm NodeRemovedEvent.merge NodeRemovedEvent.schema) h h1 h2

/-- the codec of `NodeRemovedEvent`. -/
def NodeRemovedEvent.codec : Codec NodeRemovedEvent where
  schema := NodeRemovedEvent.schema
  values := NodeRemovedEvent.values
  Ok := NodeRemovedEvent.Ok
  write := NodeRemovedEvent.write
  read := NodeRemovedEvent.read

theorem NodeRemovedEvent.faithful : NodeRemovedEvent.codec.Faithful where
  numbers := fun _ => rfl
  distinct := by decide
  follows := fun m _ => m.write_spec
  robust := fun m fs' hok hs hn hf => by
    have hs' : m.write.length < 2 ^ 32 := hs
    have hn' : NewerF NodeRemovedEvent.schema m.fields fs' := by rw [NodeRemovedEvent.fields_values]; exact hn
    show NodeRemovedEvent.read (encodeFields fs') = some m
    rw [← NodeRemovedEvent.read_newer hn' (fieldOk_of_small m.fields_pre hs') hf]
    exact m.read_write hok hs'

theorem LeaderChangedEvent.fields_values (m : LeaderChangedEvent) : m.fields = m.values.flatMap fun p => p.2.emit p.1 := by
  simp only [LeaderChangedEvent.values, LeaderChangedEvent.fields, List.flatMap_cons, List.flatMap_nil, List.append_nil, List.append_assoc, emit_u64, emit_u32, emit_i64, emit_i32,
    emit_bool, emit_str, emit_bytes, emit_enum, emit_msg, emit_strs, emit_msgs, emit_map]

theorem LeaderChangedEvent.write_spec (m : LeaderChangedEvent) : m.write = m.spec := by
  unfold LeaderChangedEvent.write LeaderChangedEvent.spec wire; rw [LeaderChangedEvent.fields_values]

theorem LeaderChangedEvent.write_funext : LeaderChangedEvent.write = LeaderChangedEvent.spec := funext LeaderChangedEvent.write_spec

theorem LeaderChangedEvent.read_newer {gs gs' : List Field} (h : NewerF LeaderChangedEvent.schema gs gs') (h1 : ∀ f ∈ gs, FieldOk f)
    (h2 : ∀ f ∈ gs', FieldOk f) : LeaderChangedEvent.read (encodeFields gs) = LeaderChangedEvent.read (encodeFields gs') :=
  fold_newer (merge := LeaderChangedEvent.merge) (S := LeaderChangedEvent.schema) {} (fun acc no v h => by
    have hne : ∀ k ∈ LeaderChangedEvent.schema.numbers, no ≠ k := fun k hk hx => h (hx ▸ hk)
    simp only [LeaderChangedEvent.schema, Schema.numbers, Schema.fields, List.map, List.forall_mem_cons] at hne
    unfold LeaderChangedEvent.merge
    split <;> first | (rename_i hx; simp only [Prod.mk.injEq] at hx; simp [hx.1] at hne; done) | rfl) (fun acc no T h => by simp [LeaderChangedEvent.schema, Schema.fields] at h)
    (by merge_comm LeaderChangedEvent.merge LeaderChangedEvent.schema) h h1 h2

/-- the codec of `LeaderChangedEvent`. -/
def LeaderChangedEvent.codec : Codec LeaderChangedEvent where
  schema := LeaderChangedEvent.schema
  values := LeaderChangedEvent.values
  Ok := fun _ => True
  write := LeaderChangedEvent.write
  read := LeaderChangedEvent.read

theorem LeaderChangedEvent.faithful : LeaderChangedEvent.codec.Faithful where
  numbers := fun _ => rfl
  distinct := by decide
  follows := fun m _ => m.write_spec
  robust := fun m fs' hok hs hn hf => by
    have hs' : m.write.length < 2 ^ 32 := hs
    have hn' : NewerF LeaderChangedEvent.schema m.fields fs' := by rw [LeaderChangedEvent.fields_values]; exact hn
    show LeaderChangedEvent.read (encodeFields fs') = some m
    rw [← LeaderChangedEvent.read_newer hn' (fieldOk_of_small m.fields_pre hs') hf]
    exact m.read_write hs'

theorem MemberUpEvent.fields_values (m : MemberUpEvent) : m.fields = m.values.flatMap fun p => p.2.emit p.1 := by
  simp only [MemberUpEvent.values, MemberUpEvent.fields, List.flatMap_cons, List.flatMap_nil, List.append_nil, List.append_assoc, emit_u64, emit_u32, emit_i64, emit_i32,
    emit_bool, emit_str, emit_bytes, emit_enum, emit_msg, emit_strs, emit_msgs, emit_map, RemoteNode.write_funext]

theorem MemberUpEvent.write_spec (m : MemberUpEvent) : m.write = m.spec := by
  unfold MemberUpEvent.write MemberUpEvent.spec wire; rw [MemberUpEvent.fields_values]

theorem MemberUpEvent.write_funext : MemberUpEvent.write = MemberUpEvent.spec := funext MemberUpEvent.write_spec

theorem MemberUpEvent.read_newer {gs gs' : List Field} (h : NewerF MemberUpEvent.schema gs gs') (h1 : ∀ f ∈ gs, FieldOk f)
    (h2 : ∀ f ∈ gs', FieldOk f) : MemberUpEvent.read (encodeFields gs) = MemberUpEvent.read (encodeFields gs') :=
  fold_newer (merge := MemberUpEvent.merge) (S := MemberUpEvent.schema) {} (fun acc no v h => by
    have hne : ∀ k ∈ MemberUpEvent.schema.numbers, no ≠ k := fun k hk hx => h (hx ▸ hk)
    simp only [MemberUpEvent.schema, Schema.numbers, Schema.fields, List.map, List.forall_mem_cons] at hne
    unfold MemberUpEvent.merge
    split <;> first | (rename_i hx; simp only [Prod.mk.injEq] at hx; simp [hx.1] at hne; done) | rfl) (fun acc no T h gs gs' hn h1 h2 => by
    simp only [MemberUpEvent.schema, Schema.fields, List.mem_cons, Prod.mk.injEq, Option.some.injEq, reduceCtorEq, and_false, false_or, or_false,
      List.not_mem_nil] at h
    obtain ⟨rfl, rfl⟩ := h
    · simp only [MemberUpEvent.merge, RemoteNode.read_newer hn h1 h2])
    (by merge_comm MemberUpEvent.merge MemberUpEvent.schema) h h1 h2

/-- the codec of `MemberUpEvent`. -/
def MemberUpEvent.codec : Codec MemberUpEvent where
  schema := MemberUpEvent.schema
  values := MemberUpEvent.values
  Ok := MemberUpEvent.Ok
  write := MemberUpEvent.write
  read := MemberUpEvent.read

theorem MemberUpEvent.faithful : MemberUpEvent.codec.Faithful where
  numbers := fun _ => rfl
  distinct := by decide
  follows := fun m _ => m.write_spec
  robust := fun m fs' hok hs hn hf => by
    have hs' : m.write.length < 2 ^ 32 := hs
    have hn' : NewerF MemberUpEvent.schema m.fields fs' := by rw [MemberUpEvent.fields_values]; exact hn
    show MemberUpEvent.read (encodeFields fs') = some m
    rw [← MemberUpEvent.read_newer hn' (fieldOk_of_small m.fields_pre hs') hf]
    exact m.read_write hok hs'

theorem RaftRequest.fields_values (m : RaftRequest) : m.fields = m.values.flatMap fun p => p.2.emit p.1 := by
  simp only [RaftRequest.values, RaftRequest.fields, List.flatMap_cons, List.flatMap_nil, List.append_nil, List.append_assoc, emit_u64, emit_u32, emit_i64, emit_i32,
    emit_bool, emit_str, emit_bytes, emit_enum, emit_msg, emit_strs, emit_msgs, emit_map]

theorem RaftRequest.write_spec (m : RaftRequest) : m.write = m.spec := by
  unfold RaftRequest.write RaftRequest.spec wire; rw [RaftRequest.fields_values]

theorem RaftRequest.write_funext : RaftRequest.write = RaftRequest.spec := funext RaftRequest.write_spec

theorem RaftRequest.read_newer {gs gs' : List Field} (h : NewerF RaftRequest.schema gs gs') (h1 : ∀ f ∈ gs, FieldOk f)
    (h2 : ∀ f ∈ gs', FieldOk f) : RaftRequest.read (encodeFields gs) = RaftRequest.read (encodeFields gs') :=
  fold_newer (merge := RaftRequest.merge) (S := RaftRequest.schema) {} (fun acc no v h => by
    have hne : ∀ k ∈ RaftRequest.schema.numbers, no ≠ k := fun k hk hx => h (hx ▸ hk)
    simp only [RaftRequest.schema, Schema.numbers, Schema.fields, List.map, List.forall_mem_cons] at hne
    unfold RaftRequest.merge
    split <;> first | (rename_i hx; simp only [Prod.mk.injEq] at hx; simp [hx.1] at hne; done) | rfl) (fun acc no T h => by simp [RaftRequest.schema, Schema.fields] at h)
    (by merge_comm RaftRequest.merge RaftRequest.schema) h h1 h2

/-- the codec of `RaftRequest`. -/
def RaftRequest.codec : Codec RaftRequest where
  schema := RaftRequest.schema
  values := RaftRequest.values
  Ok := fun _ => True
  write := RaftRequest.write
  read := RaftRequest.read

theorem RaftRequest.faithful : RaftRequest.codec.Faithful where
  numbers := fun _ => rfl
  distinct := by decide
  follows := fun m _ => m.write_spec
  robust := fun m fs' hok hs hn hf => by
    have hs' : m.write.length < 2 ^ 32 := hs
    have hn' : NewerF RaftRequest.schema m.fields fs' := by rw [RaftRequest.fields_values]; exact hn
    show RaftRequest.read (encodeFields fs') = some m
    rw [← RaftRequest.read_newer hn' (fieldOk_of_small m.fields_pre hs') hf]
    exact m.read_write hs'

end Network


namespace Sharding

theorem AllocateShard.fields_values (m : AllocateShard) : m.fields = m.values.flatMap fun p => p.2.emit p.1 := by
  simp only [AllocateShard.values, AllocateShard.fields, List.flatMap_cons, List.flatMap_nil, List.append_nil, List.append_assoc, emit_u64, emit_u32, emit_i64, emit_i32,
    emit_bool, emit_str, emit_bytes, emit_enum, emit_msg, emit_strs, emit_msgs, emit_map]

theorem AllocateShard.write_spec (m : AllocateShard) : m.write = m.spec := by
  unfold AllocateShard.write AllocateShard.spec wire; rw [AllocateShard.fields_values]

theorem AllocateShard.write_funext : AllocateShard.write = AllocateShard.spec := funext AllocateShard.write_spec

theorem AllocateShard.read_newer {gs gs' : List Field} (h : NewerF AllocateShard.schema gs gs') (h1 : ∀ f ∈ gs, FieldOk f)
    (h2 : ∀ f ∈ gs', FieldOk f) : AllocateShard.read (encodeFields gs) = AllocateShard.read (encodeFields gs') :=
  fold_newer (merge := AllocateShard.merge) (S := AllocateShard.schema) {} (fun acc no v h => by
    have hne : ∀ k ∈ AllocateShard.schema.numbers, no ≠ k := fun k hk hx => h (hx ▸ hk)
    simp only [AllocateShard.schema, Schema.numbers, Schema.fields, List.map, List.forall_mem_cons] at hne
    unfold AllocateShard.merge
    split <;> first | (rename_i hx; simp only [Prod.mk.injEq] at hx; simp [hx.1] at hne; done) | rfl) (fun acc no T h => by simp [AllocateShard.schema, Schema.fields] at h)
    (by merge_comm AllocateShard.merge AllocateShard.schema) h h1 h2

/-- the codec of `AllocateShard`. -/
def AllocateShard.codec : Codec AllocateShard where
  schema := AllocateShard.schema
  values := AllocateShard.values
  Ok := fun _ => True
  write := AllocateShard.write
  read := AllocateShard.read

theorem AllocateShard.faithful : AllocateShard.codec.Faithful where
  numbers := fun _ => rfl
  distinct := by decide
  follows := fun m _ => m.write_spec
  robust := fun m fs' hok hs hn hf => by
    have hs' : m.write.length < 2 ^ 32 := hs
    have hn' : NewerF AllocateShard.schema m.fields fs' := by rw [AllocateShard.fields_values]; exact hn
    show AllocateShard.read (encodeFields fs') = some m
    rw [← AllocateShard.read_newer hn' (fieldOk_of_small m.fields_pre hs') hf]
    exact m.read_write hs'

theorem RemoteShard.fields_values (m : RemoteShard) : m.fields = m.values.flatMap fun p => p.2.emit p.1 := by
  simp only [RemoteShard.values, RemoteShard.fields, List.flatMap_cons, List.flatMap_nil, List.append_nil, List.append_assoc, emit_u64, emit_u32, emit_i64, emit_i32,
    emit_bool, emit_str, emit_bytes, emit_enum, emit_msg, emit_strs, emit_msgs, emit_map]

theorem RemoteShard.write_spec (m : RemoteShard) : m.write = m.spec := by
  unfold RemoteShard.write RemoteShard.spec wire; rw [RemoteShard.fields_values]

theorem RemoteShard.write_funext : RemoteShard.write = RemoteShard.spec := funext RemoteShard.write_spec

theorem RemoteShard.read_newer {gs gs' : List Field} (h : NewerF RemoteShard.schema gs gs') (h1 : ∀ f ∈ gs, FieldOk f)
    (h2 : ∀ f ∈ gs', FieldOk f) : RemoteShard.read (encodeFields gs) = RemoteShard.read (encodeFields gs') :=
  fold_newer (merge := RemoteShard.merge) (S := RemoteShard.schema) {} (fun acc no v h => by
    have hne : ∀ k ∈ RemoteShard.schema.numbers, no ≠ k := fun k hk hx => h (hx ▸ hk)
    simp only [RemoteShard.schema, Schema.numbers, Schema.fields, List.map, List.forall_mem_cons] at hne
    unfold RemoteShard.merge
    split <;> first | (rename_i hx; simp only [Prod.mk.injEq] at hx; simp [hx.1] at hne; done) | rfl) (fun acc no T h => by simp [RemoteShard.schema, Schema.fields] at h)
    (by merge_comm RemoteShard.merge RemoteShard.schema) h h1 h2

/-- the codec of `RemoteShard`. -/
def RemoteShard.codec : Codec RemoteShard where
  schema := RemoteShard.schema
  values := RemoteShard.values
  Ok := fun _ => True
  write := RemoteShard.write
  read := RemoteShard.read

theorem RemoteShard.faithful : RemoteShard.codec.Faithful where
  numbers := fun _ => rfl
  distinct := by decide
  follows := fun m _ => m.write_spec
  robust := fun m fs' hok hs hn hf => by
    have hs' : m.write.length < 2 ^ 32 := hs
    have hn' : NewerF RemoteShard.schema m.fields fs' := by rw [RemoteShard.fields_values]; exact hn
    show RemoteShard.read (encodeFields fs') = some m
    rw [← RemoteShard.read_newer hn' (fieldOk_of_small m.fields_pre hs') hf]
    exact m.read_write hs'

theorem ShardAllocated.fields_values (m : ShardAllocated) : m.fields = m.values.flatMap fun p => p.2.emit p.1 := by
  simp only [ShardAllocated.values, ShardAllocated.fields, List.flatMap_cons, List.flatMap_nil, List.append_nil, List.append_assoc, emit_u64, emit_u32, emit_i64, emit_i32,
    emit_bool, emit_str, emit_bytes, emit_enum, emit_msg, emit_strs, emit_msgs, emit_map, RemoteShard.write_funext]

theorem ShardAllocated.write_spec (m : ShardAllocated) : m.write = m.spec := by
  unfold ShardAllocated.write ShardAllocated.spec wire; rw [ShardAllocated.fields_values]

theorem ShardAllocated.write_funext : ShardAllocated.write = ShardAllocated.spec := funext ShardAllocated.write_spec

theorem ShardAllocated.read_newer {gs gs' : List Field} (h : NewerF ShardAllocated.schema gs gs') (h1 : ∀ f ∈ gs, FieldOk f)
    (h2 : ∀ f ∈ gs', FieldOk f) : ShardAllocated.read (encodeFields gs) = ShardAllocated.read (encodeFields gs') :=
  fold_newer (merge := ShardAllocated.merge) (S := ShardAllocated.schema) {} (fun acc no v h => by
    have hne : ∀ k ∈ ShardAllocated.schema.numbers, no ≠ k := fun k hk hx => h (hx ▸ hk)
    simp only [ShardAllocated.schema, Schema.numbers, Schema.fields, List.map, List.forall_mem_cons] at hne
    unfold ShardAllocated.merge
    split <;> first | (rename_i hx; simp only [Prod.mk.injEq] at hx; simp [hx.1] at hne; done) | rfl) (fun acc no T h gs gs' hn h1 h2 => by
    simp only [ShardAllocated.schema, Schema.fields, List.mem_cons, Prod.mk.injEq, Option.some.injEq, reduceCtorEq, and_false, false_or, or_false,
      List.not_mem_nil] at h
    obtain ⟨rfl, rfl⟩ := h
    · simp only [ShardAllocated.merge, RemoteShard.read_newer hn h1 h2])
    (by merge_comm ShardAllocated.merge ShardAllocated.schema) h h1 h2

/-- the codec of `ShardAllocated`. -/
def ShardAllocated.codec : Codec ShardAllocated where
  schema := ShardAllocated.schema
  values := ShardAllocated.values
  Ok := fun _ => True
  write := ShardAllocated.write
  read := ShardAllocated.read

theorem ShardAllocated.faithful : ShardAllocated.codec.Faithful where
  numbers := fun _ => rfl
  distinct := by decide
  follows := fun m _ => m.write_spec
  robust := fun m fs' hok hs hn hf => by
    have hs' : m.write.length < 2 ^ 32 := hs
    have hn' : NewerF ShardAllocated.schema m.fields fs' := by rw [ShardAllocated.fields_values]; exact hn
    show ShardAllocated.read (encodeFields fs') = some m
    rw [← ShardAllocated.read_newer hn' (fieldOk_of_small m.fields_pre hs') hf]
    exact m.read_write hs'

theorem ShardReallocating.fields_values (m : ShardReallocating) : m.fields = m.values.flatMap fun p => p.2.emit p.1 := by
  simp only [ShardReallocating.values, ShardReallocating.fields, List.flatMap_cons, List.flatMap_nil, List.append_nil, List.append_assoc, emit_u64, emit_u32, emit_i64, emit_i32,
    emit_bool, emit_str, emit_bytes, emit_enum, emit_msg, emit_strs, emit_msgs, emit_map]

theorem ShardReallocating.write_spec (m : ShardReallocating) : m.write = m.spec := by
  unfold ShardReallocating.write ShardReallocating.spec wire; rw [ShardReallocating.fields_values]

theorem ShardReallocating.write_funext : ShardReallocating.write = ShardReallocating.spec := funext ShardReallocating.write_spec

theorem ShardReallocating.read_newer {gs gs' : List Field} (h : NewerF ShardReallocating.schema gs gs') (h1 : ∀ f ∈ gs, FieldOk f)
    (h2 : ∀ f ∈ gs', FieldOk f) : ShardReallocating.read (encodeFields gs) = ShardReallocating.read (encodeFields gs') :=
  fold_newer (merge := ShardReallocating.merge) (S := ShardReallocating.schema) {} (fun acc no v h => by
    have hne : ∀ k ∈ ShardReallocating.schema.numbers, no ≠ k := fun k hk hx => h (hx ▸ hk)
    simp only [ShardReallocating.schema, Schema.numbers, Schema.fields, List.map, List.forall_mem_cons] at hne
    unfold ShardReallocating.merge
    split <;> first | (rename_i hx; simp only [Prod.mk.injEq] at hx; simp [hx.1] at hne; done) | rfl) (fun acc no T h => by simp [ShardReallocating.schema, Schema.fields] at h)
    (by merge_comm ShardReallocating.merge ShardReallocating.schema) h h1 h2

/-- the codec of `ShardReallocating`. -/
def ShardReallocating.codec : Codec ShardReallocating where
  schema := ShardReallocating.schema
  values := ShardReallocating.values
  Ok := fun _ => True
  write := ShardReallocating.write
  read := ShardReallocating.read

theorem ShardReallocating.faithful : ShardReallocating.codec.Faithful where
  numbers := fun _ => rfl
  distinct := by decide
  follows := fun m _ => m.write_spec
  robust := fun m fs' hok hs hn hf => by
    have hs' : m.write.length < 2 ^ 32 := hs
    have hn' : NewerF ShardReallocating.schema m.fields fs' := by rw [ShardReallocating.fields_values]; exact hn
    show ShardReallocating.read (encodeFields fs') = some m
    rw [← ShardReallocating.read_newer hn' (fieldOk_of_small m.fields_pre hs') hf]
    exact m.read_write hs'

theorem StopShard.fields_values (m : StopShard) : m.fields = m.values.flatMap fun p => p.2.emit p.1 := by
  simp only [StopShard.values, StopShard.fields, List.flatMap_cons, List.flatMap_nil, List.append_nil, List.append_assoc, emit_u64, emit_u32, emit_i64, emit_i32,
    emit_bool, emit_str, emit_bytes, emit_enum, emit_msg, emit_strs, emit_msgs, emit_map]

theorem StopShard.write_spec (m : StopShard) : m.write = m.spec := by
  unfold StopShard.write StopShard.spec wire; rw [StopShard.fields_values]

theorem StopShard.write_funext : StopShard.write = StopShard.spec := funext StopShard.write_spec

theorem StopShard.read_newer {gs gs' : List Field} (h : NewerF StopShard.schema gs gs') (h1 : ∀ f ∈ gs, FieldOk f)
    (h2 : ∀ f ∈ gs', FieldOk f) : StopShard.read (encodeFields gs) = StopShard.read (encodeFields gs') :=
  fold_newer (merge := StopShard.merge) (S := StopShard.schema) {} (fun acc no v h => by
    have hne : ∀ k ∈ StopShard.schema.numbers, no ≠ k := fun k hk hx => h (hx ▸ hk)
    simp only [StopShard.schema, Schema.numbers, Schema.fields, List.map, List.forall_mem_cons] at hne
    unfold StopShard.merge
    split <;> first | (rename_i hx; simp only [Prod.mk.injEq] at hx; simp [hx.1] at hne; done) | rfl) (fun acc no T h => by simp [StopShard.schema, Schema.fields] at h)
    (by merge_comm StopShard.merge StopShard.schema) h h1 h2

/-- the codec of `StopShard`. -/
def StopShard.codec : Codec StopShard where
  schema := StopShard.schema
  values := StopShard.values
  Ok := fun _ => True
  write := StopShard.write
  read := StopShard.read

theorem StopShard.faithful : StopShard.codec.Faithful where
  numbers := fun _ => rfl
  distinct := by decide
  follows := fun m _ => m.write_spec
  robust := fun m fs' hok hs hn hf => by
    have hs' : m.write.length < 2 ^ 32 := hs
    have hn' : NewerF StopShard.schema m.fields fs' := by rw [StopShard.fields_values]; exact hn
    show StopShard.read (encodeFields fs') = some m
    rw [← StopShard.read_newer hn' (fieldOk_of_small m.fields_pre hs') hf]
    exact m.read_write hs'

theorem ShardStopped.fields_values (m : ShardStopped) : m.fields = m.values.flatMap fun p => p.2.emit p.1 := by
  simp only [ShardStopped.values, ShardStopped.fields, List.flatMap_cons, List.flatMap_nil, List.append_nil, List.append_assoc, emit_u64, emit_u32, emit_i64, emit_i32,
    emit_bool, emit_str, emit_bytes, emit_enum, emit_msg, emit_strs, emit_msgs, emit_map]

theorem ShardStopped.write_spec (m : ShardStopped) : m.write = m.spec := by
  unfold ShardStopped.write ShardStopped.spec wire; rw [ShardStopped.fields_values]

theorem ShardStopped.write_funext : ShardStopped.write = ShardStopped.spec := funext ShardStopped.write_spec

theorem ShardStopped.read_newer {gs gs' : List Field} (h : NewerF ShardStopped.schema gs gs') (h1 : ∀ f ∈ gs, FieldOk f)
    (h2 : ∀ f ∈ gs', FieldOk f) : ShardStopped.read (encodeFields gs) = ShardStopped.read (encodeFields gs') :=
  fold_newer (merge := ShardStopped.merge) (S := ShardStopped.schema) {} (fun acc no v h => by
    have hne : ∀ k ∈ ShardStopped.schema.numbers, no ≠ k := fun k hk hx => h (hx ▸ hk)
    simp only [ShardStopped.schema, Schema.numbers, Schema.fields, List.map, List.forall_mem_cons] at hne
    unfold ShardStopped.merge
    split <;> first | (rename_i hx; simp only [Prod.mk.injEq] at hx; simp [hx.1] at hne; done) | rfl) (fun acc no T h => by simp [ShardStopped.schema, Schema.fields] at h)
    (by merge_comm ShardStopped.merge ShardStopped.schema) h h1 h2

/-- the codec of `ShardStopped`. -/
def ShardStopped.codec : Codec ShardStopped where
  schema := ShardStopped.schema
  values := ShardStopped.values
  Ok := fun _ => True
  write := ShardStopped.write
  read := ShardStopped.read

theorem ShardStopped.faithful : ShardStopped.codec.Faithful where
  numbers := fun _ => rfl
  distinct := by decide
  follows := fun m _ => m.write_spec
  robust := fun m fs' hok hs hn hf => by
    have hs' : m.write.length < 2 ^ 32 := hs
    have hn' : NewerF ShardStopped.schema m.fields fs' := by rw [ShardStopped.fields_values]; exact hn
    show ShardStopped.read (encodeFields fs') = some m
    rw [← ShardStopped.read_newer hn' (fieldOk_of_small m.fields_pre hs') hf]
    exact m.read_write hs'

theorem AllocateShardResult.fields_values (m : AllocateShardResult) : m.fields = m.values.flatMap fun p => p.2.emit p.1 := by
  simp only [AllocateShardResult.values, AllocateShardResult.fields, List.flatMap_cons, List.flatMap_nil, List.append_nil, List.append_assoc, emit_u64, emit_u32, emit_i64, emit_i32,
    emit_bool, emit_str, emit_bytes, emit_enum, emit_msg, emit_strs, emit_msgs, emit_map, RemoteShard.write_funext]

theorem AllocateShardResult.write_spec (m : AllocateShardResult) : m.write = m.spec := by
  unfold AllocateShardResult.write AllocateShardResult.spec wire; rw [AllocateShardResult.fields_values]

theorem AllocateShardResult.write_funext : AllocateShardResult.write = AllocateShardResult.spec := funext AllocateShardResult.write_spec

theorem AllocateShardResult.read_newer {gs gs' : List Field} (h : NewerF AllocateShardResult.schema gs gs') (h1 : ∀ f ∈ gs, FieldOk f)
    (h2 : ∀ f ∈ gs', FieldOk f) : AllocateShardResult.read (encodeFields gs) = AllocateShardResult.read (encodeFields gs') :=
  fold_newer (merge := AllocateShardResult.merge) (S := AllocateShardResult.schema) {} (fun acc no v h => by
    have hne : ∀ k ∈ AllocateShardResult.schema.numbers, no ≠ k := fun k hk hx => h (hx ▸ hk)
    simp only [AllocateShardResult.schema, Schema.numbers, Schema.fields, List.map, List.forall_mem_cons] at hne
    unfold AllocateShardResult.merge
    split <;> first | (rename_i hx; simp only [Prod.mk.injEq] at hx; simp [hx.1] at hne; done) | rfl) (fun acc no T h gs gs' hn h1 h2 => by
    simp only [AllocateShardResult.schema, Schema.fields, List.mem_cons, Prod.mk.injEq, Option.some.injEq, reduceCtorEq, and_false, false_or, or_false,
      List.not_mem_nil] at h
    obtain ⟨rfl, rfl⟩ := h
    · simp only [AllocateShardResult.merge, RemoteShard.read_newer hn h1 h2])
    (by merge_comm AllocateShardResult.merge AllocateShardResult.schema) h h1 h2

/-- the codec of `AllocateShardResult`. -/
def AllocateShardResult.codec : Codec AllocateShardResult where
  schema := AllocateShardResult.schema
  values := AllocateShardResult.values
  Ok := fun _ => True
  write := AllocateShardResult.write
  read := AllocateShardResult.read

theorem AllocateShardResult.faithful : AllocateShardResult.codec.Faithful where
  numbers := fun _ => rfl
  distinct := by decide
  follows := fun m _ => m.write_spec
  robust := fun m fs' hok hs hn hf => by
    have hs' : m.write.length < 2 ^ 32 := hs
    have hn' : NewerF AllocateShardResult.schema m.fields fs' := by rw [AllocateShardResult.fields_values]; exact hn
    show AllocateShardResult.read (encodeFields fs') = some m
    rw [← AllocateShardResult.read_newer hn' (fieldOk_of_small m.fields_pre hs') hf]
    exact m.read_write hs'

theorem RemoteEntityRequestRecipe.fields_values (m : RemoteEntityRequestRecipe) : m.fields = m.values.flatMap fun p => p.2.emit p.1 := by
  simp only [RemoteEntityRequestRecipe.values, RemoteEntityRequestRecipe.fields, List.flatMap_cons, List.flatMap_nil, List.append_nil, List.append_assoc, emit_u64, emit_u32, emit_i64, emit_i32,
    emit_bool, emit_str, emit_bytes, emit_enum, emit_msg, emit_strs, emit_msgs, emit_map]

theorem RemoteEntityRequestRecipe.write_spec (m : RemoteEntityRequestRecipe) : m.write = m.spec := by
  unfold RemoteEntityRequestRecipe.write RemoteEntityRequestRecipe.spec wire; rw [RemoteEntityRequestRecipe.fields_values]

theorem RemoteEntityRequestRecipe.write_funext : RemoteEntityRequestRecipe.write = RemoteEntityRequestRecipe.spec := funext RemoteEntityRequestRecipe.write_spec

theorem RemoteEntityRequestRecipe.read_newer {gs gs' : List Field} (h : NewerF RemoteEntityRequestRecipe.schema gs gs') (h1 : ∀ f ∈ gs, FieldOk f)
    (h2 : ∀ f ∈ gs', FieldOk f) : RemoteEntityRequestRecipe.read (encodeFields gs) = RemoteEntityRequestRecipe.read (encodeFields gs') :=
  fold_newer (merge := RemoteEntityRequestRecipe.merge) (S := RemoteEntityRequestRecipe.schema) {} (fun acc no v h => by
    have hne : ∀ k ∈ RemoteEntityRequestRecipe.schema.numbers, no ≠ k := fun k hk hx => h (hx ▸ hk)
    simp only [RemoteEntityRequestRecipe.schema, Schema.numbers, Schema.fields, List.map, List.forall_mem_cons] at hne
    unfold RemoteEntityRequestRecipe.merge
    split <;> first | (rename_i hx; simp only [Prod.mk.injEq] at hx; simp [hx.1] at hne; done) | rfl) (fun acc no T h => by simp [RemoteEntityRequestRecipe.schema, Schema.fields] at h)
    (by merge_comm RemoteEntityRequestRecipe.merge RemoteEntityRequestRecipe.schema) h h1 h2

/-- the codec of `RemoteEntityRequestRecipe`. -/
def RemoteEntityRequestRecipe.codec : Codec RemoteEntityRequestRecipe where
  schema := RemoteEntityRequestRecipe.schema
  values := RemoteEntityRequestRecipe.values
  Ok := fun _ => True
  write := RemoteEntityRequestRecipe.write
  read := RemoteEntityRequestRecipe.read

theorem RemoteEntityRequestRecipe.faithful : RemoteEntityRequestRecipe.codec.Faithful where
  numbers := fun _ => rfl
  distinct := by decide
  follows := fun m _ => m.write_spec
  robust := fun m fs' hok hs hn hf => by
    have hs' : m.write.length < 2 ^ 32 := hs
    have hn' : NewerF RemoteEntityRequestRecipe.schema m.fields fs' := by rw [RemoteEntityRequestRecipe.fields_values]; exact hn
    show RemoteEntityRequestRecipe.read (encodeFields fs') = some m
    rw [← RemoteEntityRequestRecipe.read_newer hn' (fieldOk_of_small m.fields_pre hs') hf]
    exact m.read_write hs'

theorem RemoteEntityRequest.fields_values (m : RemoteEntityRequest) : m.fields = m.values.flatMap fun p => p.2.emit p.1 := by
  simp only [RemoteEntityRequest.values, RemoteEntityRequest.fields, List.flatMap_cons, List.flatMap_nil, List.append_nil, List.append_assoc, emit_u64, emit_u32, emit_i64, emit_i32,
    emit_bool, emit_str, emit_bytes, emit_enum, emit_msg, emit_strs, emit_msgs, emit_map, RemoteEntityRequestRecipe.write_funext]

theorem RemoteEntityRequest.write_spec (m : RemoteEntityRequest) : m.write = m.spec := by
  unfold RemoteEntityRequest.write RemoteEntityRequest.spec wire; rw [RemoteEntityRequest.fields_values]

theorem RemoteEntityRequest.write_funext : RemoteEntityRequest.write = RemoteEntityRequest.spec := funext RemoteEntityRequest.write_spec

theorem RemoteEntityRequest.read_newer {gs gs' : List Field} (h : NewerF RemoteEntityRequest.schema gs gs') (h1 : ∀ f ∈ gs, FieldOk f)
    (h2 : ∀ f ∈ gs', FieldOk f) : RemoteEntityRequest.read (encodeFields gs) = RemoteEntityRequest.read (encodeFields gs') :=
  fold_newer (merge := RemoteEntityRequest.merge) (S := RemoteEntityRequest.schema) {} (fun acc no v h => by
    have hne : ∀ k ∈ RemoteEntityRequest.schema.numbers, no ≠ k := fun k hk hx => h (hx ▸ hk)
    simp only [RemoteEntityRequest.schema, Schema.numbers, Schema.fields, List.map, List.forall_mem_cons] at hne
    unfold RemoteEntityRequest.merge
    split <;> first | (rename_i hx; simp only [Prod.mk.injEq] at hx; simp [hx.1] at hne; done) | rfl) (fun acc no T h gs gs' hn h1 h2 => by
    simp only [RemoteEntityRequest.schema, Schema.fields, List.mem_cons, Prod.mk.injEq, Option.some.injEq, reduceCtorEq, and_false, false_or, or_false,
      List.not_mem_nil] at h
    obtain ⟨rfl, rfl⟩ := h
    · simp only [RemoteEntityRequest.merge, RemoteEntityRequestRecipe.read_newer hn h1 h2])
    (by merge_comm RemoteEntityRequest.merge RemoteEntityRequest.schema) h h1 h2

/-- the codec of `RemoteEntityRequest`. -/
def RemoteEntityRequest.codec : Codec RemoteEntityRequest where
  schema := RemoteEntityRequest.schema
  values := RemoteEntityRequest.values
  Ok := fun _ => True
  write := RemoteEntityRequest.write
  read := RemoteEntityRequest.read

theorem RemoteEntityRequest.faithful : RemoteEntityRequest.codec.Faithful where
  numbers := fun _ => rfl
  distinct := by decide
  follows := fun m _ => m.write_spec
  robust := fun m fs' hok hs hn hf => by
    have hs' : m.write.length < 2 ^ 32 := hs
    have hn' : NewerF RemoteEntityRequest.schema m.fields fs' := by rw [RemoteEntityRequest.fields_values]; exact hn
    show RemoteEntityRequest.read (encodeFields fs') = some m
    rw [← RemoteEntityRequest.read_newer hn' (fieldOk_of_small m.fields_pre hs') hf]
    exact m.read_write hs'

theorem StartEntity.fields_values (m : StartEntity) : m.fields = m.values.flatMap fun p => p.2.emit p.1 := by
  simp only [StartEntity.values, StartEntity.fields, List.flatMap_cons, List.flatMap_nil, List.append_nil, List.append_assoc, emit_u64, emit_u32, emit_i64, emit_i32,
    emit_bool, emit_str, emit_bytes, emit_enum, emit_msg, emit_strs, emit_msgs, emit_map]

theorem StartEntity.write_spec (m : StartEntity) : m.write = m.spec := by
  unfold StartEntity.write StartEntity.spec wire; rw [StartEntity.fields_values]

theorem StartEntity.write_funext : StartEntity.write = StartEntity.spec := funext StartEntity.write_spec

theorem StartEntity.read_newer {gs gs' : List Field} (h : NewerF StartEntity.schema gs gs') (h1 : ∀ f ∈ gs, FieldOk f)
    (h2 : ∀ f ∈ gs', FieldOk f) : StartEntity.read (encodeFields gs) = StartEntity.read (encodeFields gs') :=
  fold_newer (merge := StartEntity.merge) (S := StartEntity.schema) {} (fun acc no v h => by
    have hne : ∀ k ∈ StartEntity.schema.numbers, no ≠ k := fun k hk hx => h (hx ▸ hk)
    simp only [StartEntity.schema, Schema.numbers, Schema.fields, List.map, List.forall_mem_cons] at hne
    unfold StartEntity.merge
    split <;> first | (rename_i hx; simp only [Prod.mk.injEq] at hx; simp [hx.1] at hne; done) | rfl) (fun acc no T h => by simp [StartEntity.schema, Schema.fields] at h)
    (by merge_comm StartEntity.merge StartEntity.schema) h h1 h2

/-- the codec of `StartEntity`. -/
def StartEntity.codec : Codec StartEntity where
  schema := StartEntity.schema
  values := StartEntity.values
  Ok := fun _ => True
  write := StartEntity.write
  read := StartEntity.read

theorem StartEntity.faithful : StartEntity.codec.Faithful where
  numbers := fun _ => rfl
  distinct := by decide
  follows := fun m _ => m.write_spec
  robust := fun m fs' hok hs hn hf => by
    have hs' : m.write.length < 2 ^ 32 := hs
    have hn' : NewerF StartEntity.schema m.fields fs' := by rw [StartEntity.fields_values]; exact hn
    show StartEntity.read (encodeFields fs') = some m
    rw [← StartEntity.read_newer hn' (fieldOk_of_small m.fields_pre hs') hf]
    exact m.read_write hs'

theorem PassivateEntity.fields_values (m : PassivateEntity) : m.fields = m.values.flatMap fun p => p.2.emit p.1 := by
  simp only [PassivateEntity.values, PassivateEntity.fields, List.flatMap_cons, List.flatMap_nil, List.append_nil, List.append_assoc, emit_u64, emit_u32, emit_i64, emit_i32,
    emit_bool, emit_str, emit_bytes, emit_enum, emit_msg, emit_strs, emit_msgs, emit_map]

theorem PassivateEntity.write_spec (m : PassivateEntity) : m.write = m.spec := by
  unfold PassivateEntity.write PassivateEntity.spec wire; rw [PassivateEntity.fields_values]

theorem PassivateEntity.write_funext : PassivateEntity.write = PassivateEntity.spec := funext PassivateEntity.write_spec

theorem PassivateEntity.read_newer {gs gs' : List Field} (h : NewerF PassivateEntity.schema gs gs') (h1 : ∀ f ∈ gs, FieldOk f)
    (h2 : ∀ f ∈ gs', FieldOk f) : PassivateEntity.read (encodeFields gs) = PassivateEntity.read (encodeFields gs') :=
  fold_newer (merge := PassivateEntity.merge) (S := PassivateEntity.schema) {} (fun acc no v h => by
    have hne : ∀ k ∈ PassivateEntity.schema.numbers, no ≠ k := fun k hk hx => h (hx ▸ hk)
    simp only [PassivateEntity.schema, Schema.numbers, Schema.fields, List.map, List.forall_mem_cons] at hne
    unfold PassivateEntity.merge
    split <;> first | (rename_i hx; simp only [Prod.mk.injEq] at hx; simp [hx.1] at hne; done) | rfl) (fun acc no T h => by simp [PassivateEntity.schema, Schema.fields] at h)
    (by merge_comm PassivateEntity.merge PassivateEntity.schema) h h1 h2

/-- the codec of `PassivateEntity`. -/
def PassivateEntity.codec : Codec PassivateEntity where
  schema := PassivateEntity.schema
  values := PassivateEntity.values
  Ok := fun _ => True
  write := PassivateEntity.write
  read := PassivateEntity.read

theorem PassivateEntity.faithful : PassivateEntity.codec.Faithful where
  numbers := fun _ => rfl
  distinct := by decide
  follows := fun m _ => m.write_spec
  robust := fun m fs' hok hs hn hf => by
    have hs' : m.write.length < 2 ^ 32 := hs
    have hn' : NewerF PassivateEntity.schema m.fields fs' := by rw [PassivateEntity.fields_values]; exact hn
    show PassivateEntity.read (encodeFields fs') = some m
    rw [← PassivateEntity.read_newer hn' (fieldOk_of_small m.fields_pre hs') hf]
    exact m.read_write hs'

theorem RemoveEntity.fields_values (m : RemoveEntity) : m.fields = m.values.flatMap fun p => p.2.emit p.1 := by
  simp only [RemoveEntity.values, RemoveEntity.fields, List.flatMap_cons, List.flatMap_nil, List.append_nil, List.append_assoc, emit_u64, emit_u32, emit_i64, emit_i32,
    emit_bool, emit_str, emit_bytes, emit_enum, emit_msg, emit_strs, emit_msgs, emit_map]

theorem RemoveEntity.write_spec (m : RemoveEntity) : m.write = m.spec := by
  unfold RemoveEntity.write RemoveEntity.spec wire; rw [RemoveEntity.fields_values]

theorem RemoveEntity.write_funext : RemoveEntity.write = RemoveEntity.spec := funext RemoveEntity.write_spec

theorem RemoveEntity.read_newer {gs gs' : List Field} (h : NewerF RemoveEntity.schema gs gs') (h1 : ∀ f ∈ gs, FieldOk f)
    (h2 : ∀ f ∈ gs', FieldOk f) : RemoveEntity.read (encodeFields gs) = RemoveEntity.read (encodeFields gs') :=
  fold_newer (merge := RemoveEntity.merge) (S := RemoveEntity.schema) {} (fun acc no v h => by
    have hne : ∀ k ∈ RemoveEntity.schema.numbers, no ≠ k := fun k hk hx => h (hx ▸ hk)
    simp only [RemoveEntity.schema, Schema.numbers, Schema.fields, List.map, List.forall_mem_cons] at hne
    unfold RemoveEntity.merge
    split <;> first | (rename_i hx; simp only [Prod.mk.injEq] at hx; simp [hx.1] at hne; done) | rfl) (fun acc no T h => by simp [RemoveEntity.schema, Schema.fields] at h)
    (by merge_comm RemoveEntity.merge RemoveEntity.schema) h h1 h2

/-- the codec of `RemoveEntity`. -/
def RemoveEntity.codec : Codec RemoveEntity where
  schema := RemoveEntity.schema
  values := RemoveEntity.values
  Ok := fun _ => True
  write := RemoveEntity.write
  read := RemoveEntity.read

theorem RemoveEntity.faithful : RemoveEntity.codec.Faithful where
  numbers := fun _ => rfl
  distinct := by decide
  follows := fun m _ => m.write_spec
  robust := fun m fs' hok hs hn hf => by
    have hs' : m.write.length < 2 ^ 32 := hs
    have hn' : NewerF RemoveEntity.schema m.fields fs' := by rw [RemoveEntity.fields_values]; exact hn
    show RemoveEntity.read (encodeFields fs') = some m
    rw [← RemoveEntity.read_newer hn' (fieldOk_of_small m.fields_pre hs') hf]
    exact m.read_write hs'

theorem ShardStateSnapshotEntity.fields_values (m : ShardStateSnapshotEntity) : m.fields = m.values.flatMap fun p => p.2.emit p.1 := by
  simp only [ShardStateSnapshotEntity.values, ShardStateSnapshotEntity.fields, List.flatMap_cons, List.flatMap_nil, List.append_nil, List.append_assoc, emit_u64, emit_u32, emit_i64, emit_i32,
    emit_bool, emit_str, emit_bytes, emit_enum, emit_msg, emit_strs, emit_msgs, emit_map]

theorem ShardStateSnapshotEntity.write_spec (m : ShardStateSnapshotEntity) : m.write = m.spec := by
  unfold ShardStateSnapshotEntity.write ShardStateSnapshotEntity.spec wire; rw [ShardStateSnapshotEntity.fields_values]

theorem ShardStateSnapshotEntity.write_funext : ShardStateSnapshotEntity.write = ShardStateSnapshotEntity.spec := funext ShardStateSnapshotEntity.write_spec

theorem ShardStateSnapshotEntity.read_newer {gs gs' : List Field} (h : NewerF ShardStateSnapshotEntity.schema gs gs') (h1 : ∀ f ∈ gs, FieldOk f)
    (h2 : ∀ f ∈ gs', FieldOk f) : ShardStateSnapshotEntity.read (encodeFields gs) = ShardStateSnapshotEntity.read (encodeFields gs') :=
  fold_newer (merge := ShardStateSnapshotEntity.merge) (S := ShardStateSnapshotEntity.schema) {} (fun acc no v h => by
    have hne : ∀ k ∈ ShardStateSnapshotEntity.schema.numbers, no ≠ k := fun k hk hx => h (hx ▸ hk)
    simp only [ShardStateSnapshotEntity.schema, Schema.numbers, Schema.fields, List.map, List.forall_mem_cons] at hne
    unfold ShardStateSnapshotEntity.merge
    split <;> first | (rename_i hx; simp only [Prod.mk.injEq] at hx; simp [hx.1] at hne; done) | rfl) (fun acc no T h => by simp [ShardStateSnapshotEntity.schema, Schema.fields] at h)
    (by merge_comm ShardStateSnapshotEntity.merge ShardStateSnapshotEntity.schema) h h1 h2

/-- the codec of `ShardStateSnapshotEntity`. -/
def ShardStateSnapshotEntity.codec : Codec ShardStateSnapshotEntity where
  schema := ShardStateSnapshotEntity.schema
  values := ShardStateSnapshotEntity.values
  Ok := fun _ => True
  write := ShardStateSnapshotEntity.write
  read := ShardStateSnapshotEntity.read

theorem ShardStateSnapshotEntity.faithful : ShardStateSnapshotEntity.codec.Faithful where
  numbers := fun _ => rfl
  distinct := by decide
  follows := fun m _ => m.write_spec
  robust := fun m fs' hok hs hn hf => by
    have hs' : m.write.length < 2 ^ 32 := hs
    have hn' : NewerF ShardStateSnapshotEntity.schema m.fields fs' := by rw [ShardStateSnapshotEntity.fields_values]; exact hn
    show ShardStateSnapshotEntity.read (encodeFields fs') = some m
    rw [← ShardStateSnapshotEntity.read_newer hn' (fieldOk_of_small m.fields_pre hs') hf]
    exact m.read_write hs'

theorem ShardStateSnapshot.fields_values (m : ShardStateSnapshot) : m.fields = m.values.flatMap fun p => p.2.emit p.1 := by
  simp only [ShardStateSnapshot.values, ShardStateSnapshot.fields, List.flatMap_cons, List.flatMap_nil, List.append_nil, List.append_assoc, emit_u64, emit_u32, emit_i64, emit_i32,
    emit_bool, emit_str, emit_bytes, emit_enum, emit_msg, emit_strs, emit_msgs, emit_map, ShardStateSnapshotEntity.write_funext]

theorem ShardStateSnapshot.write_spec (m : ShardStateSnapshot) : m.write = m.spec := by
  unfold ShardStateSnapshot.write ShardStateSnapshot.spec wire; rw [ShardStateSnapshot.fields_values]

theorem ShardStateSnapshot.write_funext : ShardStateSnapshot.write = ShardStateSnapshot.spec := funext ShardStateSnapshot.write_spec

theorem ShardStateSnapshot.read_newer {gs gs' : List Field} (h : NewerF ShardStateSnapshot.schema gs gs') (h1 : ∀ f ∈ gs, FieldOk f)
    (h2 : ∀ f ∈ gs', FieldOk f) : ShardStateSnapshot.read (encodeFields gs) = ShardStateSnapshot.read (encodeFields gs') :=
  fold_newer (merge := ShardStateSnapshot.merge) (S := ShardStateSnapshot.schema) {} (fun acc no v h => by
    have hne : ∀ k ∈ ShardStateSnapshot.schema.numbers, no ≠ k := fun k hk hx => h (hx ▸ hk)
    simp only [ShardStateSnapshot.schema, Schema.numbers, Schema.fields, List.map, List.forall_mem_cons] at hne
    unfold ShardStateSnapshot.merge
    split <;> first | (rename_i hx; simp only [Prod.mk.injEq] at hx; simp [hx.1] at hne; done) | rfl) (fun acc no T h gs gs' hn h1 h2 => by
    simp only [ShardStateSnapshot.schema, Schema.fields, List.mem_cons, Prod.mk.injEq, Option.some.injEq, reduceCtorEq, and_false, false_or, or_false,
      List.not_mem_nil] at h
    obtain ⟨rfl, rfl⟩ := h
    · simp only [ShardStateSnapshot.merge, ShardStateSnapshotEntity.read_newer hn h1 h2])
    (by merge_comm ShardStateSnapshot.merge ShardStateSnapshot.schema) h h1 h2

/-- the codec of `ShardStateSnapshot`. -/
def ShardStateSnapshot.codec : Codec ShardStateSnapshot where
  schema := ShardStateSnapshot.schema
  values := ShardStateSnapshot.values
  Ok := fun _ => True
  write := ShardStateSnapshot.write
  read := ShardStateSnapshot.read

theorem ShardStateSnapshot.faithful : ShardStateSnapshot.codec.Faithful where
  numbers := fun _ => rfl
  distinct := by decide
  follows := fun m _ => m.write_spec
  robust := fun m fs' hok hs hn hf => by
    have hs' : m.write.length < 2 ^ 32 := hs
    have hn' : NewerF ShardStateSnapshot.schema m.fields fs' := by rw [ShardStateSnapshot.fields_values]; exact hn
    show ShardStateSnapshot.read (encodeFields fs') = some m
    rw [← ShardStateSnapshot.read_newer hn' (fieldOk_of_small m.fields_pre hs') hf]
    exact m.read_write hs'

theorem GetShardingStats.fields_values (m : GetShardingStats) : m.fields = m.values.flatMap fun p => p.2.emit p.1 := by
  simp only [GetShardingStats.values, GetShardingStats.fields, List.flatMap_cons, List.flatMap_nil, List.append_nil, List.append_assoc, emit_u64, emit_u32, emit_i64, emit_i32,
    emit_bool, emit_str, emit_bytes, emit_enum, emit_msg, emit_strs, emit_msgs, emit_map]

theorem GetShardingStats.write_spec (m : GetShardingStats) : m.write = m.spec := by
  unfold GetShardingStats.write GetShardingStats.spec wire; rw [GetShardingStats.fields_values]

theorem GetShardingStats.write_funext : GetShardingStats.write = GetShardingStats.spec := funext GetShardingStats.write_spec

theorem GetShardingStats.read_newer {gs gs' : List Field} (h : NewerF GetShardingStats.schema gs gs') (h1 : ∀ f ∈ gs, FieldOk f)
    (h2 : ∀ f ∈ gs', FieldOk f) : GetShardingStats.read (encodeFields gs) = GetShardingStats.read (encodeFields gs') :=
  fold_newer (merge := GetShardingStats.merge) (S := GetShardingStats.schema) {} (fun acc no v h => by
    have hne : ∀ k ∈ GetShardingStats.schema.numbers, no ≠ k := fun k hk hx => h (hx ▸ hk)
    simp only [GetShardingStats.schema, Schema.numbers, Schema.fields, List.map, List.forall_mem_cons] at hne
    unfold GetShardingStats.merge
    split <;> first | (rename_i hx; simp only [Prod.mk.injEq] at hx; simp [hx.1] at hne; done) | rfl) (fun acc no T h => by simp [GetShardingStats.schema, Schema.fields] at h)
    (by merge_comm GetShardingStats.merge GetShardingStats.schema) h h1 h2

/-- the codec of `GetShardingStats`. -/
def GetShardingStats.codec : Codec GetShardingStats where
  schema := GetShardingStats.schema
  values := GetShardingStats.values
  Ok := fun _ => True
  write := GetShardingStats.write
  read := GetShardingStats.read

theorem GetShardingStats.faithful : GetShardingStats.codec.Faithful where
  numbers := fun _ => rfl
  distinct := by decide
  follows := fun m _ => m.write_spec
  robust := fun m fs' hok hs hn hf => by
    have hs' : m.write.length < 2 ^ 32 := hs
    have hn' : NewerF GetShardingStats.schema m.fields fs' := by rw [GetShardingStats.fields_values]; exact hn
    show GetShardingStats.read (encodeFields fs') = some m
    rw [← GetShardingStats.read_newer hn' (fieldOk_of_small m.fields_pre hs') hf]
    exact m.read_write hs'

theorem NodeStats.fields_values (m : NodeStats) : m.fields = m.values.flatMap fun p => p.2.emit p.1 := by
  simp only [NodeStats.values, NodeStats.fields, List.flatMap_cons, List.flatMap_nil, List.append_nil, List.append_assoc, emit_u64, emit_u32, emit_i64, emit_i32,
    emit_bool, emit_str, emit_bytes, emit_enum, emit_msg, emit_strs, emit_msgs, emit_map]

theorem NodeStats.write_spec (m : NodeStats) : m.write = m.spec := by
  unfold NodeStats.write NodeStats.spec wire; rw [NodeStats.fields_values]

theorem NodeStats.write_funext : NodeStats.write = NodeStats.spec := funext NodeStats.write_spec

theorem NodeStats.read_newer {gs gs' : List Field} (h : NewerF NodeStats.schema gs gs') (h1 : ∀ f ∈ gs, FieldOk f)
    (h2 : ∀ f ∈ gs', FieldOk f) : NodeStats.read (encodeFields gs) = NodeStats.read (encodeFields gs') :=
  fold_newer (merge := NodeStats.merge) (S := NodeStats.schema) {} (fun acc no v h => by
    have hne : ∀ k ∈ NodeStats.schema.numbers, no ≠ k := fun k hk hx => h (hx ▸ hk)
    simp only [NodeStats.schema, Schema.numbers, Schema.fields, List.map, List.forall_mem_cons] at hne
    unfold NodeStats.merge
    split <;> first | (rename_i hx; simp only [Prod.mk.injEq] at hx; simp [hx.1] at hne; done) | rfl) (fun acc no T h => by simp [NodeStats.schema, Schema.fields] at h)
    (by merge_comm NodeStats.merge NodeStats.schema) h h1 h2

/-- the codec of `NodeStats`. -/
def NodeStats.codec : Codec NodeStats where
  schema := NodeStats.schema
  values := NodeStats.values
  Ok := fun _ => True
  write := NodeStats.write
  read := NodeStats.read

theorem NodeStats.faithful : NodeStats.codec.Faithful where
  numbers := fun _ => rfl
  distinct := by decide
  follows := fun m _ => m.write_spec
  robust := fun m fs' hok hs hn hf => by
    have hs' : m.write.length < 2 ^ 32 := hs
    have hn' : NewerF NodeStats.schema m.fields fs' := by rw [NodeStats.fields_values]; exact hn
    show NodeStats.read (encodeFields fs') = some m
    rw [← NodeStats.read_newer hn' (fieldOk_of_small m.fields_pre hs') hf]
    exact m.read_write hs'

theorem ShardingStats.fields_values (m : ShardingStats) : m.fields = m.values.flatMap fun p => p.2.emit p.1 := by
  simp only [ShardingStats.values, ShardingStats.fields, List.flatMap_cons, List.flatMap_nil, List.append_nil, List.append_assoc, emit_u64, emit_u32, emit_i64, emit_i32,
    emit_bool, emit_str, emit_bytes, emit_enum, emit_msg, emit_strs, emit_msgs, emit_map, NodeStats.write_funext, RemoteShard.write_funext]

theorem ShardingStats.write_spec (m : ShardingStats) : m.write = m.spec := by
  unfold ShardingStats.write ShardingStats.spec wire; rw [ShardingStats.fields_values]

theorem ShardingStats.write_funext : ShardingStats.write = ShardingStats.spec := funext ShardingStats.write_spec

theorem ShardingStats.read_newer {gs gs' : List Field} (h : NewerF ShardingStats.schema gs gs') (h1 : ∀ f ∈ gs, FieldOk f)
    (h2 : ∀ f ∈ gs', FieldOk f) : ShardingStats.read (encodeFields gs) = ShardingStats.read (encodeFields gs') :=
  fold_newer (merge := ShardingStats.merge) (S := ShardingStats.schema) {} (fun acc no v h => by
    have hne : ∀ k ∈ ShardingStats.schema.numbers, no ≠ k := fun k hk hx => h (hx ▸ hk)
    simp only [ShardingStats.schema, Schema.numbers, Schema.fields, List.map, List.forall_mem_cons] at hne
    unfold ShardingStats.merge
    split <;> first | (rename_i hx; simp only [Prod.mk.injEq] at hx; simp [hx.1] at hne; done) | rfl) (fun acc no T h gs gs' hn h1 h2 => by
    simp only [ShardingStats.schema, Schema.fields, List.mem_cons, Prod.mk.injEq, Option.some.injEq, reduceCtorEq, and_false, false_or, or_false,
      List.not_mem_nil] at h
    rcases h with ⟨rfl, rfl⟩ | ⟨rfl, rfl⟩
    · simp only [ShardingStats.merge, RemoteShard.read_newer hn h1 h2]
    · simp only [ShardingStats.merge, NodeStats.read_newer hn h1 h2])
    (by merge_comm ShardingStats.merge ShardingStats.schema) h h1 h2

/-- the codec of `ShardingStats`. -/
def ShardingStats.codec : Codec ShardingStats where
  schema := ShardingStats.schema
  values := ShardingStats.values
  Ok := fun _ => True
  write := ShardingStats.write
  read := ShardingStats.read

theorem ShardingStats.faithful : ShardingStats.codec.Faithful where
  numbers := fun _ => rfl
  distinct := by decide
  follows := fun m _ => m.write_spec
  robust := fun m fs' hok hs hn hf => by
    have hs' : m.write.length < 2 ^ 32 := hs
    have hn' : NewerF ShardingStats.schema m.fields fs' := by rw [ShardingStats.fields_values]; exact hn
    show ShardingStats.read (encodeFields fs') = some m
    rw [← ShardingStats.read_newer hn' (fieldOk_of_small m.fields_pre hs') hf]
    exact m.read_write hs'

theorem GetShardStats.fields_values (m : GetShardStats) : m.fields = m.values.flatMap fun p => p.2.emit p.1 := by
  simp only [GetShardStats.values, GetShardStats.fields, List.flatMap_cons, List.flatMap_nil, List.append_nil, List.append_assoc, emit_u64, emit_u32, emit_i64, emit_i32,
    emit_bool, emit_str, emit_bytes, emit_enum, emit_msg, emit_strs, emit_msgs, emit_map]

theorem GetShardStats.write_spec (m : GetShardStats) : m.write = m.spec := by
  unfold GetShardStats.write GetShardStats.spec wire; rw [GetShardStats.fields_values]

theorem GetShardStats.write_funext : GetShardStats.write = GetShardStats.spec := funext GetShardStats.write_spec

theorem GetShardStats.read_newer {gs gs' : List Field} (h : NewerF GetShardStats.schema gs gs') (h1 : ∀ f ∈ gs, FieldOk f)
    (h2 : ∀ f ∈ gs', FieldOk f) : GetShardStats.read (encodeFields gs) = GetShardStats.read (encodeFields gs') :=
  fold_newer (merge := GetShardStats.merge) (S := GetShardStats.schema) {} (fun acc no v h => by
    have hne : ∀ k ∈ GetShardStats.schema.numbers, no ≠ k := fun k hk hx => h (hx ▸ hk)
    simp only [GetShardStats.schema, Schema.numbers, Schema.fields, List.map, List.forall_mem_cons] at hne
    unfold GetShardStats.merge
    split <;> first | (rename_i hx; simp only [Prod.mk.injEq] at hx; simp [hx.1] at hne; done) | rfl) (fun acc no T h => by simp [GetShardStats.schema, Schema.fields] at h)
    (by merge_comm GetShardStats.merge GetShardStats.schema) h h1 h2

/-- the codec of `GetShardStats`. -/
def GetShardStats.codec : Codec GetShardStats where
  schema := GetShardStats.schema
  values := GetShardStats.values
  Ok := fun _ => True
  write := GetShardStats.write
  read := GetShardStats.read

theorem GetShardStats.faithful : GetShardStats.codec.Faithful where
  numbers := fun _ => rfl
  distinct := by decide
  follows := fun m _ => m.write_spec
  robust := fun m fs' hok hs hn hf => by
    have hs' : m.write.length < 2 ^ 32 := hs
    have hn' : NewerF GetShardStats.schema m.fields fs' := by rw [GetShardStats.fields_values]; exact hn
    show GetShardStats.read (encodeFields fs') = some m
    rw [← GetShardStats.read_newer hn' (fieldOk_of_small m.fields_pre hs') hf]
    exact m.read_write hs'

theorem ShardStats.fields_values (m : ShardStats) : m.fields = m.values.flatMap fun p => p.2.emit p.1 := by
  simp only [ShardStats.values, ShardStats.fields, List.flatMap_cons, List.flatMap_nil, List.append_nil, List.append_assoc, emit_u64, emit_u32, emit_i64, emit_i32,
    emit_bool, emit_str, emit_bytes, emit_enum, emit_msg, emit_strs, emit_msgs, emit_map]

theorem ShardStats.write_spec (m : ShardStats) : m.write = m.spec := by
  unfold ShardStats.write ShardStats.spec wire; rw [ShardStats.fields_values]

theorem ShardStats.write_funext : ShardStats.write = ShardStats.spec := funext ShardStats.write_spec

theorem ShardStats.read_newer {gs gs' : List Field} (h : NewerF ShardStats.schema gs gs') (h1 : ∀ f ∈ gs, FieldOk f)
    (h2 : ∀ f ∈ gs', FieldOk f) : ShardStats.read (encodeFields gs) = ShardStats.read (encodeFields gs') :=
  fold_newer (merge := ShardStats.merge) (S := ShardStats.schema) {} (fun acc no v h => by
    have hne : ∀ k ∈ ShardStats.schema.numbers, no ≠ k := fun k hk hx => h (hx ▸ hk)
    simp only [ShardStats.schema, Schema.numbers, Schema.fields, List.map, List.forall_mem_cons] at hne
    unfold ShardStats.merge
    split <;> first | (rename_i hx; simp only [Prod.mk.injEq] at hx; simp [hx.1] at hne; done) | rfl) (fun acc no T h => by simp [ShardStats.schema, Schema.fields] at h)
    (by merge_comm ShardStats.merge ShardStats.schema) h h1 h2

/-- the codec of `ShardStats`. -/
def ShardStats.codec : Codec ShardStats where
  schema := ShardStats.schema
  values := ShardStats.values
  Ok := fun _ => True
  write := ShardStats.write
  read := ShardStats.read

theorem ShardStats.faithful : ShardStats.codec.Faithful where
  numbers := fun _ => rfl
  distinct := by decide
  follows := fun m _ => m.write_spec
  robust := fun m fs' hok hs hn hf => by
    have hs' : m.write.length < 2 ^ 32 := hs
    have hn' : NewerF ShardStats.schema m.fields fs' := by rw [ShardStats.fields_values]; exact hn
    show ShardStats.read (encodeFields fs') = some m
    rw [← ShardStats.read_newer hn' (fieldOk_of_small m.fields_pre hs') hf]
    exact m.read_write hs'

end Sharding


namespace Singleton

theorem GetStatus.fields_values (m : GetStatus) : m.fields = m.values.flatMap fun p => p.2.emit p.1 := by
  simp only [GetStatus.values, GetStatus.fields, List.flatMap_cons, List.flatMap_nil, List.append_nil, List.append_assoc, emit_u64, emit_u32, emit_i64, emit_i32,
    emit_bool, emit_str, emit_bytes, emit_enum, emit_msg, emit_strs, emit_msgs, emit_map]

theorem GetStatus.write_spec (m : GetStatus) : m.write = m.spec := by
  unfold GetStatus.write GetStatus.spec wire; rw [GetStatus.fields_values]

theorem GetStatus.write_funext : GetStatus.write = GetStatus.spec := funext GetStatus.write_spec

theorem GetStatus.read_newer {gs gs' : List Field} (h : NewerF GetStatus.schema gs gs') (h1 : ∀ f ∈ gs, FieldOk f)
    (h2 : ∀ f ∈ gs', FieldOk f) : GetStatus.read (encodeFields gs) = GetStatus.read (encodeFields gs') :=
  fold_newer (merge := GetStatus.merge) (S := GetStatus.schema) {} (fun acc no v h => by
    have hne : ∀ k ∈ GetStatus.schema.numbers, no ≠ k := fun k hk hx => h (hx ▸ hk)
    simp only [GetStatus.schema, Schema.numbers, Schema.fields, List.map, List.forall_mem_cons] at hne
    unfold GetStatus.merge
    split <;> first | (rename_i hx; simp only [Prod.mk.injEq] at hx; simp [hx.1] at hne; done) | rfl) (fun acc no T h => by simp [GetStatus.schema, Schema.fields] at h)
    (by merge_comm GetStatus.merge GetStatus.schema) h h1 h2

/-- the codec of `GetStatus`. -/
def GetStatus.codec : Codec GetStatus where
  schema := GetStatus.schema
  values := GetStatus.values
  Ok := fun _ => True
  write := GetStatus.write
  read := GetStatus.read

theorem GetStatus.faithful : GetStatus.codec.Faithful where
  numbers := fun _ => rfl
  distinct := by decide
  follows := fun m _ => m.write_spec
  robust := fun m fs' hok hs hn hf => by
    have hs' : m.write.length < 2 ^ 32 := hs
    have hn' : NewerF GetStatus.schema m.fields fs' := by rw [GetStatus.fields_values]; exact hn
    show GetStatus.read (encodeFields fs') = some m
    rw [← GetStatus.read_newer hn' (fieldOk_of_small m.fields_pre hs') hf]
    exact m.read_write hs'

theorem ManagerStatus.fields_values (m : ManagerStatus) : m.fields = m.values.flatMap fun p => p.2.emit p.1 := by
  simp only [ManagerStatus.values, ManagerStatus.fields, List.flatMap_cons, List.flatMap_nil, List.append_nil, List.append_assoc, emit_u64, emit_u32, emit_i64, emit_i32,
    emit_bool, emit_str, emit_bytes, emit_enum, emit_msg, emit_strs, emit_msgs, emit_map]

theorem ManagerStatus.write_spec (m : ManagerStatus) : m.write = m.spec := by
  unfold ManagerStatus.write ManagerStatus.spec wire; rw [ManagerStatus.fields_values]

theorem ManagerStatus.write_funext : ManagerStatus.write = ManagerStatus.spec := funext ManagerStatus.write_spec

theorem ManagerStatus.read_newer {gs gs' : List Field} (h : NewerF ManagerStatus.schema gs gs') (h1 : ∀ f ∈ gs, FieldOk f)
    (h2 : ∀ f ∈ gs', FieldOk f) : ManagerStatus.read (encodeFields gs) = ManagerStatus.read (encodeFields gs') :=
  fold_newer (merge := ManagerStatus.merge) (S := ManagerStatus.schema) {} (fun acc no v h => by
    have hne : ∀ k ∈ ManagerStatus.schema.numbers, no ≠ k := fun k hk hx => h (hx ▸ hk)
    simp only [ManagerStatus.schema, Schema.numbers, Schema.fields, List.map, List.forall_mem_cons] at hne
    unfold ManagerStatus.merge
    split <;> first | (rename_i hx; simp only [Prod.mk.injEq] at hx; simp [hx.1] at hne; done) | rfl) (fun acc no T h => by simp [ManagerStatus.schema, Schema.fields] at h)
    (by merge_comm ManagerStatus.merge ManagerStatus.schema) h h1 h2

/-- the codec of `ManagerStatus`. -/
def ManagerStatus.codec : Codec ManagerStatus where
  schema := ManagerStatus.schema
  values := ManagerStatus.values
  Ok := fun _ => True
  write := ManagerStatus.write
  read := ManagerStatus.read

theorem ManagerStatus.faithful : ManagerStatus.codec.Faithful where
  numbers := fun _ => rfl
  distinct := by decide
  follows := fun m _ => m.write_spec
  robust := fun m fs' hok hs hn hf => by
    have hs' : m.write.length < 2 ^ 32 := hs
    have hn' : NewerF ManagerStatus.schema m.fields fs' := by rw [ManagerStatus.fields_values]; exact hn
    show ManagerStatus.read (encodeFields fs') = some m
    rw [← ManagerStatus.read_newer hn' (fieldOk_of_small m.fields_pre hs') hf]
    exact m.read_write hs'

theorem RequestLease.fields_values (m : RequestLease) : m.fields = m.values.flatMap fun p => p.2.emit p.1 := by
  simp only [RequestLease.values, RequestLease.fields, List.flatMap_cons, List.flatMap_nil, List.append_nil, List.append_assoc, emit_u64, emit_u32, emit_i64, emit_i32,
    emit_bool, emit_str, emit_bytes, emit_enum, emit_msg, emit_strs, emit_msgs, emit_map]

theorem RequestLease.write_spec (m : RequestLease) : m.write = m.spec := by
  unfold RequestLease.write RequestLease.spec wire; rw [RequestLease.fields_values]

theorem RequestLease.write_funext : RequestLease.write = RequestLease.spec := funext RequestLease.write_spec

theorem RequestLease.read_newer {gs gs' : List Field} (h : NewerF RequestLease.schema gs gs') (h1 : ∀ f ∈ gs, FieldOk f)
    (h2 : ∀ f ∈ gs', FieldOk f) : RequestLease.read (encodeFields gs) = RequestLease.read (encodeFields gs') :=
  fold_newer (merge := RequestLease.merge) (S := RequestLease.schema) {} (fun acc no v h => by
    have hne : ∀ k ∈ RequestLease.schema.numbers, no ≠ k := fun k hk hx => h (hx ▸ hk)
    simp only [RequestLease.schema, Schema.numbers, Schema.fields, List.map, List.forall_mem_cons] at hne
    unfold RequestLease.merge
    split <;> first | (rename_i hx; simp only [Prod.mk.injEq] at hx; simp [hx.1] at hne; done) | rfl) (fun acc no T h => by simp [RequestLease.schema, Schema.fields] at h)
    (by merge_comm RequestLease.merge RequestLease.schema) h h1 h2

/-- the codec of `RequestLease`. -/
def RequestLease.codec : Codec RequestLease where
  schema := RequestLease.schema
  values := RequestLease.values
  Ok := fun _ => True
  write := RequestLease.write
  read := RequestLease.read

theorem RequestLease.faithful : RequestLease.codec.Faithful where
  numbers := fun _ => rfl
  distinct := by decide
  follows := fun m _ => m.write_spec
  robust := fun m fs' hok hs hn hf => by
    have hs' : m.write.length < 2 ^ 32 := hs
    have hn' : NewerF RequestLease.schema m.fields fs' := by rw [RequestLease.fields_values]; exact hn
    show RequestLease.read (encodeFields fs') = some m
    rw [← RequestLease.read_newer hn' (fieldOk_of_small m.fields_pre hs') hf]
    exact m.read_write hs'

theorem LeaseAck.fields_values (m : LeaseAck) : m.fields = m.values.flatMap fun p => p.2.emit p.1 := by
  simp only [LeaseAck.values, LeaseAck.fields, List.flatMap_cons, List.flatMap_nil, List.append_nil, List.append_assoc, emit_u64, emit_u32, emit_i64, emit_i32,
    emit_bool, emit_str, emit_bytes, emit_enum, emit_msg, emit_strs, emit_msgs, emit_map]

theorem LeaseAck.write_spec (m : LeaseAck) : m.write = m.spec := by
  unfold LeaseAck.write LeaseAck.spec wire; rw [LeaseAck.fields_values]

theorem LeaseAck.write_funext : LeaseAck.write = LeaseAck.spec := funext LeaseAck.write_spec

theorem LeaseAck.read_newer {gs gs' : List Field} (h : NewerF LeaseAck.schema gs gs') (h1 : ∀ f ∈ gs, FieldOk f)
    (h2 : ∀ f ∈ gs', FieldOk f) : LeaseAck.read (encodeFields gs) = LeaseAck.read (encodeFields gs') :=
  fold_newer (merge := LeaseAck.merge) (S := LeaseAck.schema) {} (fun acc no v h => by
    have hne : ∀ k ∈ LeaseAck.schema.numbers, no ≠ k := fun k hk hx => h (hx ▸ hk)
    simp only [LeaseAck.schema, Schema.numbers, Schema.fields, List.map, List.forall_mem_cons] at hne
    unfold LeaseAck.merge
    split <;> first | (rename_i hx; simp only [Prod.mk.injEq] at hx; simp [hx.1] at hne; done) | rfl) (fun acc no T h => by simp [LeaseAck.schema, Schema.fields] at h)
    (by merge_comm LeaseAck.merge LeaseAck.schema) h h1 h2

/-- the codec of `LeaseAck`. -/
def LeaseAck.codec : Codec LeaseAck where
  schema := LeaseAck.schema
  values := LeaseAck.values
  Ok := fun _ => True
  write := LeaseAck.write
  read := LeaseAck.read

theorem LeaseAck.faithful : LeaseAck.codec.Faithful where
  numbers := fun _ => rfl
  distinct := by decide
  follows := fun m _ => m.write_spec
  robust := fun m fs' hok hs hn hf => by
    have hs' : m.write.length < 2 ^ 32 := hs
    have hn' : NewerF LeaseAck.schema m.fields fs' := by rw [LeaseAck.fields_values]; exact hn
    show LeaseAck.read (encodeFields fs') = some m
    rw [← LeaseAck.read_newer hn' (fieldOk_of_small m.fields_pre hs') hf]
    exact m.read_write hs'

theorem LeaseNack.fields_values (m : LeaseNack) : m.fields = m.values.flatMap fun p => p.2.emit p.1 := by
  simp only [LeaseNack.values, LeaseNack.fields, List.flatMap_cons, List.flatMap_nil, List.append_nil, List.append_assoc, emit_u64, emit_u32, emit_i64, emit_i32,
    emit_bool, emit_str, emit_bytes, emit_enum, emit_msg, emit_strs, emit_msgs, emit_map]

theorem LeaseNack.write_spec (m : LeaseNack) : m.write = m.spec := by
  unfold LeaseNack.write LeaseNack.spec wire; rw [LeaseNack.fields_values]

theorem LeaseNack.write_funext : LeaseNack.write = LeaseNack.spec := funext LeaseNack.write_spec

theorem LeaseNack.read_newer {gs gs' : List Field} (h : NewerF LeaseNack.schema gs gs') (h1 : ∀ f ∈ gs, FieldOk f)
    (h2 : ∀ f ∈ gs', FieldOk f) : LeaseNack.read (encodeFields gs) = LeaseNack.read (encodeFields gs') :=
  fold_newer (merge := LeaseNack.merge) (S := LeaseNack.schema) {} (fun acc no v h => by
    have hne : ∀ k ∈ LeaseNack.schema.numbers, no ≠ k := fun k hk hx => h (hx ▸ hk)
    simp only [LeaseNack.schema, Schema.numbers, Schema.fields, List.map, List.forall_mem_cons] at hne
    unfold LeaseNack.merge
    split <;> first | (rename_i hx; simp only [Prod.mk.injEq] at hx; simp [hx.1] at hne; done) | rfl) (fun acc no T h => by simp [LeaseNack.schema, Schema.fields] at h)
    (by merge_comm LeaseNack.merge LeaseNack.schema) h h1 h2

/-- the codec of `LeaseNack`. -/
def LeaseNack.codec : Codec LeaseNack where
  schema := LeaseNack.schema
  values := LeaseNack.values
  Ok := fun _ => True
  write := LeaseNack.write
  read := LeaseNack.read

theorem LeaseNack.faithful : LeaseNack.codec.Faithful where
  numbers := fun _ => rfl
  distinct := by decide
  follows := fun m _ => m.write_spec
  robust := fun m fs' hok hs hn hf => by
    have hs' : m.write.length < 2 ^ 32 := hs
    have hn' : NewerF LeaseNack.schema m.fields fs' := by rw [LeaseNack.fields_values]; exact hn
    show LeaseNack.read (encodeFields fs') = some m
    rw [← LeaseNack.read_newer hn' (fieldOk_of_small m.fields_pre hs') hf]
    exact m.read_write hs'

theorem SingletonStarted.fields_values (m : SingletonStarted) : m.fields = m.values.flatMap fun p => p.2.emit p.1 := by
  simp only [SingletonStarted.values, SingletonStarted.fields, List.flatMap_cons, List.flatMap_nil, List.append_nil, List.append_assoc, emit_u64, emit_u32, emit_i64, emit_i32,
    emit_bool, emit_str, emit_bytes, emit_enum, emit_msg, emit_strs, emit_msgs, emit_map]

theorem SingletonStarted.write_spec (m : SingletonStarted) : m.write = m.spec := by
  unfold SingletonStarted.write SingletonStarted.spec wire; rw [SingletonStarted.fields_values]

theorem SingletonStarted.write_funext : SingletonStarted.write = SingletonStarted.spec := funext SingletonStarted.write_spec

theorem SingletonStarted.read_newer {gs gs' : List Field} (h : NewerF SingletonStarted.schema gs gs') (h1 : ∀ f ∈ gs, FieldOk f)
    (h2 : ∀ f ∈ gs', FieldOk f) : SingletonStarted.read (encodeFields gs) = SingletonStarted.read (encodeFields gs') :=
  fold_newer (merge := SingletonStarted.merge) (S := SingletonStarted.schema) {} (fun acc no v h => by
    have hne : ∀ k ∈ SingletonStarted.schema.numbers, no ≠ k := fun k hk hx => h (hx ▸ hk)
    simp only [SingletonStarted.schema, Schema.numbers, Schema.fields, List.map, List.forall_mem_cons] at hne
    unfold SingletonStarted.merge
    split <;> first | (rename_i hx; simp only [Prod.mk.injEq] at hx; simp [hx.1] at hne; done) | rfl) (fun acc no T h => by simp [SingletonStarted.schema, Schema.fields] at h)
    (by merge_comm SingletonStarted.merge SingletonStarted.schema) h h1 h2

/-- the codec of `SingletonStarted`. -/
def SingletonStarted.codec : Codec SingletonStarted where
  schema := SingletonStarted.schema
  values := SingletonStarted.values
  Ok := fun _ => True
  write := SingletonStarted.write
  read := SingletonStarted.read

theorem SingletonStarted.faithful : SingletonStarted.codec.Faithful where
  numbers := fun _ => rfl
  distinct := by decide
  follows := fun m _ => m.write_spec
  robust := fun m fs' hok hs hn hf => by
    have hs' : m.write.length < 2 ^ 32 := hs
    have hn' : NewerF SingletonStarted.schema m.fields fs' := by rw [SingletonStarted.fields_values]; exact hn
    show SingletonStarted.read (encodeFields fs') = some m
    rw [← SingletonStarted.read_newer hn' (fieldOk_of_small m.fields_pre hs') hf]
    exact m.read_write hs'

theorem SingletonStopping.fields_values (m : SingletonStopping) : m.fields = m.values.flatMap fun p => p.2.emit p.1 := by
  simp only [SingletonStopping.values, SingletonStopping.fields, List.flatMap_cons, List.flatMap_nil, List.append_nil, List.append_assoc, emit_u64, emit_u32, emit_i64, emit_i32,
    emit_bool, emit_str, emit_bytes, emit_enum, emit_msg, emit_strs, emit_msgs, emit_map]

theorem SingletonStopping.write_spec (m : SingletonStopping) : m.write = m.spec := by
  unfold SingletonStopping.write SingletonStopping.spec wire; rw [SingletonStopping.fields_values]

theorem SingletonStopping.write_funext : SingletonStopping.write = SingletonStopping.spec := funext SingletonStopping.write_spec

theorem SingletonStopping.read_newer {gs gs' : List Field} (h : NewerF SingletonStopping.schema gs gs') (h1 : ∀ f ∈ gs, FieldOk f)
    (h2 : ∀ f ∈ gs', FieldOk f) : SingletonStopping.read (encodeFields gs) = SingletonStopping.read (encodeFields gs') :=
  fold_newer (merge := SingletonStopping.merge) (S := SingletonStopping.schema) {} (fun acc no v h => by
    have hne : ∀ k ∈ SingletonStopping.schema.numbers, no ≠ k := fun k hk hx => h (hx ▸ hk)
    simp only [SingletonStopping.schema, Schema.numbers, Schema.fields, List.map, List.forall_mem_cons] at hne
    unfold SingletonStopping.merge
    split <;> first | (rename_i hx; simp only [Prod.mk.injEq] at hx; simp [hx.1] at hne; done) | rfl) (fun acc no T h => by simp [SingletonStopping.schema, Schema.fields] at h)
    (by merge_comm SingletonStopping.merge SingletonStopping.schema) h h1 h2

/-- the codec of `SingletonStopping`. -/
def SingletonStopping.codec : Codec SingletonStopping where
  schema := SingletonStopping.schema
  values := SingletonStopping.values
  Ok := fun _ => True
  write := SingletonStopping.write
  read := SingletonStopping.read

theorem SingletonStopping.faithful : SingletonStopping.codec.Faithful where
  numbers := fun _ => rfl
  distinct := by decide
  follows := fun m _ => m.write_spec
  robust := fun m fs' hok hs hn hf => by
    have hs' : m.write.length < 2 ^ 32 := hs
    have hn' : NewerF SingletonStopping.schema m.fields fs' := by rw [SingletonStopping.fields_values]; exact hn
    show SingletonStopping.read (encodeFields fs') = some m
    rw [← SingletonStopping.read_newer hn' (fieldOk_of_small m.fields_pre hs') hf]
    exact m.read_write hs'

theorem SingletonStopped.fields_values (m : SingletonStopped) : m.fields = m.values.flatMap fun p => p.2.emit p.1 := by
  simp only [SingletonStopped.values, SingletonStopped.fields, List.flatMap_cons, List.flatMap_nil, List.append_nil, List.append_assoc, emit_u64, emit_u32, emit_i64, emit_i32,
    emit_bool, emit_str, emit_bytes, emit_enum, emit_msg, emit_strs, emit_msgs, emit_map]

theorem SingletonStopped.write_spec (m : SingletonStopped) : m.write = m.spec := by
  unfold SingletonStopped.write SingletonStopped.spec wire; rw [SingletonStopped.fields_values]

theorem SingletonStopped.write_funext : SingletonStopped.write = SingletonStopped.spec := funext SingletonStopped.write_spec

theorem SingletonStopped.read_newer {gs gs' : List Field} (h : NewerF SingletonStopped.schema gs gs') (h1 : ∀ f ∈ gs, FieldOk f)
    (h2 : ∀ f ∈ gs', FieldOk f) : SingletonStopped.read (encodeFields gs) = SingletonStopped.read (encodeFields gs') :=
  fold_newer (merge := SingletonStopped.merge) (S := SingletonStopped.schema) {} (fun acc no v h => by
    have hne : ∀ k ∈ SingletonStopped.schema.numbers, no ≠ k := fun k hk hx => h (hx ▸ hk)
    simp only [SingletonStopped.schema, Schema.numbers, Schema.fields, List.map, List.forall_mem_cons] at hne
    unfold SingletonStopped.merge
    split <;> first | (rename_i hx; simp only [Prod.mk.injEq] at hx; simp [hx.1] at hne; done) | rfl) (fun acc no T h => by simp [SingletonStopped.schema, Schema.fields] at h)
    (by merge_comm SingletonStopped.merge SingletonStopped.schema) h h1 h2

/-- the codec of `SingletonStopped`. -/
def SingletonStopped.codec : Codec SingletonStopped where
  schema := SingletonStopped.schema
  values := SingletonStopped.values
  Ok := fun _ => True
  write := SingletonStopped.write
  read := SingletonStopped.read

theorem SingletonStopped.faithful : SingletonStopped.codec.Faithful where
  numbers := fun _ => rfl
  distinct := by decide
  follows := fun m _ => m.write_spec
  robust := fun m fs' hok hs hn hf => by
    have hs' : m.write.length < 2 ^ 32 := hs
    have hn' : NewerF SingletonStopped.schema m.fields fs' := by rw [SingletonStopped.fields_values]; exact hn
    show SingletonStopped.read (encodeFields fs') = some m
    rw [← SingletonStopped.read_newer hn' (fieldOk_of_small m.fields_pre hs') hf]
    exact m.read_write hs'

end Singleton


namespace Chat

theorem StringValue.fields_values (m : StringValue) : m.fields = m.values.flatMap fun p => p.2.emit p.1 := by
  simp only [StringValue.values, StringValue.fields, List.flatMap_cons, List.flatMap_nil, List.append_nil, List.append_assoc, emit_u64, emit_u32, emit_i64, emit_i32,
    emit_bool, emit_str, emit_bytes, emit_enum, emit_msg, emit_strs, emit_msgs, emit_map]

theorem StringValue.write_spec (m : StringValue) : m.write = m.spec := by
  unfold StringValue.write StringValue.spec wire; rw [StringValue.fields_values]

theorem StringValue.write_funext : StringValue.write = StringValue.spec := funext StringValue.write_spec

theorem StringValue.read_newer {gs gs' : List Field} (h : NewerF StringValue.schema gs gs') (h1 : ∀ f ∈ gs, FieldOk f)
    (h2 : ∀ f ∈ gs', FieldOk f) : StringValue.read (encodeFields gs) = StringValue.read (encodeFields gs') :=
  fold_newer (merge := StringValue.merge) (S := StringValue.schema) {} (fun acc no v h => by
    have hne : ∀ k ∈ StringValue.schema.numbers, no ≠ k := fun k hk hx => h (hx ▸ hk)
    simp only [StringValue.schema, Schema.numbers, Schema.fields, List.map, List.forall_mem_cons] at hne
    unfold StringValue.merge
    split <;> first | (rename_i hx; simp only [Prod.mk.injEq] at hx; simp [hx.1] at hne; done) | rfl) (fun acc no T h => by simp [StringValue.schema, Schema.fields] at h)
    (by merge_comm StringValue.merge StringValue.schema) h h1 h2

/-- the codec of `StringValue`. -/
def StringValue.codec : Codec StringValue where
  schema := StringValue.schema
  values := StringValue.values
  Ok := fun _ => True
  write := StringValue.write
  read := StringValue.read

theorem StringValue.faithful : StringValue.codec.Faithful where
  numbers := fun _ => rfl
  distinct := by decide
  follows := fun m _ => m.write_spec
  robust := fun m fs' hok hs hn hf => by
    have hs' : m.write.length < 2 ^ 32 := hs
    have hn' : NewerF StringValue.schema m.fields fs' := by rw [StringValue.fields_values]; exact hn
    show StringValue.read (encodeFields fs') = some m
    rw [← StringValue.read_newer hn' (fieldOk_of_small m.fields_pre hs') hf]
    exact m.read_write hs'

theorem UInt64Value.fields_values (m : UInt64Value) : m.fields = m.values.flatMap fun p => p.2.emit p.1 := by
  simp only [UInt64Value.values, UInt64Value.fields, List.flatMap_cons, List.flatMap_nil, List.append_nil, List.append_assoc, emit_u64, emit_u32, emit_i64, emit_i32,
    emit_bool, emit_str, emit_bytes, emit_enum, emit_msg, emit_strs, emit_msgs, emit_map]

theorem UInt64Value.write_spec (m : UInt64Value) : m.write = m.spec := by
  unfold UInt64Value.write UInt64Value.spec wire; rw [UInt64Value.fields_values]

theorem UInt64Value.write_funext : UInt64Value.write = UInt64Value.spec := funext UInt64Value.write_spec

theorem UInt64Value.read_newer {gs gs' : List Field} (h : NewerF UInt64Value.schema gs gs') (h1 : ∀ f ∈ gs, FieldOk f)
    (h2 : ∀ f ∈ gs', FieldOk f) : UInt64Value.read (encodeFields gs) = UInt64Value.read (encodeFields gs') :=
  fold_newer (merge := UInt64Value.merge) (S := UInt64Value.schema) {} (fun acc no v h => by
    have hne : ∀ k ∈ UInt64Value.schema.numbers, no ≠ k := fun k hk hx => h (hx ▸ hk)
    simp only [UInt64Value.schema, Schema.numbers, Schema.fields, List.map, List.forall_mem_cons] at hne
    unfold UInt64Value.merge
    split <;> first | (rename_i hx; simp only [Prod.mk.injEq] at hx; simp [hx.1] at hne; done) | rfl) (fun acc no T h => by simp [UInt64Value.schema, Schema.fields] at h)
    (by merge_comm UInt64Value.merge UInt64Value.schema) h h1 h2

/-- the codec of `UInt64Value`. -/
def UInt64Value.codec : Codec UInt64Value where
  schema := UInt64Value.schema
  values := UInt64Value.values
  Ok := fun _ => True
  write := UInt64Value.write
  read := UInt64Value.read

theorem UInt64Value.faithful : UInt64Value.codec.Faithful where
  numbers := fun _ => rfl
  distinct := by decide
  follows := fun m _ => m.write_spec
  robust := fun m fs' hok hs hn hf => by
    have hs' : m.write.length < 2 ^ 32 := hs
    have hn' : NewerF UInt64Value.schema m.fields fs' := by rw [UInt64Value.fields_values]; exact hn
    show UInt64Value.read (encodeFields fs') = some m
    rw [← UInt64Value.read_newer hn' (fieldOk_of_small m.fields_pre hs') hf]
    exact m.read_write hs'

theorem Handshake.fields_values (m : Handshake) : m.fields = m.values.flatMap fun p => p.2.emit p.1 := by
  simp only [Handshake.values, Handshake.fields, List.flatMap_cons, List.flatMap_nil, List.append_nil, List.append_assoc, emit_u64, emit_u32, emit_i64, emit_i32,
    emit_bool, emit_str, emit_bytes, emit_enum, emit_msg, emit_strs, emit_msgs, emit_map]

theorem Handshake.write_spec (m : Handshake) : m.write = m.spec := by
  unfold Handshake.write Handshake.spec wire; rw [Handshake.fields_values]

theorem Handshake.write_funext : Handshake.write = Handshake.spec := funext Handshake.write_spec

theorem Handshake.read_newer {gs gs' : List Field} (h : NewerF Handshake.schema gs gs') (h1 : ∀ f ∈ gs, FieldOk f)
    (h2 : ∀ f ∈ gs', FieldOk f) : Handshake.read (encodeFields gs) = Handshake.read (encodeFields gs') :=
  fold_newer (merge := Handshake.merge) (S := Handshake.schema) {} (fun acc no v h => by
    have hne : ∀ k ∈ Handshake.schema.numbers, no ≠ k := fun k hk hx => h (hx ▸ hk)
    simp only [Handshake.schema, Schema.numbers, Schema.fields, List.map, List.forall_mem_cons] at hne
    unfold Handshake.merge
    split <;> first | (rename_i hx; simp only [Prod.mk.injEq] at hx; simp [hx.1] at hne; done) | rfl) (fun acc no T h => by simp [Handshake.schema, Schema.fields] at h)
    (by merge_comm Handshake.merge Handshake.schema) h h1 h2

/-- the codec of `Handshake`. -/
def Handshake.codec : Codec Handshake where
  schema := Handshake.schema
  values := Handshake.values
  Ok := fun _ => True
  write := Handshake.write
  read := Handshake.read

theorem Handshake.faithful : Handshake.codec.Faithful where
  numbers := fun _ => rfl
  distinct := by decide
  follows := fun m _ => m.write_spec
  robust := fun m fs' hok hs hn hf => by
    have hs' : m.write.length < 2 ^ 32 := hs
    have hn' : NewerF Handshake.schema m.fields fs' := by rw [Handshake.fields_values]; exact hn
    show Handshake.read (encodeFields fs') = some m
    rw [← Handshake.read_newer hn' (fieldOk_of_small m.fields_pre hs') hf]
    exact m.read_write hs'

theorem JoinChat.fields_values (m : JoinChat) : m.fields = m.values.flatMap fun p => p.2.emit p.1 := by
  simp only [JoinChat.values, JoinChat.fields, List.flatMap_cons, List.flatMap_nil, List.append_nil, List.append_assoc, emit_u64, emit_u32, emit_i64, emit_i32,
    emit_bool, emit_str, emit_bytes, emit_enum, emit_msg, emit_strs, emit_msgs, emit_map, StringValue.write_funext]

theorem JoinChat.write_spec (m : JoinChat) : m.write = m.spec := by
  unfold JoinChat.write JoinChat.spec wire; rw [JoinChat.fields_values]

theorem JoinChat.write_funext : JoinChat.write = JoinChat.spec := funext JoinChat.write_spec

theorem JoinChat.read_newer {gs gs' : List Field} (h : NewerF JoinChat.schema gs gs') (h1 : ∀ f ∈ gs, FieldOk f)
    (h2 : ∀ f ∈ gs', FieldOk f) : JoinChat.read (encodeFields gs) = JoinChat.read (encodeFields gs') :=
  fold_newer (merge := JoinChat.merge) (S := JoinChat.schema) {} (fun acc no v h => by
    have hne : ∀ k ∈ JoinChat.schema.numbers, no ≠ k := fun k hk hx => h (hx ▸ hk)
    simp only [JoinChat.schema, Schema.numbers, Schema.fields, List.map, List.forall_mem_cons] at hne
    unfold JoinChat.merge
    split <;> first | (rename_i hx; simp only [Prod.mk.injEq] at hx; simp [hx.1] at hne; done) | rfl) (fun acc no T h gs gs' hn h1 h2 => by
    simp only [JoinChat.schema, Schema.fields, List.mem_cons, Prod.mk.injEq, Option.some.injEq, reduceCtorEq, and_false, false_or, or_false,
      List.not_mem_nil] at h
    obtain ⟨rfl, rfl⟩ := h
    · simp only [JoinChat.merge, StringValue.read_newer hn h1 h2])
    (by merge_comm JoinChat.merge JoinChat.schema) h h1 h2

/-- the codec of `JoinChat`. -/
def JoinChat.codec : Codec JoinChat where
  schema := JoinChat.schema
  values := JoinChat.values
  Ok := fun _ => True
  write := JoinChat.write
  read := JoinChat.read

theorem JoinChat.faithful : JoinChat.codec.Faithful where
  numbers := fun _ => rfl
  distinct := by decide
  follows := fun m _ => m.write_spec
  robust := fun m fs' hok hs hn hf => by
    have hs' : m.write.length < 2 ^ 32 := hs
    have hn' : NewerF JoinChat.schema m.fields fs' := by rw [JoinChat.fields_values]; exact hn
    show JoinChat.read (encodeFields fs') = some m
    rw [← JoinChat.read_newer hn' (fieldOk_of_small m.fields_pre hs') hf]
    exact m.read_write hs'

theorem LeaveChat.fields_values (m : LeaveChat) : m.fields = m.values.flatMap fun p => p.2.emit p.1 := by
  simp only [LeaveChat.values, LeaveChat.fields, List.flatMap_cons, List.flatMap_nil, List.append_nil, List.append_assoc, emit_u64, emit_u32, emit_i64, emit_i32,
    emit_bool, emit_str, emit_bytes, emit_enum, emit_msg, emit_strs, emit_msgs, emit_map]

theorem LeaveChat.write_spec (m : LeaveChat) : m.write = m.spec := by
  unfold LeaveChat.write LeaveChat.spec wire; rw [LeaveChat.fields_values]

theorem LeaveChat.write_funext : LeaveChat.write = LeaveChat.spec := funext LeaveChat.write_spec

theorem LeaveChat.read_newer {gs gs' : List Field} (h : NewerF LeaveChat.schema gs gs') (h1 : ∀ f ∈ gs, FieldOk f)
    (h2 : ∀ f ∈ gs', FieldOk f) : LeaveChat.read (encodeFields gs) = LeaveChat.read (encodeFields gs') :=
  fold_newer (merge := LeaveChat.merge) (S := LeaveChat.schema) {} (fun acc no v h => by
    have hne : ∀ k ∈ LeaveChat.schema.numbers, no ≠ k := fun k hk hx => h (hx ▸ hk)
    simp only [LeaveChat.schema, Schema.numbers, Schema.fields, List.map, List.forall_mem_cons] at hne
    unfold LeaveChat.merge
    split <;> first | (rename_i hx; simp only [Prod.mk.injEq] at hx; simp [hx.1] at hne; done) | rfl) (fun acc no T h => by simp [LeaveChat.schema, Schema.fields] at h)
    (by merge_comm LeaveChat.merge LeaveChat.schema) h h1 h2

/-- the codec of `LeaveChat`. -/
def LeaveChat.codec : Codec LeaveChat where
  schema := LeaveChat.schema
  values := LeaveChat.values
  Ok := fun _ => True
  write := LeaveChat.write
  read := LeaveChat.read

theorem LeaveChat.faithful : LeaveChat.codec.Faithful where
  numbers := fun _ => rfl
  distinct := by decide
  follows := fun m _ => m.write_spec
  robust := fun m fs' hok hs hn hf => by
    have hs' : m.write.length < 2 ^ 32 := hs
    have hn' : NewerF LeaveChat.schema m.fields fs' := by rw [LeaveChat.fields_values]; exact hn
    show LeaveChat.read (encodeFields fs') = some m
    rw [← LeaveChat.read_newer hn' (fieldOk_of_small m.fields_pre hs') hf]
    exact m.read_write hs'

theorem ChatMessage.fields_values (m : ChatMessage) : m.fields = m.values.flatMap fun p => p.2.emit p.1 := by
  simp only [ChatMessage.values, ChatMessage.fields, List.flatMap_cons, List.flatMap_nil, List.append_nil, List.append_assoc, emit_u64, emit_u32, emit_i64, emit_i32,
    emit_bool, emit_str, emit_bytes, emit_enum, emit_msg, emit_strs, emit_msgs, emit_map, StringValue.write_funext, UInt64Value.write_funext]

theorem ChatMessage.write_spec (m : ChatMessage) : m.write = m.spec := by
  unfold ChatMessage.write ChatMessage.spec wire; rw [ChatMessage.fields_values]

theorem ChatMessage.write_funext : ChatMessage.write = ChatMessage.spec := funext ChatMessage.write_spec

theorem ChatMessage.read_newer {gs gs' : List Field} (h : NewerF ChatMessage.schema gs gs') (h1 : ∀ f ∈ gs, FieldOk f)
    (h2 : ∀ f ∈ gs', FieldOk f) : ChatMessage.read (encodeFields gs) = ChatMessage.read (encodeFields gs') :=
  fold_newer (merge := ChatMessage.merge) (S := ChatMessage.schema) {} (fun acc no v h => by
    have hne : ∀ k ∈ ChatMessage.schema.numbers, no ≠ k := fun k hk hx => h (hx ▸ hk)
    simp only [ChatMessage.schema, Schema.numbers, Schema.fields, List.map, List.forall_mem_cons] at hne
    unfold ChatMessage.merge
    split <;> first | (rename_i hx; simp only [Prod.mk.injEq] at hx; simp [hx.1] at hne; done) | rfl) (fun acc no T h gs gs' hn h1 h2 => by
    simp only [ChatMessage.schema, Schema.fields, List.mem_cons, Prod.mk.injEq, Option.some.injEq, reduceCtorEq, and_false, false_or, or_false,
      List.not_mem_nil] at h
    rcases h with ⟨rfl, rfl⟩ | ⟨rfl, rfl⟩
    · simp only [ChatMessage.merge, UInt64Value.read_newer hn h1 h2]
    · simp only [ChatMessage.merge, StringValue.read_newer hn h1 h2])
    (by merge_comm ChatMessage.merge ChatMessage.schema) h h1 h2

/-- the codec of `ChatMessage`. -/
def ChatMessage.codec : Codec ChatMessage where
  schema := ChatMessage.schema
  values := ChatMessage.values
  Ok := fun _ => True
  write := ChatMessage.write
  read := ChatMessage.read

theorem ChatMessage.faithful : ChatMessage.codec.Faithful where
  numbers := fun _ => rfl
  distinct := by decide
  follows := fun m _ => m.write_spec
  robust := fun m fs' hok hs hn hf => by
    have hs' : m.write.length < 2 ^ 32 := hs
    have hn' : NewerF ChatMessage.schema m.fields fs' := by rw [ChatMessage.fields_values]; exact hn
    show ChatMessage.read (encodeFields fs') = some m
    rw [← ChatMessage.read_newer hn' (fieldOk_of_small m.fields_pre hs') hf]
    exact m.read_write hs'

theorem SendChatMessage.fields_values (m : SendChatMessage) : m.fields = m.values.flatMap fun p => p.2.emit p.1 := by
  simp only [SendChatMessage.values, SendChatMessage.fields, List.flatMap_cons, List.flatMap_nil, List.append_nil, List.append_assoc, emit_u64, emit_u32, emit_i64, emit_i32,
    emit_bool, emit_str, emit_bytes, emit_enum, emit_msg, emit_strs, emit_msgs, emit_map, ChatMessage.write_funext]

theorem SendChatMessage.write_spec (m : SendChatMessage) : m.write = m.spec := by
  unfold SendChatMessage.write SendChatMessage.spec wire; rw [SendChatMessage.fields_values]

theorem SendChatMessage.write_funext : SendChatMessage.write = SendChatMessage.spec := funext SendChatMessage.write_spec

theorem SendChatMessage.read_newer {gs gs' : List Field} (h : NewerF SendChatMessage.schema gs gs') (h1 : ∀ f ∈ gs, FieldOk f)
    (h2 : ∀ f ∈ gs', FieldOk f) : SendChatMessage.read (encodeFields gs) = SendChatMessage.read (encodeFields gs') :=
  fold_newer (merge := SendChatMessage.merge) (S := SendChatMessage.schema) {} (fun acc no v h => by
    have hne : ∀ k ∈ SendChatMessage.schema.numbers, no ≠ k := fun k hk hx => h (hx ▸ hk)
    simp only [SendChatMessage.schema, Schema.numbers, Schema.fields, List.map, List.forall_mem_cons] at hne
    unfold SendChatMessage.merge
    split <;> first | (rename_i hx; simp only [Prod.mk.injEq] at hx; simp [hx.1] at hne; done) | rfl) (fun acc no T h gs gs' hn h1 h2 => by
    simp only [SendChatMessage.schema, Schema.fields, List.mem_cons, Prod.mk.injEq, Option.some.injEq, reduceCtorEq, and_false, false_or, or_false,
      List.not_mem_nil] at h
    obtain ⟨rfl, rfl⟩ := h
    · simp only [SendChatMessage.merge, ChatMessage.read_newer hn h1 h2])
    (by merge_comm SendChatMessage.merge SendChatMessage.schema) h h1 h2

/-- the codec of `SendChatMessage`. -/
def SendChatMessage.codec : Codec SendChatMessage where
  schema := SendChatMessage.schema
  values := SendChatMessage.values
  Ok := fun _ => True
  write := SendChatMessage.write
  read := SendChatMessage.read

theorem SendChatMessage.faithful : SendChatMessage.codec.Faithful where
  numbers := fun _ => rfl
  distinct := by decide
  follows := fun m _ => m.write_spec
  robust := fun m fs' hok hs hn hf => by
    have hs' : m.write.length < 2 ^ 32 := hs
    have hn' : NewerF SendChatMessage.schema m.fields fs' := by rw [SendChatMessage.fields_values]; exact hn
    show SendChatMessage.read (encodeFields fs') = some m
    rw [← SendChatMessage.read_newer hn' (fieldOk_of_small m.fields_pre hs') hf]
    exact m.read_write hs'

end Chat

end Verif.Proto
