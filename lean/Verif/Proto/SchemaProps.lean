import Verif.Proto.SchemaLemmas
import Verif.Remote.CodecModel
import Verif.Sharding.CodecModel
import Verif.Singleton.CodecModel

/-!
# C92: the messages follow their `.proto` files, and those of a newer version are understood

`Codec.Faithful` of `SchemaSpec`: what is written is what the `.proto` file says, field by field, and a message is read
whatever fields of other numbers stand between its own and in whatever order fields of different numbers come, in its
sub-messages as well. New values of enums are another
matter: where the code turns them into its own types it panics.
-/

namespace Verif.Proto

/-- **C92**: the encoding of numbers is the one protobuf lays down. -/
theorem C92_varint (n : Nat) (bs : Bytes) : IsVarint n bs ↔ bs = varint n := by
  induction bs generalizing n with
  | nil =>
    unfold varint
    split <;> simp [IsVarint]
  | cons b bs ih =>
    cases bs with
    | nil =>
      unfold varint
      simp only [IsVarint]
      split
      · rename_i h
        constructor
        · rintro ⟨_, h2⟩; subst h2; simp
        · intro h2
          obtain rfl : b = UInt8.ofNat n := by simpa using h2
          simp only [UInt8.toNat_ofNat']
          omega
      · rename_i h
        constructor
        · rintro ⟨h1, h2⟩; omega
        · intro h2
          have : varint (n / 128) = [] := by
            have := congrArg List.tail h2; simpa using this.symm
          unfold varint at this
          split at this <;> simp at this
    | cons c bs =>
      unfold varint
      simp only [IsVarint]
      split
      · rename_i h
        constructor
        · rintro ⟨_, _, h3, _⟩; omega
        · intro h2; simp at h2
      · rename_i h
        rw [List.cons.injEq, ← ih]
        have hb := b.toNat_lt
        constructor
        · rintro ⟨h1, h2, _, h4⟩
          refine ⟨?_, h4⟩
          rw [h2]
          apply UInt8.toNat_inj.1
          simp only [UInt8.toNat_ofNat']
          omega
        · rintro ⟨h1, h2⟩
          have : b.toNat = n % 128 + 128 := by
            rw [h1]; simp only [UInt8.toNat_ofNat']; omega
          exact ⟨by omega, by omega, by omega, h2⟩

/-- **C92** for the messages of `/repo/coerce/src/protocol/network.proto`. -/
theorem C92_network :
    Network.Timestamp.codec.Faithful ∧
    Network.UInt64Value.codec.Faithful ∧
    Network.RemoteNode.codec.Faithful ∧
    Network.IdentifyEvent.codec.Faithful ∧
    Network.SystemCapabilities.codec.Faithful ∧
    Network.NodeIdentity.codec.Faithful ∧
    Network.ClientHandshake.codec.Faithful ∧
    Network.ClientResult.codec.Faithful ∧
    Network.ActorRefErr.codec.Faithful ∧
    Network.ClientErr.codec.Faithful ∧
    Network.PingEvent.codec.Faithful ∧
    Network.PongEvent.codec.Faithful ∧
    Network.CreateActorEvent.codec.Faithful ∧
    Network.FindActorEvent.codec.Faithful ∧
    Network.ActorAddress.codec.Faithful ∧
    Network.MessageRequest.codec.Faithful ∧
    Network.SessionHandshake.codec.Faithful ∧
    Network.StreamPublishEvent.codec.Faithful ∧
    Network.NewNodeEvent.codec.Faithful ∧
    Network.NodeRemovedEvent.codec.Faithful ∧
    Network.LeaderChangedEvent.codec.Faithful ∧
    Network.MemberUpEvent.codec.Faithful ∧
    Network.RaftRequest.codec.Faithful :=
  ⟨Network.Timestamp.faithful,
    Network.UInt64Value.faithful,
    Network.RemoteNode.faithful,
    Network.IdentifyEvent.faithful,
    Network.SystemCapabilities.faithful,
    Network.NodeIdentity.faithful,
    Network.ClientHandshake.faithful,
    Network.ClientResult.faithful,
    Network.ActorRefErr.faithful,
    Network.ClientErr.faithful,
    Network.PingEvent.faithful,
    Network.PongEvent.faithful,
    Network.CreateActorEvent.faithful,
    Network.FindActorEvent.faithful,
    Network.ActorAddress.faithful,
    Network.MessageRequest.faithful,
    Network.SessionHandshake.faithful,
    Network.StreamPublishEvent.faithful,
    Network.NewNodeEvent.faithful,
    Network.NodeRemovedEvent.faithful,
    Network.LeaderChangedEvent.faithful,
    Network.MemberUpEvent.faithful,
    Network.RaftRequest.faithful⟩

/-- **C92** for the messages of `/repo/coerce/src/protocol/sharding.proto`. -/
theorem C92_sharding :
    Sharding.AllocateShard.codec.Faithful ∧
    Sharding.RemoteShard.codec.Faithful ∧
    Sharding.ShardAllocated.codec.Faithful ∧
    Sharding.ShardReallocating.codec.Faithful ∧
    Sharding.StopShard.codec.Faithful ∧
    Sharding.ShardStopped.codec.Faithful ∧
    Sharding.AllocateShardResult.codec.Faithful ∧
    Sharding.RemoteEntityRequestRecipe.codec.Faithful ∧
    Sharding.RemoteEntityRequest.codec.Faithful ∧
    Sharding.StartEntity.codec.Faithful ∧
    Sharding.PassivateEntity.codec.Faithful ∧
    Sharding.RemoveEntity.codec.Faithful ∧
    Sharding.ShardStateSnapshotEntity.codec.Faithful ∧
    Sharding.ShardStateSnapshot.codec.Faithful ∧
    Sharding.GetShardingStats.codec.Faithful ∧
    Sharding.NodeStats.codec.Faithful ∧
    Sharding.ShardingStats.codec.Faithful ∧
    Sharding.GetShardStats.codec.Faithful ∧
    Sharding.ShardStats.codec.Faithful :=
  ⟨Sharding.AllocateShard.faithful,
    Sharding.RemoteShard.faithful,
    Sharding.ShardAllocated.faithful,
    Sharding.ShardReallocating.faithful,
    Sharding.StopShard.faithful,
    Sharding.ShardStopped.faithful,
    Sharding.AllocateShardResult.faithful,
    Sharding.RemoteEntityRequestRecipe.faithful,
    Sharding.RemoteEntityRequest.faithful,
    Sharding.StartEntity.faithful,
    Sharding.PassivateEntity.faithful,
    Sharding.RemoveEntity.faithful,
    Sharding.ShardStateSnapshotEntity.faithful,
    Sharding.ShardStateSnapshot.faithful,
    Sharding.GetShardingStats.faithful,
    Sharding.NodeStats.faithful,
    Sharding.ShardingStats.faithful,
    Sharding.GetShardStats.faithful,
    Sharding.ShardStats.faithful⟩

/-- **C92** for the messages of `/repo/coerce/src/protocol/singleton.proto`. -/
theorem C92_singleton :
    Singleton.GetStatus.codec.Faithful ∧
    Singleton.ManagerStatus.codec.Faithful ∧
    Singleton.RequestLease.codec.Faithful ∧
    Singleton.LeaseAck.codec.Faithful ∧
    Singleton.LeaseNack.codec.Faithful ∧
    Singleton.SingletonStarted.codec.Faithful ∧
    Singleton.SingletonStopping.codec.Faithful ∧
    Singleton.SingletonStopped.codec.Faithful :=
  ⟨Singleton.GetStatus.faithful,
    Singleton.ManagerStatus.faithful,
    Singleton.RequestLease.faithful,
    Singleton.LeaseAck.faithful,
    Singleton.LeaseNack.faithful,
    Singleton.SingletonStarted.faithful,
    Singleton.SingletonStopping.faithful,
    Singleton.SingletonStopped.faithful⟩

/-- **C92** for the messages of the chat example. -/
theorem C92_chat :
    Chat.StringValue.codec.Faithful ∧
    Chat.UInt64Value.codec.Faithful ∧
    Chat.Handshake.codec.Faithful ∧
    Chat.JoinChat.codec.Faithful ∧
    Chat.LeaveChat.codec.Faithful ∧
    Chat.ChatMessage.codec.Faithful ∧
    Chat.SendChatMessage.codec.Faithful :=
  ⟨Chat.StringValue.faithful,
    Chat.UInt64Value.faithful,
    Chat.Handshake.faithful,
    Chat.JoinChat.faithful,
    Chat.LeaveChat.faithful,
    Chat.ChatMessage.faithful,
    Chat.SendChatMessage.faithful⟩

/-- the codec of the entries of the journal, with numbers in the range of `i64`. -/
def Journal.codec : Codec Persist.Entry where
  schema := Journal.entryFields
  values := Journal.entryValues
  Ok := fun e => -2 ^ 63 ≤ e.seq ∧ e.seq < 2 ^ 63
  write := Persist.Entry.write
  read := Persist.Entry.read

theorem Journal.fields_values (e : Persist.Entry) (h : -2 ^ 63 ≤ e.seq ∧ e.seq < 2 ^ 63) :
    e.fields = (Journal.entryValues e).flatMap fun p => p.2.emit p.1 := by
  have : (Int64.ofInt e.seq).toInt = e.seq := Int64.toInt_ofInt_of_le h.1 h.2
  simp only [Journal.entryValues, Persist.Entry.fields, List.flatMap_cons, List.flatMap_nil, List.append_nil,
    List.append_assoc, emit_i64, emit_str, emit_bytes, this]

theorem Journal.read_newer {gs gs' : List Field} (h : NewerF Journal.entryFields gs gs') (h1 : ∀ f ∈ gs, FieldOk f)
    (h2 : ∀ f ∈ gs', FieldOk f) : Persist.Entry.read (encodeFields gs) = Persist.Entry.read (encodeFields gs') :=
  fold_newer (merge := Persist.Entry.merge) (S := Journal.entryFields) ⟨0, "", []⟩ (fun acc no v h => by
    have hne : ∀ k ∈ Journal.entryFields.numbers, no ≠ k := fun k hk hx => h (hx ▸ hk)
    simp only [Journal.entryFields, Schema.numbers, Schema.fields, List.map, List.forall_mem_cons] at hne
    unfold Persist.Entry.merge
    split <;> first | (rename_i hx; simp only [Prod.mk.injEq] at hx; simp [hx.1] at hne; done) | rfl)
    (fun acc no T h => by simp [Journal.entryFields, Schema.fields] at h)
    (by
      rintro acc ⟨a, v⟩ ⟨b, w⟩ hf hg hne
      simp only [Journal.entryFields, Schema.numbers, Schema.fields, List.map, List.mem_cons, List.not_mem_nil, or_false] at hf hg
      rcases hf with rfl | rfl | rfl <;> rcases hg with rfl | rfl | rfl <;> first
        | exact absurd rfl hne
        | (cases v <;> cases w <;> simp [Persist.Entry.merge, Option.bind_map, Function.comp_def, comm_skip] <;> first
            | exact comm_some_map _ _ _ (fun _ => rfl)
            | exact (comm_some_map _ _ _ (fun _ => rfl)).symm)) h h1 h2

theorem Journal.fields_pre (e : Persist.Entry) : FieldsPre e.fields :=
  fieldsPre_append (fieldsPre_append (pre_fInt64 (by decide)) (pre_fString (by decide))) (pre_fBytes (by decide))

/-- **C92** for the entries of the journal. -/
theorem C92_journal : Journal.codec.Faithful where
  numbers := fun _ => rfl
  distinct := by decide
  follows := fun e h => by
    show encodeFields e.fields = _
    rw [Journal.fields_values e h]; rfl
  robust := fun e fs' hok hs hn hf => by
    have hs' : (encodeFields e.fields).length < 2 ^ 32 := hs
    have hn' : NewerF Journal.entryFields e.fields fs' := by rw [Journal.fields_values e hok]; exact hn
    show Persist.Entry.read (encodeFields fs') = some e
    have hfo := fieldOk_of_small (Journal.fields_pre e) hs'
    rw [← Journal.read_newer hn' hfo hf]
    have hp : (strBytes e.ptype).length < 2 ^ 64 := by
      by_cases h0 : e.ptype = ""
      · rw [h0]; decide
      · exact (hfo (2, .len (strBytes e.ptype)) (by simp [Persist.Entry.fields, fString, h0])).2.2
    have hb : e.bytes.length < 2 ^ 64 := by
      by_cases h0 : e.bytes = []
      · rw [h0]; decide
      · exact (hfo (3, .len e.bytes) (by simp [Persist.Entry.fields, fBytes, h0])).2.2
    exact Persist.Entry.read_write e hok.1 hok.2 hp hb

/-! ## A key that comes twice -/

theorem mapInsert_mem (l : List (String × String)) (kv p : String × String) (hl : MapOk l) :
    p ∈ mapInsert l kv ↔ p = kv ∨ (p ∈ l ∧ p.1 ≠ kv.1) := by
  unfold mapInsert
  split
  · next h =>
    obtain ⟨q, hq, e⟩ := List.any_eq_true.1 h
    have e : q.1 = kv.1 := by simpa using e
    rw [List.mem_map]
    constructor
    · rintro ⟨x, hx, rfl⟩
      split
      · exact .inl rfl
      · next hne => exact .inr ⟨hx, hne⟩
    · rintro (rfl | ⟨hp, hne⟩)
      · exact ⟨q, hq, by rw [if_pos e]⟩
      · exact ⟨p, hp, by rw [if_neg hne]⟩
  · next h =>
    simp only [List.any_eq_true, beq_iff_eq, not_exists, not_and] at h
    rw [List.mem_append, List.mem_singleton]
    constructor
    · rintro (hp | rfl)
      · exact .inr ⟨hp, h p hp⟩
      · exact .inl rfl
    · rintro (rfl | ⟨hp, _⟩)
      · exact .inr rfl
      · exact .inl hp

theorem mapInsert_ok (l : List (String × String)) (kv : String × String) (hl : MapOk l) : MapOk (mapInsert l kv) := by
  unfold mapInsert MapOk
  split
  · have : (l.map fun p => if p.1 = kv.1 then kv else p).map (·.1) = l.map (·.1) := by
      rw [List.map_map]
      refine List.map_congr_left fun p _ => ?_
      simp only [Function.comp]
      split
      · next h => exact h.symm
      · rfl
    rw [this]
    exact hl
  · next h =>
    simp only [List.any_eq_true, beq_iff_eq, not_exists, not_and] at h
    rw [List.map_append, List.nodup_append]
    refine ⟨hl, by simp, ?_⟩
    intro a ha b hb
    obtain ⟨p, hp, rfl⟩ := List.mem_map.1 ha
    obtain rfl : b = kv.1 := by simpa using hb
    exact h p hp

/-- **C92** for maps: whatever entries a message has, in whatever order and with whatever keys more than once, reading
it gives each key once, with its last value. -/
theorem C92_map_last (kvs : List (String × String)) (hs : ∀ kv ∈ kvs, (mapEntry kv).length < 2 ^ 32) :
    ∃ m, (kvs.map fun kv => ((5, .len (mapEntry kv)) : Field)).foldlM Network.RemoteNode.merge {} = some m ∧
      (m.attributes.map (·.1)).Nodup ∧
      ∀ k v, (k, v) ∈ m.attributes ↔ kvs.reverse.find? (fun kv => kv.1 == k) = some (k, v) := by
  suffices h : ∀ (done : List (String × String)) (m : Network.RemoteNode), MapOk m.attributes →
      (∀ k v, (k, v) ∈ m.attributes ↔ done.reverse.find? (fun kv => kv.1 == k) = some (k, v)) →
      ∃ m', (kvs.map fun kv => ((5, .len (mapEntry kv)) : Field)).foldlM Network.RemoteNode.merge m = some m' ∧
        (m'.attributes.map (·.1)).Nodup ∧
        ∀ k v, (k, v) ∈ m'.attributes ↔ (done ++ kvs).reverse.find? (fun kv => kv.1 == k) = some (k, v) by
    simpa using h [] {} (by simp [MapOk]) (by simp)
  induction kvs with
  | nil =>
    intro done m hok hm
    exact ⟨m, rfl, hok, by simpa using hm⟩
  | cons kv kvs ih =>
    intro done m hok hm
    have hread := readMapEntry_mapEntry kv (hs kv (List.mem_cons_self ..))
    have := ih (fun x hx => hs x (List.mem_cons_of_mem _ hx)) (done ++ [kv])
      { m with attributes := mapInsert m.attributes kv } (mapInsert_ok _ _ hok) (by
        intro k v
        show (k, v) ∈ mapInsert m.attributes kv ↔ _
        rw [mapInsert_mem _ _ _ hok, List.reverse_append, List.reverse_singleton, List.singleton_append,
          List.find?_cons, hm k v]
        by_cases e : kv.1 = k
        · subst e
          simp only [beq_self_eq_true, Option.some.injEq]
          constructor
          · rintro (h | ⟨_, h⟩)
            · exact h.symm
            · exact absurd rfl h
          · intro h; exact .inl h.symm
        · have e' : (kv.1 == k) = false := by simpa using e
          simp only [e']
          constructor
          · rintro (h | ⟨h, _⟩)
            · exact absurd (by rw [← h]) e
            · exact h
          · intro h; exact .inr ⟨h, fun h' => e h'.symm⟩)
    obtain ⟨m', h1, h2, h3⟩ := this
    refine ⟨m', ?_, h2, ?_⟩
    · simp only [List.map_cons, List.foldlM_cons, Network.RemoteNode.merge, hread, Option.map_some]
      exact h1
    · intro k v
      rw [h3 k v, List.append_assoc]
      rfl

/-- a case: one key three times. -/
example : ([("a", "1"), ("b", "2"), ("a", "3"), ("a", "4")].map
    fun kv => ((5, .len (mapEntry kv)) : Field)).foldlM Network.RemoteNode.merge {} =
      some { attributes := [("a", "4"), ("b", "2")] } := by decide +kernel

/-! ## New values of enums -/

/-! ### Messages that were cut off -/

theorem readVarint_more (x : Bytes) : ∀ (f : Nat) (bs : Bytes) (v : Nat) (r : Bytes),
    readVarint f bs = some (v, r) → readVarint f (bs ++ x) = some (v, r ++ x) := by
  intro f
  induction f with
  | zero => intro bs v r h; simp [readVarint] at h
  | succ f ih =>
    intro bs v r h
    cases bs with
    | nil => simp [readVarint] at h
    | cons b bs =>
      simp only [List.cons_append, readVarint] at h ⊢
      split at h
      · rename_i hb
        simp only [Option.some.injEq, Prod.mk.injEq] at h
        rw [if_pos hb, h.1, h.2]
      · rename_i hb
        rw [if_neg hb]
        cases hr : readVarint f bs with
        | none => rw [hr] at h; simp at h
        | some q =>
          obtain ⟨w, r'⟩ := q
          rw [hr] at h
          simp only [Option.some.injEq, Prod.mk.injEq] at h
          rw [ih bs w r' hr]
          simp [h.1, h.2]

theorem takeN_more (x : Bytes) (n : Nat) (bs v r : Bytes) (h : takeN n bs = some (v, r)) :
    takeN n (bs ++ x) = some (v, r ++ x) := by
  unfold takeN at h ⊢
  split at h
  · rename_i hn
    simp only [Option.some.injEq, Prod.mk.injEq] at h
    rw [if_pos (by simp; omega), List.take_append_of_le_length hn, List.drop_append_of_le_length hn, h.1, h.2]
  · simp at h

theorem readVal_more (x : Bytes) (wt : Nat) (bs : Bytes) (v : WireVal) (r : Bytes)
    (h : readVal wt bs = some (v, r)) : readVal wt (bs ++ x) = some (v, r ++ x) := by
  unfold readVal at h ⊢
  split at h
  · obtain ⟨⟨n, q⟩, h1, h2⟩ := Option.map_eq_some_iff.1 h
    rw [readVarint_more x _ _ _ _ h1]
    simp only [Prod.mk.injEq] at h2
    simp [h2.1, h2.2]
  · obtain ⟨⟨n, q⟩, h1, h2⟩ := Option.map_eq_some_iff.1 h
    rw [takeN_more x _ _ _ _ h1]
    simp only [Prod.mk.injEq] at h2
    simp [h2.1, h2.2]
  · obtain ⟨⟨n, q⟩, h1, h2⟩ := Option.bind_eq_some_iff.1 h
    obtain ⟨⟨w, q'⟩, h3, h4⟩ := Option.map_eq_some_iff.1 h2
    rw [readVarint_more x _ _ _ _ h1]
    simp only [Option.bind_some]
    rw [takeN_more x _ _ _ _ h3]
    simp only [Prod.mk.injEq] at h4
    simp [h4.1, h4.2]
  · obtain ⟨⟨n, q⟩, h1, h2⟩ := Option.map_eq_some_iff.1 h
    rw [takeN_more x _ _ _ _ h1]
    simp only [Prod.mk.injEq] at h2
    simp [h2.1, h2.2]
  · simp at h

theorem readField_more (x : Bytes) (bs : Bytes) (f : Field) (r : Bytes)
    (h : readField bs = some (f, r)) : readField (bs ++ x) = some (f, r ++ x) := by
  unfold readField at h ⊢
  obtain ⟨⟨tag, q⟩, h1, h2⟩ := Option.bind_eq_some_iff.1 h
  rw [readVarint_more x _ _ _ _ h1]
  simp only [Option.bind_some] at h2 ⊢
  split at h2
  · simp at h2
  · rename_i h0
    rw [if_neg h0]
    obtain ⟨⟨w, q'⟩, h3, h4⟩ := Option.map_eq_some_iff.1 h2
    rw [readVal_more x _ _ _ _ h3]
    simp only [Prod.mk.injEq] at h4
    simp [h4.1, h4.2]

theorem parseLoop_cut (p : Bytes) (hp : p ≠ []) (hn : readField p = none) (fs : List Field) (h : ∀ f ∈ fs, FieldOk f) :
    ∀ fuel, parseLoop fuel (encodeFields fs ++ p) = none := by
  induction fs with
  | nil =>
    intro fuel
    cases p with
    | nil => exact absurd rfl hp
    | cons b bs => cases fuel <;> simp [encodeFields, parseLoop, hn]
  | cons f fs ih =>
    intro fuel
    have e : encodeFields (f :: fs) ++ p = encodeField f ++ (encodeFields fs ++ p) := by simp [encodeFields]
    have hr := readField_encodeField f (encodeFields fs ++ p) (h f (by simp))
    rw [e]
    cases hb : encodeField f with
    | nil => exact absurd hb (encodeField_ne_nil f)
    | cons b bs =>
      rw [hb] at hr
      cases fuel with
      | zero => rfl
      | succ fuel =>
        simp only [List.cons_append] at hr ⊢
        rw [parseLoop, hr]
        simp [ih (fun g hg => h g (by simp [hg])) fuel]

/-- **C92**: bytes that end in the middle of a field, be it in its tag, in the length before its bytes or in the bytes
themselves, are refused: no reader takes the fields before the cut for a message. -/
theorem C92_truncated (fs : List Field) (f : Field) (p q : Bytes) (hfs : ∀ g ∈ fs, FieldOk g) (hf : FieldOk f)
    (hpq : p ++ q = encodeField f) (hp : p ≠ []) (hq : q ≠ []) : parseFields (encodeFields fs ++ p) = none := by
  refine parseLoop_cut p hp ?_ fs hfs _
  cases hr : readField p with
  | none => rfl
  | some y =>
    obtain ⟨g, r⟩ := y
    have h1 := readField_more q p g r hr
    rw [hpq] at h1
    have h2 := readField_encodeField f [] hf
    rw [List.append_nil, h1] at h2
    simp only [Option.some.injEq, Prod.mk.injEq, List.append_eq_nil_iff] at h2
    exact absurd h2.2.2 hq

/-- two bytes of a string of three. -/
example : parseFields (encodeFields [(1, .varint 5)] ++ [0x12, 3, 65, 66]) = none :=
  C92_truncated [(1, .varint 5)] (2, .len [65, 66, 67]) [0x12, 3, 65, 66] [67]
    (by simp [FieldOk, WireVal.Ok]) (by simp [FieldOk, WireVal.Ok]) (by decide +kernel) (by simp) (by simp)

/-- Refuted for values of enums: a kind of error, a result of an allocation, a state of a singleton or a state of an
entity with a number this version does not know is read, but using it panics, in the connection, in the request for the
shard, in the manager and in the recovery of the shard. -/
theorem C92_new_values_refuted (n : Int32) :
    (11 < n.toInt → ∀ p : Network.ActorRefErr, p.errType = n → Remote.ActorRefErr.fromProto p = none) ∧
    (3 < n.toInt → ∀ r : Sharding.AllocateShardResult, r.resultType = n → Verif.Sharding.Wire.AllocateShardResult.ofProto r = none) ∧
    (4 < n.toInt → Verif.Singleton.Wire.SingletonState.ofNum n = none) ∧
    (2 < n.toInt → ∀ e : Sharding.ShardStateSnapshotEntity, e.state = n → Verif.Sharding.Wire.SnapEntity.ofProto e = none) ∧
    (3 < n.toInt → Verif.Sharding.Wire.HostStatus.ofNum n.toInt = none) := by
  refine ⟨?_, ?_, ?_, ?_, ?_⟩
  · rintro h p rfl
    unfold Remote.ActorRefErr.fromProto
    split <;> first | rfl | omega
  · rintro h p rfl
    unfold Verif.Sharding.Wire.AllocateShardResult.ofProto
    split <;> first | rfl | omega
  · intro h
    unfold Verif.Singleton.Wire.SingletonState.ofNum
    rw [if_neg, if_neg, if_neg, if_neg, if_neg] <;> (rintro rfl; revert h; decide)
  · rintro h p rfl
    unfold Verif.Sharding.Wire.SnapEntity.ofProto Verif.Sharding.Wire.SnapState.ofNum
    split <;> first | rfl | omega
  · intro h
    unfold Verif.Sharding.Wire.HostStatus.ofNum
    split <;> first | rfl | omega

theorem NewerF.refl (S : Schema) (fs : List Field) : NewerF S fs fs := by
  induction fs with
  | nil => exact .nil
  | cons f fs ih => exact .same ih

/-- a field can be moved past fields of other numbers. -/
theorem NewerF.moved {S : Schema} {fs : List Field} (f : Field) (pre : List Field) (gs post : List Field)
    (hne : ∀ g ∈ pre, f.1 ≠ g.1) (h : NewerF S fs (gs ++ f :: (pre ++ post))) : NewerF S fs (gs ++ (pre ++ f :: post)) := by
  induction pre generalizing gs with
  | nil => exact h
  | cons g pre ih =>
    have := ih (gs ++ [g]) (fun x hx => hne x (List.mem_cons_of_mem _ hx)) (by
      have := NewerF.swap (hne g List.mem_cons_self) h
      simpa using this)
    simpa using this

/-- **C92**: a rearrangement that keeps the order of the fields of each number is one a newer version might write. -/
theorem C92_rearranged (S : Schema) (fs fs' : List Field)
    (h : ∀ no, fs.filter (fun f => f.1 == no) = fs'.filter (fun f => f.1 == no)) : NewerF S fs fs' := by
  induction fs generalizing fs' with
  | nil =>
    cases fs' with
    | nil => exact .nil
    | cons f fs' => have := h f.1; simp at this
  | cons f fs ih =>
    have hf : f ∈ fs' := by
      have h0 : f ∈ (f :: fs).filter (fun g => g.1 == f.1) := by simp
      rw [h f.1] at h0
      exact (List.mem_filter.mp h0).1
    -- the first field of this number
    have hfirst : ∃ pre post, fs' = pre ++ f :: post ∧ ∀ g ∈ pre, f.1 ≠ g.1 := by
      have h0 := h f.1
      simp only [List.filter_cons, beq_self_eq_true, if_true] at h0
      clear h ih hf
      induction fs' with
      | nil => simp at h0
      | cons g gs ihg =>
        by_cases hg : g.1 = f.1
        · simp only [List.filter_cons, hg, beq_self_eq_true, if_true, List.cons.injEq] at h0
          exact ⟨[], gs, by rw [h0.1]; rfl, by simp⟩
        · have hb : (g.1 == f.1) = false := by simpa using hg
          simp only [List.filter_cons, hb] at h0
          obtain ⟨pre, post, e, hp⟩ := ihg (by simpa using h0)
          refine ⟨g :: pre, post, by rw [e]; rfl, fun x hx => ?_⟩
          rcases List.mem_cons.mp hx with rfl | hx
          · exact fun e => hg e.symm
          · exact hp x hx
    obtain ⟨pre, post, rfl, hp⟩ := hfirst
    refine NewerF.moved f pre [] post hp (.same (ih (pre ++ post) fun no => ?_))
    have h0 := h no
    simp only [List.filter_append, List.filter_cons] at h0 ⊢
    by_cases hno : f.1 = no
    · have hz : pre.filter (fun g => g.1 == no) = [] := by
        rw [List.filter_eq_nil_iff]
        intro g hg hx
        exact hp g hg (by rw [hno]; simpa using (beq_iff_eq.mp hx).symm)
      simpa [hno, hz] using h0
    · have hb : (f.1 == no) = false := by simpa using hno
      simpa [hb] using h0

/-- **C92**: a message is read back in whatever order its fields come, if those of one number keep theirs. -/
theorem C92_any_order {α : Type} {c : Codec α} (hc : c.Faithful) (m : α) (hok : c.Ok m) (hs : (c.write m).length < 2 ^ 32)
    (fs' : List Field) (h : ∀ no, ((c.values m).flatMap fun p => p.2.emit p.1).filter (fun f => f.1 == no) =
      fs'.filter (fun f => f.1 == no)) (hf : ∀ f ∈ fs', FieldOk f) : c.read (encodeFields fs') = some m :=
  hc.robust m fs' hok hs (C92_rearranged _ _ _ h) hf

/-! ## Cases -/

-- the examples of the documentation of protobuf: field 1 with 150, and field 2 with "testing"
example : encodeFields [(1, .varint 150)] = [0x08, 0x96, 0x01] := by decide +kernel
example : encodeFields [(2, .len (strBytes "testing"))] = [0x12, 0x07, 0x74, 0x65, 0x73, 0x74, 0x69, 0x6e, 0x67] := by
  decide +kernel

/-- a node as a newer version might write it, with a field 9 of its own and a field 7 in the time it was started. -/
example : NewerF Network.RemoteNode.schema
    (({ nodeId := 3, addr := "h:1", nodeStartedAt := some { seconds := 5 } } : Network.RemoteNode).values.flatMap
      fun p => p.2.emit p.1)
    [(9, .fixed32 [1, 2, 3, 4]), (1, .varint 3), (2, .len (strBytes "h:1")),
     (3, .len (encodeFields [(1, .varint 5), (7, .varint 1)]))] := by
  have e1 : (({ nodeId := 3, addr := "h:1", nodeStartedAt := some { seconds := 5 } } : Network.RemoteNode).values.flatMap
      fun p => p.2.emit p.1) = [(1, .varint 3), (2, .len (strBytes "h:1")), (3, .len (encodeFields [(1, .varint 5)]))] := by
    decide +kernel
  rw [e1]
  refine .unknown (by decide) (.same (.same (.sub (T := Network.Timestamp.schema) (by simp [Network.RemoteNode.schema, Schema.fields])
    (.same (.unknown (by decide) .nil)) ?_ ?_ .nil)))
  · intro f hf; simp at hf; subst hf; exact ⟨by decide, by decide, show 5 < 2 ^ 64 by decide⟩
  · intro f hf; simp at hf
    rcases hf with rfl | rfl
    · exact ⟨by decide, by decide, show 5 < 2 ^ 64 by decide⟩
    · exact ⟨by decide, by decide, show 1 < 2 ^ 64 by decide⟩

-- the fields of a node in another order: the start first, the number last, the two names of the map as they were
example : Network.RemoteNode.codec.read (encodeFields
    [(3, .len (encodeFields [(1, .varint 5)])), (5, .len (mapEntry ("a", "x"))), (2, .len (strBytes "h:1")),
     (5, .len (mapEntry ("b", "y"))), (1, .varint 3)]) =
    some { nodeId := 3, addr := "h:1", nodeStartedAt := some { seconds := 5 }, attributes := [("a", "x"), ("b", "y")] } := by
  have e1 : (Network.RemoteNode.values { nodeId := 3, addr := "h:1", nodeStartedAt := some { seconds := 5 }, attributes := [("a", "x"), ("b", "y")] }).flatMap
      (fun p => p.2.emit p.1) = [(1, .varint 3), (2, .len (strBytes "h:1")), (3, .len (encodeFields [(1, .varint 5)])),
        (5, .len (mapEntry ("a", "x"))), (5, .len (mapEntry ("b", "y")))] := by decide +kernel
  refine C92_any_order C92_network.2.2.1 _ ?_ ?_ _ ?_ ?_
  · show (([("a", "x"), ("b", "y")] : List (String × String)).map (·.1)).Nodup
    decide
  · decide +kernel
  · intro no
    show List.filter _ ((Network.RemoteNode.values _).flatMap _) = _
    rw [e1]
    by_cases h1 : 1 = no <;> by_cases h2 : 2 = no <;> by_cases h3 : 3 = no <;> by_cases h5 : 5 = no <;>
      first | omega | simp [h1, h2, h3, h5] | (subst_vars; simp [List.filter_cons])
  · intro f hf
    simp only [List.mem_cons, List.not_mem_nil, or_false] at hf
    rcases hf with rfl | rfl | rfl | rfl | rfl <;> exact ⟨by decide, by decide, by simp only [WireVal.Ok]; decide +kernel⟩

example : Remote.ActorRefErr.fromProto { errType := 12 } = none := by decide

end Verif.Proto
