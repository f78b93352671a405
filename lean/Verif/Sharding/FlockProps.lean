import Verif.Persist.FlockProps
import Verif.Sharding.FlockModel
import Verif.Sharding.StoredProps

/-! C122 for coordinators and shards. -/

namespace Verif.Sharding

open Verif.Persist (redisKey)
open Verif.Persist.Flock (Op World asked Apart keysOf Readable bringUp)

theorem coord_readable (l : List UInt32) : Readable coordApp l := by
  intro u _
  refine ⟨?_, by simp [coordApp, coordKnown, allocPayload]⟩
  show (decodeAlloc (allocPayload u)).map UInt32.ofNat = some u
  rw [decode_alloc]
  simp

theorem foldl_snoc {α : Type} (l m : List α) : l.foldl (fun a x => a ++ [x]) m = m ++ l := by
  induction l generalizing m with
  | nil => simp
  | cons x l ih => simp [ih]

/-- **C122**: Any number of nodes hold themselves to be the leader and run a coordinator of one entity type, on a Redis that
fails in any way. Whichever coordinator is started next: it knows every shard that any of them ever reported as allocated,
on an available node, and no shard nobody asked for. -/
theorem C122_coordinators (hashtags : Bool) (pre pid : String) (st : Persist.RedisStore)
    (hs1 : st (redisKey hashtags pre pid "journal") = []) (hs2 : st (redisKey hashtags pre pid "snapshot") = [])
    (ops : List (Op UInt32)) (ho : Apart (keysOf (redisKey hashtags pre) pid) ops) (c n : Nat)
    (w : World UInt32 (List UInt32)) (hw : w = (World.init st).run coordApp (redisKey hashtags pre) pid ops)
    (hoff : w.Off c) (hn : n ∉ w.sys.down) (hq : ∀ j ∈ w.sys.queue, j.node ≠ n)
    (ht : ∀ j ∈ w.sys.tasks, j.node = n → ∀ ks, j.req ≠ .delete ks) :
    ∃ l, (w.run coordApp (redisKey hashtags pre) pid (bringUp c n w.sys.next)).Runs c l ∧
      ∀ (self : Nat) (nodes : List (Nat × Bool)) (s : UInt32),
        (w.Acked s → ∃ m k, (Coord.start self nodes (l.map UInt32.toNat)).Assigned s.toNat m ∧
          (Coord.start self nodes (l.map UInt32.toNat)).Avail m k) ∧
        ((∃ m, (Coord.start self nodes (l.map UInt32.toNat)).Assigned s.toNat m) → s ∈ asked ops) := by
  have hk := (Persist.Flock.C122_keys (ε := UInt32) hashtags pre pid).1
  subst hw
  obtain ⟨l, h1, h2, h3, _⟩ := Persist.Flock.C122_starts hk st hs1 hs2 ops (coord_readable _) ho c n hoff hn hq ht
  rw [Persist.Flock.run_append] at h1
  have hl : l.foldl coordApp.app coordApp.init = l := by
    show l.foldl (fun a x => a ++ [x]) [] = l
    rw [foldl_snoc, List.nil_append]
  rw [hl] at h1
  refine ⟨l, h1, fun self nodes s => ⟨fun ha => ?_, fun ha => ?_⟩⟩
  · have hs := (start_assigned self nodes (l.map UInt32.toNat) s.toNat).2 (List.mem_map_of_mem (h2 s ha))
    obtain ⟨m, hm⟩ := Option.isSome_iff_exists.1 hs
    obtain ⟨k, hk'⟩ := C37_available (Coord.start self nodes (l.map UInt32.toNat)) ⟨self, nodes, _, [], rfl⟩ s.toNat m hm
    exact ⟨m, k, hm, hk'⟩
  · obtain ⟨m, hm⟩ := ha
    have hs := (start_assigned self nodes (l.map UInt32.toNat) s.toNat).1 (Option.isSome_iff_exists.2 ⟨m, hm⟩)
    obtain ⟨u, hu, hus⟩ := List.mem_map.mp hs
    have : u = s := UInt32.toNat_inj.mp hus
    subst this
    exact h3 u hu

theorem shard_readable (N : Naming) (l : List (Nat × Nat))
    (hf : ∀ p ∈ l, (Wire.StartEntity.write ⟨N.id p.1, N.recipe p.2⟩).length < 2 ^ 32) : Readable (shardApp N) l := by
  intro p hp
  refine ⟨?_, by simp [shardApp, shardKnown, startPayload]⟩
  show (match decodeStart N (startPayload N p.1 p.2) with
    | some (.start e c) => some (e, c)
    | _ => none) = some p
  rw [decode_start N p.1 p.2 (hf p hp)]

/-- **C122**: Any number of copies of a shard run, on nodes that were given it and nodes that do not know they have lost it,
on a Redis that fails in any way. Whichever copy is started next knows every entity whose start was persisted by any of
them and begins to start it, once; and when all asked for one and the same recipe of an entity, it is started with that. -/
theorem C122_shards (N : Naming) (hashtags : Bool) (pre pid : String) (st : Persist.RedisStore)
    (hs1 : st (redisKey hashtags pre pid "journal") = []) (hs2 : st (redisKey hashtags pre pid "snapshot") = [])
    (ops : List (Op (Nat × Nat)))
    (hf : ∀ p ∈ asked ops, (Wire.StartEntity.write ⟨N.id p.1, N.recipe p.2⟩).length < 2 ^ 32)
    (ho : Apart (keysOf (redisKey hashtags pre) pid) ops) (c n : Nat)
    (w : World (Nat × Nat) (List (Nat × Nat))) (hw : w = (World.init st).run (shardApp N) (redisKey hashtags pre) pid ops)
    (hoff : w.Off c) (hn : n ∉ w.sys.down) (hq : ∀ j ∈ w.sys.queue, j.node ≠ n)
    (ht : ∀ j ∈ w.sys.tasks, j.node = n → ∀ ks, j.req ≠ .delete ks) :
    ∃ l, (w.run (shardApp N) (redisKey hashtags pre) pid (bringUp c n w.sys.next)).Runs c l ∧ ∀ sh,
      sh = Shard.boot (l.map fun p => JEntry.start p.1 p.2) → ∀ e r, w.Acked (e, r) →
        sh.startsUnderWay e = 1 ∧ (∃ r', sh.recipeOf e = some r' ∧ (e, r') ∈ asked ops) ∧
        ((∀ r', (e, r') ∈ asked ops → r' = r) → sh.recipeOf e = some r) := by
  have hk := (Persist.Flock.C122_keys (ε := Nat × Nat) hashtags pre pid).1
  subst hw
  obtain ⟨l, h1, h2, h3, _⟩ := Persist.Flock.C122_starts hk st hs1 hs2 ops (shard_readable N _ hf) ho c n hoff hn hq ht
  rw [Persist.Flock.run_append] at h1
  have hl : l.foldl (shardApp N).app (shardApp N).init = l := by
    show l.foldl (fun a x => a ++ [x]) [] = l
    rw [foldl_snoc, List.nil_append]
  rw [hl] at h1
  refine ⟨l, h1, fun sh hsh e r ha => ?_⟩
  subst hsh
  have hm := h2 _ ha
  obtain ⟨b1, b2⟩ := boot_starts l e
  have hsome : ∃ r', lastStart e l = some r' := by
    unfold lastStart
    cases hfd : l.reverse.find? fun p => decide (p.1 = e) with
    | none =>
      have := List.find?_eq_none.mp hfd (e, r) (List.mem_reverse.mpr hm)
      simp at this
    | some p => exact ⟨p.2, rfl⟩
  obtain ⟨r', hr'⟩ := hsome
  have hin := h3 _ (lastStart_mem hr')
  refine ⟨by rw [b2, hr']; rfl, ⟨r', by unfold Shard.recipeOf; rw [b1, hr'], hin⟩, fun hone => ?_⟩
  unfold Shard.recipeOf
  rw [b1, hr', hone r' hin]

/-! ## Cases -/

/-- two coordinators, on nodes 0 and 1, both allocate; the first attempt of the second fails after it took effect, and its
node crashes when it has been told that shard 8 is persisted, the first one's when it is about to write shard 9. -/
def twoLeaders : List (Op UInt32) :=
  bringUp 0 0 0 ++ bringUp 1 1 2 ++ [.work 0 (.event 7), .work 1 (.event 8), .sys (.handle 1), .sys (.exec 5), .sys (.fail 5),
    .sys (.handle 0), .sys (.exec 4), .sys (.deliver 4), .hear 0, .hear 1, .sys (.handle 1), .sys (.exec 6),
    .sys (.deliver 6), .hear 1, .sys (.crash 1), .work 0 (.event 9), .sys (.crash 0)]

/-- the world after that. -/
def afterTwo : World UInt32 (List UInt32) :=
  (World.init fun _ => []).run coordApp (redisKey false "") "user-ShardCoordinator" twoLeaders

theorem afterTwo_acked : afterTwo.acked = [(0, 7), (1, 8)] := by decide +kernel

theorem afterTwo_rest : afterTwo.sys.down = [0, 1] ∧ afterTwo.sys.queue = [] ∧ afterTwo.sys.tasks = [] := by
  decide +kernel

example : ∃ l, (afterTwo.run coordApp (redisKey false "") "user-ShardCoordinator" (bringUp 2 2 afterTwo.sys.next)).Runs 2 l ∧
    ∃ m k, (Coord.start 2 [(3, true)] (l.map UInt32.toNat)).Assigned 8 m ∧
      (Coord.start 2 [(3, true)] (l.map UInt32.toNat)).Avail m k := by
  obtain ⟨hd, hq, ht⟩ := afterTwo_rest
  obtain ⟨l, h1, h2⟩ := C122_coordinators false "" "user-ShardCoordinator" (fun _ => []) rfl rfl twoLeaders
    (by intro n r h; simp [twoLeaders, bringUp, Persist.Flock.served] at h) 2 2 afterTwo rfl rfl (by rw [hd]; decide)
    (by rw [hq]; simp) (by rw [ht]; simp)
  exact ⟨l, h1, (h2 2 [(3, true)] 8).1 ⟨1, by rw [afterTwo_acked]; decide⟩⟩

/-- two copies of a shard start entities; the node of the first crashes in the middle of a write. -/
def twoShards : List (Op (Nat × Nat)) :=
  bringUp 0 0 0 ++ bringUp 1 1 2 ++ [.work 0 (.event (1, 3)), .work 1 (.event (2, 4)), .sys (.handle 1), .sys (.exec 5),
    .sys (.deliver 5), .hear 1, .sys (.handle 0), .sys (.exec 4), .sys (.deliver 4), .hear 0, .work 0 (.event (5, 6)),
    .sys (.handle 0), .sys (.crash 0)]

/-- the world after that. -/
def afterShards : World (Nat × Nat) (List (Nat × Nat)) :=
  (World.init fun _ => []).run (shardApp unary) (redisKey false "") "user-7" twoShards

theorem afterShards_acked : afterShards.acked = [(1, (2, 4)), (0, (1, 3))] := by decide +kernel

theorem afterShards_rest : afterShards.sys.down = [0] ∧ afterShards.sys.queue = [] ∧ afterShards.sys.tasks = [] := by
  decide +kernel

example : ∃ l, (afterShards.run (shardApp unary) (redisKey false "") "user-7" (bringUp 2 2 afterShards.sys.next)).Runs 2 l ∧
    (Shard.boot (l.map fun p => JEntry.start p.1 p.2)).recipeOf 2 = some 4 ∧
    (Shard.boot (l.map fun p => JEntry.start p.1 p.2)).startsUnderWay 1 = 1 := by
  obtain ⟨hd, hq, ht⟩ := afterShards_rest
  obtain ⟨l, h1, h2⟩ := C122_shards unary false "" "user-7" (fun _ => []) rfl rfl twoShards
    (by
      intro p hp
      have : p = (1, 3) ∨ p = (2, 4) ∨ p = (5, 6) := by simpa [asked, twoShards, bringUp, Persist.Flock.served,
        Persist.Flock.Work.list] using hp
      rcases this with rfl | rfl | rfl <;> decide +kernel)
    (by intro n r h; simp [twoShards, bringUp, Persist.Flock.served] at h) 2 2 afterShards rfl rfl (by rw [hd]; decide)
    (by rw [hq]; simp) (by rw [ht]; simp)
  refine ⟨l, h1, (h2 _ rfl 2 4 ⟨1, by rw [afterShards_acked]; decide⟩).2.2 ?_,
    (h2 _ rfl 1 3 ⟨0, by rw [afterShards_acked]; decide⟩).1⟩
  intro r' hr
  have : (2, r') = (1, 3) ∨ (2, r') = (2, 4) ∨ (2, r') = (5, 6) := by simpa [asked, twoShards, bringUp,
    Persist.Flock.served, Persist.Flock.Work.list] using hr
  simpa using this

end Verif.Sharding
