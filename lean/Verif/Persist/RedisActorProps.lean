import Verif.Persist.RedisActorModel
import Verif.Persist.CopiesProps
import Verif.Persist.RefineRedis

/-!
# C94: an event-sourced actor over Redis, and its copies

Specifications: the acknowledged events; `SafeOnRedis` says which histories cannot make two events share a number or lose
one by trimming; `InTurn` of C90.
-/

namespace Verif.Persist

variable {τ ε σ : Type}

/-- What matters of a life over Redis. `snap`: a snapshot was taken; `since`: events were acknowledged since; `dup`: a
single event would be given the number of the newest stored one; `edge`: the first event since the snapshot was a single
one, which shares the number of the snapshot. -/
structure RedisRisk where
  snap : Bool := false
  since : Bool := false
  dup : Bool := false
  edge : Bool := false

/-- after a batch and after a start that finds events, a single event shares the number of the last one. -/
def RedisRisk.next (r : RedisRisk) : Cmd ε → RedisRisk
  | .event _ .ok => { r with since := true, dup := false, edge := r.edge || !r.since }
  | .events es .ok => if es.isEmpty then r else { r with since := true, dup := true }
  | .save .ok => ⟨true, false, false, false⟩
  | .crash _ => { r with dup := r.since }
  | _ => r

def RedisRisk.safe (r : RedisRisk) : Cmd ε → Bool
  | .event _ .ok => !r.dup
  | .trim .ok => !(r.snap && r.edge)
  | .trim .lostAck => !(r.snap && r.edge)
  | _ => true

/-- no single event right after a batch or a start that finds events; no trimming when the first event since the
snapshot was a single one. -/
def SafeOnRedis : RedisRisk → List (Cmd ε) → Bool
  | _, [] => true
  | r, c :: cs => r.safe c && SafeOnRedis (r.next c) cs

def Cmd.isSingle : Cmd ε → Bool
  | .event _ _ => true
  | _ => false

def Cmd.isTrim : Cmd ε → Bool
  | .trim _ => true
  | _ => false

/-! ## Any storage: copies in turn are one actor -/

section
variable (S : Storage τ) (A : App ε σ) (pid : String)

theorem Alive.step_none {l : Alive τ σ} (h : l.state = none) (c : Cmd ε) : l.step S A pid c = l := by
  simp [Alive.step, h]

theorem Alive.step_sys {l : Alive τ σ} {s : σ} (h : l.state = some s) (c : Cmd ε) :
    (l.step S A pid c).sys = l.sys.step S pid (c.op A s) := by
  simp only [Alive.step, h]
  cases c <;> rfl

theorem Alive.step_state {l : Alive τ σ} {s : σ} (h : l.state = some s) (c : Cmd ε) (hc : ∀ n, c ≠ .crash n) :
    (l.step S A pid c).state = some (c.acked.foldl A.app s) := by
  cases c with
  | event e o => cases o <;> simp [Alive.step, h, Cmd.acked, WriteOutcome.acked]
  | events es o => cases o <;> simp [Alive.step, h, Cmd.acked, WriteOutcome.acked]
  | save o => simp [Alive.step, h, Cmd.acked]
  | trim o => simp [Alive.step, h, Cmd.acked]
  | crash n => exact absurd rfl (hc n)

theorem Alive.step_crash {l : Alive τ σ} {s : σ} (h : l.state = some s) (n : Nat) :
    (l.step S A pid (.crash n)).state = (started A.user (.retry .untilSuccess) A.init (List.replicate n false ++ [true])
      (l.sys.recovered S A.known pid)).up := by
  simp [Alive.step, h]

theorem Alive.run_snoc (l : Alive τ σ) (cs : List (Cmd ε)) (c : Cmd ε) :
    l.run S A pid (cs ++ [c]) = (l.run S A pid cs).step S A pid c := by
  simp [Alive.run, List.foldl_append]

end

namespace Copies

theorem step_use' (S : Storage τ) (A : App ε σ) (pid : String) (w : World τ σ) (c : Nat) (cmd : Cmd ε)
    (hc : ∀ n, cmd ≠ .crash n) : w.step S A pid (.act c cmd) = w.use S A pid c cmd := by
  cases cmd with
  | crash n => exact absurd rfl (hc n)
  | _ => rfl

/-- the copies and one actor that lives all their lives, over the same storage. -/
theorem in_turn_as_one (S : Storage τ) (A : App ε σ) (pid : String) (st : τ) (ops : List (Op ε)) (ht : InTurn ops) {s : σ}
    (hs : ((Alive.init A st).run S A pid (ops.flatMap Op.cmds)).state = some s) :
    (World.run S A pid ⟨st, []⟩ ops).store = ((Alive.init A st).run S A pid (ops.flatMap Op.cmds)).sys.store ∧
    ∀ c, holder ops = some c → (World.run S A pid ⟨st, []⟩ ops).copies.get c =
      some ⟨((Alive.init A st).run S A pid (ops.flatMap Op.cmds)).sys.journals pid, s⟩ := by
  induction ops using snoc_induction generalizing s with
  | nil => exact ⟨rfl, fun c h => by cases h⟩
  | snoc l op ih =>
    have hl : InTurn l := fun pre c cmd post e => ht pre c cmd (post ++ [op]) (by rw [e]; simp)
    rw [Copies.run_snoc, holder_snoc]
    cases op with
    | ends c =>
      have e : (l ++ [Op.ends c]).flatMap Op.cmds = l.flatMap Op.cmds := by simp [Op.cmds]
      rw [e] at hs ⊢
      obtain ⟨h1, h2⟩ := ih hl hs
      refine ⟨h1, ?_⟩
      intro d hd
      simp only [Op.hold] at hd
      split at hd
      · cases hd
      · rename_i hne
        simp only [World.step, Assoc.get_erase]
        rw [if_neg (by intro e; subst e; exact hne hd)]
        exact h2 d hd
    | act c cmd =>
      have e : (l ++ [Op.act c cmd]).flatMap Op.cmds = l.flatMap Op.cmds ++ [cmd] := by simp [Op.cmds]
      rw [e, Alive.run_snoc] at hs ⊢
      generalize hlv : (Alive.init A st).run S A pid (l.flatMap Op.cmds) = lv at hs ⊢ ih
      cases hst : lv.state with
      | none => rw [Alive.step_none S A pid hst, hst] at hs; cases hs
      | some s0 =>
        obtain ⟨h1, h2⟩ := ih hl hst
        rw [Alive.step_sys S A pid hst]
        by_cases hc : ∃ n, cmd = .crash n
        · obtain ⟨n, rfl⟩ := hc
          rw [Alive.step_crash S A pid hst] at hs
          simp only [Sys.recovered, ← h1] at hs
          simp only [World.step, World.start, hs, Cmd.op, Sys.step, Sys.setJ, Op.hold]
          refine ⟨h1, ?_⟩
          intro d hd
          cases hd
          simp [Assoc.get_insert, h1]
        · have hc' : ∀ n, cmd ≠ .crash n := fun n e => hc ⟨n, e⟩
          have hh := ht l c cmd [] rfl hc'
          rw [Alive.step_state S A pid hst cmd hc'] at hs
          have hg := h2 c hh
          have hsame : ∀ op : Persist.Op, (∀ K, op ≠ .restart K) →
              (Sys.step S ⟨(World.run S A pid ⟨st, []⟩ l).store, fun _ => lv.sys.journals pid⟩ pid op).store =
                (lv.sys.step S pid op).store ∧
              (Sys.step S ⟨(World.run S A pid ⟨st, []⟩ l).store, fun _ => lv.sys.journals pid⟩ pid op).journals pid =
                (lv.sys.step S pid op).journals pid := by
            intro op hop
            rw [h1]
            cases op with
            | restart K => exact absurd rfl (hop K)
            | _ => simp [Sys.step, Sys.setJ]
          have hop : ∀ K, cmd.op A s0 ≠ .restart K := by
            intro K e
            cases cmd with
            | crash n => exact hc' n rfl
            | _ => cases e
          obtain ⟨e1, e2⟩ := hsame _ hop
          rw [step_use' _ _ _ _ _ _ hc', World.use, hg]
          refine ⟨e1, ?_⟩
          have hhold : (Op.act c cmd).hold (holder l) = some c := by
            cases cmd with
            | crash n => rfl
            | _ => exact hh
          intro d hd
          rw [hhold] at hd
          cases hd
          simp only [Assoc.get_insert, if_true]
          rw [e2, after_acked]
          cases hs
          rfl

end Copies

/-! ## Redis -/

section
variable {A : App ε σ} {key : String → String → String}

/-- what holds of an actor running over Redis. -/
structure RedisFit (key : String → String → String) (A : App ε σ) (pid : String) (l : Alive RedisStore σ) (s : σ)
    (r : RedisRisk) : Prop where
  up : l.state = some s
  pidOk : PidOk l.sys
  view : ∃ m : RedisFlags, RedisInv key l.sys pid m ∧ Holds A m.view s ∧ m.dup = r.dup ∧ m.edge = r.edge ∧
    m.view.snap.isSome = r.snap ∧ m.view.msgs.isEmpty = !r.since

theorem RedisFit.init (key : String → String → String) (A : App ε σ) (pid : String) :
    RedisFit key A pid (Alive.init A fun _ => []) A.init {} where
  up := rfl
  pidOk := PidOk.init _
  view := ⟨.empty, RedisInv.init key pid, ⟨A.init, [], rfl, rfl, rfl⟩, rfl, rfl, rfl, rfl⟩

theorem RedisFit.step (hA : A.Lawful) (hk : KeyOk key) {pid : String} {l : Alive RedisStore σ} {s : σ} {r : RedisRisk}
    (h : RedisFit key A pid l s r) (c : Cmd ε) (hc : c.Honest) (hs : r.safe c = true) :
    RedisFit key A pid (l.step (redisStorage key) A pid c) (c.acked.foldl A.app s) (r.next c) := by
  obtain ⟨hup, hpid, m, hm, hh, h1, h2, h3, h4⟩ := h
  have hop : (c.op A s).Honest := by cases c <;> exact hc
  have hsafe : m.safe (c.op A s) = true := by
    cases c with
    | event e o => cases o <;> simp_all [Cmd.op, RedisFlags.safe, RedisRisk.safe]
    | trim o => cases o <;> simp only [Cmd.op, RedisFlags.safe, RedisRisk.safe] at hs ⊢ <;>
        (rw [h2]; cases hv : m.view.snap <;> simp_all)
    | _ => rfl
  have hm' := hm.step hk hpid (c.op A s) hop hsafe
  have hp' := hpid.step (S := redisStorage key) pid (c.op A s)
  have hsys := Alive.step_sys (redisStorage key) A pid hup c
  refine ⟨?_, by rw [hsys]; exact hp', m.step (c.op A s), by rw [hsys]; exact hm', ?_⟩
  · by_cases hcr : ∃ n, c = .crash n
    · obtain ⟨n, rfl⟩ := hcr
      rw [Alive.step_crash _ _ _ hup, hm.recovered]
      exact crash_state hA hh n
    · exact Alive.step_state _ _ _ hup c fun n e => hcr ⟨n, e⟩
  · cases c with
    | event e o =>
      cases o with
      | ok =>
        simp only [Cmd.op, RedisFlags.step, View.step, Cmd.acked, RedisRisk.next]
        refine ⟨hh.add [e], trivial, by rw [h2, h4], h3, by simp⟩
      | rejected => exact ⟨hh, h1, h2, h3, h4⟩
      | lostAck => exact absurd rfl hc
    | events es o =>
      cases o with
      | ok =>
        by_cases he : es = []
        · subst he
          simpa [Cmd.op, RedisFlags.step, Cmd.acked, RedisRisk.next] using ⟨hh, h1, h2, h3, h4⟩
        · have hne : ¬ es.map A.enc = [] := by simpa using he
          have hne' : es.isEmpty = false := by cases es with
            | nil => exact absurd rfl he
            | cons => rfl
          simp only [Cmd.op, RedisFlags.step, if_neg hne, View.step, Cmd.acked, RedisRisk.next, hne']
          exact ⟨hh.add es, rfl, h2, h3, by simp [he]⟩
      | rejected => exact ⟨hh, h1, h2, h3, h4⟩
      | lostAck => exact absurd rfl hc
    | save o =>
      cases o with
      | ok =>
        simp only [Cmd.op, RedisFlags.step, View.step, Cmd.acked, RedisRisk.next, List.foldl_nil]
        exact ⟨⟨s, [], by simp [hA.decS, hA.knownS], by simp, rfl⟩, trivial, trivial, rfl, rfl⟩
      | rejected => exact ⟨hh, h1, h2, h3, h4⟩
      | lostAck => exact absurd rfl hc
    | trim o => exact ⟨hh, h1, h2, h3, h4⟩
    | crash n =>
      simp only [Cmd.op, RedisFlags.step, Cmd.acked, RedisRisk.next, List.foldl_nil]
      exact ⟨hh, by rw [h4]; simp, h2, h3, h4⟩

theorem RedisFit.run (hA : A.Lawful) (hk : KeyOk key) {pid : String} {l : Alive RedisStore σ} {s : σ} {r : RedisRisk}
    (h : RedisFit key A pid l s r) (cs : List (Cmd ε)) (hc : ∀ c ∈ cs, c.Honest) (hs : SafeOnRedis r cs = true) :
    (l.run (redisStorage key) A pid cs).state = some ((cs.flatMap Cmd.acked).foldl A.app s) := by
  induction cs generalizing l s r with
  | nil => exact h.up
  | cons c cs ih =>
    simp only [SafeOnRedis, Bool.and_eq_true] at hs
    have := ih (h.step hA hk c (hc c (by simp)) hs.1) (fun c h => hc c (by simp [h])) hs.2
    simpa [Alive.run, List.foldl_append] using this

/-! ### Events that commute -/

theorem zadd_perm {l : List Entry} {e : Entry} (h : e ∉ l) : (zadd l e).Perm (e :: l) := by
  unfold zadd
  rw [if_neg h]
  refine List.perm_middle.trans ?_
  rw [List.takeWhile_append_dropWhile]

theorem foldl_zadd_perm (es l : List Entry) (h : ((l ++ es).map Entry.payload).Nodup) : (es.foldl zadd l).Perm (l ++ es) := by
  induction es generalizing l with
  | nil => simp
  | cons e es ih =>
    have he : e ∉ l := by
      intro hm
      simp only [List.map_append, List.map_cons, List.nodup_append] at h
      exact h.2.2 _ (List.mem_map_of_mem hm) _ (List.mem_cons_self) rfl
    have hp := zadd_perm he
    have hp2 : (zadd l e ++ es).Perm (l ++ e :: es) :=
      (hp.append_right es).trans (by simpa using (List.perm_middle (a := e) (l₁ := l) (l₂ := es)).symm)
    simp only [List.foldl_cons]
    exact (ih _ ((hp2.map Entry.payload).nodup_iff.2 h)).trans hp2

/-- the stored messages are distinct and among those acknowledged. -/
structure RedisDistinct (key : String → String → String) (s : Sys RedisStore) (pid : String) (seen : List Payload) : Prop where
  nodup : ((s.store (key pid "journal")).map Entry.payload).Nodup
  sub : ∀ p ∈ (s.store (key pid "journal")).map Entry.payload, p ∈ seen

theorem RedisDistinct.grow {s : Sys RedisStore} {pid : String} {seen : List Payload} (h : RedisDistinct key s pid seen)
    {s' : Sys RedisStore} {es : List Entry} {ps : List Payload} (he : es.map Entry.payload = ps)
    (hs : s'.store (key pid "journal") = es.foldl zadd (s.store (key pid "journal")))
    (hn : (seen ++ ps).Nodup) : RedisDistinct key s' pid (seen ++ ps) := by
  rw [List.nodup_append] at hn
  have hnd : ((s.store (key pid "journal") ++ es).map Entry.payload).Nodup := by
    rw [List.map_append, he, List.nodup_append]
    exact ⟨h.nodup, hn.2.1, fun a ha b hb => hn.2.2 a (h.sub a ha) b hb⟩
  have hp := foldl_zadd_perm _ _ hnd
  refine ⟨?_, ?_⟩
  · rw [hs]
    exact (hp.map Entry.payload).nodup_iff.2 hnd
  · intro p hp'
    rw [hs] at hp'
    have := (hp.map Entry.payload).mem_iff.1 hp'
    rw [List.map_append, he] at this
    rcases List.mem_append.1 this with h1 | h1
    · exact List.mem_append_left _ (h.sub p h1)
    · exact List.mem_append_right _ h1

theorem RedisDistinct.same {s s' : Sys RedisStore} {pid : String} {seen : List Payload} (h : RedisDistinct key s pid seen)
    (hs : s'.store (key pid "journal") = s.store (key pid "journal")) : RedisDistinct key s' pid (seen ++ []) := by
  rw [List.append_nil]
  exact ⟨by rw [hs]; exact h.nodup, by rw [hs]; exact h.sub⟩

theorem RedisDistinct.step (hk : KeyOk key) {s : Sys RedisStore} (hp : PidOk s) {pid : String} {seen : List Payload}
    (h : RedisDistinct key s pid seen) (op : Op) (ho : op.Honest) (ht : op.isTrim = false) (hn : (seen ++ op.acked).Nodup) :
    RedisDistinct key (s.step (redisStorage key) pid op) pid (seen ++ op.acked) := by
  have hpid := hp pid
  cases op with
  | trim o => cases ht
  | restart K => exact h.same rfl
  | persist p o =>
    cases o with
    | ok =>
      refine h.grow (es := [⟨(s.journals pid).last, p.ptype, p.bytes⟩]) rfl ?_ hn
      simp [Sys.step, Sys.setJ, persistMessage, applyWrite, WriteOutcome.stored, WriteOutcome.acked, redisStorage, redisWrite,
        RedisStore.set, hpid]
    | rejected => exact h.same rfl
    | lostAck => exact absurd rfl ho
  | batch ps o =>
    cases o with
    | ok =>
      by_cases he : ps = []
      · subst he
        exact h.same rfl
      · refine h.grow (es := numberBatch (s.journals pid).last ps) (Copies.payloads_numberBatch _ _) ?_ hn
        simp [Sys.step, Sys.setJ, persistBatch, he, journalPersistBatch, applyWrite, WriteOutcome.stored, WriteOutcome.acked,
          redisStorage, redisWriteBatch, RedisStore.set, hpid]
    | rejected =>
      refine h.same ?_
      simp only [Sys.step, Sys.setJ, persistBatch]
      split <;> rfl
    | lostAck => exact absurd rfl ho
  | snapshot p o =>
    cases o with
    | ok =>
      refine h.same ?_
      have hne : key pid "journal" ≠ key pid "snapshot" := by
        intro e
        have := (hk _ _ _ _ e (.inl rfl) (.inr rfl)).2
        exact absurd this (by decide)
      simp [Sys.step, Sys.setJ, persistSnapshot, applyWrite, WriteOutcome.stored, WriteOutcome.acked, redisStorage, redisWrite,
        RedisStore.set, hpid, hne]
    | rejected => exact h.same rfl
    | lostAck => exact absurd rfl ho

/-- the order of events does not matter. -/
def App.Commutes (A : App ε σ) : Prop := ∀ s a b, A.app (A.app s a) b = A.app (A.app s b) a

/-- what holds of an actor running over Redis whose events are all different. -/
structure RedisBag (key : String → String → String) (A : App ε σ) (pid : String) (l : Alive RedisStore σ) (s : σ)
    (seen : List ε) : Prop where
  up : l.state = some s
  pidOk : PidOk l.sys
  view : ∃ v : View, RedisWeak key l.sys pid v ∧ Holds A v s ∧ v.msgs.Nodup ∧ ∀ p ∈ v.msgs, p ∈ seen.map A.enc
  distinct : RedisDistinct key l.sys pid (seen.map A.enc)

theorem Cmd.op_acked (A : App ε σ) (s : σ) (c : Cmd ε) : (c.op A s).acked = c.acked.map A.enc := by
  cases c with
  | event e o => cases o <;> rfl
  | events es o => cases o <;> rfl
  | _ => rfl

theorem RedisBag.crash (hA : A.Lawful) (hcm : A.Commutes) {pid : String} {l : Alive RedisStore σ} {s : σ} {seen : List ε}
    (h : RedisBag key A pid l s seen) (n : Nat) :
    (started A.user (.retry .untilSuccess) A.init (List.replicate n false ++ [true])
      (l.sys.recovered (redisStorage key) A.known pid)).up = some s := by
  obtain ⟨hup, hpid, ⟨v, hw, ⟨s0, es, hs0, hes, hst⟩, hnd, hsub⟩, hd⟩ := h
  have hl := loadJournal_redis key A.known l.sys.store pid
  unfold Sys.recovered
  rw [hl]
  refine crash_state hA ⟨s0, ((readFrom (fromSeq (l.sys.store (key pid "snapshot")))
    (l.sys.store (key pid "journal"))).map Entry.payload).filterMap A.dec, ?_, ?_, ?_⟩ n
  · rw [← hs0, hw.snap]
  · have : ∀ ps : List Payload, (∀ p ∈ ps, ∃ e, p = A.enc e) → ps = (ps.filterMap A.dec).map A.enc := by
      intro ps
      induction ps with
      | nil => intro _; rfl
      | cons p ps ih =>
        intro hp
        obtain ⟨e, rfl⟩ := hp p (by simp)
        simp only [List.filterMap_cons, hA.dec, List.map_cons]
        rw [← ih fun q hq => hp q (by simp [hq])]
    refine this _ fun p hp => ?_
    have := (hw.msgs p).2 hp
    rw [hes] at this
    obtain ⟨e, _, rfl⟩ := List.mem_map.1 this
    exact ⟨e, rfl⟩
  · have hnd' : ((readFrom (fromSeq (l.sys.store (key pid "snapshot"))) (l.sys.store (key pid "journal"))).map
        Entry.payload).Nodup := hd.nodup.sublist (List.Sublist.map _ List.filter_sublist)
    have hperm := ((List.perm_ext_iff_of_nodup hnd' hnd).2 fun p => (hw.msgs p).symm).filterMap A.dec
    rw [hes] at hperm
    have hdec : (es.map A.enc).filterMap A.dec = es := by
      rw [List.filterMap_map]
      have : A.dec ∘ A.enc = some := funext hA.dec
      rw [this, List.filterMap_some]
    rw [hdec] at hperm
    rw [hst]
    exact (List.Perm.foldl_eq' hperm (fun x _ y _ z => hcm z x y) s0).symm

theorem RedisBag.step (hA : A.Lawful) (hcm : A.Commutes) (hk : KeyOk key) {pid : String} {l : Alive RedisStore σ} {s : σ}
    {seen : List ε} (h : RedisBag key A pid l s seen) (c : Cmd ε) (hc : c.Honest) (ht : c.isTrim = false)
    (hn : (seen ++ c.acked).Nodup) :
    RedisBag key A pid (l.step (redisStorage key) A pid c) (c.acked.foldl A.app s) (seen ++ c.acked) := by
  have hcrash := h.crash hA hcm
  obtain ⟨hup, hpid, ⟨v, hw, hh, hnd, hsub⟩, hd⟩ := h
  have hop : (c.op A s).Honest := by cases c <;> exact hc
  have htr : (c.op A s).isTrim = false := by cases c <;> first | rfl | cases ht
  have hinj : ∀ a b : ε, A.enc a = A.enc b → a = b := fun a b e => by
    have := congrArg A.dec e
    rwa [hA.dec, hA.dec, Option.some.injEq] at this
  have hn' : ((seen ++ c.acked).map A.enc).Nodup :=
    List.Pairwise.map _ (fun a b hab e => hab (hinj a b e)) hn
  have hsys := Alive.step_sys (redisStorage key) A pid hup c
  refine ⟨?_, by rw [hsys]; exact hpid.step pid _, ⟨v.step (c.op A s), by rw [hsys]; exact hw.step hk hpid _ hop htr, ?_⟩, ?_⟩
  · by_cases hcr : ∃ n, c = .crash n
    · obtain ⟨n, rfl⟩ := hcr
      rw [Alive.step_crash _ _ _ hup]
      exact hcrash n
    · exact Alive.step_state _ _ _ hup c fun n e => hcr ⟨n, e⟩
  · have hadd : ∀ es : List ε, (seen ++ es).Nodup → (v.msgs ++ es.map A.enc).Nodup ∧
        ∀ p ∈ v.msgs ++ es.map A.enc, p ∈ (seen ++ es).map A.enc := by
      intro es hne
      have hne' : ((seen ++ es).map A.enc).Nodup := List.Pairwise.map _ (fun a b hab e => hab (hinj a b e)) hne
      rw [List.map_append, List.nodup_append] at hne'
      refine ⟨List.nodup_append.2 ⟨hnd, hne'.2.1, fun a ha b hb => hne'.2.2 a (hsub a ha) b hb⟩, ?_⟩
      intro p hp
      rw [List.map_append]
      rcases List.mem_append.1 hp with h1 | h1
      · exact List.mem_append_left _ (hsub p h1)
      · exact List.mem_append_right _ h1
    cases c with
    | event e o =>
      cases o with
      | ok => exact ⟨hh.add [e], hadd [e] hn⟩
      | rejected => exact ⟨hh, hnd, by simpa [Cmd.acked, Cmd.op, View.step] using hsub⟩
      | lostAck => exact absurd rfl hc
    | events es o =>
      cases o with
      | ok => exact ⟨hh.add es, hadd es hn⟩
      | rejected => exact ⟨hh, hnd, by simpa [Cmd.acked, Cmd.op, View.step] using hsub⟩
      | lostAck => exact absurd rfl hc
    | save o =>
      cases o with
      | ok => exact ⟨⟨s, [], by simp [Cmd.op, View.step, hA.decS, hA.knownS], by simp [Cmd.op, View.step], rfl⟩, List.nodup_nil, by simp [Cmd.op, View.step]⟩
      | rejected => exact ⟨hh, hnd, by simpa [Cmd.acked, Cmd.op, View.step] using hsub⟩
      | lostAck => exact absurd rfl hc
    | trim o => cases ht
    | crash n => exact ⟨hh, hnd, by simpa [Cmd.acked, Cmd.op, View.step] using hsub⟩
  · rw [hsys, List.map_append, ← Cmd.op_acked A s c]
    refine hd.step hk hpid _ hop htr ?_
    rw [Cmd.op_acked, ← List.map_append]
    exact hn'

theorem RedisBag.run (hA : A.Lawful) (hcm : A.Commutes) (hk : KeyOk key) {pid : String} {l : Alive RedisStore σ} {s : σ}
    {seen : List ε} (h : RedisBag key A pid l s seen) (cs : List (Cmd ε)) (hc : ∀ c ∈ cs, c.Honest)
    (ht : ∀ c ∈ cs, c.isTrim = false) (hn : (seen ++ cs.flatMap Cmd.acked).Nodup) :
    (l.run (redisStorage key) A pid cs).state = some ((cs.flatMap Cmd.acked).foldl A.app s) := by
  induction cs generalizing l s seen with
  | nil => exact h.up
  | cons c cs ih =>
    rw [List.flatMap_cons, ← List.append_assoc] at hn
    have := ih (h.step hA hcm hk c (hc c (by simp)) (ht c (by simp)) (List.nodup_append.1 hn).1)
      (fun c h => hc c (by simp [h])) (fun c h => ht c (by simp [h])) hn
    simpa [Alive.run, List.foldl_append] using this

theorem RedisBag.init (key : String → String → String) (A : App ε σ) (pid : String) :
    RedisBag key A pid (Alive.init A fun _ => []) A.init [] where
  up := rfl
  pidOk := PidOk.init _
  view := ⟨.empty, RedisWeak.init key pid, ⟨A.init, [], rfl, rfl, rfl⟩, List.nodup_nil, by simp [View.empty]⟩
  distinct := ⟨List.nodup_nil, by simp [Alive.init, Sys.init]⟩

/-! ## C94 -/

/-- **C94** in part: over Redis, whatever the prefix of the keys and with or without hash tags, an actor has after any
crashes the state its acknowledged events make of the initial state, if it never writes a single event right after a batch
or after a start that found events, and does not trim when the first event since its snapshot was a single one. What is
missing is refuted below. -/
theorem C94_redis_partial (hA : A.Lawful) (hashtags : Bool) (pre pid : String) (cs : List (Cmd ε))
    (hc : ∀ c ∈ cs, c.Honest) (hs : SafeOnRedis {} cs = true) :
    (Alive.redis hashtags pre A pid cs).state = some ((cs.flatMap Cmd.acked).foldl A.app A.init) :=
  (RedisFit.init _ A pid).run hA (redisKey_ok hashtags pre) cs hc hs

theorem SafeOnRedis_batches (cs : List (Cmd ε)) (r : RedisRisk) (he : r.edge = false)
    (h : ∀ c ∈ cs, c.isSingle = false) : SafeOnRedis r cs = true := by
  induction cs generalizing r with
  | nil => rfl
  | cons c cs ih =>
    have h1 := h c (by simp)
    simp only [SafeOnRedis, Bool.and_eq_true]
    refine ⟨?_, ih _ ?_ fun o ho => h o (by simp [ho])⟩
    · cases c with
      | event e o => cases h1
      | trim o => cases o <;> simp [RedisRisk.safe, he]
      | _ => rfl
    · cases c with
      | event e o => cases h1
      | events es o =>
        cases o <;> simp only [RedisRisk.next] <;> try exact he
        split <;> exact he
      | save o => cases o <;> simp [RedisRisk.next, he]
      | _ => exact he

/-- In particular for actors that write their events as batches, if only of one. -/
theorem C94_batches (hA : A.Lawful) (hashtags : Bool) (pre pid : String) (cs : List (Cmd ε))
    (hc : ∀ c ∈ cs, c.Honest) (hs : ∀ c ∈ cs, c.isSingle = false) :
    (Alive.redis hashtags pre A pid cs).state = some ((cs.flatMap Cmd.acked).foldl A.app A.init) :=
  C94_redis_partial hA hashtags pre pid cs hc (SafeOnRedis_batches cs _ rfl hs)

/-- And for actors whose events commute and are all different, however they are written, if they do not trim. -/
theorem C94_commuting_partial (hA : A.Lawful) (hcm : A.Commutes) (hashtags : Bool) (pre pid : String) (cs : List (Cmd ε))
    (hc : ∀ c ∈ cs, c.Honest) (ht : ∀ c ∈ cs, c.isTrim = false) (hn : (cs.flatMap Cmd.acked).Nodup) :
    (Alive.redis hashtags pre A pid cs).state = some ((cs.flatMap Cmd.acked).foldl A.app A.init) :=
  (RedisBag.init _ A pid).run hA hcm (redisKey_ok hashtags pre) cs hc ht (by simpa using hn)

/-- Copies in turn over Redis are as one actor: the last one started has all events acknowledged to any of them. -/
theorem C94_handover_partial (hA : A.Lawful) (hashtags : Bool) (pre pid : String) (ops : List (Copies.Op ε))
    (ht : Copies.InTurn ops) (hc : ∀ c ∈ ops.flatMap Copies.Op.cmds, c.Honest)
    (hs : SafeOnRedis {} (ops.flatMap Copies.Op.cmds) = true) (c : Nat) (hh : Copies.holder ops = some c) :
    (Copies.World.run (redisStorage (redisKey hashtags pre)) A pid ⟨fun _ => [], []⟩ ops).state c =
      some (((ops.flatMap Copies.Op.cmds).flatMap Cmd.acked).foldl A.app A.init) := by
  have h := C94_redis_partial hA hashtags pre pid _ hc hs
  obtain ⟨_, h2⟩ := Copies.in_turn_as_one _ A pid _ ops ht h
  simp [Copies.World.state, h2 c hh]

/-- Over every storage copies in turn are as one actor, if that actor comes up. -/
theorem C94_as_one (S : Storage τ) (A : App ε σ) (pid : String) (st : τ) (ops : List (Copies.Op ε)) (ht : Copies.InTurn ops)
    {s : σ} (hs : ((Alive.init A st).run S A pid (ops.flatMap Copies.Op.cmds)).state = some s) (c : Nat)
    (hh : Copies.holder ops = some c) : (Copies.World.run S A pid ⟨st, []⟩ ops).state c = some s := by
  obtain ⟨_, h2⟩ := Copies.in_turn_as_one S A pid st ops ht hs
  simp [Copies.World.state, h2 c hh]

end

/-! ## Cases and refutations -/

/-- a list of numbers: events are added at the end. -/
def listed : App Nat (List Nat) where
  init := []
  app := fun s n => s ++ [n]
  enc := fun n => ⟨"add", List.replicate n 0⟩
  dec := fun p => if p.ptype = "add" then some p.bytes.length else none
  encS := fun l => ⟨"all", l.flatMap fun n => List.replicate n 0 ++ [1]⟩
  decS := fun p => if p.ptype = "all" then some (p.bytes.foldl (fun a b => if b = 0 then (a.1 + 1, a.2) else (0, a.2 ++ [a.1])) (0, [])).2
    else none
  known := ⟨fun t => t = "add", fun t => t = "all"⟩

/-- a life over Redis that is safe: single events in a row, batches after starts, snapshots and trimming. -/
def safeLife : List (Cmd Nat) := [.event 3 .ok, .event 5 .rejected, .event 1 .ok, .crash 2, .events [1, 1] .ok, .save .ok,
  .trim .ok, .crash 0, .event 2 .ok, .event 4 .ok, .save .ok, .events [1] .ok, .trim .ok, .crash 1]

example : SafeOnRedis {} safeLife = true ∧ (safeLife.flatMap Cmd.acked) = [3, 1, 1, 1, 2, 4, 1] ∧
    (Alive.redis true "p" counter "c" safeLife).state = some 13 := by decide +kernel

example : counter.Commutes := fun s a b => by simp [counter, Nat.add_right_comm]

example : (Alive.redis false "" counter "c" [.event 3 .ok, .crash 0, .event 4 .ok, .crash 0, .event 1 .ok, .save .ok, .event 2 .ok,
    .crash 0]).state = some 10 := by decide +kernel

/-- Refuted: an event written singly after a restart is acknowledged and applied, and gone after the next restart, when it
equals the last one before. -/
theorem C94_equal_refuted : ∃ cs : List (Cmd Nat), (∀ c ∈ cs, c.Honest) ∧
    (∀ c ∈ cs, c.isTrim = false ∧ c.isSave = false) ∧ cs.flatMap Cmd.acked = [3, 3] ∧
    (Alive.redis false "" counter "c" cs).state = some 6 ∧ (Alive.redis false "" counter "c" (cs ++ [.crash 0])).state = some 3 :=
  ⟨[.event 3 .ok, .crash 0, .event 3 .ok], by simp [Cmd.Honest], by simp [Cmd.isTrim, Cmd.isSave], by decide, by decide +kernel,
    by decide +kernel⟩

/-- Refuted: when it does not equal it, it may come back before it. -/
theorem C94_order_refuted : ∃ cs : List (Cmd Nat), (∀ c ∈ cs, c.Honest) ∧
    (∀ c ∈ cs, c.isTrim = false ∧ c.isSave = false) ∧
    (Alive.redis false "" listed "c" cs).state = some [2, 1] ∧
    (Alive.redis false "" listed "c" (cs ++ [.crash 0])).state = some [1, 2] :=
  ⟨[.event 2 .ok, .crash 0, .event 1 .ok], by simp [Cmd.Honest], by simp [Cmd.isTrim, Cmd.isSave], by decide +kernel,
    by decide +kernel⟩

/-- Refuted: trimming removes the first event since the snapshot when it was a single one. -/
theorem C94_trim_refuted : ∃ cs : List (Cmd Nat), (∀ c ∈ cs, c.Honest) ∧
    (Alive.redis false "" counter "c" (cs ++ [.crash 0])).state = some 5 ∧
    (Alive.redis false "" counter "c" (cs ++ [.trim .ok, .crash 0])).state = some 3 :=
  ⟨[.event 3 .ok, .save .ok, .event 2 .ok], by simp [Cmd.Honest], by decide +kernel, by decide +kernel⟩

end Verif.Persist
