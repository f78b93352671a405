import Verif.Persist.ClientLemmas

/-!
# C117: An event-sourced actor and the Redis it shares

Specifications: `Careful` (`ClientSpec`) speaks of the history of calls and answers; the acknowledged events and
`SafeOnRedis` are those of C94.
-/

namespace Verif.Persist.Client

open Verif.Persist.Shared (Req Ans Method Effect InTurn Explains Before callsAbout)

variable {ε σ : Type}

/-- the keys of an actor. -/
def keysOf (hashtags : Bool) (pre pid : String) : List String :=
  [redisKey hashtags pre pid "journal", redisKey hashtags pre pid "snapshot"]

/-- the life of an actor that was never there before is its part of a history. -/
structure PartOf (A : App ε σ) (hashtags : Bool) (pre pid : String) (t : List (Method × Option Ans)) (cs : List (Cmd ε))
    (c : Actor σ) (h : List Shared.Ev) : Prop where
  life : Lives A pid (Actor.new A pid) t cs c
  part : trace (keysOf hashtags pre pid) h = t.map fun x => (x.1.req (redisKey hashtags pre) pid, x.2)

/-! ### A Redis to oneself -/

/-- **C117**: Whoever waits for each of their calls to end and makes changes again until they are answered has, whatever
all others do, the answers of a Redis they have to themselves, in which the calls without an answer were never made: the
answered calls, done one after another in the order they were made, have just these answers, and they leave what Redis
holds for them. That includes writings that were carried out although they had failed, and those carried out long after
they were made again. -/
theorem C117_own (st : RedisStore) (ops : List Shared.Op) (K : List String)
    (hK : Careful K ((Shared.start st).runs ops).2) :
    ∃ own : List Effect,
      own.map (fun x => (x.req, x.ans)) = answeredOnly (trace K ((Shared.start st).runs ops).2) ∧
      ∃ s, InTurn st own s ∧ ∀ k ∈ K, s k = ((Shared.start st).runs ops).1.store k :=
  Shared.careful_own (Shared.Inv.runs st ops) hK st fun _ _ => rfl

/-- **C117**: An event-sourced actor that shares Redis with others and whose life is careful is, as long as it runs, in
the state it would be in alone with a Redis of its own; and Redis holds for it what its own would. -/
theorem C117_alone (A : App ε σ) (hashtags : Bool) (pre pid : String) (st : RedisStore)
    (hst : ∀ k ∈ keysOf hashtags pre pid, st k = []) (ops : List Shared.Op) (t : List (Method × Option Ans))
    (cs : List (Cmd ε)) (c : Actor σ) (hp : PartOf A hashtags pre pid t cs c ((Shared.start st).runs ops).2)
    (hK : Careful (keysOf hashtags pre pid) ((Shared.start st).runs ops).2)
    (hu : ∀ a b, cs = a ++ b → (Alive.redis hashtags pre A pid a).state.isSome = true) :
    (c.state = (Alive.redis hashtags pre A pid cs).state ∨ (c.state = none ∧ ∃ t' m, t = t' ++ [(m, none)])) ∧
    ∀ k ∈ keysOf hashtags pre pid,
      ((Shared.start st).runs ops).1.store k = (Alive.redis hashtags pre A pid cs).sys.store k := by
  obtain ⟨own, hown, s, hturn, hagree⟩ := Shared.careful_own (Shared.Inv.runs st ops) hK (fun _ => [])
    fun k hk => (hst k hk).symm
  have hd := done_of_inTurn hturn
  rw [hown, hp.part] at hd
  have h0 : Like pid (Actor.new A pid) (fun _ => []) (Alive.init A fun _ => []) :=
    ⟨rfl, .inr ⟨rfl, rfl, rfl⟩⟩
  have h1 := h0.lives (redisKey hashtags pre) pid A hp.life hu hd
  refine ⟨?_, fun k hk => ?_⟩
  · rcases h1.up with hn | ⟨h2, _⟩
    · rcases hp.life.down (redisKey hashtags pre) pid A h0 hu hd hn with ⟨_, hc⟩ | hc
      · cases hc
      · exact .inr ⟨hn, hc⟩
    · exact .inl h2.symm
  · rw [← hagree k hk]
    exact (congrFun h1.store k).symm

theorem SafeOnRedis_prefix {r : RedisRisk} {a b : List (Cmd ε)} (h : SafeOnRedis r (a ++ b) = true) :
    SafeOnRedis r a = true := by
  induction a generalizing r with
  | nil => rfl
  | cons c cs ih =>
    simp only [List.cons_append, SafeOnRedis, Bool.and_eq_true] at h ⊢
    exact ⟨h.1, ih h.2⟩

/-- **C117** in part: Whatever happens to others that use the same Redis, and on however many nodes the actor was started
one after the other: when it runs it is in the state its acknowledged events make of the initial one, and it runs unless
the last call of its last start was not answered. In part, for it has to be careful and must not write single events where
C94 finds that they are lost. -/
theorem C117_survives_partial (A : App ε σ) (hA : A.Lawful) (hashtags : Bool) (pre pid : String) (st : RedisStore)
    (hst : ∀ k ∈ keysOf hashtags pre pid, st k = []) (ops : List Shared.Op) (t : List (Method × Option Ans))
    (cs : List (Cmd ε)) (c : Actor σ) (hp : PartOf A hashtags pre pid t cs c ((Shared.start st).runs ops).2)
    (hK : Careful (keysOf hashtags pre pid) ((Shared.start st).runs ops).2) (hs : SafeOnRedis {} cs = true) :
    c.state = some ((cs.flatMap Cmd.acked).foldl A.app A.init) ∨ (c.state = none ∧ ∃ t' m, t = t' ++ [(m, none)]) := by
  have hh := Lives.honest pid A hp.life
  have hu : ∀ a b, cs = a ++ b → (Alive.redis hashtags pre A pid a).state.isSome = true := by
    rintro a b rfl
    rw [C94_redis_partial hA hashtags pre pid a (fun x hx => hh x (List.mem_append_left _ hx)) (SafeOnRedis_prefix hs)]
    rfl
  have := (C117_alone A hashtags pre pid st hst ops t cs c hp hK hu).1
  rwa [C94_redis_partial hA hashtags pre pid cs hh hs] at this

/-- **C117**: In particular for an actor that writes its events as batches. -/
theorem C117_batches (A : App ε σ) (hA : A.Lawful) (hashtags : Bool) (pre pid : String) (st : RedisStore)
    (hst : ∀ k ∈ keysOf hashtags pre pid, st k = []) (ops : List Shared.Op) (t : List (Method × Option Ans))
    (cs : List (Cmd ε)) (c : Actor σ) (hp : PartOf A hashtags pre pid t cs c ((Shared.start st).runs ops).2)
    (hK : Careful (keysOf hashtags pre pid) ((Shared.start st).runs ops).2) (hs : ∀ x ∈ cs, x.isSingle = false) :
    c.state = some ((cs.flatMap Cmd.acked).foldl A.app A.init) ∨ (c.state = none ∧ ∃ t' m, t = t' ++ [(m, none)]) :=
  C117_survives_partial A hA hashtags pre pid st hst ops t cs c hp hK (SafeOnRedis_batches cs _ rfl hs)

/-! ### Whose keys are whose -/

/-- **C117**: When all callers are persistent actors, no call is about the keys of two of them: what `Careful` asks for in
this respect is always so. -/
theorem C117_keys (hashtags : Bool) (pre pid pid' : String) (m : Method) :
    (m.req (redisKey hashtags pre) pid').keys ≠ [] ∧
    (About (keysOf hashtags pre pid) (m.req (redisKey hashtags pre) pid') ↔ pid' = pid) ∧
    (pid' ≠ pid → ∀ k ∈ (m.req (redisKey hashtags pre) pid').keys, k ∉ keysOf hashtags pre pid) := by
  have hk : ∀ k ∈ (m.req (redisKey hashtags pre) pid').keys, ∃ u, (u = "journal" ∨ u = "snapshot") ∧
      k = redisKey hashtags pre pid' u := by
    intro k hk
    cases m <;> simp [Method.req, Req.keys] at hk <;> first
      | exact ⟨_, .inl rfl, hk⟩
      | exact ⟨_, .inr rfl, hk⟩
      | (rcases hk with hk | hk; exact ⟨_, .inl rfl, hk⟩; exact ⟨_, .inr rfl, hk⟩)
  have hne : (m.req (redisKey hashtags pre) pid').keys ≠ [] := by cases m <;> simp [Method.req, Req.keys]
  have hout : pid' ≠ pid → ∀ k ∈ (m.req (redisKey hashtags pre) pid').keys, k ∉ keysOf hashtags pre pid := by
    intro hp k hm hc
    obtain ⟨u, hu, rfl⟩ := hk k hm
    simp only [keysOf, List.mem_cons, List.not_mem_nil, or_false] at hc
    rcases hc with hc | hc
    · exact hp (redisKey_ok hashtags pre _ _ _ _ hc hu (.inl rfl)).1
    · exact hp (redisKey_ok hashtags pre _ _ _ _ hc hu (.inr rfl)).1
  refine ⟨hne, ⟨fun h => ?_, fun h => ?_⟩, hout⟩
  · by_cases hp : pid' = pid
    · exact hp
    · obtain ⟨k, hm⟩ := List.exists_mem_of_ne_nil _ hne
      exact absurd (h k hm) (hout hp k hm)
  · subst h
    intro k hm
    obtain ⟨u, hu, rfl⟩ := hk k hm
    rcases hu with rfl | rfl <;> simp [keysOf]

/-! ### What an actor calls -/

/-- an attempt makes one call and takes an answer for success. -/
def Once (attempt : Journal → Task (Journal × Bool)) (j : Journal) (m : Method) (j' : Journal) : Prop :=
  ∀ t r, (attempt j).Runs t r ↔ (t = [(m, none)] ∧ r = (j, false)) ∨ ∃ a, t = [(m, some a)] ∧ r = (j', true)

theorem once_of {attempt : Journal → Task (Journal × Bool)} {j j' : Journal} {m : Method} {k : Option Ans → Task (Journal × Bool)}
    (h : attempt j = .call m k) (h1 : k none = .done (j, false)) (h2 : ∀ a, k (some a) = .done (j', true)) :
    Once attempt j m j' := by
  intro t r
  rw [h]
  constructor
  · rintro ⟨x, l, rfl, hr⟩
    cases x with
    | none => rw [h1] at hr; obtain ⟨rfl, rfl⟩ := hr; exact .inl ⟨rfl, rfl⟩
    | some a => rw [h2] at hr; obtain ⟨rfl, rfl⟩ := hr; exact .inr ⟨a, rfl, rfl⟩
  · rintro (⟨rfl, rfl⟩ | ⟨a, rfl, rfl⟩)
    · exact ⟨none, [], rfl, by rw [h1]; exact ⟨rfl, rfl⟩⟩
    · exact ⟨some a, [], rfl, by rw [h2]; exact ⟨rfl, rfl⟩⟩

/-- the calls of up to `n + 1` attempts and whether the last was answered. -/
def Attempts (n : Nat) (m : Method) (t : List (Method × Option Ans)) (ok : Bool) : Prop :=
  (ok = true ∧ ∃ k a, k ≤ n ∧ t = List.replicate k (m, none) ++ [(m, some a)]) ∨
    (ok = false ∧ t = List.replicate (n + 1) (m, none))

theorem bind_runs {α β : Type} {t : Task α} {f : α → Task β} {l1 l2 : List (Method × Option Ans)} {a : α} {b : β}
    (h1 : t.Runs l1 a) (h2 : (f a).Runs l2 b) : (t.bind f).Runs (l1 ++ l2) b := by
  induction t generalizing l1 with
  | done x => obtain ⟨rfl, rfl⟩ := h1; exact h2
  | call m k ih =>
    obtain ⟨r, l', rfl, hr⟩ := h1
    exact ⟨r, l' ++ l2, rfl, ih r hr⟩

theorem loop_runs {attempt : Journal → Task (Journal × Bool)} {j j' : Journal} {m : Method} (h : Once attempt j m j')
    (n : Nat) (t : List (Method × Option Ans)) (r : Journal × Bool) :
    (loop attempt n j).Runs t r ↔ Attempts n m t r.2 ∧ r.1 = if r.2 then j' else j := by
  induction n generalizing t with
  | zero =>
    show (attempt j).Runs t r ↔ _
    rw [h]
    obtain ⟨x, b⟩ := r
    constructor
    · rintro (⟨rfl, h2⟩ | ⟨a, rfl, h2⟩) <;> cases h2
      · exact ⟨.inr ⟨rfl, rfl⟩, rfl⟩
      · exact ⟨.inl ⟨rfl, 0, a, Nat.le_refl _, rfl⟩, rfl⟩
    · rintro ⟨⟨hb, k, a, hk, rfl⟩ | ⟨hb, rfl⟩, h2⟩
      · have hb : b = true := hb
        subst hb
        obtain rfl : k = 0 := by omega
        exact .inr ⟨a, rfl, by rw [if_pos rfl] at h2; rw [← h2]⟩
      · have hb : b = false := hb
        subst hb
        exact .inl ⟨rfl, by simp at h2; rw [h2]⟩
  | succ n ih =>
    constructor
    · intro hr
      obtain ⟨t1, t2, x, rfl, h1, h2⟩ := Runs.bind hr
      rcases (h _ _).mp h1 with ⟨rfl, rfl⟩ | ⟨a, rfl, rfl⟩
      · obtain ⟨h3, h4⟩ := (ih t2).mp h2
        refine ⟨?_, h4⟩
        rcases h3 with ⟨hb, k, a, hk, rfl⟩ | ⟨hb, rfl⟩
        · exact .inl ⟨hb, k + 1, a, by omega, by simp [List.replicate_succ]⟩
        · exact .inr ⟨hb, by simp [List.replicate_succ]⟩
      · obtain ⟨rfl, rfl⟩ := h2
        exact ⟨.inl ⟨rfl, 0, a, Nat.zero_le _, rfl⟩, rfl⟩
    · rintro ⟨⟨hb, k, a, hk, rfl⟩ | ⟨hb, rfl⟩, h2⟩
      · cases k with
        | zero =>
          refine bind_runs (l1 := [(m, some a)]) (l2 := []) ((h _ _).mpr (.inr ⟨a, rfl, rfl⟩)) ?_
          refine ⟨rfl, ?_⟩
          rw [hb, if_pos rfl] at h2
          rw [← h2, ← hb]
        | succ k =>
          refine bind_runs (l1 := [(m, none)]) ((h _ _).mpr (.inl ⟨rfl, rfl⟩)) ?_
          exact (ih _).mpr ⟨.inl ⟨hb, k, a, by omega, rfl⟩, h2⟩
      · refine bind_runs (l1 := [(m, none)]) ((h _ _).mpr (.inl ⟨rfl, rfl⟩)) ?_
        exact (ih _).mpr ⟨.inr ⟨hb, rfl⟩, h2⟩

theorem loop_bind {attempt : Journal → Task (Journal × Bool)} {j j' : Journal} {m : Method} (h : Once attempt j m j')
    (n : Nat) {β : Type} (f : Journal × Bool → β) (t : List (Method × Option Ans)) (b : β) :
    ((loop attempt n j).bind fun r => .done (f r)).Runs t b ↔
      ∃ ok, Attempts n m t ok ∧ b = f (if ok then j' else j, ok) := by
  constructor
  · intro hr
    obtain ⟨t1, t2, r, rfl, h1, h2⟩ := Runs.bind hr
    obtain ⟨h3, h4⟩ := (loop_runs h n _ _).mp h1
    obtain ⟨rfl, rfl⟩ := h2
    refine ⟨r.2, by rw [List.append_nil]; exact h3, ?_⟩
    rw [← h4]
  · rintro ⟨ok, h1, rfl⟩
    have := bind_runs (f := fun r => Task.done (f r)) ((loop_runs h n t (if ok then j' else j, ok)).mpr ⟨h1, rfl⟩)
      (l2 := []) (b := f (if ok then j' else j, ok)) ⟨rfl, rfl⟩
    rwa [List.append_nil] at this

/-- **C117**: What an actor calls to persist something: the same call up to `n + 1` times, until one is answered; then, and
only then, its counter advances and the events are applied. The calls differ in what is written and under which
number: a single event has the counter itself, the events of a batch the numbers after it, a snapshot the next one, which
is also remembered as the number of the last snapshot. -/
theorem C117_persists (A : App ε σ) (c : Actor σ) (s : σ) (n : Nat) (t : List (Method × Option Ans))
    (r : Actor σ × Cmd ε) :
    (∀ e, (c.act A s n (.event e)).Runs t r ↔ ∃ ok,
      Attempts n (.writeMessage ⟨c.journal.last, (A.enc e).ptype, (A.enc e).bytes⟩) t ok ∧
      r = (⟨{ c.journal with last := c.journal.last + if ok then 1 else 0 }, some (if ok then A.app s e else s)⟩,
        .event e (if ok then .ok else .rejected))) ∧
    (∀ e es, (c.act A s n (.events (e :: es))).Runs t r ↔ ∃ ok,
      Attempts n (.writeBatch (numberBatch c.journal.last ((e :: es).map A.enc))) t ok ∧
      r = (⟨{ c.journal with last := c.journal.last + if ok then (es.length + 1 : Int) else 0 },
        some (if ok then (e :: es).foldl A.app s else s)⟩, .events (e :: es) (if ok then .ok else .rejected))) ∧
    ((c.act A s n (.events [])).Runs t r ↔ t = [] ∧ r = (c, .events [] .ok)) ∧
    ((c.act A s n .save).Runs t r ↔ ∃ ok,
      Attempts n (.writeSnapshot ⟨c.journal.last + 1, (A.encS s).ptype, (A.encS s).bytes⟩) t ok ∧
      r = (⟨⟨c.journal.pid, c.journal.last + if ok then 1 else 0,
        if ok then some (c.journal.last + 1) else c.journal.lastSnap⟩, some s⟩, .save (if ok then .ok else .rejected))) ∧
    ((c.act A s n .trim).Runs t r ↔
      (c.journal.lastSnap = none ∧ t = [] ∧ r = (c, .trim .rejected)) ∨
      ∃ x, c.journal.lastSnap = some x ∧ ∃ a, t = [(.deleteMessagesTo x, a)] ∧
        r = (c, .trim (if a.isSome then .ok else .rejected))) := by
  refine ⟨fun e => ?_, fun e es => ?_, Iff.rfl, ?_, ?_⟩
  · refine (loop_bind (once_of rfl rfl fun _ => rfl) n _ t r).trans ?_
    refine exists_congr fun ok => and_congr_right fun _ => ?_
    cases ok <;> simp [outcome]
  · refine (loop_bind (once_of rfl rfl fun _ => rfl) n _ t r).trans ?_
    refine exists_congr fun ok => and_congr_right fun _ => ?_
    cases ok <;> simp [outcome]
  · refine (loop_bind (once_of rfl rfl fun _ => rfl) n _ t r).trans ?_
    refine exists_congr fun ok => and_congr_right fun _ => ?_
    cases ok <;> simp [outcome]
  · show ((clearOldMessages c.journal).bind _).Runs t r ↔ _
    unfold clearOldMessages
    cases hs : c.journal.lastSnap with
    | none =>
      constructor
      · rintro ⟨rfl, rfl⟩
        exact .inl ⟨rfl, rfl, rfl⟩
      · rintro (⟨_, rfl, rfl⟩ | ⟨x, hx, _⟩)
        · exact ⟨rfl, rfl⟩
        · cases hx
    | some x =>
      constructor
      · rintro ⟨a, l, rfl, rfl, rfl⟩
        exact .inr ⟨x, rfl, a, rfl, rfl⟩
      · rintro (⟨hx, _⟩ | ⟨y, hy, a, rfl, rfl⟩)
        · cases hx
        · cases hy
          exact ⟨a, [], rfl, rfl, rfl⟩

/-- two failures, then an answer. -/
example : ((Actor.new counter "c").act counter 0 4 (.event 3)).Runs
    (List.replicate 2 (.writeMessage ⟨0, "add", [0, 0, 0]⟩, none) ++ [(.writeMessage ⟨0, "add", [0, 0, 0]⟩, some .done)])
    (⟨⟨"c", 1, none⟩, some 3⟩, .event 3 .ok) :=
  ((C117_persists counter _ _ _ _ _).1 3).mpr ⟨true, .inl ⟨rfl, 2, .done, by decide, rfl⟩, rfl⟩

/-! ### Cases -/

/-- the calls of a history. -/
def calls (h : List Shared.Ev) : List (Nat × Nat × Req) := h.filterMap fun
  | .called i n r => some (i, n, r)
  | _ => none

theorem mem_calls {h : List Shared.Ev} {i n : Nat} {r : Req} : (i, n, r) ∈ calls h ↔ Shared.Ev.called i n r ∈ h := by
  unfold calls
  rw [List.mem_filterMap]
  constructor
  · rintro ⟨e, he, h1⟩
    cases e <;> simp at h1
    obtain ⟨rfl, rfl, rfl⟩ := h1
    exact he
  · exact fun he => ⟨_, he, rfl⟩

/-- a checker for `Before`. -/
def isBefore (h : List Shared.Ev) (x y : Shared.Ev) : Bool :=
  (List.range (h.length + 1)).any fun n => (h.take n).contains x && (h.drop n).contains y

theorem isBefore_iff {h : List Shared.Ev} {x y : Shared.Ev} : isBefore h x y = true ↔ Before h x y := by
  unfold isBefore
  rw [List.any_eq_true]
  constructor
  · rintro ⟨n, _, hn⟩
    simp only [Bool.and_eq_true, List.contains_iff_mem] at hn
    exact ⟨h.take n, h.drop n, (List.take_append_drop n h).symm, hn.1, hn.2⟩
  · rintro ⟨a, b, rfl, hx, hy⟩
    refine ⟨a.length, List.mem_range.mpr (by simp; omega), ?_⟩
    simp [hx, hy]

def aboutB (K : List String) (r : Req) : Bool := r.keys.all (· ∈ K)

theorem aboutB_iff {K : List String} {r : Req} : aboutB K r = true ↔ About K r := by simp [aboutB, About]

/-- the number of a call is answered. -/
def hasAnswer (h : List Shared.Ev) (i : Nat) : Bool := h.any fun
  | .answered j _ => j == i
  | _ => false

theorem hasAnswer_iff {h : List Shared.Ev} {i : Nat} : hasAnswer h i = true ↔ ∃ a, Shared.Ev.answered i a ∈ h := by
  unfold hasAnswer
  rw [List.any_eq_true]
  constructor
  · rintro ⟨e, he, h1⟩
    cases e <;> simp at h1
    subst h1
    exact ⟨_, he⟩
  · rintro ⟨a, ha⟩
    exact ⟨_, ha, by simp⟩

/-- a checker for the first two conditions. -/
def waitsB (K : List String) (h : List Shared.Ev) : Bool :=
  ((calls h).all fun c => !c.2.2.keys.isEmpty && (aboutB K c.2.2 || c.2.2.keys.all (· ∉ K))) &&
  ((calls h).all fun c => (calls h).all fun d => !(aboutB K c.2.2 && aboutB K d.2.2 &&
    isBefore h (.called c.1 c.2.1 c.2.2) (.called d.1 d.2.1 d.2.2)) ||
    h.any fun e => e.ends == some c.1 && isBefore h e (.called d.1 d.2.1 d.2.2))

theorem waitsB_sound {K : List String} {h : List Shared.Ev} (hw : waitsB K h = true) :
    (∀ i n r, Shared.Ev.called i n r ∈ h → r.keys ≠ [] ∧ (About K r ∨ ∀ k ∈ r.keys, k ∉ K)) ∧
    ∀ i n r j m q, About K r → About K q → Before h (.called i n r) (.called j m q) →
      ∃ e : Shared.Ev, e.ends = some i ∧ Before h e (.called j m q) := by
  simp only [waitsB, Bool.and_eq_true] at hw
  obtain ⟨h1, h2⟩ := hw
  refine ⟨fun i n r hc => ?_, fun i n r j m q hr hq hb => ?_⟩
  · have := List.all_eq_true.mp h1 _ (mem_calls.mpr hc)
    simp only [Bool.and_eq_true, Bool.or_eq_true, Bool.not_eq_true', List.isEmpty_eq_false_iff, aboutB_iff] at this
    exact ⟨this.1, this.2.imp id fun h => by simpa using h⟩
  · have := List.all_eq_true.mp (List.all_eq_true.mp h2 _ (mem_calls.mpr hb.fst)) _ (mem_calls.mpr hb.snd)
    rw [Bool.or_eq_true] at this
    rcases this with this | this
    · rw [Bool.not_eq_true', ← Bool.not_eq_true] at this
      exact absurd (by simp [aboutB_iff.mpr hr, aboutB_iff.mpr hq, isBefore_iff.mpr hb]) this
    · obtain ⟨e, _, h3⟩ := List.any_eq_true.mp this
      simp only [Bool.and_eq_true, beq_iff_eq] at h3
      exact ⟨e, h3.1, isBefore_iff.mp h3.2⟩

/-- a checker for the last condition, in its first form. -/
def answeredB (K : List String) (h : List Shared.Ev) : Bool :=
  (calls h).all fun c => !aboutB K c.2.2 || reads c.2.2 || hasAnswer h c.1

/-- and in its second form. -/
def againB (K : List String) (h : List Shared.Ev) : Bool :=
  ((calls h).all fun c => !aboutB K c.2.2 || !c.2.2.removes) &&
  (calls h).all fun c => !aboutB K c.2.2 || reads c.2.2 || (calls h).any fun y => decide (c.1 ≤ y.1) &&
    (y.2.2 == c.2.2) && hasAnswer h y.1 && (calls h).all fun j => !(aboutB K j.2.2 && decide (c.1 ≤ j.1) && decide (j.1 < y.1)) ||
      ((j.2.2 == c.2.2) && !hasAnswer h j.1)

theorem careful_of {K : List String} {h : List Shared.Ev}
    (hw : (waitsB K h && (answeredB K h || againB K h)) = true) : Careful K h := by
  rw [Bool.and_eq_true, Bool.or_eq_true] at hw
  obtain ⟨h1, h2⟩ := hw
  obtain ⟨h3, h4⟩ := waitsB_sound h1
  refine ⟨h3, h4, h2.imp (fun h2 i n r hc hr hd => ?_) fun h2 => ?_⟩
  · have := List.all_eq_true.mp h2 _ (mem_calls.mpr hc)
    simp only [Bool.or_eq_true, aboutB_iff.mpr hr, hd, Bool.not_true, Bool.false_eq_true, false_or] at this
    exact hasAnswer_iff.mp this
  · simp only [againB, Bool.and_eq_true] at h2
    refine ⟨fun i n r hc hr => ?_, fun i n r hc hr hd => ?_⟩
    · have := List.all_eq_true.mp h2.1 _ (mem_calls.mpr hc)
      simpa [aboutB_iff.mpr hr] using this
    · have := List.all_eq_true.mp h2.2 _ (mem_calls.mpr hc)
      simp only [Bool.or_eq_true, aboutB_iff.mpr hr, hd, Bool.not_true, Bool.false_eq_true, false_or] at this
      obtain ⟨⟨y, m, q⟩, hy, h5⟩ := List.any_eq_true.mp this
      simp only [Bool.and_eq_true, decide_eq_true_eq, beq_iff_eq] at h5
      obtain ⟨⟨⟨h6, rfl⟩, h7⟩, h8⟩ := h5
      obtain ⟨a, ha⟩ := hasAnswer_iff.mp h7
      refine ⟨y, m, a, h6, mem_calls.mp hy, ha, fun j p q hj hq hij hjy => ?_⟩
      have := List.all_eq_true.mp h8 _ (mem_calls.mpr hj)
      simp only [aboutB_iff.mpr hq, hij, hjy, decide_true, Bool.and_self, Bool.not_true, Bool.false_or, Bool.and_eq_true,
        beq_iff_eq, Bool.not_eq_true'] at this
      refine ⟨this.1, fun b hb => ?_⟩
      rw [hasAnswer_iff.mpr ⟨b, hb⟩] at this
      cases this.2

/-- the request of a counter `c`. -/
def ofC (m : Method) : Req := m.req (redisKey false "") "c"

/-- a counter writes 3; the writing fails, is made again and answered; it writes 4, and only now the first command reaches
Redis. Its node crashes while another actor writes; on a second node it is started, which fails, and started again. -/
def longDay : List Shared.Op :=
  [.call 1 (ofC (.writeBatch (numberBatch 0 [counter.enc 3]))), .handle 1, .fail 0,
    .call 1 (ofC (.writeBatch (numberBatch 0 [counter.enc 3]))), .handle 1, .exec 1, .deliver 1,
    .call 2 (.write "d:journal" Shared.e0), .handle 2,
    .call 1 (ofC (.writeBatch (numberBatch 1 [counter.enc 4]))), .handle 1, .exec 3, .deliver 3, .exec 0, .crash 1, .exec 2,
    .call 2 (ofC .readLatestSnapshot), .handle 2, .fail 4,
    .call 2 (ofC .readLatestSnapshot), .handle 2, .exec 5, .deliver 5,
    .call 2 (ofC (.readLatestMessages 0)), .handle 2, .exec 6, .deliver 6]

/-- what it has called, and what came of it. -/
def longLife : List (Method × Option Ans) :=
  [(.writeBatch (numberBatch 0 [counter.enc 3]), none), (.writeBatch (numberBatch 0 [counter.enc 3]), some .done),
    (.writeBatch (numberBatch 1 [counter.enc 4]), some .done), (.readLatestSnapshot, none),
    (.readLatestSnapshot, some (.entry none)),
    (.readLatestMessages 0, some (.entries (some (numberBatch 0 [counter.enc 3, counter.enc 4]))))]

theorem longLife_partOf : PartOf counter false "" "c" longLife
    [.events [3] .ok, .events [4] .ok, .crash 0, .crash 0] ⟨⟨"c", 2, none⟩, some 7⟩
    ((Shared.start fun _ => []).runs longDay).2 where
  life :=
    .act (s := 0) (n := 1) (j := .events [3]) (l := [_, _]) rfl ⟨_, _, rfl, _, _, rfl, rfl, rfl⟩ <|
    .act (s := 3) (n := 5) (j := .events [4]) (l := [_]) rfl ⟨_, _, rfl, rfl, rfl⟩ <|
    .start (l := [_]) ⟨_, _, rfl, rfl, rfl⟩ <|
    .start (l := [_, _]) (l' := []) ⟨_, _, rfl, _, _, rfl, rfl, rfl⟩ <| .nil _
  part := by decide +kernel

theorem longDay_careful : Careful (keysOf false "" "c") ((Shared.start fun _ => []).runs longDay).2 :=
  careful_of (by decide +kernel)

example : (some 7 : Option Nat) = some (0 + 3 + 4) ∨ ((some 7 : Option Nat) = none ∧ ∃ t' m, longLife = t' ++ [(m, none)]) :=
  C117_batches counter counter_lawful false "" "c" _ (fun _ _ => rfl) longDay longLife _ _ longLife_partOf longDay_careful
    (by simp [Cmd.isSingle])

/-- Refuted: without being careful. A node crashes while an event is being written, which nobody is told has been done. On
another node the actor is started and is as it was before. It is started once more, nothing having been written by
anybody meanwhile, and now the event is there: the command of the dead node has reached Redis. -/
theorem C117_dead_writer_refuted : ∃ (ops : List Shared.Op) (t t' : List (Method × Option Ans)) (cs : List (Cmd Nat))
    (c c' : Actor Nat),
    Lives counter "c" (Actor.new counter "c") t cs c ∧ Lives counter "c" c t' [.crash 0] c' ∧
    trace (keysOf false "" "c") ((Shared.start fun _ => []).runs ops).2 = (t ++ t').map (fun x => (ofC x.1, x.2)) ∧
    (∀ i n r j m q, About (keysOf false "" "c") r → About (keysOf false "" "c") q →
      Before ((Shared.start fun _ => []).runs ops).2 (.called i n r) (.called j m q) →
      ∃ e : Shared.Ev, e.ends = some i ∧ Before ((Shared.start fun _ => []).runs ops).2 e (.called j m q)) ∧
    (∀ x ∈ t ++ t', x.2 = none → reads (ofC x.1) = false) ∧
    cs.flatMap Cmd.acked = [] ∧ c.state = some 0 ∧ c'.state = some 3 := by
  refine ⟨[.call 1 (ofC (.writeBatch (numberBatch 0 [counter.enc 3]))), .handle 1, .crash 1,
    .call 2 (ofC .readLatestSnapshot), .handle 2, .exec 1, .deliver 1,
    .call 2 (ofC (.readLatestMessages 0)), .handle 2, .exec 2, .deliver 2, .exec 0,
    .call 3 (ofC .readLatestSnapshot), .handle 3, .exec 3, .deliver 3,
    .call 3 (ofC (.readLatestMessages 0)), .handle 3, .exec 4, .deliver 4],
    [(.writeBatch (numberBatch 0 [counter.enc 3]), none), (.readLatestSnapshot, some (.entry none)),
      (.readLatestMessages 0, some (.entries (some [])))],
    [(.readLatestSnapshot, some (.entry none)),
      (.readLatestMessages 0, some (.entries (some (numberBatch 0 [counter.enc 3]))))],
    [.events [3] .rejected, .crash 0], ⟨⟨"c", 0, none⟩, some 0⟩, ⟨⟨"c", 1, none⟩, some 3⟩,
    .act (s := 0) (n := 0) (j := .events [3]) (l := [_]) rfl ⟨_, _, rfl, rfl, rfl⟩ <|
      .start (l := [_, _]) (l' := []) ⟨_, _, rfl, _, _, rfl, rfl, rfl⟩ <| .nil _,
    .start (l := [_, _]) (l' := []) ⟨_, _, rfl, _, _, rfl, rfl, rfl⟩ <| .nil _,
    by decide +kernel, (waitsB_sound (by decide +kernel)).2, by decide +kernel, by decide, rfl, rfl⟩

/-- Refuted: without a crash. An actor gives up writing an event after one attempt, which it is told has failed, and goes
on with another, which has the same number. When it is started again both are there. -/
theorem C117_gave_up_refuted : ∃ (ops : List Shared.Op) (t t' : List (Method × Option Ans)) (cs : List (Cmd Nat))
    (c c' : Actor Nat),
    Lives counter "c" (Actor.new counter "c") t cs c ∧ Lives counter "c" c t' [.crash 0] c' ∧
    trace (keysOf false "" "c") ((Shared.start fun _ => []).runs ops).2 = (t ++ t').map (fun x => (ofC x.1, x.2)) ∧
    (∀ i n r j m q, About (keysOf false "" "c") r → About (keysOf false "" "c") q →
      Before ((Shared.start fun _ => []).runs ops).2 (.called i n r) (.called j m q) →
      ∃ e : Shared.Ev, e.ends = some i ∧ Before ((Shared.start fun _ => []).runs ops).2 e (.called j m q)) ∧
    (∀ n, Shared.Op.crash n ∉ ops ∧ Shared.Op.stop n ∉ ops) ∧
    cs.flatMap Cmd.acked = [5] ∧ c.state = some 5 ∧ c'.state = some 8 := by
  refine ⟨[.call 1 (ofC (.writeBatch (numberBatch 0 [counter.enc 3]))), .handle 1, .fail 0,
    .call 1 (ofC (.writeBatch (numberBatch 0 [counter.enc 5]))), .handle 1, .exec 1, .deliver 1, .exec 0,
    .call 1 (ofC .readLatestSnapshot), .handle 1, .exec 2, .deliver 2,
    .call 1 (ofC (.readLatestMessages 0)), .handle 1, .exec 3, .deliver 3],
    [(.writeBatch (numberBatch 0 [counter.enc 3]), none), (.writeBatch (numberBatch 0 [counter.enc 5]), some .done)],
    [(.readLatestSnapshot, some (.entry none)),
      (.readLatestMessages 0, some (.entries (some (numberBatch 0 [counter.enc 3] ++ numberBatch 0 [counter.enc 5]))))],
    [.events [3] .rejected, .events [5] .ok], ⟨⟨"c", 1, none⟩, some 5⟩, ⟨⟨"c", 1, none⟩, some 8⟩,
    .act (s := 0) (n := 0) (j := .events [3]) (l := [_]) rfl ⟨_, _, rfl, rfl, rfl⟩ <|
      .act (s := 0) (n := 0) (j := .events [5]) (l := [_]) (l' := []) rfl ⟨_, _, rfl, rfl, rfl⟩ <| .nil _,
    .start (l := [_, _]) (l' := []) ⟨_, _, rfl, _, _, rfl, rfl, rfl⟩ <| .nil _,
    by decide +kernel, (waitsB_sound (by decide +kernel)).2, by simp, by decide, rfl, rfl⟩

/-- Refuted: with removals, making changes again is not enough. A writing fails, is made again and answered, what was
written is removed, and then the first command reaches Redis: the entry is back, which no order of the answered calls
explains. -/
theorem C117_removed_refuted : ∃ (ops : List Shared.Op),
    waitsB ["k"] ((Shared.start fun _ => []).runs ops).2 = true ∧
    trace ["k"] ((Shared.start fun _ => []).runs ops).2 =
      [(.write "k" Shared.e0, none), (.write "k" Shared.e0, some .done), (.deleteRange "k" 0 9, some .done),
        (.range "k" none none, some (.entries (some [Shared.e0])))] ∧
    ¬ ∃ (own : List Effect) (s : RedisStore), own.map (fun x => (x.req, x.ans)) =
      answeredOnly (trace ["k"] ((Shared.start fun _ => []).runs ops).2) ∧ InTurn (fun _ => []) own s := by
  have e : trace ["k"] ((Shared.start fun _ => []).runs [.call 1 (.write "k" Shared.e0), .handle 1, .fail 0,
      .call 1 (.write "k" Shared.e0), .handle 1, .exec 1, .deliver 1, .call 1 (.deleteRange "k" 0 9), .handle 1, .exec 2,
      .deliver 2, .exec 0, .call 1 (.range "k" none none), .handle 1, .exec 3, .deliver 3]).2 =
      [(.write "k" Shared.e0, none), (.write "k" Shared.e0, some .done), (.deleteRange "k" 0 9, some .done),
        (.range "k" none none, some (.entries (some [Shared.e0])))] := by decide +kernel
  refine ⟨_, by decide +kernel, e, ?_⟩
  rintro ⟨own, s, h1, h2⟩
  have hd := done_of_inTurn h2
  rw [h1, e] at hd
  have : Ans.entries (some [Shared.e0]) = .entries (some []) := hd.2.2.1
  revert this
  decide

end Verif.Persist.Client
