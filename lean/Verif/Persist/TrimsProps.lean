import Verif.Persist.TrimsLemmas

/-!
# C120: Trimming a journal on a Redis that fails

Specifications: `Wrote`, `Gone`, `Stubborn` and `Waits` (`TrimsSpec`) speak of the calls of one caller and their answers;
`Cmd.acked` is that of C63.
-/

namespace Verif.Persist.Trims

open Verif.Persist.Shared Verif.Persist.Client

/-! ### Readings -/

theorem seesAll (st : RedisStore) (ops : List Shared.Op) (K : List String) (hst : ∀ k ∈ K, st k = [])
    (hK : Waits K ((Shared.start st).runs ops).2) (hs : Stubborn (trace K ((Shared.start st).runs ops).2)) :
    SeesAll K (trace K ((Shared.start st).runs ops).2) :=
  fun _ _ _ _ htr hr => at_reading (Shared.Inv.runs st ops) hK hst hs htr hr

theorem trace_about {K : List String} {h : List Shared.Ev} {pre post : Calls} {r : Req} {a : Option Ans}
    (htr : trace K h = pre ++ (r, a) :: post) : About K r := by
  have hm : (r, a) ∈ trace K h := by rw [htr]; simp
  obtain ⟨⟨i, q⟩, hq, e⟩ := List.mem_map.mp hm
  injection e with e1 e2
  have e1 : q = r := e1
  subst e1
  exact (mem_callsAbout.mp hq).2

/-- **C120**: Whoever waits for each of their calls to end and makes writings again until they are answered reads, whatever
all others do and however late commands arrive: nothing that was not written by an answered call before, each entry
once, in the order of their numbers; and of what was written before, everything whose removal was never asked for. Whether
removals were answered, failed, or are still on their way makes no difference to this. -/
theorem C120_range (st : RedisStore) (ops : List Shared.Op) (K : List String) (hst : ∀ k ∈ K, st k = [])
    (hK : Waits K ((Shared.start st).runs ops).2) (hs : Stubborn (trace K ((Shared.start st).runs ops).2))
    {pre post : Calls} {k : String} {lo hi : Option Int} {l : List Entry}
    (htr : trace K ((Shared.start st).runs ops).2 = pre ++ (.range k lo hi, some (.entries (some l))) :: post) :
    l.Pairwise (fun a b => a.seq ≤ b.seq) ∧ l.Nodup ∧
    (∀ e ∈ l, Wrote pre k e ∧ lo.getD 0 ≤ e.seq ∧ ∀ x, hi = some x → e.seq ≤ x) ∧
    (∀ e, Wrote pre k e → lo.getD 0 ≤ e.seq → (∀ x, hi = some x → e.seq ≤ x) → ¬ Gone pre k e → e ∈ l) := by
  have hk : k ∈ K := trace_about htr k (by simp [Req.keys])
  obtain ⟨s, ha, h1⟩ := seesAll st ops K hst hK hs _ _ _ _ htr rfl
  obtain ⟨hn, h2, h3⟩ := h1 k hk
  obtain ⟨l', h4, h5, h6⟩ := (C116_readings s k).2.2 lo hi
  rw [h4] at ha
  injection ha with ha
  injection ha with ha
  subst ha
  exact ⟨hn.1.sublist h5, h5.nodup hn.2, fun e he => ⟨h2 e ((h6 e).mp he).1, ((h6 e).mp he).2⟩,
    fun e hw hl hh hg => (h6 e).mpr ⟨h3 e hw hg, hl, hh⟩⟩

/-- **C120**: And when asking for the newest entry: it was written, nothing newer was, unless its removal was asked for. -/
theorem C120_latest (st : RedisStore) (ops : List Shared.Op) (K : List String) (hst : ∀ k ∈ K, st k = [])
    (hK : Waits K ((Shared.start st).runs ops).2) (hs : Stubborn (trace K ((Shared.start st).runs ops).2))
    {pre post : Calls} {k : String} {o : Option Entry}
    (htr : trace K ((Shared.start st).runs ops).2 = pre ++ (.latest k, some (.entry o)) :: post) :
    (∀ x, o = some x → Wrote pre k x ∧ ∀ e, Wrote pre k e → ¬ Gone pre k e → e.seq ≤ x.seq) ∧
    (o = none → ∀ e, Wrote pre k e → Gone pre k e) := by
  have hk : k ∈ K := trace_about htr k (by simp [Req.keys])
  obtain ⟨s, ha, h1⟩ := seesAll st ops K hst hK hs _ _ _ _ htr rfl
  obtain ⟨hn, h2, h3⟩ := h1 k hk
  rw [(C116_readings s k).1] at ha
  injection ha with ha
  subst ha
  refine ⟨fun x hx => ⟨h2 x (List.mem_of_getLast? hx), fun e hw hg => le_getLast hn.1 hx e (h3 e hw hg)⟩, fun hx e hw => ?_⟩
  rw [List.getLast?_eq_none_iff] at hx
  refine Classical.byContradiction fun hg => ?_
  have := h3 e hw hg
  rw [hx] at this
  cases this

/-- **C120**: And when asking for the entry of one number. -/
theorem C120_one (st : RedisStore) (ops : List Shared.Op) (K : List String) (hst : ∀ k ∈ K, st k = [])
    (hK : Waits K ((Shared.start st).runs ops).2) (hs : Stubborn (trace K ((Shared.start st).runs ops).2))
    {pre post : Calls} {k : String} {n : Int} {o : Option Entry}
    (htr : trace K ((Shared.start st).runs ops).2 = pre ++ (.one k n, some (.entry o)) :: post) :
    (∀ x, o = some x → Wrote pre k x ∧ x.seq = n) ∧ (o = none → ∀ e, Wrote pre k e → e.seq = n → Gone pre k e) := by
  have hk : k ∈ K := trace_about htr k (by simp [Req.keys])
  obtain ⟨s, ha, h1⟩ := seesAll st ops K hst hK hs _ _ _ _ htr rfl
  obtain ⟨hn, h2, h3⟩ := h1 k hk
  obtain ⟨h4, h5⟩ := (C116_readings s k).2.1 n o ha.symm
  refine ⟨fun x hx => ⟨h2 x (h4 x hx).1, (h4 x hx).2⟩, fun hx e hw he => ?_⟩
  refine Classical.byContradiction fun hg => ?_
  exact h5 hx e (h3 e hw hg) he

/-! ### Actors -/

variable {ε σ : Type}

/-- **C120**: An actor that gives up no writing makes each again until it is answered. (Its trims it makes once.) -/
theorem C120_again (A : App ε σ) (key : String → String → String) (pid : String) {c c' : Actor σ}
    {t : List (Method × Option Ans)} {cs : List (Cmd ε)} (hl : Lives A pid c t cs c')
    (hg : ∀ x ∈ cs, x.givenUp = false) : Stubborn (t.map fun x => (x.1.req key pid, x.2)) :=
  Lives.stubborn key pid A hl hg

/-- **C120** in part: An event-sourced actor that writes its events as batches, gives up no writing, saves its state and
trims its journal as it likes is, whenever it runs, in the state its acknowledged events make of the initial one: on
whichever nodes it was started, whatever others do, whether its trims were carried out, failed or come much later, and
even if late commands bring back what was trimmed. It runs unless the last call of its last start was not answered. In
part, for single events can be lost (`C120_single_refuted`). -/
theorem C120_survives_partial (A : App ε σ) (hA : A.Lawful) (hashtags : Bool) (pre pid : String) (st : RedisStore)
    (hst : ∀ k ∈ keysOf hashtags pre pid, st k = []) (ops : List Shared.Op) (t : List (Method × Option Ans))
    (cs : List (Cmd ε)) (c : Actor σ) (hp : PartOf A hashtags pre pid t cs c ((Shared.start st).runs ops).2)
    (hK : Waits (keysOf hashtags pre pid) ((Shared.start st).runs ops).2) (hs : ∀ x ∈ cs, x.isSingle = false)
    (hg : ∀ x ∈ cs, x.givenUp = false) :
    c.state = some ((cs.flatMap Cmd.acked).foldl A.app A.init) ∨ (c.state = none ∧ ∃ t' m, t = t' ++ [(m, none)]) := by
  have hk := redisKey_ok hashtags pre
  have hstub : Stubborn (trace (keysOf hashtags pre pid) ((Shared.start st).runs ops).2) := by
    rw [hp.part]; exact Lives.stubborn (redisKey hashtags pre) pid A hp.life hg
  have hsees := seesAll st ops _ hst hK hstub
  rw [hp.part] at hsees
  have h0 : Stands (redisKey hashtags pre) pid A [] none [] A.init := by
    have hn : ∀ k e, ¬ Wrote [] k e := by rintro k e ⟨q, b, hq, _⟩; cases hq
    exact ⟨⟨A.init, [], rfl, rfl, rfl⟩, fun e => hn _ e, List.Pairwise.nil, fun e he => (by cases he),
      fun e he => absurd he (hn _ e), fun e he => (by cases he), fun lo hi o hm => (by cases hm), fun lo hi o hm => (by cases hm)⟩
  have := h0.lives (redisKey hashtags pre) pid A hk hA (rest := []) hp.life (.inr ⟨rfl, rfl⟩)
    (by rw [List.append_nil, List.nil_append]; exact hsees) hs hg
  rcases this with h1 | ⟨h1, ⟨_, h2⟩ | h2⟩
  · exact .inl h1
  · cases h2
  · exact .inr ⟨h1, h2⟩

/-! ### Cases -/

theorem waits_of {K : List String} {h : List Shared.Ev} (hw : waitsB K h = true)
    (hd : ((calls h).all fun c => match c.2.2 with | .delete _ => false | _ => true) = true) : Waits K h := by
  obtain ⟨h1, h2⟩ := waitsB_sound hw
  refine ⟨h1, h2, fun i n ks hc _ => ?_⟩
  have := List.all_eq_true.mp hd _ (mem_calls.mpr hc)
  cases this

/-- a counter writes 3, which fails, is made again and answered; so is its saving. A trim fails, another one is answered.
It writes 4; now the first writing and the first trim reach Redis. Its node crashes and it is started on another. -/
def tidyDay : List Shared.Op :=
  [.call 1 (ofC (.writeBatch (numberBatch 0 [counter.enc 3]))), .handle 1, .fail 0,
    .call 1 (ofC (.writeBatch (numberBatch 0 [counter.enc 3]))), .handle 1, .exec 1, .deliver 1,
    .call 1 (ofC (.writeSnapshot ⟨2, (counter.encS 3).ptype, (counter.encS 3).bytes⟩)), .handle 1, .exec 2, .fail 2,
    .call 1 (ofC (.writeSnapshot ⟨2, (counter.encS 3).ptype, (counter.encS 3).bytes⟩)), .handle 1, .exec 3, .deliver 3,
    .call 1 (ofC (.deleteMessagesTo 2)), .handle 1, .fail 4,
    .call 1 (ofC (.deleteMessagesTo 2)), .handle 1, .exec 5, .deliver 5,
    .call 1 (ofC (.writeBatch (numberBatch 2 [counter.enc 4]))), .handle 1, .exec 6, .deliver 6, .exec 4, .exec 0, .crash 1,
    .call 2 (ofC .readLatestSnapshot), .handle 2, .exec 7, .deliver 7,
    .call 2 (ofC (.readLatestMessages 2)), .handle 2, .exec 8, .deliver 8]

/-- what it has called, and what came of it. -/
def tidyLife : List (Method × Option Ans) :=
  [(.writeBatch (numberBatch 0 [counter.enc 3]), none), (.writeBatch (numberBatch 0 [counter.enc 3]), some .done),
    (.writeSnapshot ⟨2, (counter.encS 3).ptype, (counter.encS 3).bytes⟩, none),
    (.writeSnapshot ⟨2, (counter.encS 3).ptype, (counter.encS 3).bytes⟩, some .done),
    (.deleteMessagesTo 2, none), (.deleteMessagesTo 2, some .done),
    (.writeBatch (numberBatch 2 [counter.enc 4]), some .done),
    (.readLatestSnapshot, some (.entry (some ⟨2, (counter.encS 3).ptype, (counter.encS 3).bytes⟩))),
    (.readLatestMessages 2, some (.entries (some (numberBatch 2 [counter.enc 4]))))]

theorem tidyLife_partOf : PartOf counter false "" "c" tidyLife
    [.events [3] .ok, .save .ok, .trim .rejected, .trim .ok, .events [4] .ok, .crash 0] ⟨⟨"c", 3, some 2⟩, some 7⟩
    ((Shared.start fun _ => []).runs tidyDay).2 where
  life :=
    .act (s := 0) (n := 1) (j := .events [3]) (l := [_, _]) rfl ⟨_, _, rfl, _, _, rfl, rfl, rfl⟩ <|
    .act (s := 3) (n := 3) (j := .save) (l := [_, _]) rfl ⟨_, _, rfl, _, _, rfl, rfl, rfl⟩ <|
    .act (s := 3) (n := 0) (j := .trim) (l := [_]) rfl ⟨_, _, rfl, rfl, rfl⟩ <|
    .act (s := 3) (n := 0) (j := .trim) (l := [_]) rfl ⟨_, _, rfl, rfl, rfl⟩ <|
    .act (s := 3) (n := 5) (j := .events [4]) (l := [_]) rfl ⟨_, _, rfl, rfl, rfl⟩ <|
    .start (l := [_, _]) (l' := []) ⟨_, _, rfl, _, _, rfl, rfl, rfl⟩ <| .nil _
  part := by decide +kernel

theorem tidyDay_waits : Waits (keysOf false "" "c") ((Shared.start fun _ => []).runs tidyDay).2 :=
  waits_of (by decide +kernel) (by decide +kernel)

example : (some 7 : Option Nat) = some (0 + 3 + 4) ∨ ((some 7 : Option Nat) = none ∧ ∃ t' m, tidyLife = t' ++ [(m, none)]) :=
  C120_survives_partial counter counter_lawful false "" "c" _ (fun _ _ => rfl) tidyDay tidyLife _ _ tidyLife_partOf
    tidyDay_waits (by simp [Cmd.isSingle]) (by simp [Cmd.givenUp])

/-- what it reads at its start, by `C120_range`: the event written after the snapshot is there. -/
example : (⟨3, (counter.enc 4).ptype, (counter.enc 4).bytes⟩ : Entry) ∈ numberBatch 2 [counter.enc 4] :=
  (C120_range (fun _ => []) tidyDay (keysOf false "" "c") (fun _ _ => rfl) tidyDay_waits
    (by rw [tidyLife_partOf.part]; exact C120_again counter _ "c" tidyLife_partOf.life (by simp [Cmd.givenUp]))
    (pre := (tidyLife.take 8).map fun x => (ofC x.1, x.2)) (post := []) (k := redisKey false "" "c" "journal")
    (lo := some 2) (hi := none) (l := numberBatch 2 [counter.enc 4]) (by decide +kernel)).2.2.2 _
    ⟨_, .done, (by decide +kernel : (ofC (.writeBatch (numberBatch 2 [counter.enc 4])), some Ans.done) ∈ _),
      by decide +kernel⟩ (by decide) (by simp) (by
      rintro ⟨lo, hi, o, hm, _, h2⟩
      have hm : (Req.deleteRange (redisKey false "" "c" "journal") lo hi, o) ∈
        ((tidyLife.take 8).map fun x => (ofC x.1, x.2)) := hm
      simp [tidyLife, ofC, Method.req] at hm
      have h2 : (3 : Int) ≤ hi := h2
      omega)

/-- Refuted: what was trimmed is gone. The trim of this day was answered, and it was carried out twice, but in the end the
event it removed is in the journal again, below the snapshot. -/
theorem C120_back_refuted : ∃ (ops : List Shared.Op) (t : List (Method × Option Ans)) (cs : List (Cmd Nat)) (c : Actor Nat),
    PartOf counter false "" "c" t cs c ((Shared.start fun _ => []).runs ops).2 ∧
    Waits (keysOf false "" "c") ((Shared.start fun _ => []).runs ops).2 ∧ (∀ x ∈ cs, x.givenUp = false) ∧
    (Method.deleteMessagesTo 2, some Ans.done) ∈ t ∧
    (⟨1, (counter.enc 3).ptype, (counter.enc 3).bytes⟩ : Entry) ∈
      ((Shared.start fun _ => []).runs ops).1.store (redisKey false "" "c" "journal") :=
  ⟨tidyDay, tidyLife, _, _, tidyLife_partOf, tidyDay_waits, by simp [Cmd.givenUp], by simp [tidyLife], by decide +kernel⟩

/-- Refuted: that single events are safe. An actor saves its state and trims its journal; the trim fails. It writes a single
event, which is acknowledged, and which has the number of the snapshot. Now the command of the trim reaches Redis and
removes it: when the actor is started again the event is lost. (Nothing of this is at odds with `SafeOnRedis`, under which
C94 finds single events to be safe on a Redis that does all at once.) -/
theorem C120_single_refuted : ∃ (ops : List Shared.Op) (t : List (Method × Option Ans)) (cs : List (Cmd Nat)) (c : Actor Nat),
    PartOf counter false "" "c" t cs c ((Shared.start fun _ => []).runs ops).2 ∧
    Waits (keysOf false "" "c") ((Shared.start fun _ => []).runs ops).2 ∧ (∀ x ∈ cs, x.givenUp = false) ∧
    SafeOnRedis {} cs = true ∧ cs.flatMap Cmd.acked = [3, 4] ∧ c.state = some 3 := by
  refine ⟨[.call 1 (ofC (.writeBatch (numberBatch 0 [counter.enc 3]))), .handle 1, .exec 0, .deliver 0,
    .call 1 (ofC (.writeSnapshot ⟨2, (counter.encS 3).ptype, (counter.encS 3).bytes⟩)), .handle 1, .exec 1, .deliver 1,
    .call 1 (ofC (.deleteMessagesTo 2)), .handle 1, .fail 2,
    .call 1 (ofC (.writeMessage ⟨2, (counter.enc 4).ptype, (counter.enc 4).bytes⟩)), .handle 1, .exec 3, .deliver 3, .exec 2,
    .call 2 (ofC .readLatestSnapshot), .handle 2, .exec 4, .deliver 4,
    .call 2 (ofC (.readLatestMessages 2)), .handle 2, .exec 5, .deliver 5],
    [(.writeBatch (numberBatch 0 [counter.enc 3]), some .done),
      (.writeSnapshot ⟨2, (counter.encS 3).ptype, (counter.encS 3).bytes⟩, some .done), (.deleteMessagesTo 2, none),
      (.writeMessage ⟨2, (counter.enc 4).ptype, (counter.enc 4).bytes⟩, some .done),
      (.readLatestSnapshot, some (.entry (some ⟨2, (counter.encS 3).ptype, (counter.encS 3).bytes⟩))),
      (.readLatestMessages 2, some (.entries (some [])))],
    [.events [3] .ok, .save .ok, .trim .rejected, .event 4 .ok, .crash 0], ⟨⟨"c", 2, some 2⟩, some 3⟩,
    ⟨.act (s := 0) (n := 0) (j := .events [3]) (l := [_]) rfl ⟨_, _, rfl, rfl, rfl⟩ <|
      .act (s := 3) (n := 0) (j := .save) (l := [_]) rfl ⟨_, _, rfl, rfl, rfl⟩ <|
      .act (s := 3) (n := 0) (j := .trim) (l := [_]) rfl ⟨_, _, rfl, rfl, rfl⟩ <|
      .act (s := 3) (n := 0) (j := .event 4) (l := [_]) rfl ⟨_, _, rfl, rfl, rfl⟩ <|
      .start (l := [_, _]) (l' := []) ⟨_, _, rfl, _, _, rfl, rfl, rfl⟩ <| .nil _, by decide +kernel⟩,
    waits_of (by decide +kernel) (by decide +kernel), by simp [Cmd.givenUp], by decide +kernel, by decide, rfl⟩

end Verif.Persist.Trims
