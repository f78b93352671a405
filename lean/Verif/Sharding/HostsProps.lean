import Verif.Sharding.HostsLemmas

/-!
# C113: a shard coordinator knows the nodes of its cluster
-/

namespace Verif.Sharding.Hosts

open Verif.Remote

/-- the coordinator takes node `n` for available: it may be given shards. -/
def Counted (c : Coord) (n : Nat) : Prop := ∃ h, c.Knows n h ∧ h.status = .ready

theorem counted_iff (c : Coord) (n : Nat) : Counted c n ↔ statusOf c n = some .ready := (status_ready c n).symm

theorem assigned_counted {c : Coord} (hi : Inv c) {s n : Nat} (h : c.Assigned s n) : Counted c n :=
  (counted_iff c n).2 (assigned_avail hi h)

/-- **C113 (none missed).** Whenever the coordinator starts, and whatever it does meanwhile: a node the discovery has
announced is one of its hosts, or the announcement is waiting for it. No announcement falls between its question to the
registry and its subscription. -/
theorem C113_none_missed (self : Nat) (ops : List Op) (c : Coord) (hc : (Site.run self ops).coord = some c) (n : Nat)
    (hn : n ∈ (Site.run self ops).disc.added) :
    (∃ h, c.Knows n h) ∨ Ev.added n ∈ (Site.run self ops).inbox := by
  rw [← status_isSome]
  exact (Sound.run self ops).added c hc n hn

/-- **C113 (none missed).** Likewise every node of the registry, except while the handshake with it goes on or after
it failed. -/
theorem C113_registered (self : Nat) (ops : List Op) (c : Coord) (hc : (Site.run self ops).coord = some c) (n : Nat)
    (hn : ((Site.run self ops).disc.reg.get n).isSome) :
    (∃ h, c.Knows n h) ∨ Ev.added n ∈ (Site.run self ops).inbox ∨ n ∈ (Site.run self ops).disc.discovering := by
  rw [← status_isSome]
  exact (Sound.run self ops).known c hc n hn

/-- **C113 (the last word).** The coordinator takes a node for available exactly if the last event it has handled
about the node says that it was added; without such an event, if the node is its own or the registry had it as `Healthy`
or `Joining` when the coordinator asked. What the heartbeat finds out later changes nothing. -/
theorem C113_last_word (self : Nat) (ops : List Op) (c : Coord) (hc : (Site.run self ops).coord = some c) (n : Nat) :
    (lastWord n (Site.run self ops).heard = some true → Counted c n) ∧
    (lastWord n (Site.run self ops).heard = some false → ¬ Counted c n) ∧
    (lastWord n (Site.run self ops).heard = none →
      (Counted c n ↔ n = self ∨ (n, true) ∈ (Site.run self ops).listed)) := by
  have h := (Sound.run self ops).view c hc n
  rw [← counted_iff] at h
  refine ⟨fun e => ?_, fun e => ?_, fun e => ?_⟩
  · rw [e] at h; exact h.2 rfl
  · rw [e] at h; exact fun hc => nomatch h.1 hc
  · rw [e] at h; exact h

/-- **C113 (gone).** Once the coordinator has handled the removal of a node, and no later announcement of it, no shard
is assigned to the node. -/
theorem C113_gone (self : Nat) (ops : List Op) (c : Coord) (hc : (Site.run self ops).coord = some c) (n : Nat)
    (hl : lastWord n (Site.run self ops).heard = some false) (s : Nat) : ¬ c.Assigned s n := fun ha =>
  (C113_last_word self ops c hc n).2.1 hl (assigned_counted ((Sound.run self ops).inv c hc).1 ha)

/-- what is handled besides the events of the system topic and a restart. -/
def worked : CoordOp → Prop
  | .nodeAdded _ | .nodeRemoved _ | .nodeUnavailable _ | .restart _ _ => False
  | _ => True

/-- **C113 (its work).** Nothing here keeps the coordinator from its own work: whatever else it is asked for, it does as
in C37 and C40. -/
theorem C113_work (self : Nat) (ops : List Op) (c : Coord) (hc : (Site.run self ops).coord = some c) (o : CoordOp)
    (ho : worked o) : (Site.run self (ops ++ [.work o])).coord = some (c.next o) := by
  have e : Site.run self (ops ++ [.work o]) = (Site.run self ops).step self (.work o) := by
    unfold Site.run; exact runFrom_snoc self _ ops _
  rw [e]
  have : own o = true := by cases o <;> first | rfl | exact ho.elim
  simp [Site.step, hc, this]

/-! ### A node nothing happens to -/

/-- nothing bad happens to node `n`: its removal is never published, the registry has it as `Healthy` or `Joining`. -/
def sparing (n : Nat) : Op → Prop
  | .gone m => m ≠ n
  | .status m s => m = n → s = .healthy ∨ s = .joining
  | _ => True

structure Steady (n : Nat) (w : Site) : Prop where
  fine : (w.disc.reg.get n).isSome → w.fine n = true
  inbox : Ev.removed n ∉ w.inbox
  coord : ∀ c, w.coord = some c → (statusOf c n).isSome → statusOf c n = some .ready

theorem Steady.step {self n : Nat} {w : Site} (hw : Sound self w) (h : Steady n w) (o : Op) (ho : sparing n o) :
    Steady n (w.step self o) := by
  cases o with
  | disc o =>
    rcases step_disc self w o with e | ⟨e, _⟩
    · rw [e]; exact h
    · rw [e]
      have hm := moves hw.dwf self o
      refine ⟨?_, ?_, h.coord⟩
      · intro hr
        simp only [Site.disced]
        rcases hm.fresh n hr with hr | hr
        · split
          · rfl
          · exact h.fine hr
        · rw [if_pos hr.1]
      · simp only [Site.disced]
        split
        · intro hi
          rcases List.mem_append.1 hi with hi | hi
          · exact h.inbox hi
          · obtain ⟨_, _, e⟩ := List.mem_map.1 hi
            nomatch e
        · exact h.inbox
  | status m s =>
    refine ⟨?_, h.inbox, h.coord⟩
    intro hr
    simp only [Site.step]
    split
    · rename_i e
      have := ho e.symm
      simp [this]
    · rename_i e
      refine h.fine ?_
      simp only [Site.step, Disc.step, Assoc.get_update, if_neg e] at hr
      exact hr
  | gone m =>
    simp only [Site.step]
    split
    · refine ⟨h.fine, ?_, h.coord⟩
      simp only
      split
      · intro hi
        rcases List.mem_append.1 hi with hi | hi
        · exact h.inbox hi
        · have : n = m := by simpa using hi
          exact ho this.symm
      · exact h.inbox
    · exact h
  | subscribe =>
    simp only [Site.step]
    split
    · exact h
    · exact ⟨h.fine, by simp, h.coord⟩
  | list order journal =>
    simp only [Site.step]
    split
    · rename_i hg
      refine ⟨h.fine, h.inbox, ?_⟩
      rintro c ⟨⟩ hs
      rw [start_status] at hs ⊢
      have hmem : n ∈ order → (w.disc.reg.get n).isSome := by
        intro ho
        rw [Assoc.get_isSome_iff]
        exact (List.isPerm_iff.1 hg.2.2).mem_iff.1 ho
      by_cases e : n = self
      · simp [e]
      · by_cases ho : n ∈ order
        · simp [e, ho, h.fine (hmem ho)]
        · simp [e, ho] at hs
    · exact h
  | hear =>
    simp only [Site.step]
    split
    · rename_i c e es hc hes
      refine ⟨h.fine, fun hi => h.inbox (by rw [hes]; exact List.mem_cons_of_mem _ hi), ?_⟩
      rintro c' ⟨⟩ hs
      rw [hear_status] at hs ⊢
      have hne : e.word n ≠ some false := by
        intro hw
        have he : e = .removed n := by
          cases e with
          | added m => simp [Ev.word] at hw
          | removed m =>
            by_cases hmn : m = n
            · rw [hmn]
            · simp [Ev.word, hmn] at hw
        exact h.inbox (by rw [hes, he]; exact List.mem_cons_self)
      cases hw : e.word n with
      | none => simp only [hw] at hs; exact h.coord c hc hs
      | some b =>
        cases b with
        | true => rfl
        | false => exact absurd hw hne
    · exact h
  | work o =>
    simp only [Site.step]
    split
    · rename_i c hc
      split
      · rename_i ho
        refine ⟨h.fine, h.inbox, ?_⟩
        rintro c' ⟨⟩
        rw [own_status (hw.inv c hc).1 ho]; exact h.coord c hc
      · exact h
    · exact h
  | finish => exact ⟨h.fine, by simp [Site.step], nofun⟩

/-- **C113 (steady).** A node that was announced, whose removal has never been published and which the registry never
had as `Unhealthy` or `Terminated` is available to the coordinator, or its announcement is waiting. -/
theorem C113_steady (self : Nat) (ops : List Op) (n : Nat) (hops : ∀ o ∈ ops, sparing n o) (c : Coord)
    (hc : (Site.run self ops).coord = some c) (hn : n ∈ (Site.run self ops).disc.added) :
    Counted c n ∨ Ev.added n ∈ (Site.run self ops).inbox := by
  have h : Steady n (Site.run self ops) := by
    have h0 : Steady n (Site.init self) := by
      refine ⟨?_, by simp [Site.init], nofun⟩
      intro hr
      by_cases e : n = self
      · simp [Site.init, e]
      · have : ¬ self = n := fun h => e h.symm
        simp [Site.init, Assoc.get_cons, this] at hr
    have : ∀ (w : Site), Sound self w → Steady n w → Steady n (w.runFrom self ops) := by
      clear hc hn h0
      induction ops with
      | nil => exact fun _ _ h => h
      | cons o ops ih =>
        intro w hw h
        exact ih (fun o' h' => hops o' (List.mem_cons_of_mem _ h')) _ (hw.step o)
          (Steady.step hw h o (hops o List.mem_cons_self))
    exact this _ (Sound.init self) h0
  rcases (Sound.run self ops).added c hc n hn with h1 | h1
  · exact .inl ((counted_iff c n).2 (h.coord c hc h1))
  · exact .inr h1

/-! ### A node shut out -/

/-- node `n` is in the registry, terminated or not, no handshake with it is under way and no announcement of it is
waiting: the coordinator will hear of it only after the discovery has contacted it anew. -/
def Settled (w : Site) (n : Nat) : Prop :=
  (w.disc.reg.get n).isSome ∧ n ∉ w.disc.shakes.map (·.id) ∧ Ev.added n ∉ w.inbox

structure ShutOut (n : Nat) (w : Site) : Prop where
  settled : Settled w n
  coord : ∃ c, w.coord = some c ∧ ¬ Counted c n

theorem ShutOut.step {self n : Nat} {w : Site} (hw : Sound self w) (h : ShutOut n w) (o : Op)
    (ho : ∀ d, o = .disc d → w.disc.reg.get n ≠ some true) (hf : o ≠ .finish) : ShutOut n (w.step self o) := by
  obtain ⟨c, hc, hn⟩ := h.coord
  obtain ⟨hr, hs, hi⟩ := h.settled
  cases o with
  | disc o =>
    rcases step_disc self w o with e | ⟨e, hne⟩
    · rw [e]; exact h
    · rw [e]
      have hm := moves hw.dwf self o
      have hf : w.disc.reg.get n = some false := by
        obtain ⟨b, hb⟩ := Option.isSome_iff_exists.1 hr
        cases b with
        | false => exact hb
        | true => exact absurd hb (ho o rfl)
      refine ⟨⟨hm.known n hr, fun hs' => (hm.shakes n hs').elim hs (fun h' => h' hf), ?_⟩, h.coord⟩
      obtain ⟨l, ha, hl, _⟩ := hm.added
      simp only [Site.disced, drop_append_left ha]
      split
      · intro hi'
        rcases List.mem_append.1 hi' with hi' | hi'
        · exact hi hi'
        · obtain ⟨m, hm, e⟩ := List.mem_map.1 hi'
          have : m = n := by simpa using e
          subst this
          exact hs (hl m hm).2
      · exact hi
  | status m s => exact ⟨⟨(moves hw.dwf self (.status m (s = .terminated))).known n hr, hs, hi⟩, h.coord⟩
  | gone m =>
    simp only [Site.step]
    split
    · refine ⟨⟨hr, hs, ?_⟩, h.coord⟩
      simp only
      split
      · intro hi'
        rcases List.mem_append.1 hi' with hi' | hi'
        · exact hi hi'
        · simp at hi'
      · exact hi
    · exact h
  | subscribe =>
    simp only [Site.step]
    split
    · exact h
    · rename_i hh; exact absurd (hw.inv c hc).2 hh
  | list order journal =>
    simp only [Site.step]
    rw [if_neg (by simp [hc])]
    exact h
  | hear =>
    simp only [Site.step]
    split
    · rename_i c' e es hc' hes
      have : c' = c := Option.some.inj (hc'.symm.trans hc)
      subst this
      refine ⟨⟨hr, hs, fun hi' => hi (by rw [hes]; exact List.mem_cons_of_mem _ hi')⟩, _, rfl, ?_⟩
      rw [counted_iff] at hn ⊢
      rw [hear_status]
      cases hw : e.word n with
      | none => exact hn
      | some b =>
        cases b with
        | false => cases statusOf c' n <;> simp
        | true =>
          have he : e = .added n := by
            cases e with
            | removed m => simp [Ev.word] at hw
            | added m =>
              by_cases hmn : m = n
              · rw [hmn]
              · simp [Ev.word, hmn] at hw
          exact absurd (by rw [hes, he]; exact List.mem_cons_self) hi
    · exact h
  | work o =>
    simp only [Site.step, hc]
    split
    · rename_i ho
      refine ⟨h.settled, _, rfl, ?_⟩
      rw [counted_iff] at hn ⊢
      rw [own_status (hw.inv c hc).1 ho]; exact hn
    · exact h
  | finish => exact absurd rfl hf

/-- **C113 (refuted: nodes that are there are used).** A node that is in the registry, whose handshake is over and whose
announcement is not waiting, and which the coordinator does not take for available, stays so: whatever happens, as long
as no discovery message finds the node `Terminated` in the registry and the coordinator lives, no shard is assigned to
the node. Discovery passes over nodes that are in the registry, `Forget` does not take them out, and the coordinator
hears of nodes from discovery only. It is enough that the node was slow to answer a ping when the coordinator started,
that the handshake failed once, or that a lost connection was made again before the heartbeat that would have noticed:
what the client sends to discovery when it has connected again is then passed over. -/
theorem C113_shut_out_refuted (self : Nat) (before after : List Op) (n : Nat) (c : Coord)
    (hc : (Site.run self before).coord = some c) (hn : ¬ Counted c n) (hs : Settled (Site.run self before) n)
    (ha : ∀ a d b, after = a ++ .disc d :: b → (Site.run self (before ++ a)).disc.reg.get n ≠ some true)
    (hf : ∀ o ∈ after, o ≠ .finish) :
    ∃ c', (Site.run self (before ++ after)).coord = some c' ∧ ¬ Counted c' n ∧ ∀ s, ¬ c'.Assigned s n := by
  have e : ∀ a, Site.run self (before ++ a) = (Site.run self before).runFrom self a := by
    intro a; simp [Site.run, Site.runFrom]
  simp only [e] at ha ⊢
  have key : ∀ (w : Site), Sound self w → ShutOut n w →
      (∀ a d b, after = a ++ .disc d :: b → (w.runFrom self a).disc.reg.get n ≠ some true) →
      Sound self (w.runFrom self after) ∧ ShutOut n (w.runFrom self after) := by
    clear ha
    induction after with
    | nil => exact fun _ hw h _ => ⟨hw, h⟩
    | cons o after ih =>
      intro w hw h ha
      exact ih (fun o' h' => hf o' (List.mem_cons_of_mem _ h')) _ (hw.step o)
        (h.step hw o (fun d hd => ha [] d after (by rw [hd]; rfl)) (hf o List.mem_cons_self))
        (fun a d b hab => ha (o :: a) d b (by rw [hab]; rfl))
  obtain ⟨h1, h2⟩ := key _ (Sound.run self before) ⟨hs, c, hc, hn⟩ ha
  obtain ⟨c', hc', hn'⟩ := h2.coord
  exact ⟨c', hc', hn', fun s ha => hn' (assigned_counted (h1.inv c' hc').1 ha)⟩

theorem live_kept {self n : Nat} (w : Site) (hw : Sound self w) (a : List Op)
    (ha : ∀ o ∈ a, o ≠ .status n .terminated) (h : w.disc.reg.get n = some false) :
    (w.runFrom self a).disc.reg.get n = some false := by
  induction a generalizing w with
  | nil => exact h
  | cons o a ih =>
    refine ih _ (hw.step o) (fun o' h' => ha o' (List.mem_cons_of_mem _ h')) ?_
    cases o with
    | disc o =>
      rcases step_disc self w o with e | ⟨e, hne⟩
      · rw [e]; exact h
      · rw [e]; exact ((moves hw.dwf self o).live n h).resolve_right (hne n true)
    | status m s =>
      refine ((moves hw.dwf self (.status m (s = .terminated))).live n h).resolve_right ?_
      intro e
      have e1 : m = n := by injection e
      have e2 : s = .terminated := by
        have : decide (s = .terminated) = true := by injection e
        simpa using this
      exact ha _ List.mem_cons_self (by rw [e1, e2])
    | gone m => simp only [Site.step]; split <;> exact h
    | subscribe => simp only [Site.step]; split <;> exact h
    | list order journal => simp only [Site.step]; split <;> exact h
    | hear => simp only [Site.step]; split <;> exact h
    | work o =>
      simp only [Site.step]
      split
      · split <;> exact h
      · exact h
    | finish => exact h

/-- **C113 (refuted: nodes that are there are used).** In particular as long as the registry never has the node as
`Terminated`. -/
theorem C113_alive_unused_refuted (self : Nat) (before after : List Op) (n : Nat) (c : Coord)
    (hc : (Site.run self before).coord = some c) (hn : ¬ Counted c n) (hs : Settled (Site.run self before) n)
    (hl : (Site.run self before).disc.reg.get n = some false)
    (ha : ∀ o ∈ after, o ≠ .status n .terminated ∧ o ≠ .finish) :
    ∃ c', (Site.run self (before ++ after)).coord = some c' ∧ ¬ Counted c' n ∧ ∀ s, ¬ c'.Assigned s n := by
  refine C113_shut_out_refuted self before after n c hc hn hs ?_ (fun o ho => (ha o ho).2)
  intro a d b hab
  have e : Site.run self (before ++ a) = (Site.run self before).runFrom self a := by simp [Site.run, Site.runFrom]
  rw [e, live_kept _ (Sound.run self before) a (fun o ho => (ha o (by rw [hab]; simp [ho])).1) hl]
  simp

/-! ### The node itself, and a coordinator that has stopped -/

theorem step_discs (self : Nat) (w : Site) (o : Op) :
    (w.step self o).disc = w.disc ∨ (∃ d, (w.step self o).disc = w.disc.step self d ∧ ∀ k t, d ≠ .status k t) ∨
      ∃ k s, o = .status k s ∧ (w.step self o).disc = w.disc.step self (.status k (s = .terminated)) := by
  cases o with
  | disc o =>
    rcases step_disc self w o with e | ⟨e, hne⟩
    · exact .inl (by rw [e])
    · exact .inr (.inl ⟨o, by rw [e]; rfl, hne⟩)
  | status k s => exact .inr (.inr ⟨k, s, rfl, rfl⟩)
  | gone m => simp only [Site.step]; split <;> exact .inl rfl
  | subscribe => simp only [Site.step]; split <;> exact .inl rfl
  | list order journal => simp only [Site.step]; split <;> exact .inl rfl
  | hear => simp only [Site.step]; split <;> exact .inl rfl
  | work o =>
    simp only [Site.step]
    split
    · split <;> exact .inl rfl
    · exact .inl rfl
  | finish => exact .inl rfl

/-- **C113 (the node itself).** As long as the registry does not have the node itself as `Terminated`, its discovery
neither contacts nor announces it, whoever names it as a peer. -/
theorem C113_not_itself (self : Nat) (ops : List Op) (ho : ∀ o ∈ ops, o ≠ .status self .terminated) :
    (Site.run self ops).disc.reg.get self = some false ∧ self ∉ (Site.run self ops).disc.shakes.map (·.id) ∧
      self ∉ (Site.run self ops).disc.added := by
  have key : ∀ w : Site, Sound self w → Unasked w.disc self → Unasked (w.runFrom self ops).disc self := by
    induction ops with
    | nil => exact fun _ _ h => h
    | cons o ops ih =>
      intro w hw h
      refine ih (fun o' h' => ho o' (List.mem_cons_of_mem _ h')) _ (hw.step o) ?_
      rcases step_discs self w o with e | ⟨d, e, hd⟩ | ⟨k, s, e, e'⟩
      · rw [e]; exact h
      · rw [e]; exact h.step hw.dwf self d (hd _ _)
      · rw [e']
        refine h.step hw.dwf self _ ?_
        intro he
        have e1 : k = self := by injection he
        have e2 : s = .terminated := by
          have : decide (s = .terminated) = true := by injection he
          simpa using this
        exact ho o List.mem_cons_self (by rw [e, e1, e2])
  have h := key _ (Sound.init self) ⟨by simp [Site.init, Assoc.get_cons], by simp [Site.init], by simp [Site.init]⟩
  exact ⟨h.live, h.shakes, h.added⟩

/-- **C113 (stopped).** A coordinator that has stopped hears nothing: until the next one subscribes there is no
coordinator and no event waits for one, so that the next one starts with what the registry tells it. -/
theorem C113_stopped (self : Nat) (before after : List Op) (ha : ∀ o ∈ after, o ≠ .subscribe) :
    (Site.run self (before ++ .finish :: after)).coord = none ∧
      (Site.run self (before ++ .finish :: after)).inbox = [] := by
  have key : ∀ w : Site, w.coord = none → w.inbox = [] → w.hearing = false →
      (w.runFrom self after).coord = none ∧ (w.runFrom self after).inbox = [] := by
    induction after with
    | nil => exact fun _ h1 h2 _ => ⟨h1, h2⟩
    | cons o after ih =>
      intro w h1 h2 h3
      have hs : (w.step self o).coord = none ∧ (w.step self o).inbox = [] ∧ (w.step self o).hearing = false := by
        cases o with
        | disc o =>
          rcases step_disc self w o with e | ⟨e, _⟩
          · rw [e]; exact ⟨h1, h2, h3⟩
          · rw [e]; simp [Site.disced, h1, h2, h3]
        | status k s => exact ⟨h1, h2, h3⟩
        | gone m => simp only [Site.step]; split <;> simp [h1, h2, h3]
        | subscribe => exact absurd rfl (ha _ List.mem_cons_self)
        | list order journal => simp [Site.step, h1, h2, h3]
        | hear => simp [Site.step, h1, h2, h3]
        | work o => simp [Site.step, h1, h2, h3]
        | finish => exact ⟨rfl, rfl, rfl⟩
      exact ih (fun o' h' => ha o' (List.mem_cons_of_mem _ h')) _ hs.1 hs.2.1 hs.2.2
  have e : Site.run self (before ++ .finish :: after) =
      ((Site.run self before).step self .finish).runFrom self after := by simp [Site.run, Site.runFrom]
  rw [e]
  exact key _ rfl rfl rfl

theorem leaving_step (self : Nat) (w : Site) (hw : Sound self w) (o : Op) (n k : Nat)
    (h : w.leaving.count n + k ≤ w.disc.removed.count n) :
    (w.step self o).leaving.count n + k ≤ (w.step self o).disc.removed.count n := by
  cases o with
  | disc o =>
    rcases step_disc self w o with e | ⟨e, _⟩
    · rw [e]; exact h
    · rw [e]
      obtain ⟨l, hl, _⟩ := (moves hw.dwf self o).removed
      simp only [Site.disced, drop_append_left hl, List.count_append]
      rw [hl, List.count_append]
      omega
  | status k s => exact h
  | gone m =>
    simp only [Site.step]
    split
    · refine Nat.le_trans (Nat.add_le_add_right ?_ k) h
      exact List.Sublist.count_le _ List.erase_sublist
    · exact h
  | subscribe => simp only [Site.step]; split <;> exact h
  | list order journal => simp only [Site.step]; split <;> exact h
  | hear => simp only [Site.step]; split <;> exact h
  | work o =>
    simp only [Site.step]
    split
    · split <;> exact h
    · exact h
  | finish => exact h

theorem leaving_from (self : Nat) (w : Site) (hw : Sound self w) (ops : List Op) (n k : Nat)
    (h : w.leaving.count n + k ≤ w.disc.removed.count n) :
    (w.runFrom self ops).leaving.count n + k ≤ (w.runFrom self ops).disc.removed.count n := by
  induction ops generalizing w with
  | nil => exact h
  | cons o ops ih => exact ih _ (hw.step o) (leaving_step self w hw o n k h)

/-- **C113 (removals).** A removal is published once: if discovery has forgotten a node once, and the removal has been
published, it will not be published again. -/
theorem C113_removed_once (self : Nat) (before after : List Op) (n : Nat) (hn : n ∈ (Site.run self before).leaving)
    (h1 : (Site.run self (before ++ .gone n :: after)).disc.removed.count n ≤ 1) :
    Site.run self (before ++ .gone n :: after ++ [.gone n]) = Site.run self (before ++ .gone n :: after) := by
  have e : Site.run self (before ++ .gone n :: after) =
      ((Site.run self before).step self (.gone n)).runFrom self after := by simp [Site.run, Site.runFrom]
  have e2 : Site.run self (before ++ .gone n :: after ++ [.gone n]) =
      (Site.run self (before ++ .gone n :: after)).step self (.gone n) := by
    unfold Site.run; exact runFrom_snoc self _ _ _
  have hb := leaving_from self _ (Sound.init self) before n 0 (by simp [Site.init])
  change (Site.run self before).leaving.count n + 0 ≤ (Site.run self before).disc.removed.count n at hb
  have hpos := List.count_pos_iff.2 hn
  have hg : ((Site.run self before).step self (.gone n)).leaving.count n + 1 ≤
      ((Site.run self before).step self (.gone n)).disc.removed.count n := by
    simp only [Site.step, if_pos hn, List.count_erase_self]
    omega
  have hl := leaving_from self _ ((Sound.run self before).step (.gone n)) after n 1 hg
  rw [← e] at hl
  have h0 : n ∉ (Site.run self (before ++ .gone n :: after)).leaving := by
    intro h
    have := List.count_pos_iff.2 h
    omega
  rw [e2]
  simp only [Site.step, if_neg h0]

/-! ### A node that is gone and still used -/

/-- a discovery in which node `n` answers. -/
def revives (n : Nat) : Op → Prop
  | .disc o => identifies n o
  | _ => False

structure Haunted (n : Nat) (w : Site) : Prop where
  byId : w.disc.byId.get n = none
  leaving : n ∉ w.leaving
  inbox : Ev.removed n ∉ w.inbox
  coord : ∃ c, w.coord = some c ∧ Counted c n

theorem Haunted.step {self n : Nat} {w : Site} (hw : Sound self w) (h : Haunted n w) (o : Op)
    (ho : ¬ revives n o) (hf : o ≠ .finish) : Haunted n (w.step self o) := by
  obtain ⟨c, hc, hn⟩ := h.coord
  cases o with
  | disc o =>
    rcases step_disc self w o with e | ⟨e, hne⟩
    · rw [e]; exact h
    · rw [e]
      have hm := moves hw.dwf self o
      refine ⟨?_, ?_, ?_, h.coord⟩
      · rw [← Option.not_isSome_iff_eq_none]
        intro hs
        rcases hm.byId n hs with hs | hs
        · rw [h.byId] at hs; simp at hs
        · exact ho hs
      · obtain ⟨l, hr, hl⟩ := hm.removed
        simp only [Site.disced, drop_append_left hr]
        intro hi
        rcases List.mem_append.1 hi with hi | hi
        · exact h.leaving hi
        · have := hl n hi
          rw [h.byId] at this; simp at this
      · simp only [Site.disced]
        split
        · intro hi
          rcases List.mem_append.1 hi with hi | hi
          · exact h.inbox hi
          · obtain ⟨_, _, e⟩ := List.mem_map.1 hi
            nomatch e
        · exact h.inbox
  | status m s => exact ⟨h.byId, h.leaving, h.inbox, h.coord⟩
  | gone m =>
    simp only [Site.step]
    split
    · rename_i hl
      refine ⟨h.byId, fun hi => h.leaving (List.mem_of_mem_erase hi), ?_, h.coord⟩
      simp only
      split
      · intro hi
        rcases List.mem_append.1 hi with hi | hi
        · exact h.inbox hi
        · have : n = m := by simpa using hi
          subst this; exact h.leaving hl
      · exact h.inbox
    · exact h
  | subscribe =>
    simp only [Site.step]
    split
    · exact h
    · rename_i hh; exact absurd (hw.inv c hc).2 hh
  | list order journal =>
    simp only [Site.step]
    rw [if_neg (by simp [hc])]
    exact h
  | hear =>
    simp only [Site.step]
    split
    · rename_i c' e es hc' hes
      have : c' = c := Option.some.inj (hc'.symm.trans hc)
      subst this
      refine ⟨h.byId, h.leaving, fun hi => h.inbox (by rw [hes]; exact List.mem_cons_of_mem _ hi), _, rfl, ?_⟩
      rw [counted_iff] at hn ⊢
      rw [hear_status]
      cases hw : e.word n with
      | none => exact hn
      | some b =>
        cases b with
        | true => rfl
        | false =>
          have he : e = .removed n := by
            cases e with
            | added m => simp [Ev.word] at hw
            | removed m =>
              by_cases hmn : m = n
              · rw [hmn]
              · simp [Ev.word, hmn] at hw
          exact absurd (by rw [hes, he]; exact List.mem_cons_self) h.inbox
    · exact h
  | work o =>
    simp only [Site.step, hc]
    split
    · rename_i ho
      refine ⟨h.byId, h.leaving, h.inbox, _, rfl, ?_⟩
      rw [counted_iff] at hn ⊢
      rw [own_status (hw.inv c hc).1 ho]; exact hn
    · exact h
  | finish => exact absurd rfl hf

/-- **C113 (refuted: nodes that are gone are not used).** A node that has been forgotten, whose removal was published
before the coordinator subscribed, and which the registry still had as `Healthy` when the coordinator asked, is taken for
available as long as the coordinator lives and the node does not answer again: whatever the heartbeat finds out about it,
even that it has terminated. -/
theorem C113_gone_refuted (self : Nat) (before after : List Op) (n : Nat) (c : Coord)
    (hc : (Site.run self before).coord = some c) (hn : Counted c n)
    (hb : (Site.run self before).disc.byId.get n = none) (hl : n ∉ (Site.run self before).leaving)
    (hi : Ev.removed n ∉ (Site.run self before).inbox)
    (ha : ∀ o ∈ after, ¬ revives n o ∧ o ≠ .finish) :
    ∃ c', (Site.run self (before ++ after)).coord = some c' ∧ Counted c' n := by
  have key : ∀ (w : Site), Sound self w → Haunted n w → Haunted n (w.runFrom self after) := by
    induction after with
    | nil => exact fun _ _ h => h
    | cons o after ih =>
      intro w hw h
      have ho := ha o List.mem_cons_self
      exact ih (fun o' h' => ha o' (List.mem_cons_of_mem _ h')) _ (hw.step o) (h.step hw o ho.1 ho.2)
  have e : Site.run self (before ++ after) = (Site.run self before).runFrom self after := by
    simp [Site.run, Site.runFrom]
  rw [e]
  exact (key _ (Sound.run self before) ⟨hb, hl, hi, c, hc, hn⟩).coord

/-! ### A node that comes back -/

theorem hear_all (self : Nat) (w : Site) (c : Coord) (hc : w.coord = some c) (k : Nat) (hk : w.inbox.length = k) :
    ∃ c', (w.runFrom self (List.replicate k .hear)).coord = some c' ∧
      (w.runFrom self (List.replicate k .hear)).heard = w.heard ++ w.inbox ∧
      (w.runFrom self (List.replicate k .hear)).inbox = [] := by
  induction k generalizing w c with
  | zero =>
    have : w.inbox = [] := List.length_eq_zero_iff.1 hk
    exact ⟨c, hc, by simp [Site.runFrom, this], this⟩
  | succ k ih =>
    cases hin : w.inbox with
    | nil => simp [hin] at hk
    | cons e es =>
      rw [List.replicate_succ, runFrom_cons]
      have hs : w.step self .hear = { w with coord := some (c.next e.op), inbox := es, heard := w.heard ++ [e] } := by
        simp only [Site.step, hc, hin]
      rw [hs]
      obtain ⟨c', h1, h2, h3⟩ := ih { w with coord := some (c.next e.op), inbox := es, heard := w.heard ++ [e] } _ rfl
        (by simp [hin] at hk; exact hk)
      exact ⟨c', h1, by rw [h2]; simp, h3⟩

/-- **C113 (coming back).** A node the registry has as `Terminated`, or does not have, and that is not stuck in a failed
handshake, is available to the coordinator again once it has been discovered, its handshake has succeeded and the
coordinator has handled what was waiting. -/
theorem C113_comes_back (self : Nat) (before : List Op) (x : DNode) (env : DEnv) (c : Coord)
    (hc : (Site.run self before).coord = some c)
    (hr : (Site.run self before).disc.reg.get x.id ≠ some false)
    (hd : x.id ∉ (Site.run self before).disc.discovering) (he : env.client x.addr = true) :
    ∃ c', (Site.run self (before ++ [.disc (.nodes env [x]),
        .disc (.shaken (Site.run self before).disc.shakes.length true)] ++
        List.replicate ((Site.run self before).inbox.length + 1) .hear)).coord = some c' ∧ Counted c' x.id := by
  obtain ⟨w, hw⟩ : ∃ w, w = Site.run self before := ⟨_, rfl⟩
  have hS : Sound self w := hw ▸ Sound.run self before
  rw [← hw] at hc hr hd ⊢
  have hh := (hS.inv c hc).2
  have hcur : x.id ∉ w.disc.current := fun h => hr ((mem_current w.disc hS.dwf.uniq x.id).1 h)
  have hd1 : w.disc.step self (.nodes env [x]) =
      { w.disc with reg := w.disc.reg.insert x.id false, discovering := x.id :: w.disc.discovering,
                    shakes := w.disc.shakes ++ [x] } := by
    simp only [Disc.step, Disc.discoverNodes, List.foldl_cons, List.foldl_nil, Disc.tryNode]
    rw [if_pos ⟨hcur, hd, he⟩]
  obtain ⟨w1, hw1⟩ : ∃ w1, w1 = w.step self (.disc (.nodes env [x])) := ⟨_, rfl⟩
  have hw1d : w1 = w.disced (w.disc.step self (.nodes env [x])) := hw1
  have e1 : w1.coord = some c := by rw [hw1d]; exact hc
  have e2 : w1.hearing = true := by rw [hw1d]; exact hh
  have e3 : w1.inbox = w.inbox := by rw [hw1d, hd1]; simp [Site.disced, hh]
  have e4 : w1.disc.discovering = x.id :: w.disc.discovering := by rw [hw1d, hd1]; rfl
  have e5 : w1.disc.shakes = w.disc.shakes ++ [x] := by rw [hw1d, hd1]; rfl
  have hd2 : (w1.disc.step self (.shaken w.disc.shakes.length true)).added = w1.disc.added ++ [x.id] := by
    have : w1.disc.shakes[w.disc.shakes.length]? = some x := by rw [e5]; simp
    simp only [Disc.step, this, Disc.nodeDiscovered, if_true]
    rw [if_pos (by rw [e4]; exact List.mem_cons_self)]
  obtain ⟨w2, hw2⟩ : ∃ w2, w2 = w1.step self (.disc (.shaken w.disc.shakes.length true)) := ⟨_, rfl⟩
  have hw2d : w2 = w1.disced (w1.disc.step self (.shaken w.disc.shakes.length true)) := hw2
  have f1 : w2.coord = some c := by rw [hw2d]; exact e1
  have f2 : w2.inbox = w.inbox ++ [.added x.id] := by
    rw [hw2d]
    simp only [Site.disced, e2, if_true, e3]
    rw [drop_append_left hd2]; rfl
  obtain ⟨c', h1, h2, _⟩ := hear_all self w2 c f1 (w.inbox.length + 1) (by rw [f2]; simp)
  have er : Site.run self (before ++ [.disc (.nodes env [x]), .disc (.shaken w.disc.shakes.length true)] ++
      List.replicate (w.inbox.length + 1) .hear) = w2.runFrom self (List.replicate (w.inbox.length + 1) .hear) := by
    rw [hw2, hw1, hw]
    simp [Site.run, Site.runFrom]
  have hl := C113_last_word self _ c' (by rw [er]; exact h1) x.id
  rw [er] at hl ⊢
  refine ⟨c', h1, hl.1 ?_⟩
  rw [h2, f2, ← List.append_assoc, lastWord_snoc]
  simp [Ev.word]

/-! ### Cases -/

/-- node 2, which answers at "b". -/
def env2 : DEnv := demoEnv [("b", ⟨⟨2, "b"⟩, []⟩)]

/-- node 1 discovers node 2. -/
def meet : List Op := [.disc (.discover env2 "b"), .disc (.next env2), .disc (.shaken 0 true)]

/-- the coordinator starts on node 1. -/
def begin (order : List Nat) : List Op := [.subscribe, .list order []]

/-- a shard is asked for. -/
def ask (s : Nat) : Op := .work (.allocate s true)

/-- the statuses of nodes 1 and 2 and the shards of node 2, for a coordinator. -/
def show2 (w : Site) : Option (Option HostStatus × Option HostInfo) :=
  w.coord.map fun c => (statusOf c 1, c.hosts.get 2)

-- node 2 is announced before the coordinator starts, between its two questions, and afterwards
example : show2 (Site.run 1 (meet ++ begin [1, 2])) = some (some .ready, some { status := .ready }) ∧
    (Site.run 1 (meet ++ begin [1, 2])).inbox = [] := by decide +kernel

example : show2 (Site.run 1 (.subscribe :: meet ++ [.list [1, 2] []])) = some (some .ready, some { status := .ready }) ∧
    (Site.run 1 (.subscribe :: meet ++ [.list [1, 2] []])).inbox = [.added 2] := by decide +kernel

example : show2 (Site.run 1 (begin [1] ++ meet)) = some (some .ready, none) ∧
    (Site.run 1 (begin [1] ++ meet)).disc.added = [2] ∧
    (Site.run 1 (begin [1] ++ meet)).inbox = [.added 2] ∧
    show2 (Site.run 1 (begin [1] ++ meet ++ [.hear])) = some (some .ready, some { status := .ready }) ∧
    lastWord 2 (Site.run 1 (begin [1] ++ meet ++ [.hear])).heard = some true := by decide +kernel

-- node 2 names node 1 as a peer, and node 1 is told of itself
example : let ops := Op.disc (.nodes env2 [⟨1, "a"⟩, ⟨2, "b"⟩]) :: meet
    (∀ o ∈ ops, o ≠ .status 1 .terminated) ∧ (Site.run 1 ops).disc.shakes.map (·.id) = [] ∧
    (Site.run 1 ops).disc.added = [2] := by
  refine ⟨?_, by decide +kernel, by decide +kernel⟩
  intro o ho
  simp only [meet, List.mem_cons, List.not_mem_nil, or_false] at ho
  rcases ho with (rfl | rfl | rfl | rfl) <;> nofun

-- the coordinator stops, node 2 is announced; the next coordinator is told by the registry
example : (Site.run 1 (begin [1] ++ .finish :: meet)).inbox = [] ∧
    show2 (Site.run 1 (begin [1] ++ .finish :: meet ++ begin [1, 2])) =
      some (some .ready, some { status := .ready }) := by decide +kernel

-- node 2 is forgotten once
example : 2 ∈ (Site.run 1 (meet ++ [.disc (.forget "b")])).leaving ∧
    (Site.run 1 (meet ++ [.disc (.forget "b")] ++ .gone 2 :: meet)).disc.removed.count 2 ≤ 1 := by decide +kernel

-- node 2 is in the registry and not known to the coordinator while the handshake goes on
example : show2 (Site.run 1 (begin [1] ++ [.disc (.nodes env2 [⟨2, "b"⟩])])) = some (some .ready, none) ∧
    (Site.run 1 (begin [1] ++ [.disc (.nodes env2 [⟨2, "b"⟩])])).disc.reg.get 2 = some false ∧
    (Site.run 1 (begin [1] ++ [.disc (.nodes env2 [⟨2, "b"⟩])])).disc.discovering = [2] := by decide +kernel

-- every step of the way spares node 2
example : ∀ o ∈ meet ++ begin [1, 2] ++ [.status 2 .healthy, ask 7, ask 8], sparing 2 o := by
  intro o ho
  simp only [meet, begin, ask, List.mem_append, List.mem_cons, List.not_mem_nil, or_false] at ho
  rcases ho with (((rfl | rfl | rfl) | rfl | rfl) | rfl | rfl | rfl) <;> simp [sparing]

-- the connection to node 2 is lost: node 2 is forgotten, its shard is given away. The connection is made again, and
-- the discovery of node 2 comes before the heartbeat's next turn
def blip : List Op :=
  meet ++ begin [2, 1] ++ [ask 7, ask 8, .disc (.forget "b"), .gone 2, .hear, .disc (.discover env2 "b"),
    .disc (.next env2)]

example : show2 (Site.run 1 (meet ++ begin [2, 1] ++ [ask 7, ask 8])) =
      some (some .ready, some { shards := [7], status := .ready }) ∧
    show2 (Site.run 1 blip) = some (some .ready, some { status := .unavailable }) ∧
    lastWord 2 (Site.run 1 blip).heard = some false ∧
    (Site.run 1 blip).disc.byId.get 2 = some ⟨⟨2, "b"⟩, []⟩ := by decide +kernel

theorem blip_settled : Settled (Site.run 1 blip) 2 := by unfold Settled; decide +kernel

-- it answers and is healthy again, and never gets a shard
example (after : List Op) (ha : ∀ o ∈ after, o ≠ .status 2 .terminated ∧ o ≠ .finish) :
    ∃ c', (Site.run 1 (blip ++ after)).coord = some c' ∧ ¬ Counted c' 2 ∧ ∀ s, ¬ c'.Assigned s 2 := by
  obtain ⟨c, hc, hs⟩ : ∃ c, (Site.run 1 blip).coord = some c ∧ statusOf c 2 = some .unavailable :=
    ⟨_, rfl, by decide +kernel⟩
  exact C113_alive_unused_refuted 1 blip after 2 c hc (by rw [counted_iff, hs]; simp) blip_settled (by decide +kernel) ha

-- even if the heartbeat then has it as terminated for a moment, with no discovery in between
example (after : List Op) (ha : ∀ o ∈ after, o ≠ .finish ∧ ∀ d, o ≠ .disc d) :
    ∃ c', (Site.run 1 (blip ++ (.status 2 .terminated :: .status 2 .healthy :: after))).coord = some c' ∧
      ¬ Counted c' 2 ∧ ∀ s, ¬ c'.Assigned s 2 := by
  obtain ⟨c, hc, hs⟩ : ∃ c, (Site.run 1 blip).coord = some c ∧ statusOf c 2 = some .unavailable :=
    ⟨_, rfl, by decide +kernel⟩
  refine C113_shut_out_refuted 1 blip _ 2 c hc (by rw [counted_iff, hs]; simp) blip_settled ?_ ?_
  · intro a d b hab
    have : Op.disc d ∈ Op.status 2 .terminated :: Op.status 2 .healthy :: after := by rw [hab]; simp
    simp only [List.mem_cons, reduceCtorEq, false_or] at this
    exact absurd rfl ((ha _ this).2 d)
  · intro o ho
    simp only [List.mem_cons] at ho
    rcases ho with rfl | rfl | ho
    · simp
    · simp
    · exact (ha o ho).1

-- node 2 was slow to answer a ping when the coordinator started: healthy a second later, and never given a shard
def slow : List Op := meet ++ [.status 2 .unhealthy] ++ begin [1, 2] ++ [.status 2 .healthy]

example : show2 (Site.run 1 slow) = some (some .ready, some { status := .unavailable }) ∧
    Settled (Site.run 1 slow) 2 := by unfold Settled; decide +kernel

-- the handshake with node 2 failed once
def failed : List Op :=
  begin [1] ++ [.disc (.discover env2 "b"), .disc (.next env2), .disc (.shaken 0 false), .status 2 .healthy]

example : show2 (Site.run 1 failed) = some (some .ready, none) ∧ Settled (Site.run 1 failed) 2 := by
  unfold Settled; decide +kernel

-- the removal, published by a task of its own, is overtaken by the announcement of the node that has come back
def overtaken : List Op :=
  meet ++ begin [1, 2] ++ [.disc (.forget "b"), .status 2 .terminated] ++ meet ++ [.gone 2, .hear, .hear]

example : show2 (Site.run 1 overtaken) = some (some .ready, some { status := .unavailable }) ∧
    (Site.run 1 overtaken).disc.added = [2, 2] ∧ (Site.run 1 overtaken).disc.removed = [2] ∧
    Settled (Site.run 1 overtaken) 2 := by unfold Settled; decide +kernel

-- node 2 dies and is forgotten just before the coordinator starts; the heartbeat has not noticed yet
def ghost : List Op := meet ++ [.status 2 .healthy, .disc (.forget "b"), .gone 2] ++ begin [2, 1]

theorem ghost_gone : (Site.run 1 ghost).disc.byId.get 2 = none ∧ 2 ∉ (Site.run 1 ghost).leaving ∧
    Ev.removed 2 ∉ (Site.run 1 ghost).inbox := by decide +kernel

example (after : List Op) (ha : ∀ o ∈ after, ¬ revives 2 o ∧ o ≠ .finish) :
    ∃ c', (Site.run 1 (ghost ++ after)).coord = some c' ∧ Counted c' 2 := by
  obtain ⟨c, hc, hs⟩ : ∃ c, (Site.run 1 ghost).coord = some c ∧ statusOf c 2 = some .ready :=
    ⟨_, rfl, by decide +kernel⟩
  exact C113_gone_refuted 1 ghost after 2 c hc ((counted_iff c 2).2 hs) ghost_gone.1 ghost_gone.2.1 ghost_gone.2.2 ha

-- the dead node is given a shard, after the registry has it as terminated
example : show2 (Site.run 1 (ghost ++ [.status 2 .unhealthy, .status 2 .terminated, ask 7])) =
    some (some .ready, some { shards := [7], status := .ready }) := by decide +kernel

-- node 2 has terminated, is forgotten again, comes back and is used
example : let w := Site.run 1 (blip ++ [.status 2 .terminated])
    w.coord.isSome = true ∧ w.disc.reg.get 2 = some true ∧ w.disc.discovering = [] ∧ env2.client "b" = true := by
  decide +kernel

example : show2 (Site.run 1 (blip ++ [.status 2 .terminated, .disc (.forget "b"), .gone 2] ++ meet ++ [.hear, .hear, ask 9])) =
    some (some .ready, some { shards := [9], status := .ready }) := by decide +kernel

end Verif.Sharding.Hosts
