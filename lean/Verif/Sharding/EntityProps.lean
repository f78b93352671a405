import Verif.Sharding.EntityModel
import Verif.Sharding.ShardProps
import Verif.Sharding.SystemProps

/-!
# C91: the entities of a shard end with it, and run in one place

The claim in full: when the stop of a shard is acknowledged its entities have ended, and so an entity is never running
twice while its shard is moved in good order (C51).
-/

namespace Verif.Sharding

/-! ## Words of the claim -/

/-- the task a message to the shard reports. -/
def LifeMail.task : LifeMail → Option StartTask
  | .started t => some t
  | .failed t => some t
  | .terminated _ _ => none

/-- an instance whose creation the shard has not been told of, or has not yet looked at. -/
def Life.unheard (σ : Life) (e i : Nat) : Prop := ∃ t ∈ σ.shard.starting, t.e = e ∧ t.i = i

/-- nothing is running and nothing will come up. -/
def Life.Drained (σ : Life) : Prop := σ.live = [] ∧ ∀ t ∈ σ.shard.starting, t ∈ σ.done

/-! ## Lemmas -/

theorem calm_task_unique {σ : Shard} {e : Nat} (h : σ.Calm e) {t u : StartTask} (ht : t ∈ σ.starting) (hu : u ∈ σ.starting)
    (he : t.e = e) (he' : u.e = e) : t = u := by
  have h1 : t ∈ σ.tasks e := List.mem_filter.2 ⟨ht, by simpa using he⟩
  have h2 : u ∈ σ.tasks e := List.mem_filter.2 ⟨hu, by simpa using he'⟩
  have := h.one
  match hl : σ.tasks e with
  | [] => rw [hl] at h1; cases h1
  | [x] =>
    rw [hl] at h1 h2
    rw [List.mem_singleton] at h1 h2
    rw [h1, h2]
  | _ :: _ :: _ => rw [hl] at this; simp at this

theorem calm_created_still {σ : Shard} {e i : Nat} (h : σ.Calm e) (hc : (e, i) ∈ σ.created) {t : StartTask}
    (ht : t ∈ σ.starting) (he : t.e = e) : False := by
  have h1 : t ∈ σ.tasks e := List.mem_filter.2 ⟨ht, by simpa using he⟩
  obtain ⟨c, hg⟩ := h.created.1 i hc
  rw [h.still (by rw [hg]; rintro ⟨c', b, h⟩; simp at h)] at h1
  cases h1

theorem calm_created_unique {σ : Shard} {e i i' : Nat} (h : σ.Calm e) (hc : (e, i) ∈ σ.created) (hc' : (e, i') ∈ σ.created) :
    i = i' := by
  obtain ⟨c, hg⟩ := h.created.1 i hc
  obtain ⟨c', hg'⟩ := h.created.1 i' hc'
  rw [hg] at hg'
  simp at hg'
  exact hg'.2

/-- an operation of the shard that is not a result of a creation leaves the creations under way and the instances. -/
theorem shard_frame (σ : Shard) (op : ShardOp) (h1 : ∀ t, op ≠ .started t) (h2 : ∀ t, op ≠ .startFailed t) :
    (∃ l, (σ.next op).starting = σ.starting ++ l) ∧ (σ.next op).created = σ.created := by
  cases op with
  | request r ok =>
    simp only [Shard.next, Shard.step, Shard.request]
    split
    · split
      · exact ⟨⟨[], by simp⟩, rfl⟩
      · split
        · exact ⟨⟨_, rfl⟩, rfl⟩
        · exact ⟨⟨[], by simp⟩, rfl⟩
    · exact ⟨⟨[], by simp⟩, rfl⟩
  | startEntity e c ok => exact ⟨⟨_, rfl⟩, rfl⟩
  | started t => exact absurd rfl (h1 t)
  | startFailed t => exact absurd rfl (h2 t)
  | snapshot => exact ⟨⟨[], by simp [Shard.next, Shard.step]⟩, rfl⟩
  | childStopped e i =>
    simp only [Shard.next, Shard.step]
    split <;> exact ⟨⟨[], by simp⟩, rfl⟩

theorem started_frame (σ : Shard) (t : StartTask) (h : t ∈ σ.starting) :
    (σ.next (.started t)).starting = σ.starting.erase t ∧ (σ.next (.started t)).created = σ.created ++ [(t.e, t.i)] := by
  simp only [Shard.next, Shard.step, if_pos h, Shard.started]
  split <;> exact ⟨rfl, rfl⟩

theorem startFailed_frame (σ : Shard) (t : StartTask) (h : t ∈ σ.starting) :
    (σ.next (.startFailed t)).starting = σ.starting.erase t ∧ (σ.next (.startFailed t)).created = σ.created := by
  simp [Shard.next, Shard.step, if_pos h, Shard.startFailed]

/-- how the entity `e` stands, in the shard's eyes and in fact. -/
structure Life.Sound (σ : Life) (e : Nat) : Prop where
  calm : σ.shard.Calm e
  live : ∀ i, (e, i) ∈ σ.live → (∃ t ∈ σ.shard.starting, t ∈ σ.done ∧ t.e = e ∧ t.i = i) ∨
    ((e, i) ∈ σ.shard.created ∧ (σ.kids.get e = some i ∨ (e, i) ∈ σ.told))
  kids : ∀ i, σ.kids.get e = some i → (e, i) ∈ σ.shard.created
  told : ∀ i, (e, i) ∈ σ.told → (e, i) ∈ σ.shard.created
  notice : ∀ i, .terminated e i ∈ σ.mail →
    ((∃ t ∈ σ.shard.starting, t ∈ σ.done ∧ t.e = e ∧ t.i = i) ∨ (e, i) ∈ σ.shard.created) ∧ (e, i) ∉ σ.live
  waits : ∀ t ∈ σ.mail.filterMap LifeMail.task, t.e = e → t ∈ σ.shard.starting
  failed : ∀ t, .failed t ∈ σ.mail → t.e = e → (e, t.i) ∉ σ.live ∧ .terminated e t.i ∉ σ.mail
  once : (σ.mail.filterMap LifeMail.task).Nodup
  done : ∀ t ∈ σ.mail.filterMap LifeMail.task, t ∈ σ.done

theorem Life.boot_sound (j : List JEntry) (e : Nat) : (Life.boot j).Sound e where
  calm := (boot_calm j e).1
  live := by simp [Life.boot]
  kids := by simp [Life.boot, Assoc.get]
  told := by simp [Life.boot]
  notice := by simp [Life.boot]
  waits := by simp [Life.boot]
  failed := by simp [Life.boot]
  once := by simp [Life.boot]
  done := by simp [Life.boot]

theorem Life.blank_sound (e : Nat) : ({} : Life).Sound e where
  calm := ⟨by simp [Shard.tasks], by simp [Shard.tasks], by simp⟩
  live := by simp
  kids := by simp [Assoc.get]
  told := by simp
  notice := by simp
  waits := by simp
  failed := by simp
  once := by simp
  done := by simp

theorem Life.Sound.unique {σ : Life} {e : Nat} (h : σ.Sound e) {i i' : Nat} (h1 : (e, i) ∈ σ.live) (h2 : (e, i') ∈ σ.live) :
    i = i' := by
  rcases h.live i h1 with ⟨t, a, _, b, rfl⟩ | ⟨a, _⟩ <;> rcases h.live i' h2 with ⟨u, c, _, d, rfl⟩ | ⟨c, _⟩
  · rw [calm_task_unique h.calm a c b d]
  · exact (calm_created_still h.calm c a b).elim
  · exact (calm_created_still h.calm a c d).elim
  · exact calm_created_unique h.calm a c

theorem Life.Sound.shardStep {σ : Life} {e : Nat} (h : σ.Sound e) (op : ShardOp) (h1 : ∀ t, op ≠ .started t)
    (h2 : ∀ t, op ≠ .startFailed t) (h3 : ∀ c ok, op ≠ .startEntity e c ok) : (σ.shardStep op).Sound e := by
  unfold Life.shardStep
  split
  · obtain ⟨⟨l, hs⟩, hc⟩ := shard_frame σ.shard op h1 h2
    have hin : ∀ t ∈ σ.shard.starting, t ∈ (σ.shard.next op).starting := fun t ht => by rw [hs]; exact List.mem_append_left _ ht
    exact {
      calm := (Shard.step_calm h.calm op h3).2
      live := by
        intro i hi
        rcases h.live i hi with ⟨t, a, b⟩ | a
        · exact .inl ⟨t, hin t a, b⟩
        · refine .inr ?_
          show (e, i) ∈ (σ.shard.next op).created ∧ _
          rw [hc]; exact a
      kids := by
        intro i hi
        show (e, i) ∈ (σ.shard.next op).created
        rw [hc]; exact h.kids i hi
      told := by
        intro i hi
        show (e, i) ∈ (σ.shard.next op).created
        rw [hc]; exact h.told i hi
      notice := by
        intro i hi
        refine ⟨?_, (h.notice i hi).2⟩
        rcases (h.notice i hi).1 with ⟨t, a, b⟩ | a
        · exact .inl ⟨t, hin t a, b⟩
        · refine .inr ?_
          show (e, i) ∈ (σ.shard.next op).created
          rw [hc]; exact a
      waits := fun t ht he => hin t (h.waits t ht he)
      failed := h.failed
      once := h.once
      done := h.done }
  · exact h

theorem Life.mem_post (σ : Life) (m x : LifeMail) : x ∈ σ.post m → x ∈ σ.mail ∨ x = m := by
  unfold Life.post
  split
  · intro h
    rcases List.mem_append.1 h with h | h
    · exact .inl h
    · exact .inr (List.mem_singleton.1 h)
  · exact .inl

theorem Life.post_tasks (σ : Life) (m : LifeMail) : (σ.post m).filterMap LifeMail.task = σ.mail.filterMap LifeMail.task ∨
    (σ.post m).filterMap LifeMail.task = σ.mail.filterMap LifeMail.task ++ m.task.toList := by
  unfold Life.post
  split
  · right; rw [List.filterMap_append]; cases m <;> rfl
  · exact .inl rfl

theorem Life.post_nodup {σ : Life} {m : LifeMail} (h : (σ.mail.filterMap LifeMail.task).Nodup)
    (hm : ∀ t, m.task = some t → t ∉ σ.mail.filterMap LifeMail.task) : ((σ.post m).filterMap LifeMail.task).Nodup := by
  rcases σ.post_tasks m with e | e
  · rw [e]; exact h
  · rw [e]
    cases hk : m.task with
    | none => simpa using h
    | some t =>
      rw [List.nodup_append]
      refine ⟨h, by simp, ?_⟩
      intro a ha b hb
      simp at hb
      subst hb
      rintro rfl
      exact hm a hk ha

theorem Life.mem_post_task {σ : Life} {m : LifeMail} {t : StartTask} (h : t ∈ (σ.post m).filterMap LifeMail.task) :
    t ∈ σ.mail.filterMap LifeMail.task ∨ m.task = some t := by
  rcases σ.post_tasks m with e | e
  · rw [e] at h; exact .inl h
  · rw [e] at h
    rcases List.mem_append.1 h with h | h
    · exact .inl h
    · exact .inr (by simpa using h)

theorem Life.Sound.comesUp {σ : Life} {e : Nat} (h : σ.Sound e) (t : StartTask) : (σ.comesUp t).Sound e := by
  unfold Life.comesUp
  split
  · rename_i ht
    obtain ⟨ht, hd⟩ := ht
    exact {
      calm := h.calm
      live := by
        intro i hi
        rcases List.mem_append.1 hi with hi | hi
        · rcases h.live i hi with ⟨u, a, b, c⟩ | a
          · exact .inl ⟨u, a, List.mem_append_left _ b, c⟩
          · exact .inr a
        · simp only [List.mem_singleton, Prod.mk.injEq] at hi
          exact .inl ⟨t, ht, by simp, hi.1.symm, hi.2.symm⟩
      kids := h.kids
      told := h.told
      notice := by
        intro i hi
        rcases σ.mem_post _ _ hi with hi | hi
        · obtain ⟨a, b⟩ := h.notice i hi
          refine ⟨?_, ?_⟩
          · rcases a with ⟨u, x, y, z⟩ | a
            · exact .inl ⟨u, x, List.mem_append_left _ y, z⟩
            · exact .inr a
          · intro hl
            rcases List.mem_append.1 hl with hl | hl
            · exact b hl
            · simp only [List.mem_singleton, Prod.mk.injEq] at hl
              rcases a with ⟨u, x, y, z, _⟩ | a
              · rw [calm_task_unique h.calm x ht z hl.1.symm] at y
                exact hd y
              · exact calm_created_still h.calm a ht hl.1.symm
        · cases hi
      waits := by
        intro u hu he
        rcases Life.mem_post_task hu with hu | hu
        · exact h.waits u hu he
        · cases hu; exact ht
      failed := by
        intro u hu he
        rcases σ.mem_post _ _ hu with hu | hu
        · have hud := h.done u (List.mem_filterMap.2 ⟨_, hu, rfl⟩)
          have hus := h.waits u (List.mem_filterMap.2 ⟨_, hu, rfl⟩) he
          obtain ⟨a, b⟩ := h.failed u hu he
          refine ⟨?_, ?_⟩
          · intro hl
            rcases List.mem_append.1 hl with hl | hl
            · exact a hl
            · simp only [List.mem_singleton, Prod.mk.injEq] at hl
              rw [calm_task_unique h.calm hus ht he hl.1.symm] at hud
              exact hd hud
          · intro hm
            rcases σ.mem_post _ _ hm with hm | hm
            · exact b hm
            · cases hm
        · cases hu
      once := Life.post_nodup h.once fun u hu hm => by cases hu; exact hd (h.done t hm)
      done := by
        intro u hu
        rcases Life.mem_post_task hu with hu | hu
        · exact List.mem_append_left _ (h.done u hu)
        · cases hu; simp }
  · exact h

theorem Life.Sound.fails {σ : Life} {e : Nat} (h : σ.Sound e) (t : StartTask) : (σ.fails t).Sound e := by
  unfold Life.fails
  split
  · rename_i ht
    obtain ⟨ht, hd⟩ := ht
    exact {
      calm := h.calm
      live := by
        intro i hi
        rcases h.live i hi with ⟨u, a, b, c⟩ | a
        · exact .inl ⟨u, a, List.mem_append_left _ b, c⟩
        · exact .inr a
      kids := h.kids
      told := h.told
      notice := by
        intro i hi
        rcases σ.mem_post _ _ hi with hi | hi
        · obtain ⟨a, b⟩ := h.notice i hi
          refine ⟨?_, b⟩
          rcases a with ⟨u, x, y, z⟩ | a
          · exact .inl ⟨u, x, List.mem_append_left _ y, z⟩
          · exact .inr a
        · cases hi
      waits := by
        intro u hu he
        rcases Life.mem_post_task hu with hu | hu
        · exact h.waits u hu he
        · cases hu; exact ht
      failed := by
        intro u hu he
        rcases σ.mem_post _ _ hu with hu | hu
        · obtain ⟨a, b⟩ := h.failed u hu he
          refine ⟨a, fun hm => ?_⟩
          rcases σ.mem_post _ _ hm with hm | hm
          · exact b hm
          · cases hm
        · cases hu
          have key : ∀ P : Prop, ((∃ u ∈ σ.shard.starting, u ∈ σ.done ∧ u.e = e ∧ u.i = t.i) ∨ (e, t.i) ∈ σ.shard.created) → P := by
            intro P hk
            rcases hk with ⟨u, x, y, z, _⟩ | x
            · rw [calm_task_unique h.calm x ht z he] at y
              exact absurd y hd
            · exact (calm_created_still h.calm x ht he).elim
          refine ⟨fun hl => ?_, fun hm => ?_⟩
          · rcases h.live _ hl with a | a
            · exact key _ (.inl a)
            · exact key _ (.inr a.1)
          · rcases σ.mem_post _ _ hm with hm | hm
            · exact key _ (h.notice _ hm).1
            · cases hm
      once := Life.post_nodup h.once fun u hu hm => by cases hu; exact hd (h.done t hm)
      done := by
        intro u hu
        rcases Life.mem_post_task hu with hu | hu
        · exact List.mem_append_left _ (h.done u hu)
        · cases hu; simp }
  · exact h

theorem Life.Sound.dies {σ : Life} {e : Nat} (h : σ.Sound e) (e' i' : Nat) : (σ.dies e' i').Sound e := by
  unfold Life.dies
  split
  · rename_i hl
    exact {
      calm := h.calm
      live := fun i hi => h.live i (List.mem_filter.1 hi).1
      kids := h.kids
      told := h.told
      notice := by
        intro i hi
        rcases σ.mem_post _ _ hi with hi | hi
        · obtain ⟨a, b⟩ := h.notice i hi
          exact ⟨a, fun hl => b (List.mem_filter.1 hl).1⟩
        · cases hi
          refine ⟨?_, by simp⟩
          rcases h.live _ hl with a | a
          · exact .inl a
          · exact .inr a.1
      waits := by
        intro u hu he
        rcases Life.mem_post_task hu with hu | hu
        · exact h.waits u hu he
        · cases hu
      failed := by
        intro u hu he
        rcases σ.mem_post _ _ hu with hu | hu
        · obtain ⟨a, b⟩ := h.failed u hu he
          refine ⟨fun hx => a (List.mem_filter.1 hx).1, fun hm => ?_⟩
          rcases σ.mem_post _ _ hm with hm | hm
          · exact b hm
          · cases hm; exact a hl
        · cases hu
      once := Life.post_nodup h.once fun u hu => by cases hu
      done := by
        intro u hu
        rcases Life.mem_post_task hu with hu | hu
        · exact h.done u hu
        · cases hu }
  · exact h

theorem Life.Sound.take {σ : Life} {e : Nat} (h : σ.Sound e) : σ.take.Sound e := by
  unfold Life.take
  split
  · cases hq : σ.mail with
    | nil => exact h
    | cons m q =>
      have hw := h.waits
      have ho := h.once
      have hdn := h.done
      have hn := h.notice
      have hf := h.failed
      rw [hq] at hw ho hdn hn hf
      have hf' : ∀ u, LifeMail.failed u ∈ q → u.e = e → (e, u.i) ∉ σ.live ∧ LifeMail.terminated e u.i ∉ q := fun u hu he =>
        ⟨(hf u (List.mem_cons_of_mem _ hu) he).1, fun hx => (hf u (List.mem_cons_of_mem _ hu) he).2 (List.mem_cons_of_mem _ hx)⟩
      have hn' : ∀ i, LifeMail.terminated e i ∈ q → _ := fun i hi => hn i (List.mem_cons_of_mem _ hi)
      cases m with
      | started t =>
        simp only [List.filterMap_cons, LifeMail.task, List.nodup_cons] at hw ho hdn
        simp only [Life.handle]
        by_cases he : t.e = e
        · have hts := hw t (by simp) he
          obtain ⟨f1, f2⟩ := started_frame σ.shard t hts
          exact {
            calm := (Shard.step_calm h.calm (.started t) (by simp)).2
            live := by
              intro i hi
              refine .inr ?_
              show (e, i) ∈ (σ.shard.next (.started t)).created ∧ ((σ.kids.insert t.e t.i).get e = some i ∨ _)
              rcases h.live i hi with ⟨u, a, _, b, rfl⟩ | ⟨a, _⟩
              · rw [calm_task_unique h.calm a hts b he, f2, Assoc.get_insert, if_pos he.symm]
                exact ⟨by rw [he]; simp, .inl rfl⟩
              · exact (calm_created_still h.calm a hts he).elim
            kids := by
              intro i hi
              have hi : (σ.kids.insert t.e t.i).get e = some i := hi
              show (e, i) ∈ (σ.shard.next (.started t)).created
              rw [Assoc.get_insert, if_pos he.symm] at hi
              cases hi
              rw [f2, he]; simp
            told := by
              intro i hi
              show (e, i) ∈ (σ.shard.next (.started t)).created
              rw [f2]; exact List.mem_append_left _ (h.told i hi)
            notice := by
              intro i hi
              obtain ⟨a, b⟩ := hn' i hi
              refine ⟨.inr ?_, b⟩
              show (e, i) ∈ (σ.shard.next (.started t)).created
              rw [f2]
              rcases a with ⟨u, a, _, c, rfl⟩ | a
              · rw [calm_task_unique h.calm a hts c he, he]; simp
              · exact List.mem_append_left _ a
            waits := by
              intro u hu hue
              show u ∈ (σ.shard.next (.started t)).starting
              have := hw u (by simp [hu]) hue
              rw [calm_task_unique h.calm this hts hue he] at hu
              exact absurd hu ho.1
            failed := hf'
            once := ho.2
            done := fun u hu => hdn u (by simp [hu]) }
        · exact {
            calm := (Shard.step_calm h.calm (.started t) (by simp)).2
            live := by
              intro i hi
              show (∃ u ∈ (σ.shard.next (.started t)).starting, _) ∨ ((e, i) ∈ (σ.shard.next (.started t)).created ∧
                ((σ.kids.insert t.e t.i).get e = some i ∨ _))
              rw [Assoc.get_insert, if_neg (fun x => he x.symm)]
              by_cases hts : t ∈ σ.shard.starting
              · obtain ⟨f1, f2⟩ := started_frame σ.shard t hts
                rw [f1, f2]
                rcases h.live i hi with ⟨u, a, b, c, d⟩ | ⟨a, b⟩
                · refine .inl ⟨u, (List.mem_erase_of_ne ?_).2 a, b, c, d⟩
                  rintro rfl; exact he c
                · exact .inr ⟨List.mem_append_left _ a, b⟩
              · have : σ.shard.next (.started t) = σ.shard := by simp [Shard.next, Shard.step, hts]
                rw [this]
                exact h.live i hi
            kids := by
              intro i hi
              have hi : (σ.kids.insert t.e t.i).get e = some i := hi
              rw [Assoc.get_insert, if_neg (fun x => he x.symm)] at hi
              have := h.kids i hi
              show (e, i) ∈ (σ.shard.next (.started t)).created
              by_cases hts : t ∈ σ.shard.starting
              · rw [(started_frame σ.shard t hts).2]; exact List.mem_append_left _ this
              · have e1 : σ.shard.next (.started t) = σ.shard := by simp [Shard.next, Shard.step, hts]
                rw [e1]; exact this
            told := by
              intro i hi
              have := h.told i hi
              show (e, i) ∈ (σ.shard.next (.started t)).created
              by_cases hts : t ∈ σ.shard.starting
              · rw [(started_frame σ.shard t hts).2]; exact List.mem_append_left _ this
              · have e1 : σ.shard.next (.started t) = σ.shard := by simp [Shard.next, Shard.step, hts]
                rw [e1]; exact this
            notice := by
              intro i hi
              obtain ⟨a, b⟩ := hn' i hi
              refine ⟨?_, b⟩
              show (∃ u ∈ (σ.shard.next (.started t)).starting, _) ∨ (e, i) ∈ (σ.shard.next (.started t)).created
              by_cases hts : t ∈ σ.shard.starting
              · obtain ⟨f1, f2⟩ := started_frame σ.shard t hts
                rw [f1, f2]
                rcases a with ⟨u, a, b, c, d⟩ | a
                · refine .inl ⟨u, (List.mem_erase_of_ne ?_).2 a, b, c, d⟩
                  rintro rfl; exact he c
                · exact .inr (List.mem_append_left _ a)
              · have e1 : σ.shard.next (.started t) = σ.shard := by simp [Shard.next, Shard.step, hts]
                rw [e1]; exact a
            waits := by
              intro u hu hue
              show u ∈ (σ.shard.next (.started t)).starting
              have hus := hw u (by simp [hu]) hue
              by_cases hts : t ∈ σ.shard.starting
              · rw [(started_frame σ.shard t hts).1]
                refine (List.mem_erase_of_ne ?_).2 hus
                rintro rfl; exact he hue
              · have e1 : σ.shard.next (.started t) = σ.shard := by simp [Shard.next, Shard.step, hts]
                rw [e1]; exact hus
            failed := hf'
            once := ho.2
            done := fun u hu => hdn u (by simp [hu]) }
      | failed t =>
        simp only [List.filterMap_cons, LifeMail.task, List.nodup_cons] at hw ho hdn
        simp only [Life.handle]
        have hcr : (σ.shard.next (.startFailed t)).created = σ.shard.created := by
          by_cases hts : t ∈ σ.shard.starting
          · exact (startFailed_frame σ.shard t hts).2
          · simp [Shard.next, Shard.step, hts]
        have hst : ∀ u ∈ σ.shard.starting, u ≠ t → u ∈ (σ.shard.next (.startFailed t)).starting := by
          intro u hu hne
          by_cases hts : t ∈ σ.shard.starting
          · rw [(startFailed_frame σ.shard t hts).1]; exact (List.mem_erase_of_ne hne).2 hu
          · have e1 : σ.shard.next (.startFailed t) = σ.shard := by simp [Shard.next, Shard.step, hts]
            rw [e1]; exact hu
        have hstay : ∀ i, ((e, i) ∈ σ.live ∨ LifeMail.terminated e i ∈ q) → ∀ u : StartTask, u.e = e → u.i = i → u ≠ t := by
          rintro i hi u hue hui rfl
          obtain ⟨a, b⟩ := hf u (by simp) hue
          subst hui
          rcases hi with hi | hi
          · exact a hi
          · exact b (List.mem_cons_of_mem _ hi)
        exact {
          calm := (Shard.step_calm h.calm (.startFailed t) (by simp)).2
          live := by
            intro i hi
            show _ ∨ ((e, i) ∈ (σ.shard.next (.startFailed t)).created ∧ _)
            rw [hcr]
            rcases h.live i hi with ⟨u, a, b, c, d⟩ | a
            · exact .inl ⟨u, hst u a (hstay i (.inl hi) u c d), b, c, d⟩
            · exact .inr a
          kids := by
            intro i hi
            show (e, i) ∈ (σ.shard.next (.startFailed t)).created
            rw [hcr]; exact h.kids i hi
          told := by
            intro i hi
            show (e, i) ∈ (σ.shard.next (.startFailed t)).created
            rw [hcr]; exact h.told i hi
          notice := by
            intro i hi
            obtain ⟨a, b⟩ := hn' i hi
            refine ⟨?_, b⟩
            show _ ∨ (e, i) ∈ (σ.shard.next (.startFailed t)).created
            rw [hcr]
            rcases a with ⟨u, a, b, c, d⟩ | a
            · exact .inl ⟨u, hst u a (hstay i (.inr hi) u c d), b, c, d⟩
            · exact .inr a
          waits := by
            intro u hu hue
            refine hst u (hw u (by simp [hu]) hue) ?_
            rintro rfl
            exact ho.1 hu
          failed := hf'
          once := ho.2
          done := fun u hu => hdn u (by simp [hu]) }
      | terminated e' i' =>
        simp only [List.filterMap_cons, LifeMail.task] at hw ho hdn
        simp only [Life.handle]
        exact {
          calm := h.calm
          live := by
            intro i hi
            show _ ∨ (_ ∧ ((σ.kids.erase e').get e = some i ∨ _))
            rcases h.live i hi with a | ⟨a, b | b⟩
            · exact .inl a
            · refine .inr ⟨a, .inl ?_⟩
              rw [Assoc.get_erase]
              split
              · rename_i he
                subst he
                obtain ⟨x, y⟩ := hn i' (by simp)
                exfalso
                rcases x with ⟨u, x1, _, x2, _⟩ | x
                · exact calm_created_still h.calm a x1 x2
                · rw [← calm_created_unique h.calm a x] at y
                  exact y hi
              · exact b
            · exact .inr ⟨a, .inr b⟩
          kids := by
            intro i hi
            have hi : (σ.kids.erase e').get e = some i := hi
            rw [Assoc.get_erase] at hi
            split at hi
            · cases hi
            · exact h.kids i hi
          told := h.told
          notice := fun i hi => hn' i hi
          waits := hw
          failed := hf'
          once := ho
          done := hdn }
  · exact h

theorem Life.Sound.stop {σ : Life} {e : Nat} (h : σ.Sound e) : σ.stop.Sound e := by
  unfold Life.stop
  split
  · exact ⟨h.calm, h.live, h.kids, h.told, by simp, by simp, by simp, by simp, by simp⟩
  · exact h

theorem mem_of_kid {m : Assoc Nat Nat} {e i : Nat} (h : m.get e = some i) : (e, i) ∈ m.map fun p => (p.1, p.2) :=
  List.mem_map.2 ⟨(e, i), Assoc.mem_of_get h, rfl⟩

/-- an instance in the list of children is the one found, or another with the same id. -/
theorem Life.Sound.sweep {σ : Life} {e : Nat} (h : σ.Sound e) (hu : σ.kids.Uniq) : σ.sweep.Sound e := by
  unfold Life.sweep
  split
  · exact h
  · exact {
      calm := h.calm
      live := by
        intro i hi
        rcases h.live i hi with a | ⟨a, b | b⟩
        · exact .inl a
        · exact .inr ⟨a, .inr (List.mem_append_right _ (mem_of_kid b))⟩
        · exact .inr ⟨a, .inr (List.mem_append_left _ b)⟩
      kids := by intro i hi; simp [Assoc.get] at hi
      told := by
        intro i hi
        rcases List.mem_append.1 hi with hi | hi
        · exact h.told i hi
        · obtain ⟨⟨x, y⟩, hm, he⟩ := List.mem_map.1 hi
          simp only [Prod.mk.injEq] at he
          obtain ⟨rfl, rfl⟩ := he
          exact h.kids _ (Assoc.get_of_mem hu hm)
      notice := h.notice
      waits := h.waits
      failed := h.failed
      once := h.once
      done := h.done }

theorem Life.Sound.ends {σ : Life} {e : Nat} (h : σ.Sound e) (e' i' : Nat) : (σ.ends e' i').Sound e := by
  unfold Life.ends
  split
  · exact h.dies e' i'
  · exact h

/-- the children have different ids. -/
theorem Life.step_uniq {σ : Life} (h : σ.kids.Uniq) (op : LifeOp) : (σ.step op).kids.Uniq := by
  cases op with
  | request r ok => simp only [Life.step, Life.shardStep]; split <;> exact h
  | start e c ok => simp only [Life.step, Life.shardStep]; split <;> exact h
  | snapshot => simp only [Life.step, Life.shardStep]; split <;> exact h
  | comesUp t => simp only [Life.step, Life.comesUp]; split <;> exact h
  | fails t => simp only [Life.step, Life.fails]; split <;> exact h
  | take =>
    simp only [Life.step, Life.take]
    split
    · split
      · exact h
      · rename_i m q _
        cases m with
        | started t => exact h.insert _ _
        | failed t => exact h
        | terminated e i => exact h.erase _
    · exact h
  | dies e i => simp only [Life.step, Life.dies]; split <;> exact h
  | sweep => simp only [Life.step, Life.sweep]; split <;> first | exact h | exact List.Pairwise.nil
  | ends e i => simp only [Life.step, Life.ends, Life.dies]; (repeat' split) <;> exact h

theorem Life.Sound.step {σ : Life} {e : Nat} (h : σ.Sound e) (hu : σ.kids.Uniq) (op : LifeOp)
    (hop : ∀ c ok, op ≠ .start e c ok) : (σ.step op).Sound e := by
  cases op with
  | request r ok => exact h.shardStep _ (by simp) (by simp) (by simp)
  | start e' c ok =>
    refine h.shardStep _ (by simp) (by simp) ?_
    rintro c' ok' hx
    simp only [ShardOp.startEntity.injEq] at hx
    exact hop c ok (by rw [hx.1])
  | snapshot => exact h.shardStep _ (by simp) (by simp) (by simp)
  | comesUp t => exact h.comesUp t
  | fails t => exact h.fails t
  | take => exact h.take
  | dies e' i => exact h.dies e' i
  | sweep => exact h.sweep hu
  | ends e' i => exact h.ends e' i

theorem Life.run_sound {σ : Life} {e : Nat} (h : σ.Sound e) (hu : σ.kids.Uniq) (ops : List LifeOp)
    (hop : ∀ c ok, LifeOp.start e c ok ∉ ops) : (σ.run ops).Sound e ∧ (σ.run ops).kids.Uniq := by
  induction ops generalizing σ with
  | nil => exact ⟨h, hu⟩
  | cons op ops ih =>
    refine ih (h.step hu op ?_) (Life.step_uniq hu op) fun c ok hm => hop c ok (by simp [hm])
    rintro c ok rfl
    exact hop c ok (by simp)

/-- a shard that has stopped takes nothing up any more. -/
structure Life.Over (σ τ : Life) : Prop where
  down : τ.up = false
  starting : τ.shard.starting = σ.shard.starting
  created : τ.shard.created = σ.shard.created
  mail : τ.mail = []

theorem Life.over_step {σ τ : Life} (h : Life.Over σ τ) (op : LifeOp) : Life.Over σ (τ.step op) := by
  have hp : ∀ m, τ.post m = [] := fun m => by simp [Life.post, h.down, h.mail]
  obtain ⟨a, b, c, d⟩ := h
  cases op with
  | request r ok => simp only [Life.step, Life.shardStep, a]; exact ⟨a, b, c, d⟩
  | start e c' ok => simp only [Life.step, Life.shardStep, a]; exact ⟨a, b, c, d⟩
  | snapshot => simp only [Life.step, Life.shardStep, a]; exact ⟨a, b, c, d⟩
  | comesUp t => simp only [Life.step, Life.comesUp]; split; exact ⟨a, b, c, hp _⟩; exact ⟨a, b, c, d⟩
  | fails t => simp only [Life.step, Life.fails]; split; exact ⟨a, b, c, hp _⟩; exact ⟨a, b, c, d⟩
  | take => simp only [Life.step, Life.take, a]; exact ⟨a, b, c, d⟩
  | dies e i => simp only [Life.step, Life.dies]; split; exact ⟨a, b, c, hp _⟩; exact ⟨a, b, c, d⟩
  | sweep => simp only [Life.step, Life.sweep, a]; exact ⟨rfl, b, c, d⟩
  | ends e i =>
    simp only [Life.step, Life.ends, Life.dies]
    split
    · split; exact ⟨a, b, c, hp _⟩; exact ⟨a, b, c, d⟩
    · exact ⟨a, b, c, d⟩

theorem Life.over_run {σ τ : Life} (h : Life.Over σ τ) (ops : List LifeOp) : Life.Over σ (τ.run ops) := by
  induction ops generalizing τ with
  | nil => exact h
  | cons op ops ih => exact ih (Life.over_step h op)

theorem Life.over_stop {σ : Life} (h : σ.up = true) : Life.Over σ σ.stop := by
  unfold Life.stop
  rw [if_pos h]
  exact ⟨rfl, rfl, rfl, rfl⟩

/-- once told, all children of a stopped shard have been told. -/
theorem Life.swept {σ : Life} (hd : σ.up = false) (ops : List LifeOp) (h : .sweep ∈ ops) : (σ.run ops).kids = [] := by
  have keep : ∀ (ops : List LifeOp) (τ : Life), τ.up = false → τ.kids = [] → (τ.run ops).kids = [] := by
    intro ops
    induction ops with
    | nil => intro τ _ hk; exact hk
    | cons op ops ih =>
      intro τ hu hk
      refine ih _ ?_ ?_
      · cases op <;> simp only [Life.step, Life.shardStep, Life.comesUp, Life.fails, Life.take, Life.dies, Life.sweep,
          Life.ends, hu] <;> (repeat' split) <;> first | exact hu | rfl | simp_all
      · cases op <;> simp only [Life.step, Life.shardStep, Life.comesUp, Life.fails, Life.take, Life.dies, Life.sweep,
          Life.ends, hu] <;> (repeat' split) <;> first | exact hk | rfl | simp_all
  induction ops generalizing σ with
  | nil => cases h
  | cons op ops ih =>
    have hup : (σ.step op).up = false := by
      cases op <;> simp only [Life.step, Life.shardStep, Life.comesUp, Life.fails, Life.take, Life.dies, Life.sweep,
          Life.ends, hd] <;> (repeat' split) <;> first | exact hd | rfl | simp_all
    rcases List.mem_cons.1 h with rfl | h
    · refine keep ops _ hup ?_
      simp [Life.step, Life.sweep, hd]
    · exact ih hup h

theorem Life.boot_uniq (j : List JEntry) : (Life.boot j).kids.Uniq := List.Pairwise.nil

theorem Life.boot_up (j : List JEntry) (ops : List LifeOp) : ((Life.boot j).run ops).up = true := by
  induction ops using snoc_induction with
  | nil => rfl
  | snoc l x ih =>
    have : (Life.boot j).run (l ++ [x]) = ((Life.boot j).run l).step x := by simp [Life.run]
    rw [this]
    generalize (Life.boot j).run l = σ at *
    cases x with
    | take =>
      simp only [Life.step, Life.take]
      rw [if_pos ih]
      cases hq : σ.mail with
      | nil => exact ih
      | cons m q => cases m <;> exact ih
    | _ => simp only [Life.step, Life.shardStep, Life.comesUp, Life.fails, Life.dies, Life.sweep, Life.ends] <;>
        (repeat' split) <;> first | exact ih | simp_all

/-! ## One shard -/

/-- **C91.** Within one instance of a shard, from its start, through its stop and for ever after, at most one instance of
an entity is running, as long as nobody sends an explicit `StartEntity` for it. -/
theorem C91_one_each (j : List JEntry) (e : Nat) (pre post : List LifeOp) (h1 : ∀ c ok, LifeOp.start e c ok ∉ pre)
    (h2 : ∀ c ok, LifeOp.start e c ok ∉ post) {i i' : Nat} :
    ((e, i) ∈ ((Life.boot j).run pre).live → (e, i') ∈ ((Life.boot j).run pre).live → i = i') ∧
    ((e, i) ∈ (((Life.boot j).run pre).stop.run post).live → (e, i') ∈ (((Life.boot j).run pre).stop.run post).live → i = i') := by
  obtain ⟨hs, hu⟩ := Life.run_sound (Life.boot_sound j e) (Life.boot_uniq j) pre h1
  have hu' : ((Life.boot j).run pre).stop.kids.Uniq := by unfold Life.stop; split <;> exact hu
  exact ⟨hs.unique, (Life.run_sound hs.stop hu' post h2).1.unique⟩

/-- **C91.** Who outlives the shard: after the children of a stopped shard have been told to stop, an entity that is
running either has been told, or is one whose creation the shard had not heard of when it stopped. -/
theorem C91_survivors (j : List JEntry) (e i : Nat) (pre post : List LifeOp) (h1 : ∀ c ok, LifeOp.start e c ok ∉ pre)
    (h2 : ∀ c ok, LifeOp.start e c ok ∉ post) (hsw : .sweep ∈ post)
    (hl : (e, i) ∈ (((Life.boot j).run pre).stop.run post).live) :
    (e, i) ∈ (((Life.boot j).run pre).stop.run post).told ∨ ((Life.boot j).run pre).unheard e i := by
  obtain ⟨hs, hu⟩ := Life.run_sound (Life.boot_sound j e) (Life.boot_uniq j) pre h1
  have hu' : ((Life.boot j).run pre).stop.kids.Uniq := by unfold Life.stop; split <;> exact hu
  have ho := Life.over_stop (Life.boot_up j pre)
  have ho' := Life.over_run ho post
  have hk := Life.swept ho.down post hsw
  obtain ⟨hs', _⟩ := Life.run_sound hs.stop hu' post h2
  rcases hs'.live i hl with ⟨t, a, _, b, c⟩ | ⟨_, a | a⟩
  · rw [ho'.starting] at a
    exact .inr ⟨t, a, b, c⟩
  · rw [hk] at a; simp [Assoc.get] at a
  · exact .inl a

theorem ends_filter (l : List (Nat × Nat)) (σ : Life) (h : ∀ p ∈ l, p ∈ σ.told) :
    (σ.run (l.map fun p => .ends p.1 p.2)).live = σ.live.filter (· ∉ l) := by
  induction l generalizing σ with
  | nil => simp only [List.map_nil, Life.run, List.foldl_nil, List.not_mem_nil, not_false_eq_true, decide_true]; exact (List.filter_eq_self.2 (by simp)).symm
  | cons p l ih =>
    have hp := h p (by simp)
    have e1 : σ.run ((p :: l).map fun p => .ends p.1 p.2) = (σ.ends p.1 p.2).run (l.map fun p => .ends p.1 p.2) := rfl
    have ht : (σ.ends p.1 p.2).told = σ.told := by
      unfold Life.ends Life.dies; (repeat' split) <;> rfl
    rw [e1, ih _ (by rw [ht]; exact fun q hq => h q (by simp [hq]))]
    have e2 : (σ.ends p.1 p.2).live = σ.live.filter (· ≠ p) := by
      unfold Life.ends Life.dies
      rw [if_pos hp]
      split
      · rfl
      · rename_i hn
        refine (List.filter_eq_self.2 ?_).symm
        intro q hq
        simp only [ne_eq, decide_not, Bool.not_eq_true', decide_eq_false_iff_not]
        rintro rfl
        exact hn hq
    rw [e2, List.filter_filter]
    congr 1
    funext q
    simp only [List.mem_cons, not_or, ne_eq]
    rw [Bool.eq_iff_iff]
    simp only [Bool.and_eq_true, decide_eq_true_eq]
    exact And.comm

/-- **C91** in part: if, when the shard stops, it has heard of all creations, its entities end, once they have been told
and have done so. What is missing from the claim: that they have ended when the stop is acknowledged, that no creation is
under way then, and that no `StartEntity` was sent; it is refuted for each of these below. -/
theorem C91_all_end_partial (j : List JEntry) (pre : List LifeOp) (h1 : ∀ e c ok, LifeOp.start e c ok ∉ pre)
    (h2 : ((Life.boot j).run pre).shard.starting = []) (after : Life)
    (ha : after = ((Life.boot j).run pre).stop.sweep) :
    (after.run (after.told.map fun p => .ends p.1 p.2)).live = [] ∧
    (after.run (after.told.map fun p => .ends p.1 p.2)).Drained := by
  have hlive : (after.run (after.told.map fun p => .ends p.1 p.2)).live = [] := by
    rw [ends_filter _ _ fun p hp => hp, List.filter_eq_nil_iff]
    rintro ⟨e, i⟩ hm
    have e1 : after = ((Life.boot j).run pre).stop.run [.sweep] := ha
    have := C91_survivors j e i pre [.sweep] (h1 e) (by simp) (by simp) (by rw [← e1]; exact hm)
    rcases this with h | ⟨t, ht, _⟩
    · rw [← e1] at h; simpa using h
    · rw [h2] at ht; cases ht
  refine ⟨hlive, hlive, ?_⟩
  have ho := Life.over_run (Life.over_stop (Life.boot_up j pre)) (.sweep :: (after.told.map fun p => .ends p.1 p.2))
  have e1 : ((Life.boot j).run pre).stop.run (.sweep :: (after.told.map fun p => .ends p.1 p.2)) =
      after.run (after.told.map fun p => .ends p.1 p.2) := by rw [ha]; rfl
  rw [e1] at ho
  intro t ht
  rw [ho.starting, h2] at ht
  cases ht

/-- Refuted: the entities of a shard end with it. One whose creation the shard has not heard of when it stops is never told
to stop: once running, it runs until it ends by itself, whatever else happens. -/
theorem C91_stray_refuted (j : List JEntry) (t : StartTask) (pre mid post : List LifeOp)
    (h1 : ∀ c ok, LifeOp.start t.e c ok ∉ pre) (h2 : ∀ c ok, LifeOp.start t.e c ok ∉ mid)
    (h3 : ∀ c ok, LifeOp.start t.e c ok ∉ post) (ht : t ∈ ((Life.boot j).run pre).shard.starting)
    (hup : (t.e, t.i) ∈ (((Life.boot j).run pre).stop.run mid).live) (hd : .dies t.e t.i ∉ post) :
    (t.e, t.i) ∈ (((Life.boot j).run pre).stop.run (mid ++ post)).live := by
  obtain ⟨hs, hu⟩ := Life.run_sound (Life.boot_sound j t.e) (Life.boot_uniq j) pre h1
  have hu' : ((Life.boot j).run pre).stop.kids.Uniq := by unfold Life.stop; split <;> exact hu
  obtain ⟨hs', hu''⟩ := Life.run_sound hs.stop hu' mid h2
  have ho := Life.over_run (Life.over_stop (Life.boot_up j pre)) mid
  have e1 : ((Life.boot j).run pre).stop.run (mid ++ post) = (((Life.boot j).run pre).stop.run mid).run post := by
    simp [Life.run]
  rw [e1]
  generalize ((Life.boot j).run pre).stop.run mid = τ at *
  clear e1
  induction post generalizing τ with
  | nil => exact hup
  | cons op post ih =>
    have hst : (τ.step op).Sound t.e := hs'.step hu'' op fun c ok hx => h3 c ok (by simp [hx])
    refine ih (fun c ok hx => h3 c ok (by simp [hx])) (fun hx => hd (by simp [hx])) (τ.step op) ?_ hst
      (Life.step_uniq hu'' op) (Life.over_step ho op)
    have hfil : ∀ e i, (e, i) ≠ (t.e, t.i) → (t.e, t.i) ∈ (τ.dies e i).live := by
      intro e i hne
      unfold Life.dies
      split
      · exact List.mem_filter.2 ⟨hup, decide_eq_true fun hx => hne hx.symm⟩
      · exact hup
    cases op with
    | request r ok => simp only [Life.step, Life.shardStep]; split <;> exact hup
    | start e c ok => simp only [Life.step, Life.shardStep]; split <;> exact hup
    | snapshot => simp only [Life.step, Life.shardStep]; split <;> exact hup
    | comesUp u =>
      simp only [Life.step, Life.comesUp]
      split
      · exact List.mem_append_left _ hup
      · exact hup
    | fails u => simp only [Life.step, Life.fails]; split <;> exact hup
    | take => simp only [Life.step, Life.take, ho.down]; exact hup
    | dies e i =>
      refine hfil e i ?_
      intro hx
      simp only [Prod.mk.injEq] at hx
      exact hd (by rw [hx.1, hx.2]; simp)
    | sweep => simp only [Life.step, Life.sweep]; split <;> exact hup
    | ends e i =>
      simp only [Life.step, Life.ends]
      split
      · rename_i hm
        refine hfil e i ?_
        intro hx
        rw [hx] at hm
        have hc := hs'.told _ hm
        rw [← ho.starting] at ht
        exact calm_created_still hs'.calm hc ht rfl
      · exact hup

/-- Refuted: with `StartEntity` messages, too, the entities of a shard end with it. Started a second time, an entity is
running twice, and the first instance is not told to stop; if it ends before, the notice makes the shard forget the
second instead. -/
theorem C91_started_twice_refuted :
    (∃ pre, ((Life.boot []).run pre).shard.starting = [] ∧ ((Life.boot []).run pre).mail = [] ∧
      (5, 0) ∈ ((Life.boot []).run pre).stop.sweep.live ∧ (5, 0) ∉ ((Life.boot []).run pre).stop.sweep.told) ∧
    ∃ pre, ((Life.boot []).run pre).shard.starting = [] ∧ ((Life.boot []).run pre).mail = [] ∧
      ((Life.boot []).run pre).stop.sweep.live = [(5, 1)] ∧ ((Life.boot []).run pre).stop.sweep.told = [] :=
  ⟨⟨[.start 5 9 true, .comesUp ⟨5, 9, 0⟩, .take, .start 5 9 true, .comesUp ⟨5, 9, 1⟩, .take], by decide⟩,
   ⟨[.start 5 9 true, .comesUp ⟨5, 9, 0⟩, .take, .start 5 9 true, .comesUp ⟨5, 9, 1⟩, .take, .dies 5 0, .take], by decide⟩⟩

/-! ## One shard in the whole system -/

variable {R : Type}

/-- the instance `i` of entity `e` is running, under instance `a` of the shard on node `d`. -/
def Moving.Runs (σ : Moving R) (d a e i : Nat) : Prop := (e, i) ∈ (σ.life d a).live

/-- what C51 needs of the system; that an instance of the shard is started only when everything of the earlier ones has
ended; and that `e` is not started by `StartEntity`. -/
def Moving.Careful (s : Nat) (f : R → Nat) (e : Nat) (σ : Moving R) : MovOp R → Prop
  | .sys op => σ.sys.Orderly s op ∧
      ((∃ d a, σ.sys.has s d a = false ∧ (σ.sys.next f op).has s d a = true) → ∀ d a, (σ.life d a).Drained)
  | .ent _ _ op => ∀ c ok, op ≠ .start e c ok

def Moving.CarefulRun (s : Nat) (f : R → Nat) (e : Nat) : Moving R → List (MovOp R) → Prop
  | _, [] => True
  | σ, op :: ops => σ.Careful s f e op ∧ (σ.step s f op).CarefulRun s f e ops

theorem Life.step_up (σ : Life) (op : LifeOp) : (σ.step op).up = σ.up := by
  cases op with
  | take =>
    simp only [Life.step, Life.take]
    split
    · cases hq : σ.mail with
      | nil => rfl
      | cons m q => cases m <;> rfl
    · rfl
  | _ => simp only [Life.step, Life.shardStep, Life.comesUp, Life.fails, Life.dies, Life.sweep, Life.ends] <;>
      (repeat' split) <;> rfl

theorem Life.drained_step {σ : Life} (h : σ.Drained) (hd : σ.up = false) (op : LifeOp) : (σ.step op).Drained := by
  obtain ⟨hl, ht⟩ := h
  cases op with
  | request r ok => simp only [Life.step, Life.shardStep, hd]; exact ⟨hl, ht⟩
  | start e c ok => simp only [Life.step, Life.shardStep, hd]; exact ⟨hl, ht⟩
  | snapshot => simp only [Life.step, Life.shardStep, hd]; exact ⟨hl, ht⟩
  | comesUp t =>
    simp only [Life.step, Life.comesUp]
    rw [if_neg (fun hx => hx.2 (ht t hx.1))]
    exact ⟨hl, ht⟩
  | fails t =>
    simp only [Life.step, Life.fails]
    rw [if_neg (fun hx => hx.2 (ht t hx.1))]
    exact ⟨hl, ht⟩
  | take => simp only [Life.step, Life.take, hd]; exact ⟨hl, ht⟩
  | dies e i =>
    simp only [Life.step, Life.dies, hl]
    exact ⟨hl, ht⟩
  | sweep => simp only [Life.step, Life.sweep, hd]; exact ⟨hl, ht⟩
  | ends e i =>
    simp only [Life.step, Life.ends, Life.dies, hl]
    split <;> exact ⟨hl, ht⟩

theorem Life.Sound.over {l : Life} {e : Nat} (h : l.Sound e) (hu : l.kids.Uniq) (j : List JEntry) (op : LifeOp)
    (hop : ∀ c ok, op ≠ .start e c ok) : (l.over j op).Sound e := by
  refine Life.Sound.step (σ := { l with shard := { l.shard with journal := j } }) ?_ hu op hop
  exact ⟨⟨h.calm.one, h.calm.still, h.calm.created⟩, h.live, h.kids, h.told, h.notice, h.waits, h.failed, h.once, h.done⟩

theorem Life.Sound.follow {l : Life} {e : Nat} (h : l.Sound e) (s : Nat) (w w' : Sys R) (j : List JEntry) (d a : Nat) :
    (l.follow s w w' j d a).Sound e := by
  unfold Life.follow
  split
  · exact Life.boot_sound j e
  · exact h.stop
  · exact h

theorem Life.follow_up {l : Life} {s : Nat} {w w' : Sys R} {j : List JEntry} {d a : Nat} (h : l.up = w.has s d a) :
    (l.follow s w w' j d a).up = w'.has s d a := by
  unfold Life.follow
  cases hw : w.has s d a <;> cases hw' : w'.has s d a <;> simp only
  · rw [h, hw]
  · rfl
  · unfold Life.stop; rw [h, hw]; rfl
  · rw [h, hw]

theorem Life.drained_stop {l : Life} (h : l.Drained) : l.stop.Drained := by
  unfold Life.stop; split <;> exact h

/-- at most one instance of the shard, with its entities, is not wholly ended. -/
structure Moving.Good (s e : Nat) (σ : Moving R) : Prop where
  phase : σ.sys.Phase s
  up : ∀ d a, (σ.life d a).up = σ.sys.has s d a
  sound : ∀ d a, (σ.life d a).Sound e
  uniq : ∀ d a, (σ.life d a).kids.Uniq
  alone : ∃ d₀ a₀, ∀ d a, (d, a) ≠ (d₀, a₀) → (σ.life d a).Drained ∧ (σ.life d a).up = false

theorem Moving.good_start (s e self : Nat) (nodes : List (Nat × Bool)) (journal : List Nat) :
    (Moving.start self nodes journal : Moving R).Good s e where
  phase := Sys.phase_start s self nodes journal
  up := fun d a => by
    show false = decide ((s, a) ∈ (Host.init d : Host R).live)
    simp [Host.init]
  sound := fun d a => Life.blank_sound e
  uniq := fun d a => List.Pairwise.nil
  alone := ⟨0, 0, fun d a _ => ⟨⟨rfl, by simp [Moving.start]⟩, rfl⟩⟩

theorem Moving.good_step {s e : Nat} {f : R → Nat} {σ : Moving R} (h : σ.Good s e) (op : MovOp R) (ho : σ.Careful s f e op) :
    (σ.step s f op).Good s e := by
  cases op with
  | ent d a op =>
    have hup : ((σ.life d a).over σ.journal op).up = (σ.life d a).up := by unfold Life.over; rw [Life.step_up]
    exact {
      phase := h.phase
      up := by
        intro d' a'
        simp only [Moving.step]
        split
        · rename_i hx; obtain ⟨rfl, rfl⟩ := hx; rw [hup]; exact h.up d' a'
        · exact h.up d' a'
      sound := by
        intro d' a'
        simp only [Moving.step]
        split
        · exact (h.sound d a).over (h.uniq d a) _ op ho
        · exact h.sound d' a'
      uniq := by
        intro d' a'
        simp only [Moving.step]
        split
        · unfold Life.over; exact Life.step_uniq (σ := { σ.life d a with shard := { (σ.life d a).shard with journal := σ.journal } }) (h.uniq d a) op
        · exact h.uniq d' a'
      alone := by
        obtain ⟨d₀, a₀, hal⟩ := h.alone
        refine ⟨d₀, a₀, fun d' a' hne => ?_⟩
        simp only [Moving.step]
        split
        · rename_i hx
          obtain ⟨rfl, rfl⟩ := hx
          obtain ⟨h1, h2⟩ := hal d' a' hne
          refine ⟨?_, by rw [hup]; exact h2⟩
          unfold Life.over
          exact Life.drained_step (σ := { σ.life d' a' with shard := { (σ.life d' a').shard with journal := σ.journal } }) h1 h2 op
        · exact hal d' a' hne }
  | sys op =>
    have hph := h.phase.next f op ho.1
    exact {
      phase := hph
      up := fun d a => Life.follow_up (h.up d a)
      sound := fun d a => (h.sound d a).follow s _ _ _ d a
      uniq := by
        intro d a
        show ((σ.life d a).follow s σ.sys (σ.sys.next f op) σ.journal d a).kids.Uniq
        unfold Life.follow
        split
        · exact Life.boot_uniq _
        · unfold Life.stop; split <;> exact h.uniq d a
        · exact h.uniq d a
      alone := by
        by_cases hnew : ∃ d a, σ.sys.has s d a = false ∧ (σ.sys.next f op).has s d a = true
        · have hdr := ho.2 hnew
          obtain ⟨d₀, a₀, _, hn⟩ := hnew
          refine ⟨d₀, a₀, fun d a hne => ?_⟩
          have hno : (σ.sys.next f op).has s d a = false := by
            cases hc : (σ.sys.next f op).has s d a with
            | false => rfl
            | true =>
              have := hph.unique (by simpa [Sys.has, Sys.Runs] using hc : (σ.sys.next f op).Runs s d a)
                (by simpa [Sys.has, Sys.Runs] using hn)
              exact absurd (by rw [this.1, this.2]) hne
          have hu := Life.follow_up (w' := σ.sys.next f op) (j := σ.journal) (h.up d a)
          rw [hno] at hu
          refine ⟨?_, hu⟩
          show ((σ.life d a).follow s σ.sys (σ.sys.next f op) σ.journal d a).Drained
          unfold Life.follow
          rw [hno]
          cases σ.sys.has s d a with
          | true => exact Life.drained_stop (hdr d a)
          | false => exact hdr d a
        · obtain ⟨d₀, a₀, hal⟩ := h.alone
          refine ⟨d₀, a₀, fun d a hne => ?_⟩
          obtain ⟨h1, h2⟩ := hal d a hne
          have hw : σ.sys.has s d a = false := by rw [← h.up d a]; exact h2
          have hno : (σ.sys.next f op).has s d a = false := by
            cases hc : (σ.sys.next f op).has s d a with
            | false => rfl
            | true => exact absurd ⟨d, a, hw, hc⟩ hnew
          have e1 : (σ.life d a).follow s σ.sys (σ.sys.next f op) σ.journal d a = σ.life d a := by
            unfold Life.follow; rw [hw, hno]
          show ((σ.life d a).follow s σ.sys (σ.sys.next f op) σ.journal d a).Drained ∧
            ((σ.life d a).follow s σ.sys (σ.sys.next f op) σ.journal d a).up = false
          rw [e1]
          exact ⟨h1, h2⟩ }

theorem Moving.good_run {s e : Nat} {f : R → Nat} {σ : Moving R} (h : σ.Good s e) (ops : List (MovOp R))
    (ho : σ.CarefulRun s f e ops) : (σ.run s f ops).Good s e := by
  induction ops generalizing σ with
  | nil => exact h
  | cons op ops ih => exact ih (Moving.good_step h op ho.1) ho.2

/-- **C91** in part: an entity is running at most once in the whole system, and, while its shard is running, only there.
What is missing from the claim is that this needs every start of the shard to wait for the end of everything the earlier
instances had; the code does not wait, see `C91_move_refuted`. -/
theorem C91_once_partial (s : Nat) (f : R → Nat) (e self : Nat) (nodes : List (Nat × Bool)) (journal : List Nat)
    (ops : List (MovOp R)) (ho : (Moving.start self nodes journal).CarefulRun s f e ops) (end_ : Moving R)
    (he : end_ = (Moving.start self nodes journal).run s f ops) {d a i : Nat} (h1 : end_.Runs d a e i) :
    (∀ d' a' i', end_.Runs d' a' e i' → d' = d ∧ a' = a ∧ i' = i) ∧
    ∀ d' a', end_.sys.Runs s d' a' → d' = d ∧ a' = a := by
  have hg := Moving.good_run (Moving.good_start s e self nodes journal) ops ho
  rw [← he] at hg
  obtain ⟨d₀, a₀, hal⟩ := hg.alone
  have key : ∀ d a i, end_.Runs d a e i → (d, a) = (d₀, a₀) := by
    intro d a i hr
    by_cases hx : (d, a) = (d₀, a₀)
    · exact hx
    · have := (hal d a hx).1.1
      unfold Moving.Runs at hr
      rw [this] at hr
      cases hr
  have k1 := key d a i h1
  simp only [Prod.mk.injEq] at k1
  refine ⟨?_, ?_⟩
  · intro d' a' i' h2
    have k2 := key d' a' i' h2
    simp only [Prod.mk.injEq] at k2
    refine ⟨by rw [k1.1, k2.1], by rw [k1.2, k2.2], ?_⟩
    unfold Moving.Runs at h1 h2
    rw [k2.1, k2.2] at h2
    rw [k1.1, k1.2] at h1
    exact (hg.sound d₀ a₀).unique h2 h1
  · intro d' a' h2
    by_cases hx : (d', a') = (d₀, a₀)
    · simp only [Prod.mk.injEq] at hx
      exact ⟨by rw [hx.1, k1.1], by rw [hx.2, k1.2]⟩
    · have := (hal d' a' hx).2
      rw [hg.up d' a'] at this
      simp [Sys.has, Sys.Runs] at this h2
      exact absurd h2 this

/-! ## The move -/

/-- a request that makes its shard start entity 5. -/
def firstRequest : EReq := { id := 1, entity := 5, recipe := some 9 }

/-- shard 0 is started on node 1 and starts entity 5; the shard is moved to node 2. -/
def moveEntity (rest : List (MovOp Nat)) : List (MovOp Nat) :=
  (moveBegins.take 5).map .sys ++ [.ent 1 0 (.request firstRequest true), .ent 1 0 (.comesUp ⟨5, 9, 0⟩), .ent 1 0 .take] ++
  (moveBegins.drop 5 ++ moveEnds.take 4).map .sys ++ rest ++ (moveEnds.drop 4).map .sys ++ [.ent 2 0 (.comesUp ⟨5, 9, 0⟩)]

/-- the operations of the system in a run. -/
def MovOp.sys? : MovOp R → Option (SysOp R)
  | .sys op => some op
  | .ent .. => none

/-- Refuted: in an orderly run in the sense of C51, with no `StartEntity`, an entity is running twice. Node 1 has
acknowledged the stop of the shard, node 2 has started it, and with it the entity, which on node 1 is running still, and
has not even been told to stop. -/
theorem C91_move_refuted :
    ∃ ops : List (MovOp Nat), (Sys.start 1 [] [] : Sys Nat).OrderlyRun id 0 (ops.filterMap MovOp.sys?) ∧
      (∀ d a e c ok, .ent d a (.start e c ok) ∉ ops) ∧
      ((Moving.start 1 [] []).run 0 id ops).Runs 1 0 5 0 ∧ ((Moving.start 1 [] []).run 0 id ops).Runs 2 0 5 0 ∧
      (((Moving.start 1 [] []).run 0 id ops).life 1 0).told = [] ∧
      ((Moving.start 1 [] []).run 0 id ops).sys.Runs 0 2 0 ∧ ¬ ((Moving.start 1 [] []).run 0 id ops).sys.Runs 0 1 0 := by
  refine ⟨moveEntity [], ?_, by simp [moveEntity, moveBegins], ?_⟩
  · have : (moveEntity []).filterMap MovOp.sys? = moveBegins ++ moveEnds := rfl
    rw [this]
    exact move_orderly
  · unfold Moving.Runs Sys.Runs
    decide

/-- told in time, the entity has moved. -/
example : ((Moving.start 1 [] [] : Moving Nat).run 0 id (moveEntity [.ent 1 0 .sweep, .ent 1 0 (.ends 5 0)])).Runs 2 0 5 0 ∧
    ¬ ((Moving.start 1 [] [] : Moving Nat).run 0 id (moveEntity [.ent 1 0 .sweep, .ent 1 0 (.ends 5 0)])).Runs 1 0 5 0 := by
  unfold Moving.Runs
  decide

-- the hypotheses of `C91_survivors`, `C91_all_end_partial` and `C91_stray_refuted` met
example : ((Life.boot []).run [.request firstRequest true, .comesUp ⟨5, 9, 0⟩, .take]).shard.starting = [] ∧
    ((Life.boot []).run [.request firstRequest true, .comesUp ⟨5, 9, 0⟩, .take]).stop.sweep.told = [(5, 0)] := by decide
example : ((Life.boot []).run [.request firstRequest true]).shard.starting = [⟨5, 9, 0⟩] ∧
    (5, 0) ∈ (((Life.boot []).run [.request firstRequest true]).stop.run [.sweep, .comesUp ⟨5, 9, 0⟩]).live := by decide
example : (5, 0) ∈ (((Life.boot []).run [.request firstRequest true, .comesUp ⟨5, 9, 0⟩]).stop.run [.sweep]).live ∧
    (((Life.boot []).run [.request firstRequest true, .comesUp ⟨5, 9, 0⟩]).stop.run [.sweep]).told = [] := by decide

/-! ## The hypotheses of `C91_once_partial` met by a run in which the entity moves -/

theorem Life.drained_follow {l : Life} (h : l.Drained) (s : Nat) (w w' : Sys R) (d a : Nat) :
    (l.follow s w w' [] d a).Drained := by
  unfold Life.follow
  split
  · exact ⟨rfl, fun t ht => by rw [show (Life.boot []).shard.starting = [] from rfl] at ht; cases ht⟩
  · exact Life.drained_stop h
  · exact h

theorem Moving.careful_quiet {s e : Nat} {f : R → Nat} {σ : Moving R} {ops : List (SysOp R)} {rest : List (MovOp R)}
    (hd : ∀ d a, (σ.life d a).Drained) (hj : σ.journal = []) (ho : σ.sys.OrderlyRun f s ops)
    (hr : (∀ d a, ((σ.run s f (ops.map .sys)).life d a).Drained) → (σ.run s f (ops.map .sys)).CarefulRun s f e rest) :
    σ.CarefulRun s f e (ops.map .sys ++ rest) := by
  induction ops generalizing σ with
  | nil => exact hr hd
  | cons op ops ih =>
    refine ⟨⟨ho.1, fun _ => hd⟩, ih ?_ hj ho.2 hr⟩
    intro d a
    show ((σ.life d a).follow s σ.sys (σ.sys.next f op) σ.journal d a).Drained
    rw [hj]
    exact Life.drained_follow (hd d a) s _ _ d a

theorem Sys.orderly_prefix {s : Nat} {f : R → Nat} {w : Sys R} {ops rest : List (SysOp R)} (h : w.OrderlyRun f s (ops ++ rest)) :
    w.OrderlyRun f s ops := by
  induction ops generalizing w with
  | nil => trivial
  | cons op ops ih => exact ⟨h.1, ih h.2⟩

theorem Sys.host_step_ne {f : R → Nat} {w : Sys R} {d d' : Nat} {op : HostOp R} (h : d' ≠ d) :
    (w.hostStep f d op).host d' = w.host d' := by
  show (if d' = d then _ else _) = _
  rw [if_neg h]

/-- no instance of the shard is started by a step of the host on node `d` whose list of instances has no new one. -/
theorem Sys.no_new {s d : Nat} {w w' : Sys R} (h1 : ∀ d', d' ≠ d → w'.host d' = w.host d')
    (h2 : ∀ p ∈ (w'.host d).live, p ∈ (w.host d).live) : ¬ ∃ d a, w.has s d a = false ∧ w'.has s d a = true := by
  rintro ⟨d', a, x, y⟩
  simp only [Sys.has, decide_eq_false_iff_not, decide_eq_true_eq] at x y
  by_cases hd : d' = d
  · subst hd; exact x (h2 _ y)
  · rw [h1 d' hd] at y; exact x y

theorem Moving.settled_sys {s d₀ a₀ : Nat} {f : R → Nat} {σ : Moving R} {op : SysOp R}
    (h : ∀ d a, (d, a) ≠ (d₀, a₀) → (σ.life d a).Drained)
    (hn : ¬ ∃ d a, σ.sys.has s d a = false ∧ (σ.sys.next f op).has s d a = true) :
    ∀ d a, (d, a) ≠ (d₀, a₀) → ((σ.step s f (.sys op)).life d a).Drained := by
  intro d a hne
  show ((σ.life d a).follow s σ.sys (σ.sys.next f op) σ.journal d a).Drained
  unfold Life.follow
  split
  · rename_i x y; exact absurd ⟨d, a, x, y⟩ hn
  · exact Life.drained_stop (h d a hne)
  · exact h d a hne

theorem Moving.settled_ent {s d₀ a₀ : Nat} {f : R → Nat} {σ : Moving R} {op : LifeOp}
    (h : ∀ d a, (d, a) ≠ (d₀, a₀) → (σ.life d a).Drained) :
    ∀ d a, (d, a) ≠ (d₀, a₀) → ((σ.step s f (.ent d₀ a₀ op)).life d a).Drained := by
  intro d a hne
  show (if d = d₀ ∧ a = a₀ then _ else σ.life d a : Life).Drained
  rw [if_neg fun hx => hne (by rw [hx.1, hx.2])]
  exact h d a hne

/-- the shard is on node 1 and about to be moved. -/
def aboutToMove : Moving Nat := (Moving.start 1 [] [] : Moving Nat).run 0 id (moveBegins.map .sys)

/-- the entity is started, the shard stops, its entity is told to stop and ends, and node 2 starts the shard and the
entity. -/
def movedInTime : List (MovOp Nat) :=
  [.ent 1 0 (.request firstRequest true), .ent 1 0 (.comesUp ⟨5, 9, 0⟩), .ent 1 0 .take,
   .sys (.deliver 1 (.reallocating 0)), .sys (.deliver 2 (.reallocating 0)), .sys (.deliver 1 (.stop 0 1)),
   .sys (.host 1 (.stopDone { s := 0, a := 0, req := some { origin := 1, rid := 0 } })),
   .ent 1 0 .sweep, .ent 1 0 (.ends 5 0), .sys (.ack 0 1), .sys (.deliver 2 (.allocated 0 2)), .ent 2 0 (.comesUp ⟨5, 9, 0⟩)]

theorem Sys.deliver_ne {f : R → Nat} {w : Sys R} {d : Nat} {m : HMsg} (d' : Nat) (h : d' ≠ d) :
    (w.next f (.deliver d m)).host d' = w.host d' := by
  simp only [Sys.next]
  split
  · rw [Sys.host_step_ne h]; rfl
  · rfl

theorem Sys.local_ne {f : R → Nat} {w : Sys R} {d : Nat} {op : HostOp R} (d' : Nat) (h : d' ≠ d) :
    (w.next f (.host d op)).host d' = w.host d' := by
  simp only [Sys.next]
  split
  · exact Sys.host_step_ne h
  · rfl

theorem Sys.ack_host {f : R → Nat} {w : Sys R} {s n d : Nat} : (w.next f (.ack s n)).host d = w.host d := by
  simp only [Sys.next]
  split <;> rfl

def LifeOp.isStart : LifeOp → Bool
  | .start .. => true
  | _ => false

theorem moved_in_time_careful : (Moving.start 1 [] [] : Moving Nat).CarefulRun 0 id 5 (moveBegins.map .sys ++ movedInTime) := by
  refine Moving.careful_quiet (fun d a => ⟨rfl, by simp [Moving.start]⟩) rfl (Sys.orderly_prefix move_orderly) fun hd => ?_
  have h0 : ∀ d a, (d, a) ≠ (1, 0) → (aboutToMove.life d a).Drained := fun d a _ => hd d a
  have h3 := Moving.settled_ent (s := 0) (f := id) (op := .take) (Moving.settled_ent (s := 0) (f := id)
    (op := .comesUp ⟨5, 9, 0⟩) (Moving.settled_ent (s := 0) (f := id) (op := .request firstRequest true) h0))
  have n4 := Sys.no_new (s := 0) (Sys.deliver_ne (f := id) (w := (aboutToMove.run 0 id (movedInTime.take 3)).sys) (d := 1)
    (m := .reallocating 0)) (by decide)
  have h4 := Moving.settled_sys h3 n4
  have n5 := Sys.no_new (s := 0) (Sys.deliver_ne (f := id) (w := (aboutToMove.run 0 id (movedInTime.take 4)).sys) (d := 2)
    (m := .reallocating 0)) (by decide)
  have h5 := Moving.settled_sys h4 n5
  have n6 := Sys.no_new (s := 0) (Sys.deliver_ne (f := id) (w := (aboutToMove.run 0 id (movedInTime.take 5)).sys) (d := 1)
    (m := .stop 0 1)) (by decide)
  have h6 := Moving.settled_sys h5 n6
  have n7 := Sys.no_new (s := 0) (Sys.local_ne (f := id) (w := (aboutToMove.run 0 id (movedInTime.take 6)).sys) (d := 1)
    (op := .stopDone { s := 0, a := 0, req := some { origin := 1, rid := 0 } })) (by decide)
  have h7 := Moving.settled_sys h6 n7
  have h9 := Moving.settled_ent (s := 0) (f := id) (op := .ends 5 0) (Moving.settled_ent (s := 0) (f := id) (op := .sweep) h7)
  have all9 : ∀ d a, ((aboutToMove.run 0 id (movedInTime.take 9)).life d a).Drained := by
    intro d a
    by_cases hx : (d, a) = (1, 0)
    · simp only [Prod.mk.injEq] at hx
      rw [hx.1, hx.2]
      unfold Life.Drained
      decide
    · exact h9 d a hx
  have n10 : ¬ ∃ d a, (aboutToMove.run 0 id (movedInTime.take 9)).sys.has 0 d a = false ∧
      ((aboutToMove.run 0 id (movedInTime.take 9)).sys.next id (.ack 0 1)).has 0 d a = true :=
    Sys.no_new (d := 1) (fun d _ => Sys.ack_host) (fun p hp => by rw [Sys.ack_host] at hp; exact hp)
  have h10 := Moving.settled_sys h9 n10
  have all10 : ∀ d a, ((aboutToMove.run 0 id (movedInTime.take 10)).life d a).Drained := by
    intro d a
    by_cases hx : (d, a) = (1, 0)
    · simp only [Prod.mk.injEq] at hx
      rw [hx.1, hx.2]
      unfold Life.Drained
      decide
    · exact h10 d a hx
  have no : ∀ {σ : Moving Nat} {d a : Nat} {op : LifeOp}, op.isStart = false → σ.Careful 0 id 5 (.ent d a op) :=
    fun h c ok hx => by rw [hx] at h; cases h
  refine ⟨no rfl, no rfl, no rfl, ⟨trivial, fun h => absurd h n4⟩,
    ⟨trivial, fun h => absurd h n5⟩, ⟨trivial, fun h => absurd h n6⟩, ⟨trivial, fun h => absurd h n7⟩, no rfl,
    no rfl, ⟨trivial, fun _ => all9⟩, ⟨trivial, fun _ => all10⟩, no rfl, trivial⟩

/-- and at its end the entity is running on node 2. -/
example : ((Moving.start 1 [] [] : Moving Nat).run 0 id (moveBegins.map .sys ++ movedInTime)).Runs 2 0 5 0 ∧
    ((Moving.start 1 [] [] : Moving Nat).run 0 id (moveBegins.map .sys ++ movedInTime.take 3)).Runs 1 0 5 0 := by
  unfold Moving.Runs
  decide

end Verif.Sharding
