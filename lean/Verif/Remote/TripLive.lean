import Verif.Remote.TripLemmas

namespace Verif.Remote.Trip
open Verif.Proto

variable {S P : Type}

/-! ### Links whose frames all fit -/

structure LinkInv (lim : Nat) (l : Link) : Prop where
  ci : ∃ ws, CInv lim ws l.client
  ri : RInv l.client
  loop : l.client.st = .connected → 1 ≤ l.client.loops

theorem loop_step (lim : Nat) (σ : Client) (op : ClientOp) (h : σ.st = .connected → 1 ≤ σ.loops) :
    (σ.step lim op).st = .connected → 1 ≤ (σ.step lim op).loops := by
  have hd : ∀ τ : Client, τ.disconnected.st ≠ .connected := by
    intro τ
    unfold Client.disconnected
    split
    · split <;> simp
    · simp
    · rename_i h; simp [h]
    · rename_i h; simp [h]
  cases op with
  | breakLink => exact h
  | write bs =>
    simp only [Client.step, Client.write]
    split
    · rename_i hs; intro h'; simp [Client.buffer, hs] at h'
    · split
      · exact h
      · exact fun h' => absurd h' (hd _)
    · exact fun h' => absurd h' (hd _)
    · exact h
  | loopEnds =>
    simp only [Client.step]
    split
    · exact h
    · split
      · exact h
      · exact fun h' => absurd h' (hd _)
  | connect o =>
    simp only [Client.step, Client.connect]
    split
    · exact h
    · split
      · exact h
      · exact h
      · cases o with
        | failed => exact fun h' => absurd h' (hd _)
        | closedEarly => intro h'; simp at h'
        | identified lasts => intro _; simp [Client.flush]

theorem linkInv_init (lim : Nat) : LinkInv lim {} :=
  ⟨⟨[], by constructor <;> simp [Client.init]⟩, by constructor <;> simp [Client.init], by simp [Client.init]⟩

theorem linkInv_does {lim : Nat} {l : Link} (h : LinkInv lim l) (op : ClientOp)
    (hs : ∀ bs, op = .write bs → bs.length ≤ lim) : LinkInv lim (l.does lim op) := by
  obtain ⟨ws, hc⟩ := h.ci
  exact ⟨⟨_, hc.step op hs⟩, h.ri.step lim op, loop_step lim _ op h.loop⟩

theorem linkInv_net {lim : Nat} {l : Link} (h : LinkInv lim l) (e : Net) : LinkInv lim (l.net lim e) := by
  cases e with
  | connect o => exact linkInv_does h _ (by simp)
  | broken => exact linkInv_does h _ (by simp)
  | ended => exact linkInv_does h _ (by simp)
  | removed => simp only [Link.net]; split <;> exact ⟨h.ci, h.ri, h.loop⟩

theorem linkInv_write {lim : Nat} {l : Link} (h : LinkInv lim l) (bs : Bytes) (hs : bs.length ≤ lim) :
    LinkInv lim (l.write lim bs) := by
  unfold Link.write
  split
  · exact linkInv_does h _ (by rintro _ ⟨rfl⟩; exact hs)
  · exact h

theorem linkInv_of {lim : Nat} {l l' : Link} (h : LinkInv lim l) (e : l'.client = l.client) :
    LinkInv lim l' := ⟨by rw [e]; exact h.ci, by rw [e]; exact h.ri, by rw [e]; exact h.loop⟩

/-! ### Giving up and hanging last -/

theorem alive_does {lim : Nat} {l : Link} {op : ClientOp} (h : Alive (l.does lim op).client) :
    Alive l.client := by
  refine ⟨?_, fun hst => ?_⟩
  · cases hg : l.client.gaveUp with
    | false => rfl
    | true =>
      have h1 : (l.client.step lim op).gaveUp = false := h.1
      rw [gaveUp_step lim l.client op hg] at h1
      cases h1
  · have := (C25_closed_early_hangs lim l.client hst [op]).1
    exact h.2 this

theorem alive_net {lim : Nat} {l : Link} {e : Net} (h : Alive (l.net lim e).client) : Alive l.client := by
  cases e with
  | connect o => exact alive_does h
  | broken => exact alive_does h
  | ended => exact alive_does h
  | removed => simp only [Link.net] at h; split at h <;> exact h

theorem alive_write {lim : Nat} {l : Link} {bs : Bytes} (h : Alive (l.write lim bs).client) :
    Alive l.client := by
  unfold Link.write at h
  split at h
  · exact alive_does h
  · exact h

theorem known_net {lim : Nat} {l : Link} {e : Net} (hk : l.known = true) (h : Alive (l.net lim e).client) :
    (l.net lim e).known = true := by
  have ha := alive_net h
  cases e <;> simp [Link.net, Link.does, hk, ha.1]

theorem known_write {lim : Nat} {l : Link} {bs : Bytes} (hk : l.known = true) :
    (l.write lim bs).known = true := by
  simp [Link.write, Link.does, hk]

theorem takes_of {lim : Nat} {l : Link} (hi : LinkInv lim l) (hk : l.known = true) (h : Alive l.client) :
    l.takes = true := by
  obtain ⟨ws, hc⟩ := hi.ci
  have h1 := hc.gave h.1
  have h2 := h.2
  unfold Link.takes accepts
  rw [hk]
  split <;> simp_all

/-! ### While nothing breaks nothing is lost -/

structure Steady (σ : Sys S P) : Prop where
  asks : σ.lostAsks = []
  replies : σ.lostReplies = []
  ac : σ.a.cut = []
  bc : σ.b.cut = []
  ak : σ.a.known = true
  bk : σ.b.known = true

/-- everything the two proofs below need of a state. -/
structure Good (c : Cfg S P) (s : S) (σ : Sys S P) : Prop where
  inv : Inv c s σ
  a : LinkInv c.lim σ.a
  b : LinkInv c.lim σ.b

theorem fits_prefix {c : Cfg S P} {l r : List P} (h : c.Fits (l ++ r)) : c.Fits l := by
  have hl : ∀ (u : Nat) (p : P), l[u]? = some p → (l ++ r)[u]? = some p := by
    intro u p hu
    obtain ⟨hi, _⟩ := List.getElem?_eq_some_iff.mp hu
    rw [List.getElem?_append_left hi, hu]
  exact ⟨fun u p hu => h.ask u p (hl u p hu), fun u p hu => h.good u p (hl u p hu),
    fun u p hu => h.bad u p (hl u p hu)⟩

theorem good_step {c : Cfg S P} {s : S} {σ : Sys S P} (h : Good c s σ) (o : Op P)
    (hl : c.Reads (σ.step c o).asked) (hf : c.Fits (σ.step c o).asked) : Good c s (σ.step c o) := by
  refine ⟨inv_step h.inv o hl, ?_, ?_⟩
  · cases o with
    | ask p => exact linkInv_write h.a _ (hf.ask σ.asked.length p (by simp [Sys.step, Sys.ask]))
    | aNet e => exact linkInv_net h.a e
    | bNet e => exact h.a
    | aCut k => exact linkInv_of h.a rfl
    | bCut k => exact h.a
    | aDrop k => simp only [Sys.step, Sys.aDrop]; split <;> exact linkInv_of h.a rfl
    | bDrop k => simp only [Sys.step, Sys.bDrop]; split <;> exact h.a
    | aRenew => simp only [Sys.step, Sys.aRenew]; split; exact linkInv_of (linkInv_init _) rfl; exact h.a
    | bRenew => simp only [Sys.step, Sys.bRenew]; split <;> exact h.a
    | recv k =>
      simp only [Sys.step, Sys.recv]
      split
      · exact h.a
      · split <;> exact linkInv_of h.a rfl
    | serve i =>
      simp only [Sys.step, Sys.serve]
      split
      · exact h.a
      · simp only [Sys.reply]
        split
        · split <;> exact linkInv_of h.a rfl
        · exact h.a
    | good k =>
      simp only [Sys.step, Sys.good]
      split
      · exact h.a
      · split <;> exact linkInv_of h.a rfl
    | bad k =>
      simp only [Sys.step, Sys.bad]
      split
      · exact h.a
      · split <;> exact h.a
  · cases o with
    | ask p => exact h.b
    | aNet e => exact h.b
    | bNet e => exact linkInv_net h.b e
    | aCut k => exact h.b
    | bCut k => exact linkInv_of h.b rfl
    | aDrop k => simp only [Sys.step, Sys.aDrop]; split <;> exact h.b
    | bDrop k => simp only [Sys.step, Sys.bDrop]; split <;> exact linkInv_of h.b rfl
    | aRenew => simp only [Sys.step, Sys.aRenew]; split <;> exact h.b
    | bRenew => simp only [Sys.step, Sys.bRenew]; split; exact linkInv_of (linkInv_init _) rfl; exact h.b
    | recv k =>
      simp only [Sys.step, Sys.recv]
      split
      · exact h.b
      · split <;> exact h.b
    | serve i =>
      simp only [Sys.step, Sys.serve]
      split
      · exact h.b
      · rename_i t ht
        have hta := h.inv.tasks t (List.mem_of_getElem? ht)
        have hf' : c.Fits σ.asked := by
          obtain ⟨l, h1, _⟩ := asked_step c σ (.serve i)
          rw [h1] at hf
          exact fits_prefix hf
        cases hr : (c.act σ.actor t.msg).2 with
        | ok bs =>
          simp only [Sys.reply]
          split <;> exact h.b
        | error e => exact linkInv_write h.b _ (hf'.bad _ _ hta _ _ hr)
    | good k =>
      simp only [Sys.step, Sys.good]
      split
      · exact h.b
      · split <;> exact h.b
    | bad k =>
      simp only [Sys.step, Sys.bad]
      split
      · exact h.b
      · split <;> exact linkInv_of h.b rfl

theorem good_init (c : Cfg S P) (s : S) : Good c s (Sys.init s) :=
  ⟨inv_init c s, linkInv_init _, linkInv_init _⟩

theorem good_run {c : Cfg S P} {s : S} (ops : List (Op P)) {σ : Sys S P} (h : Good c s σ)
    (hl : c.Reads (σ.run c ops).asked) (hf : c.Fits (σ.run c ops).asked) : Good c s (σ.run c ops) := by
  induction ops using snoc_induction with
  | nil => exact h
  | snoc ops o ih =>
    rw [run_snoc] at hl hf ⊢
    obtain ⟨l, h1, _⟩ := asked_step c (σ.run c ops) o
    exact good_step (ih (reads_prefix (h1 ▸ hl)) (fits_prefix (h1 ▸ hf))) o hl hf

theorem asked_grows (c : Cfg S P) (ops : List (Op P)) (σ : Sys S P) :
    ∃ l, (σ.run c ops).asked = σ.asked ++ l := by
  induction ops using snoc_induction with
  | nil => exact ⟨[], by simp [Sys.run]⟩
  | snoc ops o ih =>
    obtain ⟨l, hl⟩ := ih
    obtain ⟨l', hl', _⟩ := asked_step c (σ.run c ops) o
    exact ⟨l ++ l', by rw [run_snoc, hl', hl, List.append_assoc]⟩

theorem alive_step {c : Cfg S P} {σ : Sys S P} {o : Op P} (ho : o.cuts = false)
    (h : Alive (σ.step c o).a.client ∧ Alive (σ.step c o).b.client) : Alive σ.a.client ∧ Alive σ.b.client := by
  cases o with
  | ask p => exact ⟨alive_write h.1, h.2⟩
  | aNet e => exact ⟨alive_net h.1, h.2⟩
  | bNet e => exact ⟨h.1, alive_net h.2⟩
  | aCut k => exact h
  | bCut k => exact h
  | aDrop k => simp only [Sys.step, Sys.aDrop] at h; split at h <;> exact h
  | bDrop k => simp only [Sys.step, Sys.bDrop] at h; split at h <;> exact h
  | aRenew => simp [Op.cuts] at ho
  | bRenew => simp [Op.cuts] at ho
  | recv k =>
    simp only [Sys.step, Sys.recv] at h
    split at h
    · exact h
    · split at h <;> exact h
  | serve i =>
    simp only [Sys.step, Sys.serve] at h
    split at h
    · exact h
    · rename_i t ht
      cases hr : (c.act σ.actor t.msg).2 with
      | ok bs =>
        simp only [hr, Sys.reply] at h
        split at h <;> exact h
      | error e =>
        simp only [hr, Sys.reply] at h
        exact ⟨h.1, alive_write h.2⟩
  | good k =>
    simp only [Sys.step, Sys.good] at h
    split at h
    · exact h
    · split at h <;> exact h
  | bad k =>
    simp only [Sys.step, Sys.bad] at h
    split at h
    · exact h
    · split at h <;> exact h

theorem steady_step {c : Cfg S P} {s : S} {σ : Sys S P} (hs : Steady σ) (hg : Good c s σ) (o : Op P)
    (ho : o.cuts = false) (hf : c.Fits (σ.step c o).asked)
    (ha : Alive (σ.step c o).a.client ∧ Alive (σ.step c o).b.client) : Steady (σ.step c o) := by
  have ha0 := alive_step ho ha
  have hta := takes_of hg.a hs.ak ha0.1
  have htb := takes_of hg.b hs.bk ha0.2
  cases o with
  | ask p =>
    refine ⟨?_, hs.replies, ?_, hs.bc, known_write hs.ak, hs.bk⟩
    · simp [Sys.step, Sys.ask, hta, hs.asks]
    · simp [Sys.step, Sys.ask, (write_back _ _ _).2, hs.ac]
  | aNet e => exact ⟨hs.asks, hs.replies, by simp [Sys.step, (net_back _ _ _).2, hs.ac], hs.bc, known_net hs.ak ha.1, hs.bk⟩
  | bNet e => exact ⟨hs.asks, hs.replies, hs.ac, by simp [Sys.step, (net_back _ _ _).2, hs.bc], hs.ak, known_net hs.bk ha.2⟩
  | aCut k => simp [Op.cuts] at ho
  | bCut k => simp [Op.cuts] at ho
  | aDrop k => simpa [Sys.step, Sys.aDrop, hs.ac] using hs
  | bDrop k => simpa [Sys.step, Sys.bDrop, hs.bc] using hs
  | aRenew => simp [Op.cuts] at ho
  | bRenew => simp [Op.cuts] at ho
  | recv k =>
    simp only [Sys.step, Sys.recv]
    split
    · exact hs
    · split <;> exact ⟨hs.asks, hs.replies, hs.ac, hs.bc, hs.ak, hs.bk⟩
  | serve i =>
    have hf' : c.Fits σ.asked := by
      obtain ⟨l, h1, _⟩ := asked_step c σ (.serve i)
      rw [h1] at hf
      exact fits_prefix hf
    simp only [Sys.step, Sys.serve]
    split
    · exact hs
    · rename_i t ht
      have htk := hg.inv.tasks t (List.mem_of_getElem? ht)
      cases hr : (c.act σ.actor t.msg).2 with
      | ok bs =>
        have := hf'.good _ _ htk _ _ hr
        simp only [Sys.reply]
        rw [if_pos ⟨by simp [hs.ac], this⟩]
        exact ⟨hs.asks, hs.replies, hs.ac, hs.bc, hs.ak, hs.bk⟩
      | error e =>
        refine ⟨hs.asks, ?_, hs.ac, ?_, hs.ak, known_write hs.bk⟩
        · simp [Sys.reply, htb, hs.replies]
        · simp [Sys.reply, (write_back _ _ _).2, hs.bc]
  | good k =>
    simp only [Sys.step, Sys.good]
    split
    · exact hs
    · split <;> exact ⟨hs.asks, hs.replies, hs.ac, hs.bc, hs.ak, hs.bk⟩
  | bad k =>
    simp only [Sys.step, Sys.bad]
    split
    · exact hs
    · split <;> exact ⟨hs.asks, hs.replies, hs.ac, hs.bc, hs.ak, hs.bk⟩

theorem steady_run {c : Cfg S P} {s : S} (ops : List (Op P)) {σ : Sys S P} (hs : Steady σ)
    (hg : Good c s σ) (ho : ∀ o ∈ ops, o.cuts = false) (hl : c.Reads (σ.run c ops).asked) (hf : c.Fits (σ.run c ops).asked)
    (ha : Alive (σ.run c ops).a.client ∧ Alive (σ.run c ops).b.client) : Steady (σ.run c ops) := by
  induction ops using snoc_induction with
  | nil => exact hs
  | snoc ops o ih =>
    rw [run_snoc] at hl hf ha ⊢
    obtain ⟨l, h1, _⟩ := asked_step c (σ.run c ops) o
    have hl0 := reads_prefix (h1 ▸ hl)
    have hf0 := fits_prefix (h1 ▸ hf)
    have := ih (fun o h => ho o (List.mem_append_left _ h)) hl0 hf0 (alive_step (ho o (by simp)) ha)
    exact steady_step this (good_run ops hg hl0 hf0) o (ho o (by simp)) hf ha

/-! ### Then every call can be answered -/

theorem flush_all (lim : Nat) (l : List Bytes) (h : ∀ b ∈ l, b.length ≤ lim) :
    flushLoop lim none l = (l, [], true) := by
  induction l with
  | nil => rfl
  | cons b r ih =>
    have hb : canSend lim (((none : Option Nat) != some 0)) b = true := by
      simp [canSend, h b (by simp)]
    simp only [flushLoop]
    rw [if_pos hb]
    simp only [Option.map_none]
    rw [ih (fun b' h' => h b' (List.mem_cons_of_mem _ h'))]

/-- a living client can be brought to have written everything. -/
theorem can_flush {lim : Nat} {l : Link} (h : LinkInv lim l) (ha : Alive l.client) (hb : l.client.buf ≠ []) :
    ∃ es : List Net, let l' := es.foldl (Link.net lim) l
      l'.client.buf = [] ∧ Alive l'.client ∧ l'.back = l.back ∧
        l'.there.length = l.there.length + l.client.buf.length := by
  have key : ∀ (l : Link) (n : Nat), LinkInv lim l → Alive l.client → l.client.st = .idle n →
      (l.net lim (.connect (.identified none))).client.buf = [] ∧
      Alive (l.net lim (.connect (.identified none))).client ∧
      (l.net lim (.connect (.identified none))).back = l.back ∧
      (l.net lim (.connect (.identified none))).there.length = l.there.length + l.client.buf.length := by
    intro l n h ha hst
    obtain ⟨ws, hc⟩ := h.ci
    have hcn : ¬ l.client.connects = 0 := by have := h.ri.retry n hst; omega
    have hfl := flush_all lim l.client.buf hc.size
    simp [Link.net, Link.does, Client.step, Client.connect, hcn, hst, Client.flush, hfl, Alive, ha.1]
  obtain ⟨ws, hc⟩ := h.ci
  cases hst : l.client.st with
  | idle n => exact ⟨[.connect (.identified none)], key l n h ha hst⟩
  | connected =>
    have hlo := h.loop hst
    have hlo0 : ¬ l.client.loops = 0 := by omega
    have h1 := linkInv_net h .ended
    have h2 : (l.net lim .ended).client.st = .idle 1 ∧ (l.net lim .ended).client.buf = l.client.buf ∧
        (l.net lim .ended).client.gaveUp = false ∧ (l.net lim .ended).back = l.back ∧
        (l.net lim .ended).there = l.there := by
      simp [Link.net, Link.does, Client.step, Client.disconnected, hst, hlo0, ha.1]
    have h3 := key _ 1 h1 ⟨h2.2.2.1, by rw [h2.1]; simp⟩ h2.1
    refine ⟨[.ended, .connect (.identified none)], h3.1, h3.2.1, h3.2.2.1.trans h2.2.2.2.1, ?_⟩
    have h4 := h3.2.2.2
    rw [h2.2.1, h2.2.2.2.2] at h4
    exact h4
  | terminated => exact absurd hst (hc.gave ha.1)
  | stuck => exact absurd hst ha.2

theorem aNets (c : Cfg S P) (σ : Sys S P) (es : List Net) :
    σ.run c (es.map .aNet) = { σ with a := es.foldl (Link.net c.lim) σ.a } := by
  induction es generalizing σ with
  | nil => rfl
  | cons e es ih =>
    have := ih (σ.step c (.aNet e))
    exact this

theorem bNets (c : Cfg S P) (σ : Sys S P) (es : List Net) :
    σ.run c (es.map .bNet) = { σ with b := es.foldl (Link.net c.lim) σ.b } := by
  induction es generalizing σ with
  | nil => rfl
  | cons e es ih =>
    have := ih (σ.step c (.bNet e))
    exact this

theorem pull_head (k : Nat) (f : Bytes) (r : List (Nat × Bytes)) : pull k ((k, f) :: r) = some (f, r) := by
  simp [pull]

/-- how far everything is from its end. -/
def Sys.weight (σ : Sys S P) : Nat :=
  5 * σ.a.client.buf.length + 4 * σ.a.there.length + 3 * σ.tasks.length + σ.a.back.length +
    2 * σ.b.client.buf.length + σ.b.there.length

structure Ready (c : Cfg S P) (s : S) (σ : Sys S P) : Prop where
  good : Good c s σ
  steady : Steady σ
  alive : Alive σ.a.client ∧ Alive σ.b.client
  fits : c.Fits σ.asked
  reads : c.Reads σ.asked

theorem asked_run (c : Cfg S P) (ops : List (Op P)) (σ : Sys S P) (h : ∀ o ∈ ops, o.asks = false) :
    (σ.run c ops).asked = σ.asked := by
  induction ops generalizing σ with
  | nil => rfl
  | cons o ops ih =>
    obtain ⟨l, h1, h2⟩ := asked_step c σ o
    rw [h2 (h o (by simp)), List.append_nil] at h1
    exact (ih (σ.step c o) (fun o' h' => h o' (List.mem_cons_of_mem _ h'))).trans h1

/-- neither a connection that breaks nor a new call. -/
def calm (ops : List (Op P)) : Prop := ∀ o ∈ ops, o.cuts = false ∧ o.asks = false

theorem ready_run {c : Cfg S P} {s : S} {σ : Sys S P} (h : Ready c s σ) (ops : List (Op P))
    (hc : calm ops) (ha : Alive (σ.run c ops).a.client ∧ Alive (σ.run c ops).b.client) :
    Ready c s (σ.run c ops) := by
  have hq := asked_run c ops σ (fun o ho => (hc o ho).2)
  have hf : c.Fits (σ.run c ops).asked := by rw [hq]; exact h.fits
  have hl : c.Reads (σ.run c ops).asked := by rw [hq]; exact h.reads
  exact ⟨good_run ops h.good hl hf, steady_run ops h.steady h.good (fun o ho => (hc o ho).1) hl hf ha, ha, hf, hl⟩

theorem progress {c : Cfg S P} {s : S} {σ : Sys S P} (h : Ready c s σ) (hw : σ.weight ≠ 0) :
    ∃ ops, calm ops ∧ Ready c s (σ.run c ops) ∧ (σ.run c ops).weight < σ.weight := by
  by_cases h1 : σ.a.there = []
  · by_cases h2 : σ.tasks = []
    · by_cases h3 : σ.a.back = []
      · by_cases h4 : σ.b.there = []
        · by_cases h5 : σ.a.client.buf = []
          · by_cases h6 : σ.b.client.buf = []
            · simp [Sys.weight, h1, h2, h3, h4, h5, h6] at hw
            · obtain ⟨es, e1, e2, e3, e4⟩ := can_flush h.good.b h.alive.2 h6
              have hr := bNets c σ es
              have hc : calm (es.map (Op.bNet (P := P))) := by
                intro o ho
                obtain ⟨e, _, rfl⟩ := List.mem_map.mp ho
                exact ⟨rfl, rfl⟩
              refine ⟨_, hc, ready_run h _ hc ?_, ?_⟩
              · rw [hr]; exact ⟨h.alive.1, e2⟩
              · have hp : 0 < σ.b.client.buf.length := List.length_pos_iff.mpr h6
                rw [hr]
                simp only [Sys.weight, e1, e4, List.length_nil]
                omega
          · obtain ⟨es, e1, e2, e3, e4⟩ := can_flush h.good.a h.alive.1 h5
            have hr := aNets c σ es
            have hc : calm (es.map (Op.aNet (P := P))) := by
              intro o ho
              obtain ⟨e, _, rfl⟩ := List.mem_map.mp ho
              exact ⟨rfl, rfl⟩
            refine ⟨_, hc, ready_run h _ hc ?_, ?_⟩
            · rw [hr]; exact ⟨e2, h.alive.2⟩
            · have hp : 0 < σ.a.client.buf.length := List.length_pos_iff.mpr h5
              rw [hr]
              simp only [Sys.weight, e1, e3, e4, List.length_nil]
              omega
        · obtain ⟨⟨k, f⟩, r, hb⟩ := List.exists_cons_of_ne_nil h4
          have hc : calm [Op.bad (P := P) k] := by
            intro o ho
            rw [List.mem_singleton] at ho
            subst ho
            exact ⟨rfl, rfl⟩
          obtain ⟨x, hx, e, hxe, hf⟩ := h.good.inv.bad f (by simp [Link.all, hb])
          obtain ⟨hxa, s', hxs⟩ := h.good.inv.served x hx
          have hg : c.bad.get f = some (x.id, e) := by rw [hf]; exact h.reads.bad _ _ hxa s' e (hxs.trans hxe)
          refine ⟨_, hc, ready_run h _ hc ?_, ?_⟩
          · simp only [Sys.run, List.foldl, Sys.step, Sys.bad, hb, pull_head, hg]; exact h.alive
          · simp only [Sys.run, List.foldl, Sys.step, Sys.bad, hb, pull_head, hg, Sys.weight, List.length_cons]
            omega
      · obtain ⟨⟨k, f⟩, r, hb⟩ := List.exists_cons_of_ne_nil h3
        have hc : calm [Op.good (P := P) k] := by
          intro o ho
          rw [List.mem_singleton] at ho
          subst ho
          exact ⟨rfl, rfl⟩
        obtain ⟨x, hx, e, hxe, hf⟩ := h.good.inv.back f (by simp [hb])
        obtain ⟨hxa, s', hxs⟩ := h.good.inv.served x hx
        have hg : c.good.get f = some (x.id, e) := by rw [hf]; exact h.reads.good _ _ hxa s' e (hxs.trans hxe)
        refine ⟨_, hc, ready_run h _ hc ?_, ?_⟩
        · simp only [Sys.run, List.foldl, Sys.step, Sys.good, hb, pull_head, hg]; exact h.alive
        · simp only [Sys.run, List.foldl, Sys.step, Sys.good, hb, pull_head, hg, Sys.weight, List.length_cons]
          omega
    · obtain ⟨t, r, hb⟩ := List.exists_cons_of_ne_nil h2
      have hc : calm [Op.serve (P := P) 0] := by
        intro o ho
        rw [List.mem_singleton] at ho
        subst ho
        exact ⟨rfl, rfl⟩
      have hta := h.good.inv.tasks t (by simp [hb])
      cases hr : (c.act σ.actor t.msg).2 with
      | ok bs =>
        have hif : t.conn ∉ σ.a.cut ∧ (c.good.put (t.id, bs)).length ≤ c.lim :=
          ⟨by simp [h.steady.ac], h.fits.good _ _ hta _ _ hr⟩
        have hrun : σ.run c [Op.serve 0] = { σ with
            tasks := r
            actor := (c.act σ.actor t.msg).1
            served := σ.served ++ [⟨t.id, t.msg, .ok bs⟩]
            a := { σ.a with back := σ.a.back ++ [(t.conn, c.good.put (t.id, bs))] } } := by
          simp only [Sys.run, List.foldl, Sys.step, Sys.serve, hb, List.getElem?_cons_zero,
            List.eraseIdx_cons_zero, hr, Sys.reply]
          rw [if_pos hif]
        refine ⟨_, hc, ready_run h _ hc ?_, ?_⟩
        · rw [hrun]; exact h.alive
        · rw [hrun]
          simp only [Sys.weight, hb, List.length_append, List.length_cons, List.length_nil]
          omega
      | error e =>
        have htk := takes_of h.good.b h.steady.bk h.alive.2
        have hfit := h.fits.bad _ _ hta _ _ hr
        have hrun : σ.run c [Op.serve 0] = { σ with
            tasks := r
            actor := (c.act σ.actor t.msg).1
            served := σ.served ++ [⟨t.id, t.msg, .error e⟩]
            b := σ.b.write c.lim (c.bad.put (t.id, e)) } := by
          simp only [Sys.run, List.foldl, Sys.step, Sys.serve, hb, List.getElem?_cons_zero,
            List.eraseIdx_cons_zero, hr, Sys.reply, htk, if_true]
        have hperm := (write_flow c.lim σ.b (c.bad.put (t.id, e))).length_eq
        rw [htk] at hperm
        simp only [if_true, Link.all, List.length_append, List.length_map, List.length_singleton] at hperm
        have hgrow : σ.b.there.length ≤ (σ.b.write c.lim (c.bad.put (t.id, e))).there.length := by
          unfold Link.write Link.does
          split <;> simp
        have halive : Alive (σ.b.write c.lim (c.bad.put (t.id, e))).client := by
          have hk := h.steady.bk
          obtain ⟨hg1, hg2⟩ := h.alive.2
          obtain ⟨ws, hci⟩ := h.good.b.ci
          have hnt := hci.gave hg1
          unfold Link.write
          rw [if_pos hk]
          show Alive (σ.b.client.step c.lim (.write _))
          simp only [Client.step, Client.write]
          split
          · rename_i n hst; exact ⟨hg1, by simp [Client.buffer, hst]⟩
          · rename_i hst
            split
            · exact ⟨hg1, by simp [hst]⟩
            · simp [Client.disconnected, Client.buffer, hst, Alive, hg1]
          · rename_i hst; exact absurd hst hnt
          · rename_i hst; exact absurd hst hg2
        refine ⟨_, hc, ready_run h _ hc ?_, ?_⟩
        · rw [hrun]; exact ⟨h.alive.1, halive⟩
        · rw [hrun]
          simp only [Sys.weight, hb, List.length_cons]
          omega
  · obtain ⟨⟨k, f⟩, r, hb⟩ := List.exists_cons_of_ne_nil h1
    have hc : calm [Op.recv (P := P) k] := by
      intro o ho
      rw [List.mem_singleton] at ho
      subst ho
      exact ⟨rfl, rfl⟩
    obtain ⟨u, p, hf, hu⟩ := h.good.inv.frames f (by simp [Link.all, hb])
    have hg : c.ask.get f = some (u, p) := by rw [hf]; exact h.reads.ask u p hu
    refine ⟨_, hc, ready_run h _ hc ?_, ?_⟩
    · simp only [Sys.run, List.foldl, Sys.step, Sys.recv, hb, pull_head, hg]; exact h.alive
    · simp only [Sys.run, List.foldl, Sys.step, Sys.recv, hb, pull_head, hg, Sys.weight, List.length_cons,
        List.length_append, List.length_nil]
      omega

theorem finish {c : Cfg S P} {s : S} (n : Nat) {σ : Sys S P} (h : Ready c s σ)
    (hn : σ.weight ≤ n) : ∃ ops, calm ops ∧ Ready c s (σ.run c ops) ∧ (σ.run c ops).weight = 0 := by
  induction n generalizing σ with
  | zero => exact ⟨[], by simp [calm], h, by simpa [Sys.run] using hn⟩
  | succ n ih =>
    by_cases hw : σ.weight = 0
    · exact ⟨[], by simp [calm], h, hw⟩
    · obtain ⟨ops, h1, h2, h3⟩ := progress h hw
      obtain ⟨ops', h4, h5, h6⟩ := ih h2 (by omega)
      refine ⟨ops ++ ops', ?_, by rw [run_append]; exact h5, by rw [run_append]; exact h6⟩
      intro o ho
      rcases List.mem_append.mp ho with ho | ho
      · exact h1 o ho
      · exact h4 o ho

theorem rest_answered {c : Cfg S P} {s : S} {σ : Sys S P} (h : Ready c s σ) (hw : σ.weight = 0) (u : Nat)
    (hu : u < σ.asked.length) : (σ.rpc.done.map (·.1)).count u = 1 := by
  have h1 := h.good.inv.early u
  have h2 := h.good.inv.late u
  have z : ∀ {α : Type} {l : List α}, l.length = 0 → l = [] := fun h => List.eq_nil_of_length_eq_zero h
  have a1 : σ.a.client.buf = [] := z (by unfold Sys.weight at hw; omega)
  have a2 : σ.a.there = [] := z (by unfold Sys.weight at hw; omega)
  have a3 : σ.tasks = [] := z (by unfold Sys.weight at hw; omega)
  have a4 : σ.a.back = [] := z (by unfold Sys.weight at hw; omega)
  have a5 : σ.b.client.buf = [] := z (by unfold Sys.weight at hw; omega)
  have a6 : σ.b.there = [] := z (by unfold Sys.weight at hw; omega)
  rw [if_pos hu] at h1
  simp only [Link.all, a1, a2, a3, a4, a5, a6, h.steady.asks, h.steady.replies, Wire.ids, List.map_nil,
    List.append_nil, List.filterMap_nil, List.count_nil] at h1 h2
  omega

/-! ### What is lost stays lost -/

theorem lost_step (c : Cfg S P) (σ : Sys S P) (o : Op P) (u : Nat) (h : σ.Lost u) : (σ.step c o).Lost u := by
  have l1 : ∀ {l r : List Nat}, u ∈ l → u ∈ l ++ r := fun h => List.mem_append_left _ h
  unfold Sys.Lost at h ⊢
  cases o with
  | ask p =>
    simp only [Sys.step, Sys.ask]
    rcases h with h | h
    · left; split
      · exact h
      · exact l1 h
    · exact .inr h
  | aNet e => exact h
  | bNet e => exact h
  | aCut k => exact h
  | bCut k => exact h
  | aDrop k => simp only [Sys.step, Sys.aDrop]; split; exact h.imp l1 l1; exact h
  | bDrop k => simp only [Sys.step, Sys.bDrop]; split; exact h.imp (fun x => x) l1; exact h
  | aRenew => simp only [Sys.step, Sys.aRenew]; split; exact h.imp l1 (fun x => x); exact h
  | bRenew => simp only [Sys.step, Sys.bRenew]; split; exact h.imp (fun x => x) l1; exact h
  | recv k =>
    simp only [Sys.step, Sys.recv]
    split
    · exact h
    · split <;> exact h
  | serve i =>
    simp only [Sys.step, Sys.serve]
    split
    · exact h
    · rename_i t ht
      cases hr : (c.act σ.actor t.msg).2 with
      | ok bs =>
        simp only [Sys.reply]
        split
        · exact h
        · exact h.imp (fun x => x) l1
      | error e =>
        simp only [Sys.reply]
        refine h.imp (fun x => x) (fun x => ?_)
        split
        · exact x
        · exact l1 x
  | good k =>
    simp only [Sys.step, Sys.good]
    split
    · exact h
    · split <;> exact h
  | bad k =>
    simp only [Sys.step, Sys.bad]
    split
    · exact h
    · split <;> exact h

theorem lost_run (c : Cfg S P) (ops : List (Op P)) (σ : Sys S P) (u : Nat) (h : σ.Lost u) :
    (σ.run c ops).Lost u := by
  induction ops generalizing σ with
  | nil => exact h
  | cons o ops ih => exact ih _ (lost_step c σ o u h)

theorem lost_undone {c : Cfg S P} {s : S} {σ : Sys S P} (h : Inv c s σ) (u : Nat) (hu : σ.Lost u) :
    u < σ.asked.length ∧ (σ.rpc.done.map (·.1)).count u = 0 ∧ (σ.rpc.pending.map (·.1)).count u = 1 := by
  have h1 := h.early u
  have h2 := h.late u
  have h3 := h.pend u
  have h4 : 1 ≤ σ.lostAsks.count u + σ.lostReplies.count u := by
    rcases hu with hu | hu
    · have := List.count_pos_iff.mpr hu; omega
    · have := List.count_pos_iff.mpr hu; omega
  split at h1
  · rename_i hlt
    rw [if_pos hlt] at h3
    exact ⟨hlt, by omega, by omega⟩
  · omega

end Verif.Remote.Trip
