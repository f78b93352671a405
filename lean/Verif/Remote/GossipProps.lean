import Verif.Remote.GossipLemmas

/-!
# C96: all nodes have the same account of a node
-/

namespace Verif.Remote.Gossip
open Verif.Proto
open Verif.Proto.Network (RemoteNode NodeIdentity SessionHandshake SystemCapabilities)

/-! ### Specification -/

/-- node `z` runs and says of itself `a`. -/
def SaysOfItself (σ : Cluster) (z : UInt64) (a : Node) : Prop := ∃ m, σ.members z = some m ∧ m.own = a

/-- node `x` runs and has account `a` of node `z` in its directory. -/
def Holds (σ : Cluster) (x z : UInt64) (a : Node) : Prop := ∃ m h, σ.members x = some m ∧ m.nodes.get z = some h ∧ h.acc = a

/-- nothing restarts under the id of a running node, and nodes start with proper accounts. -/
def Ordinary (ops : List Op) : Prop := ∀ op ∈ ops, match op with
  | .start a => a.Valid
  | .reboot _ => False
  | _ => True

/-- what heartbeats go by: id, start time, status. -/
def Member.pulse (m : Member) : List HbNode :=
  m.nodes.map fun p => { id := p.2.acc.id.toNat, startedAt := (rnode p.2.acc).startedAt, status := p.2.status }

/-- which node `m` looks for the actor with hash `k` on, nodes hashed by `h`. -/
def Member.place (h : RNode → Nat) (m : Member) (k : Nat) : Option RNode := (NStore.run h m.log).byKey k

/-- the same ids are known. -/
def SameIds (m m' : Member) : Prop := ∀ id, (m.nodes.get id).isSome = (m'.nodes.get id).isSome

theorem ordinary_plain {ops : List Op} (h : Ordinary ops) : ∀ op ∈ ops, Plain op := by
  intro op ho
  have := h op ho
  cases op <;> first | exact this | trivial

/-! ### C96 -/

/-- An identity is read as it was written: the account of the node and those of its peers, all of them and in order. -/
theorem C96_identity (n : Node) (ps : List Node) (v : String) (caps : SystemCapabilities) (bs : Bytes) (hn : n.Valid)
    (hp : ∀ p ∈ ps, p.Valid) (hw : ClientEvent.write (.identity (identityOf n ps v caps)) = some bs)
    (hl : bs.length ≤ maxFrame) :
    ∃ e, ClientEvent.read bs = .ok (.identity e) ∧ readIdentity e = some (n, ps) := by
  refine ⟨_, C20_client_event_roundtrip _ bs (identityOf_ok hn hp) hw ?_, readIdentity_identityOf n ps v caps hn hp⟩
  simp only [maxFrame] at hl; omega

/-- A handshake is read as it was written, apart from the receiver itself, unless the receiver overrides addresses. -/
theorem C96_handshake (c : Conf) (self : UInt64) (ip : String) (n : Node) (ks : List Node) (tr : String) (k : Int32) (bs : Bytes)
    (hk : ∀ p ∈ ks, p.Valid) (hw : SessionEvent.write (.handshake (handshakeOf n ks tr k)) = some bs)
    (hl : bs.length ≤ maxFrame) :
    ∃ e l, SessionEvent.read bs = .ok (.handshake e) ∧ readHandshake c self ip e = some l ∧
      (c self = false → l = ks.filter fun p => decide (p.id ≠ self)) ∧
      (∀ p ∈ ks, p.id ≠ self → p.id ≠ n.id → p ∈ l) ∧
      (c self = true → ∀ p ∈ ks, p.id ≠ self → p.id = n.id → { p with addr := ip ++ ":" ++ portOf p.addr } ∈ l) := by
  refine ⟨_, _, C20_session_event_roundtrip _ bs (handshakeOf_ok hk) hw ?_,
    readHandshake_handshakeOf c self ip n ks tr k hk, ?_, ?_, ?_⟩
  · simp only [maxFrame] at hl; omega
  · intro hc
    simp [shakenAddr, hc]
  · intro p hp h1 h2
    refine List.mem_map.2 ⟨p, List.mem_filter.2 ⟨hp, by simpa using h1⟩, ?_⟩
    simp [shakenAddr, h2]
  · intro hc p hp h1 h2
    refine List.mem_map.2 ⟨p, List.mem_filter.2 ⟨hp, by simpa using h1⟩, ?_⟩
    simp [shakenAddr, h2, hc]

/-- The port of an address is what follows its last colon. -/
theorem C96_port (host port : String) (h : ':' ∉ port.toList) : portOf (host ++ ":" ++ port) = port := portOf_join host port h

/-- **C96** (no node overrides addresses, no id comes back as another process). Whatever a node has in its directory about a
node is what that node says of itself, and that node runs. -/
theorem C96_agree_partial (c : Conf) (hc : ∀ z, c z = false) (ops : List Op) (ho : Ordinary ops) (x z : UInt64) (a : Node)
    (h : Holds (Cluster.run c ops) x z a) : SaysOfItself (Cluster.run c ops) z a := by
  obtain ⟨m, e, hm, hg, rfl⟩ := h
  have hi := Inv.run c ops (ordinary_plain ho)
  obtain ⟨he, m', hm', hs⟩ := (hi.members x m hm).held _ (Assoc.mem_of_get hg)
  rw [show e.acc.id = z from he] at hm'
  exact ⟨m', hm', (hs.eq hc).symm⟩

/-- **C96** (addresses may be overridden). Whatever a node has in its directory about a node differs from what that node
says of itself in the host of the address at most; the port is the same. -/
theorem C96_override_partial (c : Conf) (ops : List Op) (ho : Ordinary ops) (x z : UInt64) (a : Node)
    (h : Holds (Cluster.run c ops) x z a) :
    ∃ o, SaysOfItself (Cluster.run c ops) z o ∧ a.id = z ∧ a.tag = o.tag ∧ a.startedAt = o.startedAt ∧
      a.attributes = o.attributes ∧ portOf a.addr = portOf o.addr := by
  obtain ⟨m, e, hm, hg, rfl⟩ := h
  have hi := Inv.run c ops (ordinary_plain ho)
  obtain ⟨he, m', hm', hs⟩ := (hi.members x m hm).held _ (Assoc.mem_of_get hg)
  rw [show e.acc.id = z from he] at hm'
  refine ⟨m'.own, ⟨m', hm', rfl⟩, he, ?_, ?_, ?_, ?_⟩
  · rw [hs.rest]
  · rw [hs.rest]
  · rw [hs.rest]
  · rcases hs.addr with e' | e'
    · rw [e']
    · exact e'.2

/-- **C96** (no restarts). Of itself a node has its own account, overriding or not. -/
theorem C96_self_partial (c : Conf) (ops : List Op) (ho : Ordinary ops) (x : UInt64) (a : Node)
    (h : Holds (Cluster.run c ops) x x a) : SaysOfItself (Cluster.run c ops) x a := by
  obtain ⟨m, e, hm, hg, rfl⟩ := h
  exact ⟨m, hm, (((Inv.run c ops (ordinary_plain ho)).members x m hm).heldOwn _ (Assoc.mem_of_get hg) rfl).symm⟩

/-- the account of some process that was started, at first or in place of another. -/
def Born (ops : List Op) (a : Node) : Prop := .start a ∈ ops ∨ .reboot a ∈ ops

theorem born_closed (c : Conf) (ops : List Op) (hv : ∀ a, Born ops a → a.Valid) :
    Closed c (fun a => ∃ o, Born ops o ∧ Same c o a) :=
  ⟨fun a ⟨o, ho, hs⟩ => hs.valid (hv o ho), fun a ⟨o, ho, hs⟩ self ip sender => ⟨o, ho, hs.shaken self ip sender⟩⟩

/-- **C96.** In any run, with restarts and overriding nodes, whatever a node has in its directory about a node is what a
process with that id said of itself when it started, up to the host of the address; and the host too, if no node overrides
addresses. No account is mixed from several. -/
theorem C96_history (c : Conf) (ops : List Op) (hv : ∀ a, Born ops a → a.Valid) (x z : UInt64) (a : Node)
    (h : Holds (Cluster.run c ops) x z a) :
    ∃ o, Born ops o ∧ o.id = z ∧ a = { o with addr := a.addr } ∧ portOf a.addr = portOf o.addr ∧
      ((∀ z, c z = false) → a = o) := by
  obtain ⟨m, e, hm, hg, rfl⟩ := h
  have hf := Fine.run (born_closed c ops hv) ops (fun a ha => ⟨a, ha, .refl c a⟩)
  obtain ⟨he, o, ho, hs⟩ := (hf.members x m hm).held _ (Assoc.mem_of_get hg)
  refine ⟨o, ho, hs.id.symm.trans he, hs.rest, ?_, hs.eq⟩
  rcases hs.addr with e' | e'
  · rw [e']
  · exact e'.2

/-- **C96.** In any run, reading what another node wrote never panics. -/
theorem C96_no_panic (c : Conf) (ops : List Op) (hv : ∀ a, Born ops a → a.Valid) :
    ∀ t ∈ (Cluster.run c ops).told, ∃ l, t.accounts c = some l := by
  intro t ht
  have hf := Fine.run (born_closed c ops hv) ops (fun a ha => ⟨a, ha, .refl c a⟩)
  obtain ⟨l, hl, _⟩ := (hf.told t ht).accounts (born_closed c ops hv)
  exact ⟨l, hl⟩

/-- **C96.** A selector by attribute takes the nodes with that attribute and no others; the other selector takes every
node. -/
theorem C96_selects (a : Node) (hu : Assoc.Uniq a.attributes) :
    Selector.all.includes a = true ∧
      ∀ k v, (Selector.attribute k v).includes a = true ↔ (k, v) ∈ a.attributes := by
  refine ⟨rfl, fun k v => ?_⟩
  simp only [Selector.includes, decide_eq_true_eq]
  exact Assoc.get_iff hu

/-- **C96** (no restarts). A node with an attribute has it for all nodes, whatever is done with addresses. -/
theorem C96_selector_partial (c : Conf) (ops : List Op) (ho : Ordinary ops) (s : Selector) (x y z : UInt64) (a b : Node)
    (ha : Holds (Cluster.run c ops) x z a) (hb : Holds (Cluster.run c ops) y z b) : s.includes a = s.includes b := by
  obtain ⟨o, ⟨m, hm, rfl⟩, _, _, _, e1, _⟩ := C96_override_partial c ops ho x z a ha
  obtain ⟨o', ⟨m', hm', rfl⟩, _, _, _, e2, _⟩ := C96_override_partial c ops ho y z b hb
  rw [hm] at hm'
  cases hm'
  cases s <;> simp [Selector.includes, e1, e2]

/-- **C96** (no restarts). Nodes for which the same nodes are healthy elect the same leader, whatever is done with
addresses. -/
theorem C96_leader_partial (env : Chrono) (c : Conf) (ops : List Op) (ho : Ordinary ops) (x y : UInt64) (m m' : Member)
    (hx : (Cluster.run c ops).members x = some m) (hy : (Cluster.run c ops).members y = some m')
    (hsame : ∀ id, (∃ h, m.nodes.get id = some h ∧ h.status = .healthy) ↔ (∃ h, m'.nodes.get id = some h ∧ h.status = .healthy)) :
    oldestHealthy env m.pulse = oldestHealthy env m'.pulse := by
  have hi := Inv.run c ops (ordinary_plain ho)
  have key : ∀ (x y : UInt64) (m m' : Member), (Cluster.run c ops).members x = some m → (Cluster.run c ops).members y = some m' →
      (∀ id, (∃ h, m.nodes.get id = some h ∧ h.status = .healthy) → (∃ h, m'.nodes.get id = some h ∧ h.status = .healthy)) →
      ∀ n ∈ m.pulse, n.status = .healthy → n ∈ m'.pulse := by
    intro x y m m' hx hy hs n hn hst
    obtain ⟨⟨k, e⟩, hp, rfl⟩ := List.mem_map.1 hn
    have hm := hi.members x m hx
    have hm' := hi.members y m' hy
    obtain ⟨e', hg', hst'⟩ := hs k ⟨e, Assoc.get_of_mem hm.uniq hp, hst⟩
    obtain ⟨h1, o, ho, s1⟩ := hm.held _ hp
    obtain ⟨h2, o', ho', s2⟩ := hm'.held _ (Assoc.mem_of_get hg')
    simp only at h1 h2 ho ho' s1 s2
    rw [h1] at ho
    rw [h2, ho] at ho'
    cases ho'
    refine List.mem_map.2 ⟨(k, e'), Assoc.mem_of_get hg', ?_⟩
    have e1 : e.acc.startedAt = e'.acc.startedAt := by rw [s1.rest, s2.rest]
    simp only [rnode, h1, h2, e1, hst'] at hst ⊢
    rw [hst]
  have hxy := key x y m m' hx hy (fun id => (hsame id).1)
  have hyx := key y x m' m hy hx (fun id => (hsame id).2)
  apply Option.ext
  intro l
  rw [oldest_iff, oldest_iff]
  constructor
  · rintro ⟨a, ha, e, hs, hmin⟩
    exact ⟨a, hxy a ha hs, e, hs, fun b hb hbs => hmin b (hyx b hb hbs) hbs⟩
  · rintro ⟨a, ha, e, hs, hmin⟩
    exact ⟨a, hyx a ha hs, e, hs, fun b hb hbs => hmin b (hxy b hb hbs) hbs⟩

/-- **C96** (no node overrides addresses, no restarts). Nodes knowing the same nodes look for an actor on the same node,
in whatever order and however often they came to know them. -/
theorem C96_placement_partial (c : Conf) (hc : ∀ z, c z = false) (h : RNode → Nat)
    (ops : List Op) (ho : Ordinary ops) (x y : UInt64) (m m' : Member)
    (hx : (Cluster.run c ops).members x = some m) (hy : (Cluster.run c ops).members y = some m')
    (hnc : NoClash h (m.all.map rnode)) (hsame : SameIds m m') (k : Nat) : m.place h k = m'.place h k := by
  have hp := ordinary_plain ho
  have hi := Inv.run c ops hp
  have t1 := tidy_run c hc h ops hp x m hx
  have t2 := tidy_run c hc h ops hp y m' hy
  -- an entry is that of an id the node holds
  have hel : ∀ (m : Member), Tidy h m → ∀ s : NState, (NStore.run h m.log).nodes.get s.node.id = some s →
      ∃ id e, m.nodes.get id = some e ∧ s.node = rnode e.acc := by
    intro m t1 s hg
    obtain ⟨id, e⟩ := t1.ids _ s hg
    rw [← e, t1.mirrors id, Option.map_eq_some_iff] at hg
    obtain ⟨d, hd, rfl⟩ := hg
    exact ⟨id, d, hd, rfl⟩
  have hin : ∀ n ∈ (NStore.run h m.log).members, n ∈ m.all.map rnode := by
    intro n hn
    obtain ⟨s, hg, rfl⟩ := (mem_members (NWF.run h _) n).1 hn
    obtain ⟨id, e, he, hn⟩ := hel m t1 s hg
    rw [hn]
    exact List.mem_map.2 ⟨e.acc, List.mem_map.2 ⟨e, List.mem_map.2 ⟨_, Assoc.mem_of_get he, rfl⟩, rfl⟩, rfl⟩
  have key : ∀ (x y : UInt64) (m m' : Member), (Cluster.run c ops).members x = some m → (Cluster.run c ops).members y = some m' →
      Tidy h m → Tidy h m' → (∀ id, (m.nodes.get id).isSome = true → (m'.nodes.get id).isSome = true) →
      ∀ n, n ∈ (NStore.run h m.log).members → n ∈ (NStore.run h m'.log).members := by
    intro x y m m' hx hy t1 t2 hs n hn
    rw [mem_members (NWF.run h _)] at hn ⊢
    obtain ⟨s, hg, rfl⟩ := hn
    obtain ⟨id, e, he, hn⟩ := hel m t1 s hg
    obtain ⟨e', he'⟩ := Option.isSome_iff_exists.1 (hs id (by rw [he]; rfl))
    obtain ⟨h1, o, ho1, s1⟩ := (hi.members x m hx).held _ (Assoc.mem_of_get he)
    obtain ⟨h2, o', ho2, s2⟩ := (hi.members y m' hy).held _ (Assoc.mem_of_get he')
    simp only at h1 h2 ho1 ho2 s1 s2
    rw [h1] at ho1
    rw [h2, ho1] at ho2
    cases ho2
    have ea : e.acc = e'.acc := by rw [s1.eq hc, s2.eq hc]
    have hm2 := t2.mirrors id
    rw [he'] at hm2
    refine ⟨⟨rnode e'.acc, e'.status⟩, ?_, ?_⟩
    · rw [show s.node.id = id.toNat by rw [hn, ← h1]; rfl]
      exact hm2
    · rw [hn, ea]
  exact steady_placement h m.log m'.log t1.steady t2.steady (fun a ha b hb => hnc a (hin a ha) b (hin b hb))
    (fun n => ⟨key x y m m' hx hy t1 t2 (fun id hs => by rw [← hsame id]; exact hs) n,
      key y x m' m hy hx t2 t1 (fun id hs => by rw [hsame id]; exact hs) n⟩) k

/-! ### What nodes can come to know -/

theorem getElem?_snoc {α : Type} (l : List α) (a : α) : (l ++ [a])[l.length]? = some a := by simp

/-- what a node heard last it can take up; it then has an account of that node, the one it heard or one it had. -/
theorem take_up {c : Conf} {σ : Cluster} {x : UInt64} {m : Member} {l : List Node} {a : Node} (hx : σ.members x = some m)
    (hh : m.heard = l) (i : Nat) (hi : l[i]? = some a) : ∃ b, Holds (σ.step c (.register x i)) x a.id b := by
  have e : (σ.step c (.register x i)).members x = some (m.register a) := by
    simp only [Cluster.step, Cluster.change, hx, Cluster.put_members, if_true, hh, hi]
  have : ∃ h, (m.register a).nodes.get a.id = some h := by
    unfold Member.register
    split
    · rename_i hk
      unfold Member.knows at hk
      split at hk
      · rename_i h hg
        exact ⟨h, hg⟩
      · cases hk
    · exact ⟨⟨a, .joining⟩, by simp [Member.add, Assoc.get_insert]⟩
  obtain ⟨h, hg⟩ := this
  exact ⟨h.acc, _, h, e, hg, rfl⟩

/-- delivering what was sent last. -/
theorem deliver_last {c : Conf} {σ : Cluster} {t : Told} {x : UInt64} {m : Member} {l : List Node} (hx : σ.members x = some m)
    (ht : t.to = x) (hl : t.accounts c = some l) :
    ∃ σ', ({ σ with told := σ.told ++ [t] } : Cluster).step c (.deliver σ.told.length) = σ' ∧
      σ'.members x = some (m.hear l) := by
  refine ⟨_, rfl, ?_⟩
  simp only [Cluster.step, getElem?_snoc, hl, Option.getD_some, Cluster.change, ht, hx, Cluster.put_members, if_true]

theorem ordinary_append {ops ops' : List Op} (h : Ordinary ops) (h' : Ordinary ops') : Ordinary (ops ++ ops') := by
  intro op ho
  rcases List.mem_append.1 ho with ho | ho
  · exact h op ho
  · exact h' op ho

/-- **C96.** Wherever the cluster is, a node can come to know any running node that can be asked: then it has an account. -/
theorem C96_can_learn (c : Conf) (ops : List Op) (ho : Ordinary ops) (x y : UInt64) (m m' : Member) (v : String)
    (caps : SystemCapabilities) (bs : Bytes) (hx : (Cluster.run c ops).members x = some m)
    (hy : (Cluster.run c ops).members y = some m')
    (hw : ClientEvent.write (.identity (identityOf m'.own m'.all v caps)) = some bs) (hl : bs.length ≤ maxFrame) :
    ∃ more a, Ordinary more ∧ Holds (Cluster.run c (ops ++ more)) x y a := by
  have hi := Inv.run c ops (ordinary_plain ho)
  have hm' := hi.members y m' hy
  have hacc := (IdFrame.accounts ⟨hw, hl, hm'.valid, fun p hp => (hm'.all p hp).valid hi⟩ c x :
    Told.accounts c (.identity x bs) = some [m'.own])
  have hown : m'.own.id = y := hm'.own
  generalize hσ : Cluster.run c ops = σ at *
  have e1 : σ.step c (.identify x y v caps) = { σ with told := σ.told ++ [.identity x bs] } := by
    simp only [Cluster.step, hx, hy, hw, Cluster.send, if_pos hl]
  obtain ⟨σ', e2, h2⟩ := deliver_last (c := c) (t := .identity x bs) hx rfl hacc
  obtain ⟨b, hb⟩ := take_up (c := c) (a := m'.own) h2 rfl m.heard.length (by simp [Member.hear])
  refine ⟨[.identify x y v caps, .deliver σ.told.length, .register x m.heard.length], b, ?_, ?_⟩
  · intro op h
    simp only [List.mem_cons, List.not_mem_nil, or_false] at h
    rcases h with rfl | rfl | rfl <;> trivial
  · rw [run_append, hσ]
    simp only [List.foldl_cons, List.foldl_nil, e1, e2]
    rw [← hown]
    exact hb

/-- **C96.** Likewise any node that a running node knows and does not take for terminated, from that node's handshake. -/
theorem C96_can_spread (c : Conf) (ops : List Op) (ho : Ordinary ops) (x y : UInt64) (m m' : Member) (ip tr : String) (k : Int32)
    (bs : Bytes) (hx : (Cluster.run c ops).members x = some m) (hy : (Cluster.run c ops).members y = some m')
    (hw : SessionEvent.write (.handshake (handshakeOf m.own m.alive tr k)) = some bs) (hl : bs.length ≤ maxFrame)
    (z : UInt64) (h : Held) (hz : m.nodes.get z = some h) (hs : h.status ≠ .terminated) (hne : z ≠ y) :
    ∃ more a, Ordinary more ∧ Holds (Cluster.run c (ops ++ more)) y z a := by
  have hi := Inv.run c ops (ordinary_plain ho)
  have hm := hi.members x m hx
  have hacc := HsFrame.accounts ⟨hw, hl, fun p hp => (hm.alive p hp).valid hi⟩ c y ip
  have hid : h.acc.id = z := (hm.held _ (Assoc.mem_of_get hz)).1
  have hin : h.acc ∈ m.alive.filter fun p => decide (p.id ≠ y) := by
    refine List.mem_filter.2 ⟨List.mem_map.2 ⟨h, List.mem_filter.2 ⟨?_, by simpa using hs⟩, rfl⟩, by simpa [hid] using hne⟩
    exact List.mem_map.2 ⟨_, Assoc.mem_of_get hz, rfl⟩
  have hmem := List.mem_map_of_mem (f := fun p : Node => { p with addr := shakenAddr c y ip m.own.id p.id p.addr }) hin
  obtain ⟨i, hilt, hget⟩ := List.mem_iff_getElem.1 hmem
  generalize hσ : Cluster.run c ops = σ at *
  have e1 : σ.step c (.shake x y ip tr k) = { σ with told := σ.told ++ [.handshake y ip bs] } := by
    simp only [Cluster.step, hx, hw, Cluster.send, if_pos hl]
  obtain ⟨σ', e2, h2⟩ := deliver_last (c := c) (t := .handshake y ip bs) hy rfl hacc
  obtain ⟨b, hb⟩ := take_up (c := c) h2 rfl (m'.heard.length + i) (by
    simp only [Member.hear]
    rw [List.getElem?_append_right (by omega), Nat.add_sub_cancel_left, List.getElem?_eq_getElem hilt, hget])
  refine ⟨[.shake x y ip tr k, .deliver σ.told.length, .register y (m'.heard.length + i)], b, ?_, ?_⟩
  · intro op h
    simp only [List.mem_cons, List.not_mem_nil, or_false] at h
    rcases h with rfl | rfl | rfl <;> trivial
  · rw [run_append, hσ]
    simp only [List.foldl_cons, List.foldl_nil, e1, e2]
    rw [← hid]
    exact hb

/-! ### Where it fails -/

def n1 : Node := ⟨1, "10.0.0.1:30101", "a", some ⟨100, 0⟩, [("role", "worker")]⟩
def n1' : Node := ⟨1, "10.0.0.1:30101", "a", some ⟨300, 0⟩, [("role", "worker")]⟩
def n2 : Node := ⟨2, "10.0.0.2:30101", "b", some ⟨200, 0⟩, []⟩
def n3 : Node := ⟨3, "10.0.0.3:30101", "c", some ⟨250, 0⟩, []⟩

/-- node 1 introduces itself to node 2 by handshake and to node 3 by its identity. -/
def introduce : List Op :=
  [.start n1, .start n2, .start n3, .shake 1 2 "172.17.0.1" "t" 0, .deliver 0, .register 2 0,
   .identify 3 1 "" {}, .deliver 0, .register 3 0]

/-- a node's account, as held by another. -/
def heldAddr (σ : Cluster) (x z : UInt64) : Option String :=
  (σ.members x).bind fun m => (m.nodes.get z).map (·.acc.addr)

/-- Node 2 overrides addresses: it and node 3 have different addresses for node 1, and would connect to different places. -/
theorem C96_override_refuted : heldAddr (Cluster.run (fun z => z == 2) introduce) 2 1 = some "172.17.0.1:30101" ∧
    heldAddr (Cluster.run (fun z => z == 2) introduce) 3 1 = some "10.0.0.1:30101" ∧
    heldAddr (Cluster.run (fun _ => false) introduce) 2 1 = some "10.0.0.1:30101" := by
  decide +kernel

/-- then nodes 2 and 3 introduce themselves to each other. -/
def introduceAll : List Op :=
  introduce ++ [.identify 2 3 "" {}, .deliver 0, .register 2 1, .identify 3 2 "" {}, .deliver 0, .register 3 1]

def ids (σ : Cluster) (x : UInt64) : List UInt64 := ((σ.members x).map fun m => m.nodes.keys).getD []

def placed (h : RNode → Nat) (σ : Cluster) (x : UInt64) (k : Nat) : Option Nat :=
  (σ.members x).bind fun m => (m.place h k).map (·.id)

/-- a hash of nodes, by address. -/
def byAddr (n : RNode) : Nat := if n.addr = "172.17.0.1:30101" then 10 else n.id

/-- Nodes 2 and 3 then know the same nodes, and look for the same actor on different nodes. -/
theorem C96_override_placement_refuted :
    (ids (Cluster.run (fun z => z == 2) introduceAll) 2).Perm [1, 2, 3] ∧
    (ids (Cluster.run (fun z => z == 2) introduceAll) 3).Perm [1, 2, 3] ∧
    placed byAddr (Cluster.run (fun z => z == 2) introduceAll) 2 1 = some 2 ∧
    placed byAddr (Cluster.run (fun z => z == 2) introduceAll) 3 1 = some 1 := by
  decide +kernel

/-- node 1 is known to node 2 when its process is replaced by another with the same id; the new one asks node 2. -/
def restart : List Op :=
  [.start n1, .start n2, .identify 2 1 "" {}, .deliver 0, .register 2 0, .reboot n1', .identify 1 2 "" {}, .deliver 0,
   .register 1 0, .shake 1 2 "10.0.0.1" "t" 0, .deliver 0, .register 2 1,
   .mark 1 1 .healthy, .mark 1 2 .healthy, .mark 2 1 .healthy, .mark 2 2 .healthy]

def led (env : Chrono) (σ : Cluster) (x : UInt64) : Option Nat := (σ.members x).bind fun m => oldestHealthy env m.pulse

def pulseOf (σ : Cluster) (x : UInt64) : Option (List HbNode) := (σ.members x).map Member.pulse

def heldStart (σ : Cluster) (x z : UInt64) : Option (Option Time) :=
  (σ.members x).bind fun m => (m.nodes.get z).map (·.acc.startedAt)

/-- A node restarted with its id before it was taken for terminated: the other node keeps the account of the old process,
although it was told of the new one, and the two nodes elect different leaders, both taking both for healthy. -/
theorem C96_reboot_refuted (env : Chrono) : heldStart (Cluster.run (fun _ => false) restart) 2 1 = some (some ⟨100, 0⟩) ∧
    heldStart (Cluster.run (fun _ => false) restart) 1 1 = some (some ⟨300, 0⟩) ∧
    led env (Cluster.run (fun _ => false) restart) 1 = some 2 ∧ led env (Cluster.run (fun _ => false) restart) 2 = some 1 := by
  refine ⟨by decide +kernel, by decide +kernel, ?_, ?_⟩
  · have e : pulseOf (Cluster.run (fun _ => false) restart) 1 =
        some [⟨2, some (200 * 2 ^ 32), .healthy, none, none⟩, ⟨1, some (300 * 2 ^ 32), .healthy, none, none⟩] := by decide +kernel
    unfold led
    unfold pulseOf at e
    obtain ⟨m, hm, e⟩ := Option.map_eq_some_iff.1 e
    rw [hm, Option.bind_some, e, oldest_iff]
    refine ⟨_, List.mem_cons_self, rfl, rfl, ?_⟩
    intro b hb _
    simp only [List.mem_cons, List.not_mem_nil, or_false] at hb
    rcases hb with rfl | rfl <;> simp [started]
  · have e : pulseOf (Cluster.run (fun _ => false) restart) 2 =
        some [⟨2, some (200 * 2 ^ 32), .healthy, none, none⟩, ⟨1, some (100 * 2 ^ 32), .healthy, none, none⟩] := by decide +kernel
    unfold led
    unfold pulseOf at e
    obtain ⟨m, hm, e⟩ := Option.map_eq_some_iff.1 e
    rw [hm, Option.bind_some, e, oldest_iff]
    refine ⟨_, List.mem_cons_of_mem _ List.mem_cons_self, rfl, rfl, ?_⟩
    intro b hb _
    simp only [List.mem_cons, List.not_mem_nil, or_false] at hb
    rcases hb with rfl | rfl <;> simp [started]

/-! ### Examples -/

theorem n_valid : n1.Valid ∧ n1'.Valid ∧ n2.Valid ∧ n3.Valid := by
  refine ⟨⟨?_, ?_⟩, ⟨?_, ?_⟩, ⟨?_, ?_⟩, ⟨?_, ?_⟩⟩ <;>
    first
    | (intro t e; cases e; simp [Time.Valid])
    | simp [MapOk, n1, n1', n2, n3]

theorem introduceAll_ordinary : Ordinary introduceAll := by
  obtain ⟨h1, _, h2, h3⟩ := n_valid
  intro op ho
  simp only [introduceAll, introduce, List.cons_append, List.nil_append, List.mem_cons, List.not_mem_nil, or_false] at ho
  rcases ho with rfl | rfl | rfl | rfl | rfl | rfl | rfl | rfl | rfl | rfl | rfl | rfl | rfl | rfl | rfl <;>
    first
    | exact h1
    | exact h2
    | exact h3
    | trivial

/-- C96_agree_partial is about something: in this run nodes 2 and 3 hold accounts of all three. -/
example : Ordinary introduceAll ∧ ids (Cluster.run (fun _ => false) introduceAll) 2 = [3, 1, 2] ∧
    ids (Cluster.run (fun _ => false) introduceAll) 3 = [2, 1, 3] :=
  ⟨introduceAll_ordinary, by decide +kernel⟩

/-- … and the hypotheses of C96_placement_partial. -/
example : placed byAddr (Cluster.run (fun _ => false) introduceAll) 2 1 = some 1 ∧
    placed byAddr (Cluster.run (fun _ => false) introduceAll) 3 1 = some 1 ∧
    placed byAddr (Cluster.run (fun _ => false) introduceAll) 2 3 = some 3 := by
  decide +kernel

/-- an identity that fits, as C96_identity and C96_can_learn ask for. -/
example : ∃ bs, ClientEvent.write (.identity (identityOf n1 [n1, n2] "v" {})) = some bs ∧ bs.length ≤ maxFrame := by
  refine ⟨_, rfl, ?_⟩
  decide +kernel

/-- a handshake that fits, as C96_handshake and C96_can_spread ask for. -/
example : ∃ bs, SessionEvent.write (.handshake (handshakeOf n1 [n1, n2] "t" 0)) = some bs ∧ bs.length ≤ maxFrame := by
  refine ⟨_, rfl, ?_⟩
  decide +kernel

example : portOf "localhost:80" = "80" ∧ portOf "[::1]:30101" = "30101" ∧ portOf "localhost" = "localhost" := by
  decide +kernel

example : Assoc.Uniq n1.attributes := by
  simp [n1, Assoc.uniq_iff]

example : (Selector.attribute "role" "worker").includes n1 = true ∧ (Selector.attribute "role" "worker").includes n2 = false := by
  decide +kernel

end Verif.Remote.Gossip
