import Verif.Remote.GossipModel
import Verif.Remote.CodecProps
import Verif.Remote.NodeStoreProps
import Verif.Remote.HeartbeatProps

/-!
# Lemmas on what nodes tell each other
-/

namespace Verif.Remote.Gossip
open Verif.Proto
open Verif.Proto.Network (RemoteNode NodeIdentity SessionHandshake SystemCapabilities)

/-! ### Ports -/

theorem afterColon_self {l : List Char} (h : ':' ∉ l) : afterColon l = l := by
  induction l with
  | nil => rfl
  | cons c cs ih =>
    simp only [List.mem_cons, not_or] at h
    simp only [afterColon, if_neg h.2, if_neg (Ne.symm h.1)]

theorem afterColon_append (a : List Char) {b : List Char} (h : ':' ∉ b) : afterColon (a ++ ':' :: b) = b := by
  induction a with
  | nil => simp [afterColon, h]
  | cons c cs ih =>
    have : ':' ∈ cs ++ ':' :: b := by simp
    simp only [List.cons_append, afterColon, if_pos this]
    exact ih

theorem afterColon_no_colon (l : List Char) : ':' ∉ afterColon l := by
  induction l with
  | nil => simp [afterColon]
  | cons c cs ih =>
    simp only [afterColon]
    split
    · exact ih
    · rename_i h
      split
      · exact h
      · rename_i h'
        simp only [List.mem_cons, not_or]
        exact ⟨fun e => h' e.symm, h⟩

theorem portOf_join (ip p : String) (h : ':' ∉ p.toList) : portOf (ip ++ ":" ++ p) = p := by
  have e : (ip ++ ":" ++ p).toList = ip.toList ++ ':' :: p.toList := by simp
  rw [portOf, e, afterColon_append _ h]
  simp

theorem portOf_no_colon (a : String) : ':' ∉ (portOf a).toList := by
  rw [portOf, String.toList_ofList]
  exact afterColon_no_colon _

/-! ### Conversions -/

theorem mapM_map_some {α β γ : Type} (g : α → β) (f : β → Option γ) (k : α → γ) {l : List α}
    (h : ∀ a ∈ l, f (g a) = some (k a)) : (l.map g).mapM f = some (l.map k) := by
  induction l with
  | nil => rfl
  | cons a l ih =>
    rw [List.map_cons, List.mapM_cons, h a (by simp), ih (fun b hb => h b (by simp [hb]))]
    rfl

theorem fromIdentity_identityOf (n : Node) (ps : List Node) (v : String) (caps : SystemCapabilities) (h : n.Valid) :
    Node.fromIdentity (identityOf n ps v caps) = some n := by
  obtain ⟨id, addr, tag, st, attrs⟩ := n
  obtain ⟨h1, h2⟩ := h
  cases st with
  | none => simp [Node.fromIdentity, identityOf, collectMap_eq h2]
  | some t => simp [Node.fromIdentity, identityOf, collectMap_eq h2, Time.ofTimestamp_toTimestamp t (h1 t rfl)]

theorem readIdentity_identityOf (n : Node) (ps : List Node) (v : String) (caps : SystemCapabilities) (h : n.Valid)
    (hp : ∀ p ∈ ps, p.Valid) : readIdentity (identityOf n ps v caps) = some (n, ps) := by
  have e : (identityOf n ps v caps).peers.mapM Node.fromProto = some ps := by
    have := mapM_map_some Node.toProto Node.fromProto id (l := ps) (fun a ha => Node.fromProto_toProto a (hp a ha))
    simpa [identityOf] using this
  simp only [readIdentity, fromIdentity_identityOf n ps v caps h, e]

theorem readHandshake_handshakeOf (c : Conf) (self : UInt64) (ip : String) (n : Node) (ks : List Node) (tr : String) (k : Int32)
    (hk : ∀ p ∈ ks, p.Valid) : readHandshake c self ip (handshakeOf n ks tr k) =
      some ((ks.filter fun p => p.id ≠ self).map fun p => { p with addr := shakenAddr c self ip n.id p.id p.addr }) := by
  have e : (handshakeOf n ks tr k).nodes.filter (fun p => decide (p.nodeId ≠ self)) =
      (ks.filter fun p => p.id ≠ self).map Node.toProto := by
    simp only [handshakeOf, List.filter_map]
    rfl
  rw [readHandshake, e]
  apply mapM_map_some
  intro a ha
  rw [readShaken, Node.fromProto_toProto a (hk a (List.mem_filter.1 ha).1)]
  rfl

theorem identityOf_ok {n : Node} {ps : List Node} {v : String} {caps : SystemCapabilities} (h : n.Valid)
    (hp : ∀ p ∈ ps, p.Valid) : (identityOf n ps v caps).Ok := by
  refine ⟨?_, h.2⟩
  intro x hx
  obtain ⟨p, hm, rfl⟩ := List.mem_map.1 hx
  exact (hp p hm).2

theorem handshakeOf_ok {n : Node} {ps : List Node} {tr : String} {k : Int32} (hp : ∀ p ∈ ps, p.Valid) :
    (handshakeOf n ps tr k).Ok := by
  intro x hx
  obtain ⟨p, hm, rfl⟩ := List.mem_map.1 hx
  exact (hp p hm).2

/-! ### Frames -/

/-- an identity frame written by a node with own account `n`. -/
structure IdFrame (bs : Bytes) (n : Node) (ps : List Node) (v : String) (caps : SystemCapabilities) : Prop where
  written : ClientEvent.write (.identity (identityOf n ps v caps)) = some bs
  fits : bs.length ≤ maxFrame
  valid : n.Valid
  validPeers : ∀ p ∈ ps, p.Valid

/-- a handshake frame written by a node with own account `n`. -/
structure HsFrame (bs : Bytes) (n : Node) (ks : List Node) (tr : String) (k : Int32) : Prop where
  written : SessionEvent.write (.handshake (handshakeOf n ks tr k)) = some bs
  fits : bs.length ≤ maxFrame
  valid : ∀ p ∈ ks, p.Valid

theorem IdFrame.accounts {bs : Bytes} {n : Node} {ps : List Node} {v : String} {caps : SystemCapabilities}
    (h : IdFrame bs n ps v caps) (c : Conf) (x : UInt64) : Told.accounts c (.identity x bs) = some [n] := by
  have hr := C20_client_event_roundtrip (.identity (identityOf n ps v caps)) bs (identityOf_ok h.valid h.validPeers)
    h.written (by have := h.fits; simp only [maxFrame] at this; omega)
  simp only [Told.accounts, hr, readIdentity_identityOf n ps v caps h.valid h.validPeers]
  rfl

theorem HsFrame.accounts {bs : Bytes} {n : Node} {ks : List Node} {tr : String} {k : Int32}
    (h : HsFrame bs n ks tr k) (c : Conf) (y : UInt64) (ip : String) : Told.accounts c (.handshake y ip bs) =
      some ((ks.filter fun p => p.id ≠ y).map fun p => { p with addr := shakenAddr c y ip n.id p.id p.addr }) := by
  have hr := C20_session_event_roundtrip (.handshake (handshakeOf n ks tr k)) bs (handshakeOf_ok h.valid)
    h.written (by have := h.fits; simp only [maxFrame] at this; omega)
  simp only [Told.accounts, hr, readHandshake_handshakeOf c y ip n ks tr k h.valid]

/-! ### Agreement -/

/-- `a` says of a node what `own`, its own account, says, up to a host put in by an overriding node. -/
structure Same (c : Conf) (own a : Node) : Prop where
  rest : a = { own with addr := a.addr }
  addr : a.addr = own.addr ∨ (∃ z, c z = true) ∧ portOf a.addr = portOf own.addr

theorem Same.refl (c : Conf) (a : Node) : Same c a a := ⟨rfl, .inl rfl⟩

theorem Same.id {c : Conf} {own a : Node} (h : Same c own a) : a.id = own.id := by rw [h.rest]

theorem Same.valid {c : Conf} {own a : Node} (h : Same c own a) (hv : own.Valid) : a.Valid := by rw [h.rest]; exact hv

theorem Same.shaken {c : Conf} {own a : Node} (h : Same c own a) (self : UInt64) (ip : String) (sender : UInt64) :
    Same c own { a with addr := shakenAddr c self ip sender a.id a.addr } := by
  refine ⟨?_, ?_⟩
  · conv => lhs; rw [h.rest]
    exact congrArg (fun s => { own with addr := shakenAddr c self ip sender s a.addr }) (Same.id h).symm
  · unfold shakenAddr
    split
    · rename_i hc
      refine .inr ⟨⟨self, hc.1⟩, ?_⟩
      show portOf (ip ++ ":" ++ portOf a.addr) = _
      rw [portOf_join _ _ (portOf_no_colon _)]
      rcases h.addr with e | e
      · rw [e]
      · exact e.2
    · exact h.addr

theorem Same.eq {c : Conf} {own a : Node} (h : Same c own a) (hc : ∀ z, c z = false) : a = own := by
  rcases h.addr with e | e
  · rw [h.rest, e]
  · obtain ⟨⟨z, hz⟩, _⟩ := e
    rw [hc z] at hz
    cases hz

/-- `a` is an account of a running node. -/
def Agrees (c : Conf) (σ : Cluster) (a : Node) : Prop := ∃ m, σ.members a.id = some m ∧ Same c m.own a

/-- `σ'` runs the nodes of `σ`, with the same own accounts. -/
def Keeps (σ σ' : Cluster) : Prop := ∀ x m, σ.members x = some m → ∃ m', σ'.members x = some m' ∧ m'.own = m.own

theorem Keeps.refl (σ : Cluster) : Keeps σ σ := fun _ m h => ⟨m, h, rfl⟩

theorem Keeps.agrees {c : Conf} {σ σ' : Cluster} (h : Keeps σ σ') {a : Node} (ha : Agrees c σ a) : Agrees c σ' a := by
  obtain ⟨m, hm, hs⟩ := ha
  obtain ⟨m', hm', e⟩ := h _ m hm
  exact ⟨m', hm', e ▸ hs⟩

/-- what is on its way was written by a running node out of accounts that agree. -/
inductive Honest (c : Conf) (σ : Cluster) : Told → Prop
  | identity {to : UInt64} {bs : Bytes} {m : Member} {ps : List Node} {v : String} {caps : SystemCapabilities}
      (hm : σ.members m.own.id = some m) (hf : IdFrame bs m.own ps v caps) : Honest c σ (.identity to bs)
  | handshake {to : UInt64} {ip : String} {bs : Bytes} {n : Node} {ks : List Node} {tr : String} {k : Int32}
      (hk : ∀ p ∈ ks, Agrees c σ p) (hf : HsFrame bs n ks tr k) : Honest c σ (.handshake to ip bs)

theorem Keeps.honest {c : Conf} {σ σ' : Cluster} (h : Keeps σ σ') {t : Told} (ht : Honest c σ t) : Honest c σ' t := by
  cases ht with
  | identity hm hf =>
    obtain ⟨m', hm', e⟩ := h _ _ hm
    rw [← e] at hm' hf
    exact .identity hm' hf
  | handshake hk hf => exact .handshake (fun p hp => h.agrees (hk p hp)) hf

/-- what holds of one node. -/
structure MInv (c : Conf) (σ : Cluster) (x : UInt64) (m : Member) : Prop where
  own : m.own.id = x
  valid : m.own.Valid
  uniq : Assoc.Uniq m.nodes
  held : ∀ p ∈ m.nodes, p.2.acc.id = p.1 ∧ Agrees c σ p.2.acc
  heard : ∀ a ∈ m.heard, Agrees c σ a
  /-- of itself it hears and holds its own account only. -/
  heardOwn : ∀ a ∈ m.heard, a.id = x → a = m.own
  heldOwn : ∀ p ∈ m.nodes, p.1 = x → p.2.acc = m.own

structure Inv (c : Conf) (σ : Cluster) : Prop where
  members : ∀ x m, σ.members x = some m → MInv c σ x m
  told : ∀ t ∈ σ.told, Honest c σ t

theorem MInv.keeps {c : Conf} {σ σ' : Cluster} {x : UInt64} {m : Member} (h : MInv c σ x m) (hk : Keeps σ σ') :
    MInv c σ' x m :=
  { own := h.own, valid := h.valid, uniq := h.uniq
    held := fun p hp => ⟨(h.held p hp).1, hk.agrees (h.held p hp).2⟩
    heard := fun a ha => hk.agrees (h.heard a ha)
    heardOwn := h.heardOwn, heldOwn := h.heldOwn }

theorem Agrees.valid {c : Conf} {σ : Cluster} (hi : Inv c σ) {a : Node} (h : Agrees c σ a) : a.Valid := by
  obtain ⟨m, hm, hs⟩ := h
  exact hs.valid (hi.members _ _ hm).valid

theorem Cluster.put_members (σ : Cluster) (x y : UInt64) (m : Member) :
    (σ.put x m).members y = if y = x then some m else σ.members y := rfl

/-- replacing a node by one with the same own account. -/
theorem Inv.put {c : Conf} {σ : Cluster} (hi : Inv c σ) {x : UInt64} {m' : Member}
    (hk : Keeps σ (σ.put x m')) (hm : MInv c (σ.put x m') x m') : Inv c (σ.put x m') := by
  refine ⟨?_, fun t ht => hk.honest (hi.told t ht)⟩
  intro y m hy
  rw [Cluster.put_members] at hy
  split at hy
  · rename_i e
    cases hy
    exact e ▸ hm
  · exact (hi.members y m hy).keeps hk

theorem keeps_put {σ : Cluster} {x : UInt64} {m m' : Member} (hx : σ.members x = some m) (e : m'.own = m.own) :
    Keeps σ (σ.put x m') := by
  intro y n hy
  rw [Cluster.put_members]
  split
  · rename_i exy
    subst exy
    rw [hx, Option.some.injEq] at hy
    exact ⟨m', rfl, by rw [e, hy]⟩
  · exact ⟨n, hy, rfl⟩

theorem Inv.change {c : Conf} {σ : Cluster} (hi : Inv c σ) (x : UInt64) (f : Member → Member)
    (hf : ∀ m, σ.members x = some m → MInv c σ x m → (f m).own = m.own ∧ MInv c σ x (f m)) :
    Inv c (σ.change x f) := by
  unfold Cluster.change
  split
  · rename_i m hm
    obtain ⟨e, h⟩ := hf m hm (hi.members x m hm)
    have hk := keeps_put (σ := σ) (m' := f m) hm e
    exact hi.put hk (h.keeps hk)
  · exact hi

theorem MInv.add {c : Conf} {σ : Cluster} {x : UInt64} {m : Member} (h : MInv c σ x m) {a : Node} (ha : Agrees c σ a)
    (ho : a.id = x → a = m.own) : MInv c σ x (m.add a) where
  own := h.own
  valid := h.valid
  uniq := h.uniq.insert _ _
  held := by
    intro p hp
    rcases Assoc.mem_insert.1 hp with rfl | ⟨hp, _⟩
    · exact ⟨rfl, ha⟩
    · exact h.held p hp
  heard := h.heard
  heardOwn := h.heardOwn
  heldOwn := by
    intro p hp e
    rcases Assoc.mem_insert.1 hp with rfl | ⟨hp, _⟩
    · exact ho e
    · exact h.heldOwn p hp e

theorem MInv.register {c : Conf} {σ : Cluster} {x : UInt64} {m : Member} (h : MInv c σ x m) {a : Node} (ha : a ∈ m.heard) :
    MInv c σ x (m.register a) := by
  unfold Member.register
  split
  · exact h
  · exact h.add (h.heard a ha) (h.heardOwn a ha)

theorem register_own (m : Member) (a : Node) : (m.register a).own = m.own := by
  unfold Member.register; split <;> rfl

theorem mark_own (m : Member) (id : UInt64) (st : NodeStatus) : (m.mark id st).own = m.own := by
  unfold Member.mark; split <;> rfl

theorem MInv.mark {c : Conf} {σ : Cluster} {x : UInt64} {m : Member} (h : MInv c σ x m) (id : UInt64) (st : NodeStatus) :
    MInv c σ x (m.mark id st) := by
  unfold Member.mark
  split
  · exact h
  · rename_i hd hg
    have hmem := Assoc.mem_of_get hg
    exact
      { own := h.own, valid := h.valid, uniq := h.uniq.insert _ _
        held := by
          intro p hp
          rcases Assoc.mem_insert.1 hp with rfl | ⟨hp, _⟩
          · exact h.held (id, hd) hmem
          · exact h.held p hp
        heard := h.heard, heardOwn := h.heardOwn
        heldOwn := by
          intro p hp e
          rcases Assoc.mem_insert.1 hp with rfl | ⟨hp, _⟩
          · exact h.heldOwn (id, hd) hmem e
          · exact h.heldOwn p hp e }

theorem MInv.hear {c : Conf} {σ : Cluster} {x : UInt64} {m : Member} (h : MInv c σ x m) {l : List Node}
    (hl : ∀ a ∈ l, Agrees c σ a) (ho : ∀ a ∈ l, a.id = x → a = m.own) : MInv c σ x (m.hear l) :=
  { own := h.own, valid := h.valid, uniq := h.uniq, held := h.held
    heard := fun a ha => (List.mem_append.1 ha).elim (h.heard a) (hl a)
    heardOwn := fun a ha => (List.mem_append.1 ha).elim (h.heardOwn a) (ho a)
    heldOwn := h.heldOwn }

theorem Honest.accounts {c : Conf} {σ : Cluster} {t : Told} (ht : Honest c σ t) :
    ∃ l, t.accounts c = some l ∧ (∀ a ∈ l, Agrees c σ a) ∧ ∀ a ∈ l, ∀ m, σ.members t.to = some m → a.id = t.to → a = m.own := by
  cases ht with
  | @identity to bs m ps v caps hm hf =>
    refine ⟨_, hf.accounts c to, ?_, ?_⟩
    · intro a ha
      rw [List.mem_singleton.1 ha]
      exact ⟨m, hm, .refl c _⟩
    · intro a ha m' hm' e
      rw [List.mem_singleton.1 ha] at e ⊢
      rw [show m.own.id = to from e] at hm
      have : some m = some m' := hm.symm.trans hm'
      cases this; rfl
  | @handshake to ip bs n ks tr k hk hf =>
    refine ⟨_, hf.accounts c to ip, ?_, ?_⟩
    · intro a ha
      obtain ⟨p, hp, rfl⟩ := List.mem_map.1 ha
      obtain ⟨m, hm, hs⟩ := hk p (List.mem_filter.1 hp).1
      exact ⟨m, hm, hs.shaken to ip n.id⟩
    · intro a ha m' _ e
      obtain ⟨p, hp, rfl⟩ := List.mem_map.1 ha
      have := (List.mem_filter.1 hp).2
      simp only [decide_eq_true_eq] at this
      exact absurd e this

theorem Inv.send {c : Conf} {σ : Cluster} (hi : Inv c σ) (o : Option Bytes) (mk : Bytes → Told)
    (h : ∀ bs, o = some bs → bs.length ≤ maxFrame → Honest c σ (mk bs)) : Inv c (σ.send o mk) := by
  unfold Cluster.send
  split
  · rename_i bs
    split
    · rename_i hl
      have hk : Keeps σ { σ with told := σ.told ++ [mk bs] } := Keeps.refl σ
      refine ⟨fun x m hx => (hi.members x m hx).keeps hk, ?_⟩
      intro t ht
      rcases List.mem_append.1 ht with ht | ht
      · exact hk.honest (hi.told t ht)
      · rw [List.mem_singleton.1 ht]
        exact hk.honest (h bs rfl hl)
    · exact hi
  · exact hi

theorem mem_vals {m : Member} {h : Held} (hm : h ∈ m.nodes.vals) : ∃ k, (k, h) ∈ m.nodes := by
  obtain ⟨p, hp, rfl⟩ := List.mem_map.1 hm
  exact ⟨p.1, hp⟩

theorem MInv.all {c : Conf} {σ : Cluster} {x : UInt64} {m : Member} (h : MInv c σ x m) : ∀ a ∈ m.all, Agrees c σ a := by
  intro a ha
  obtain ⟨hd, hm, rfl⟩ := List.mem_map.1 ha
  obtain ⟨k, hk⟩ := mem_vals hm
  exact (h.held _ hk).2

theorem MInv.alive {c : Conf} {σ : Cluster} {x : UInt64} {m : Member} (h : MInv c σ x m) : ∀ a ∈ m.alive, Agrees c σ a := by
  intro a ha
  obtain ⟨hd, hm, rfl⟩ := List.mem_map.1 ha
  obtain ⟨k, hk⟩ := mem_vals (List.mem_filter.1 hm).1
  exact (h.held _ hk).2

theorem Inv.erase {c : Conf} {σ : Cluster} (hi : Inv c σ) (i : Nat) : Inv c { σ with told := σ.told.eraseIdx i } := by
  have hk : Keeps σ { σ with told := σ.told.eraseIdx i } := Keeps.refl σ
  exact ⟨fun x m hx => (hi.members x m hx).keeps hk, fun t ht => hk.honest (hi.told t (List.mem_of_mem_eraseIdx ht))⟩

/-- what a run is allowed to do: accounts of starting nodes are proper, and no node id comes back as another process. -/
def Plain : Op → Prop
  | .start a => a.Valid
  | .reboot _ => False
  | _ => True

theorem Inv.step {c : Conf} {σ : Cluster} (hi : Inv c σ) (op : Op) (hp : Plain op) : Inv c (σ.step c op) := by
  cases op with
  | start a =>
    simp only [Cluster.step]
    split
    · rename_i hn
      have hk : Keeps σ (σ.put a.id (.fresh a)) := by
        intro y n hy
        rw [Cluster.put_members, if_neg (by rintro rfl; rw [hn] at hy; cases hy)]
        exact ⟨n, hy, rfl⟩
      refine hi.put hk ?_
      have hag : Agrees c (σ.put a.id (.fresh a)) a := ⟨.fresh a, by simp [Cluster.put_members], .refl c a⟩
      have h0 : MInv c (σ.put a.id (.fresh a)) a.id { own := a } :=
        { own := rfl, valid := hp, uniq := Assoc.Uniq.nil
          held := by simp
          heard := by simp
          heardOwn := by simp
          heldOwn := by simp }
      exact h0.add hag (fun _ => rfl)
    · exact hi
  | reboot a => exact hp.elim
  | identify x y v caps =>
    simp only [Cluster.step]
    split
    · rename_i mx m hx hy
      have hm := hi.members y m hy
      apply hi.send
      intro bs hw hl
      exact .identity (m := m) (by rw [hm.own]; exact hy)
        ⟨hw, hl, hm.valid, fun p hp => (hm.all p hp).valid hi⟩
    · exact hi
  | shake x y ip tr k =>
    simp only [Cluster.step]
    split
    · rename_i m hx
      have hm := hi.members x m hx
      apply hi.send
      intro bs hw hl
      exact .handshake hm.alive ⟨hw, hl, fun p hp => (hm.alive p hp).valid hi⟩
    · exact hi
  | deliver i =>
    simp only [Cluster.step]
    split
    · rename_i t ht
      have htm : t ∈ σ.told := List.mem_of_getElem? ht
      obtain ⟨l, hl, hag, hown⟩ := (hi.told t htm).accounts
      have hi' := hi.erase i
      rw [hl]
      apply hi'.change
      intro m hm h
      exact ⟨rfl, h.hear (fun a ha => hag a ha) (fun a ha e => hown a ha m hm e)⟩
    · exact hi
  | lose i => exact hi.erase i
  | register x i =>
    simp only [Cluster.step]
    apply hi.change
    intro m hm h
    split
    · rename_i a ha
      exact ⟨register_own m a, h.register (List.mem_of_getElem? ha)⟩
    · exact ⟨rfl, h⟩
  | mark x id st =>
    simp only [Cluster.step]
    apply hi.change
    intro m _ h
    exact ⟨mark_own m id st, h.mark id st⟩

theorem run_snoc (c : Conf) (ops : List Op) (op : Op) : Cluster.run c (ops ++ [op]) = (Cluster.run c ops).step c op := by
  simp [Cluster.run]

theorem run_append (c : Conf) (ops ops' : List Op) :
    Cluster.run c (ops ++ ops') = ops'.foldl (Cluster.step c) (Cluster.run c ops) := by
  simp [Cluster.run]

theorem Inv.run (c : Conf) (ops : List Op) (hp : ∀ op ∈ ops, Plain op) : Inv c (Cluster.run c ops) := by
  induction ops using snoc_induction with
  | nil => exact ⟨by simp [Cluster.run], by simp [Cluster.run]⟩
  | snoc ops op ih =>
    rw [run_snoc]
    exact (ih fun o ho => hp o (by simp [ho])).step op (hp op (by simp))

/-! ### The directory and its ring -/

/-- histories of the directory in which details never change and nothing is removed. -/
structure Steady (h : RNode → Nat) (ops : List NStoreOp) : Prop where
  add : ∀ pre n post, ops = pre ++ .add n :: post → ∀ t, (NStore.run h pre).nodes.get n.id = some t → t.node = n
  update : ∀ pre s post, ops = pre ++ .update s :: post → ∃ t, (NStore.run h pre).nodes.get s.node.id = some t ∧ t.node = s.node
  keeps : ∀ id, .remove id ∉ ops

theorem Steady.nil (h : RNode → Nat) : Steady h [] := ⟨by simp, by simp, by simp⟩

theorem Steady.init {h : RNode → Nat} {ops : List NStoreOp} {op : NStoreOp} (hs : Steady h (ops ++ [op])) : Steady h ops :=
  ⟨fun pre n post e => hs.add pre n (post ++ [op]) (by rw [e]; simp),
   fun pre s post e => hs.update pre s (post ++ [op]) (by rw [e]; simp),
   fun id hm => hs.keeps id (by simp [hm])⟩

theorem Steady.snoc_add {h : RNode → Nat} {ops : List NStoreOp} (hs : Steady h ops) (n : RNode)
    (hn : ∀ t, (NStore.run h ops).nodes.get n.id = some t → t.node = n) : Steady h (ops ++ [.add n]) := by
  refine ⟨?_, ?_, ?_⟩
  · intro pre m post he
    rcases snoc_eq_append_cons he with ⟨rfl, rfl, h1⟩ | ⟨q, rfl, h1⟩
    · cases h1; exact hn
    · exact hs.add pre m q h1
  · intro pre m post he
    rcases snoc_eq_append_cons he with ⟨rfl, rfl, h1⟩ | ⟨q, rfl, h1⟩
    · cases h1
    · exact hs.update pre m q h1
  · intro id hm
    rcases List.mem_append.1 hm with hm | hm
    · exact hs.keeps id hm
    · simp at hm

theorem Steady.snoc_update {h : RNode → Nat} {ops : List NStoreOp} (hs : Steady h ops) (s : NState)
    (hn : ∃ t, (NStore.run h ops).nodes.get s.node.id = some t ∧ t.node = s.node) : Steady h (ops ++ [.update s]) := by
  refine ⟨?_, ?_, ?_⟩
  · intro pre m post he
    rcases snoc_eq_append_cons he with ⟨rfl, rfl, h1⟩ | ⟨q, rfl, h1⟩
    · cases h1
    · exact hs.add pre m q h1
  · intro pre m post he
    rcases snoc_eq_append_cons he with ⟨rfl, rfl, h1⟩ | ⟨q, rfl, h1⟩
    · cases h1; exact hn
    · exact hs.update pre m q h1
  · intro id hm
    rcases List.mem_append.1 hm with hm | hm
    · exact hs.keeps id hm
    · simp at hm

/-- the ring holds the members, some of them several times. -/
theorem steady_ring (h : RNode → Nat) (ops : List NStoreOp) (hs : Steady h ops) :
    ∃ ms, RingOf h (NStore.run h ops).ring ms ∧ ∀ n, n ∈ ms ↔ n ∈ (NStore.run h ops).members := by
  induction ops using snoc_induction with
  | nil => exact ⟨[], RingOf.nil h, fun n => Iff.rfl⟩
  | snoc ops op ih =>
    obtain ⟨ms, hr, hms⟩ := ih hs.init
    have hw := NWF.run h ops
    have hmem' := mem_members (hw.step (h := h) op)
    have hgs := get_step h _ hw op
    have hadd := hs.add ops
    have hupd := hs.update ops
    have hkeep := hs.keeps
    rw [nrun_snoc]
    generalize NStore.run h ops = σ at *
    cases op with
    | add n =>
      have hring := RingOf.foldl (h := h) (isort (fun a b => decide (a.node.id ≤ b.node.id))
        (σ.nodes.map (·.2) ++ [⟨n, .joining⟩])) (RingOf.nil h)
      refine ⟨_, hring, ?_⟩
      intro m
      have e1 : List.map NState.node (List.map Prod.snd σ.nodes ++ [NState.mk n .joining]) = σ.members ++ [n] := by
        simp [NStore.members, Function.comp_def]
      rw [List.nil_append, ((isort_perm _ _).map NState.node).mem_iff, e1, hmem', hgs]
      simp only [List.mem_append, List.mem_singleton]
      rw [mem_members hw]
      by_cases hid : n.id = m.id
      · simp only [hid, if_true, Option.some.injEq]
        constructor
        · rintro (⟨s, hs', e⟩ | rfl)
          · have := hadd n [] (by simp) s (by rw [hid]; exact hs')
            exact ⟨_, rfl, this.symm.trans e⟩
          · exact ⟨_, rfl, rfl⟩
        · rintro ⟨s, rfl, rfl⟩; exact .inr rfl
      · simp only [hid, if_false]
        constructor
        · rintro (hm | rfl)
          · exact hm
          · exact absurd rfl hid
        · exact .inl
    | update s =>
      obtain ⟨t, ht, hts⟩ := hupd s [] (by simp)
      refine ⟨ms, hr, ?_⟩
      intro m
      rw [hms, hmem', hgs, mem_members hw]
      by_cases hid : s.node.id = m.id
      · simp only [hid, if_true, Option.some.injEq]
        rw [← hid, ht]
        constructor
        · rintro ⟨x, hx, hxm⟩; cases hx; exact ⟨s, rfl, by rw [← hts, hxm]⟩
        · rintro ⟨x, rfl, hx⟩; exact ⟨t, rfl, by rw [hts, hx]⟩
      · simp only [hid, if_false]
    | terminated i =>
      refine ⟨ms, hr, ?_⟩
      intro m
      rw [hms, hmem', hgs, mem_members hw]
      by_cases hid : i = m.id
      · simp only [hid, if_true]
        constructor
        · rintro ⟨x, hx, rfl⟩
          exact ⟨{ x with status := .terminated }, by rw [hx]; rfl, rfl⟩
        · rintro ⟨x, hx, rfl⟩
          rw [Option.map_eq_some_iff] at hx
          obtain ⟨y, hy, rfl⟩ := hx
          exact ⟨y, hy, rfl⟩
      · simp only [hid, if_false]
    | remove i => exact absurd (by simp) (hkeep i)

/-- in steady histories placement depends on the members only. -/
theorem steady_placement (h : RNode → Nat) (ops ops' : List NStoreOp) (hs : Steady h ops) (hs' : Steady h ops')
    (hc : NoClash h (NStore.run h ops).members)
    (hm : ∀ n, n ∈ (NStore.run h ops).members ↔ n ∈ (NStore.run h ops').members) (k : Nat) :
    (NStore.run h ops).byKey k = (NStore.run h ops').byKey k := by
  obtain ⟨ms, hr, h1⟩ := steady_ring h ops hs
  obtain ⟨ms', hr', h2⟩ := steady_ring h ops' hs'
  have hc1 : NoClash h ms := fun a ha b hb => hc a ((h1 a).1 ha) b ((h1 b).1 hb)
  have hc2 : NoClash h ms' := fun a ha b hb => hc a ((hm a).2 ((h2 a).1 ha)) b ((hm b).2 ((h2 b).1 hb))
  have hiff : ∀ n, IsOwner h ms k n ↔ IsOwner h ms' k n := by
    intro n; unfold IsOwner; simp only [h1, h2, hm]
  apply Option.ext
  intro n
  show ringGet _ k = some n ↔ ringGet _ k = some n
  rw [ringGet_iff hr hc1, ringGet_iff hr' hc2, hiff]

/-- the directory of `NodeStoreModel`, given what the node did with it, holds what the node holds. -/
def Mirrors (h : RNode → Nat) (m : Member) : Prop :=
  ∀ id : UInt64, (NStore.run h m.log).nodes.get id.toNat = (m.nodes.get id).map fun e => ⟨rnode e.acc, e.status⟩

theorem Mirrors.add {h : RNode → Nat} {m : Member} (hm : Mirrors h m) (a : Node) : Mirrors h (m.add a) := by
  intro id
  simp only [Member.add]
  rw [nrun_snoc, get_step h _ (NWF.run h _), Assoc.get_insert]
  by_cases e : id = a.id
  · subst e; simp [rnode]
  · have : ¬ (rnode a).id = id.toNat := fun h' => e (UInt64.toNat_inj.1 h').symm
    simp only [if_neg this, if_neg e]
    exact hm id

theorem Mirrors.mark {h : RNode → Nat} {m : Member} (hm : Mirrors h m) (hk : ∀ p ∈ m.nodes, p.2.acc.id = p.1)
    (i : UInt64) (st : NodeStatus) : Mirrors h (m.mark i st) := by
  unfold Member.mark
  split
  · exact hm
  · rename_i e hg
    have hid : e.acc.id = i := hk _ (Assoc.mem_of_get hg)
    intro id
    rw [nrun_snoc, get_step h _ (NWF.run h _), Assoc.get_insert]
    by_cases e' : id = i
    · subst e'; simp [rnode, hid]
    · have : ¬ (rnode e.acc).id = id.toNat := fun h' => e' (by rw [← hid]; exact (UInt64.toNat_inj.1 h').symm)
      simp only [if_neg this, if_neg e']
      exact hm id

/-- a node whose directory follows its log, which is steady. -/
structure Tidy (h : RNode → Nat) (m : Member) : Prop where
  mirrors : Mirrors h m
  steady : Steady h m.log
  ids : ∀ k s, (NStore.run h m.log).nodes.get k = some s → ∃ id : UInt64, id.toNat = k

theorem Tidy.add {h : RNode → Nat} {m : Member} (ht : Tidy h m) (a : Node) (ha : ∀ e, m.nodes.get a.id = some e → e.acc = a) :
    Tidy h (m.add a) := by
  refine ⟨ht.mirrors.add a, ht.steady.snoc_add _ ?_, ?_⟩
  rotate_left
  · intro k s hs
    simp only [Member.add] at hs
    rw [nrun_snoc, get_step h _ (NWF.run h _)] at hs
    simp only at hs
    split at hs
    · rename_i e
      exact ⟨a.id, e⟩
    · exact ht.ids k s hs
  intro t hg
  have := ht.mirrors a.id
  rw [show (rnode a).id = a.id.toNat from rfl, this, Option.map_eq_some_iff] at hg
  obtain ⟨e, he, rfl⟩ := hg
  rw [ha e he]

theorem Tidy.mark {h : RNode → Nat} {m : Member} (ht : Tidy h m) (hk : ∀ p ∈ m.nodes, p.2.acc.id = p.1)
    (i : UInt64) (st : NodeStatus) : Tidy h (m.mark i st) := by
  refine ⟨ht.mirrors.mark hk i st, ?_, ?_⟩
  rotate_left
  · intro k s hs
    unfold Member.mark at hs
    split at hs
    · exact ht.ids k s hs
    · rename_i e hg
      rw [nrun_snoc, get_step h _ (NWF.run h _)] at hs
      simp only at hs
      split at hs
      · rename_i e'
        exact ⟨e.acc.id, e'⟩
      · exact ht.ids k s hs
  unfold Member.mark
  split
  · exact ht.steady
  · rename_i e hg
    have hid : e.acc.id = i := hk _ (Assoc.mem_of_get hg)
    apply ht.steady.snoc_update
    have := ht.mirrors i
    rw [hg] at this
    exact ⟨⟨rnode e.acc, e.status⟩, by rw [show (rnode e.acc).id = i.toNat by rw [← hid]; rfl]; exact this, rfl⟩

theorem change_members {σ : Cluster} {x y : UInt64} {f : Member → Member} {m : Member}
    (h : (σ.change x f).members y = some m) : σ.members y = some m ∨ y = x ∧ ∃ m', σ.members x = some m' ∧ m = f m' := by
  unfold Cluster.change at h
  split at h
  · rename_i m' hm'
    rw [Cluster.put_members] at h
    split at h
    · rename_i e
      exact .inr ⟨e, m', hm', (Option.some.inj h).symm⟩
    · exact .inl h
  · exact .inl h

theorem send_members (σ : Cluster) (o : Option Bytes) (mk : Bytes → Told) : (σ.send o mk).members = σ.members := by
  unfold Cluster.send; split <;> (try split) <;> rfl

/-- without overriding nodes, the directories of all nodes are tidy. -/
theorem tidy_run (c : Conf) (hc : ∀ z, c z = false) (h : RNode → Nat) (ops : List Op) (hp : ∀ op ∈ ops, Plain op)
    (x : UInt64) (m : Member) (hx : (Cluster.run c ops).members x = some m) : Tidy h m := by
  induction ops using snoc_induction generalizing x m with
  | nil => simp [Cluster.run] at hx
  | snoc ops op ih =>
    have hp' : ∀ op ∈ ops, Plain op := fun o ho => hp o (by simp [ho])
    have ih := ih hp'
    have hi := Inv.run c ops hp'
    have hop := hp op (by simp)
    rw [run_snoc] at hx
    generalize Cluster.run c ops = σ at *
    have hold : ∀ (y : UInt64) (n : Member) (a : Node), σ.members y = some n → Agrees c σ a →
        ∀ e, n.nodes.get a.id = some e → e.acc = a := by
      intro y n a hy ha e he
      obtain ⟨m1, hm1, s1⟩ := ha
      obtain ⟨he1, m2, hm2, s2⟩ := (hi.members y n hy).held _ (Assoc.mem_of_get he)
      rw [show e.acc.id = a.id from he1, hm1] at hm2
      cases hm2
      rw [s1.eq hc, s2.eq hc]
    cases op with
    | start a =>
      simp only [Cluster.step] at hx
      split at hx
      · rw [Cluster.put_members] at hx
        split at hx
        · cases hx
          have h0 : Tidy h { own := a } := ⟨fun id => rfl, .nil h, by intro k s hs; cases hs⟩
          exact h0.add a (by intro e he; cases he)
        · exact ih x m hx
      · exact ih x m hx
    | reboot a => exact hop.elim
    | identify y z v caps =>
      simp only [Cluster.step] at hx
      split at hx
      · rw [send_members] at hx; exact ih x m hx
      · exact ih x m hx
    | shake y z ip tr k =>
      simp only [Cluster.step] at hx
      split at hx
      · rw [send_members] at hx; exact ih x m hx
      · exact ih x m hx
    | deliver i =>
      simp only [Cluster.step] at hx
      split at hx
      · rcases change_members hx with hx | ⟨_, m', hm', rfl⟩
        · exact ih x m hx
        · have := ih _ m' hm'
          exact ⟨this.mirrors, this.steady, this.ids⟩
      · exact ih x m hx
    | lose i => exact ih x m hx
    | register y i =>
      rcases change_members hx with hx | ⟨_, m', hm', rfl⟩
      · exact ih x m hx
      · have ht := ih _ m' hm'
        split
        · rename_i a ha
          unfold Member.register
          split
          · exact ht
          · exact ht.add a (hold y m' a hm' ((hi.members y m' hm').heard a (List.mem_of_getElem? ha)))
        · exact ht
    | mark y id st =>
      rcases change_members hx with hx | ⟨_, m', hm', rfl⟩
      · exact ih x m hx
      · exact (ih _ m' hm').mark (fun p hp => ((hi.members y m' hm').held p hp).1) id st

/-! ### With restarts -/

/-- a set of proper accounts closed under what an overriding node does. -/
structure Closed (c : Conf) (Q : Node → Prop) : Prop where
  valid : ∀ a, Q a → a.Valid
  shaken : ∀ a, Q a → ∀ self ip sender, Q { a with addr := shakenAddr c self ip sender a.id a.addr }

inductive Made (Q : Node → Prop) : Told → Prop
  | identity {to : UInt64} {bs : Bytes} {n : Node} {ps : List Node} {v : String} {caps : SystemCapabilities}
      (hn : Q n) (hf : IdFrame bs n ps v caps) : Made Q (.identity to bs)
  | handshake {to : UInt64} {ip : String} {bs : Bytes} {n : Node} {ks : List Node} {tr : String} {k : Int32}
      (hk : ∀ p ∈ ks, Q p) (hf : HsFrame bs n ks tr k) : Made Q (.handshake to ip bs)

theorem Made.accounts {c : Conf} {Q : Node → Prop} (hq : Closed c Q) {t : Told} (ht : Made Q t) :
    ∃ l, t.accounts c = some l ∧ ∀ a ∈ l, Q a := by
  cases ht with
  | identity hn hf =>
    refine ⟨_, hf.accounts c _, ?_⟩
    intro a ha
    rw [List.mem_singleton.1 ha]; exact hn
  | handshake hk hf =>
    refine ⟨_, hf.accounts c _ _, ?_⟩
    intro a ha
    obtain ⟨p, hp, rfl⟩ := List.mem_map.1 ha
    exact hq.shaken p (hk p (List.mem_filter.1 hp).1) _ _ _

structure MFine (Q : Node → Prop) (m : Member) : Prop where
  own : Q m.own
  held : ∀ p ∈ m.nodes, p.2.acc.id = p.1 ∧ Q p.2.acc
  heard : ∀ a ∈ m.heard, Q a

structure Fine (Q : Node → Prop) (σ : Cluster) : Prop where
  members : ∀ x m, σ.members x = some m → MFine Q m
  told : ∀ t ∈ σ.told, Made Q t

theorem MFine.add {Q : Node → Prop} {m : Member} (h : MFine Q m) {a : Node} (ha : Q a) : MFine Q (m.add a) where
  own := h.own
  held := by
    intro p hp
    rcases Assoc.mem_insert.1 hp with rfl | ⟨hp, _⟩
    · exact ⟨rfl, ha⟩
    · exact h.held p hp
  heard := h.heard

theorem MFine.fresh {Q : Node → Prop} {a : Node} (ha : Q a) : MFine Q (.fresh a) :=
  MFine.add (m := { own := a }) ⟨ha, by simp, by simp⟩ ha

theorem MFine.mark {Q : Node → Prop} {m : Member} (h : MFine Q m) (id : UInt64) (st : NodeStatus) : MFine Q (m.mark id st) := by
  unfold Member.mark
  split
  · exact h
  · rename_i hd hg
    have hmem := Assoc.mem_of_get hg
    exact
      { own := h.own
        held := by
          intro p hp
          rcases Assoc.mem_insert.1 hp with rfl | ⟨hp, _⟩
          · exact h.held (id, hd) hmem
          · exact h.held p hp
        heard := h.heard }

theorem Fine.put {Q : Node → Prop} {σ : Cluster} (hi : Fine Q σ) (x : UInt64) {m : Member} (hm : MFine Q m) : Fine Q (σ.put x m) := by
  refine ⟨?_, hi.told⟩
  intro y n hy
  rw [Cluster.put_members] at hy
  split at hy
  · cases hy; exact hm
  · exact hi.members y n hy

theorem Fine.change {Q : Node → Prop} {σ : Cluster} (hi : Fine Q σ) (x : UInt64) (f : Member → Member)
    (hf : ∀ m, MFine Q m → MFine Q (f m)) : Fine Q (σ.change x f) := by
  unfold Cluster.change
  split
  · rename_i m hm
    exact hi.put x (hf m (hi.members x m hm))
  · exact hi

theorem Fine.send {Q : Node → Prop} {σ : Cluster} (hi : Fine Q σ) (o : Option Bytes) (mk : Bytes → Told)
    (h : ∀ bs, o = some bs → bs.length ≤ maxFrame → Made Q (mk bs)) : Fine Q (σ.send o mk) := by
  unfold Cluster.send
  split
  · rename_i bs
    split
    · rename_i hl
      refine ⟨hi.members, ?_⟩
      intro t ht
      rcases List.mem_append.1 ht with ht | ht
      · exact hi.told t ht
      · rw [List.mem_singleton.1 ht]; exact h bs rfl hl
    · exact hi
  · exact hi

theorem MFine.all {Q : Node → Prop} {m : Member} (h : MFine Q m) : ∀ a ∈ m.all, Q a := by
  intro a ha
  obtain ⟨hd, hm, rfl⟩ := List.mem_map.1 ha
  obtain ⟨k, hk⟩ := mem_vals hm
  exact (h.held _ hk).2

theorem MFine.alive {Q : Node → Prop} {m : Member} (h : MFine Q m) : ∀ a ∈ m.alive, Q a := by
  intro a ha
  obtain ⟨hd, hm, rfl⟩ := List.mem_map.1 ha
  obtain ⟨k, hk⟩ := mem_vals (List.mem_filter.1 hm).1
  exact (h.held _ hk).2

theorem Fine.step {c : Conf} {Q : Node → Prop} (hq : Closed c Q) {σ : Cluster} (hi : Fine Q σ) (op : Op)
    (hb : ∀ a, op = .start a ∨ op = .reboot a → Q a) : Fine Q (σ.step c op) := by
  cases op with
  | start a =>
    simp only [Cluster.step]
    split
    · exact hi.put _ (.fresh (hb a (.inl rfl)))
    · exact hi
  | reboot a => exact hi.change _ _ (fun m _ => .fresh (hb a (.inr rfl)))
  | identify x y v caps =>
    simp only [Cluster.step]
    split
    · rename_i mx m hx hy
      have hm := hi.members y m hy
      exact hi.send _ _ (fun bs hw hl => .identity hm.own ⟨hw, hl, hq.valid _ hm.own, fun p hp => hq.valid p (hm.all p hp)⟩)
    · exact hi
  | shake x y ip tr k =>
    simp only [Cluster.step]
    split
    · rename_i m hx
      have hm := hi.members x m hx
      exact hi.send _ _ (fun bs hw hl => .handshake hm.alive ⟨hw, hl, fun p hp => hq.valid p (hm.alive p hp)⟩)
    · exact hi
  | deliver i =>
    simp only [Cluster.step]
    split
    · rename_i t ht
      obtain ⟨l, hl, hag⟩ := (hi.told t (List.mem_of_getElem? ht)).accounts hq
      rw [hl]
      have hi' : Fine Q { σ with told := σ.told.eraseIdx i } :=
        ⟨hi.members, fun t ht => hi.told t (List.mem_of_mem_eraseIdx ht)⟩
      exact hi'.change _ _ (fun m h => ⟨h.own, h.held, fun a ha => (List.mem_append.1 ha).elim (h.heard a) (hag a)⟩)
    · exact hi
  | lose i => exact ⟨hi.members, fun t ht => hi.told t (List.mem_of_mem_eraseIdx ht)⟩
  | register x i =>
    refine hi.change _ _ (fun m h => ?_)
    split
    · rename_i a ha
      unfold Member.register
      split
      · exact h
      · exact h.add (h.heard a (List.mem_of_getElem? ha))
    · exact h
  | mark x id st => exact hi.change _ _ (fun m h => h.mark id st)

theorem Fine.run {c : Conf} {Q : Node → Prop} (hq : Closed c Q) (ops : List Op)
    (hb : ∀ a, .start a ∈ ops ∨ .reboot a ∈ ops → Q a) : Fine Q (Cluster.run c ops) := by
  induction ops using snoc_induction with
  | nil => exact ⟨by simp [Cluster.run], by simp [Cluster.run]⟩
  | snoc ops op ih =>
    rw [run_snoc]
    refine (ih fun a ha => hb a (by simp only [List.mem_append]; exact ha.imp .inl .inl)).step hq op ?_
    intro a ha
    exact hb a (by rcases ha with rfl | rfl <;> simp)

end Verif.Remote.Gossip
