import Verif.K8s.Model

/-!
# C99: which nodes are discovered

Specification: `Addressed` says what the address of a pod is, `Offers` that a container has a port of the wanted name and
which is the first, `Usable` that everything the code insists on is there.
-/

namespace Verif.K8s

/-- the pod can be reached at `addr`, in the way that is configured. -/
def Addressed (cfg : Config) (p : Pod) (addr : String) : Prop :=
  ∃ spec status, p.spec = some spec ∧ p.status = some status ∧
    ((cfg.address = .podIp ∧ status.podIp = some addr) ∨
      cfg.address = .hostname ∧ ∃ h s, spec.hostname = some h ∧ spec.subdomain = some s ∧ addr = h ++ "." ++ s)

/-- the container's first port of the wanted name. -/
def Offers (cfg : Config) (c : Container) (port : Port) : Prop :=
  ∃ before after, c.ports = some (before ++ port :: after) ∧ port.name = cfg.portName ∧
    ∀ q ∈ before, q.name ≠ cfg.portName

/-- everything that is unwrapped is there. -/
def Usable (cfg : Config) (p : Pod) : Prop :=
  (∃ spec status, p.spec = some spec ∧ p.status = some status ∧
    (cfg.address = .hostname → spec.hostname ≠ none ∧ spec.subdomain ≠ none)) ∧
  ∀ addr spec, Addressed cfg p addr → p.spec = some spec → ∀ c ∈ spec.containers, c.ports ≠ none

/-! ## Lemmas -/

/-- what a container adds. -/
def entry (cfg : Config) (addr : String) (c : Container) : List String :=
  match c.ports with
  | none => []
  | some ps => ((ps.find? fun p => p.name == cfg.portName).map (render addr)).toList

theorem containers_ok (cfg : Config) (addr : String) (cs : List Container) (nodes : List String)
    (h : ∀ c ∈ cs, c.ports ≠ none) : containers cfg addr cs nodes = .ok (nodes ++ cs.flatMap (entry cfg addr)) := by
  induction cs generalizing nodes with
  | nil => simp [containers]
  | cons c cs ih =>
    have hc := h c List.mem_cons_self
    have ht := fun nodes => ih nodes fun d hd => h d (List.mem_cons_of_mem _ hd)
    unfold containers
    cases hp : c.ports with
    | none => exact absurd hp hc
    | some ps =>
      simp only
      cases hf : ps.find? fun p => p.name == cfg.portName with
      | none => simp only; rw [ht]; simp [entry, hp, hf]
      | some p => simp only; rw [ht]; simp [entry, hp, hf]

theorem containers_panic (cfg : Config) (addr : String) (cs : List Container) (nodes : List String)
    (h : ∃ c ∈ cs, c.ports = none) : containers cfg addr cs nodes = .panic := by
  induction cs generalizing nodes with
  | nil => obtain ⟨c, hc, _⟩ := h; cases hc
  | cons c cs ih =>
    unfold containers
    cases hp : c.ports with
    | none => rfl
    | some ps =>
      have ht : ∃ d ∈ cs, d.ports = none := by
        obtain ⟨d, hd, h0⟩ := h
        rcases List.mem_cons.1 hd with e | hd
        · rw [e, hp] at h0; cases h0
        · exact ⟨d, hd, h0⟩
      simp only
      split <;> exact ih _ ht

/-- what a pod adds. -/
def podEntries (cfg : Config) (p : Pod) : List String :=
  match p.spec, p.status with
  | some spec, some status =>
    match addressOf cfg spec status with
    | .ok (some addr) => spec.containers.flatMap (entry cfg addr)
    | _ => []
  | _, _ => []

theorem addressed_iff (cfg : Config) (spec : PodSpec) (status : PodStatus) (addr : String) :
    addressOf cfg spec status = .ok (some addr) ↔ Addressed cfg ⟨some spec, some status⟩ addr := by
  unfold addressOf Addressed
  cases cfg.address with
  | podIp => simp
  | hostname =>
    cases hh : spec.hostname <;> cases hs : spec.subdomain <;> simp [hh, hs]
    exact eq_comm

theorem address_panic (cfg : Config) (spec : PodSpec) (status : PodStatus) :
    addressOf cfg spec status = .panic ↔ cfg.address = .hostname ∧ (spec.hostname = none ∨ spec.subdomain = none) := by
  unfold addressOf
  cases cfg.address with
  | podIp => simp
  | hostname => cases hh : spec.hostname <;> cases hs : spec.subdomain <;> simp

theorem pods_ok (cfg : Config) (ps : List Pod) (nodes : List String) (h : ∀ p ∈ ps, Usable cfg p) :
    pods cfg ps nodes = .ok (nodes ++ ps.flatMap (podEntries cfg)) := by
  induction ps generalizing nodes with
  | nil => simp [pods]
  | cons p ps ih =>
    obtain ⟨⟨spec, status, h1, h2, h3⟩, h4⟩ := h p List.mem_cons_self
    have ht := fun nodes => ih nodes fun d hd => h d (List.mem_cons_of_mem _ hd)
    obtain ⟨_, _⟩ := p
    subst h1 h2
    unfold pods
    simp only
    cases ha : addressOf cfg spec status with
    | panic =>
      obtain ⟨e1, e2⟩ := (address_panic cfg spec status).1 ha
      rcases e2 with e2 | e2
      · exact absurd e2 (h3 e1).1
      · exact absurd e2 (h3 e1).2
    | ok o =>
      cases o with
      | none => simp only; rw [ht]; simp [podEntries, ha]
      | some addr =>
        simp only
        rw [containers_ok cfg addr _ _ (h4 addr spec ((addressed_iff cfg spec status addr).1 ha) rfl)]
        simp only
        rw [ht]
        simp [podEntries, ha]

theorem pods_panic (cfg : Config) (ps : List Pod) (nodes : List String) (h : ∃ p ∈ ps, ¬ Usable cfg p) :
    pods cfg ps nodes = .panic := by
  induction ps generalizing nodes with
  | nil => obtain ⟨c, hc, _⟩ := h; cases hc
  | cons p ps ih =>
    by_cases hu : Usable cfg p
    · have ht : ∃ d ∈ ps, ¬ Usable cfg d := by
        obtain ⟨d, hd, h0⟩ := h
        rcases List.mem_cons.1 hd with e | hd
        · exact absurd (e ▸ hu) h0
        · exact ⟨d, hd, h0⟩
      have h1 := pods_ok cfg [p] nodes (by simpa using hu)
      unfold pods at h1 ⊢
      split <;> simp_all
      split <;> simp_all
      split <;> simp_all
    · obtain ⟨spec, status⟩ := p
      unfold pods
      cases spec with
      | none => rfl
      | some spec =>
        cases status with
        | none => rfl
        | some status =>
          simp only
          cases ha : addressOf cfg spec status with
          | panic => rfl
          | ok o =>
            have hnp : ¬ (cfg.address = .hostname ∧ (spec.hostname = none ∨ spec.subdomain = none)) := by
              rw [← address_panic cfg spec status, ha]; simp
            have h1 : cfg.address = .hostname → spec.hostname ≠ none ∧ spec.subdomain ≠ none := fun e =>
              ⟨fun e2 => hnp ⟨e, .inl e2⟩, fun e2 => hnp ⟨e, .inr e2⟩⟩
            have h2 : ∃ addr, o = some addr ∧ ∃ c ∈ spec.containers, c.ports = none := by
              apply Classical.byContradiction
              intro hno
              refine hu ⟨⟨spec, status, rfl, rfl, h1⟩, ?_⟩
              intro addr spec' hA hs c hc hn
              cases hs
              have := (addressed_iff cfg spec status addr).2 hA
              rw [ha] at this
              injection this with this
              exact hno ⟨addr, this, c, hc, hn⟩
            obtain ⟨addr, rfl, hc⟩ := h2
            simp only
            rw [containers_panic cfg addr _ _ hc]

theorem mem_entry (cfg : Config) (addr : String) (c : Container) (s : String) :
    s ∈ entry cfg addr c ↔ ∃ port, Offers cfg c port ∧ s = render addr port := by
  unfold entry Offers
  cases hp : c.ports with
  | none => simp
  | some ps =>
    simp only [Option.mem_toList, Option.some.injEq]
    constructor
    · intro h
      obtain ⟨port, hf, rfl⟩ := Option.map_eq_some_iff.1 h
      obtain ⟨h1, before, after, h2, h3⟩ := List.find?_eq_some_iff_append.1 hf
      exact ⟨port, ⟨before, after, h2, by simpa using h1, fun q hq => by simpa using h3 q hq⟩, rfl⟩
    · rintro ⟨port, ⟨before, after, h2, h1, h3⟩, rfl⟩
      refine Option.map_eq_some_iff.2 ⟨port, ?_, rfl⟩
      exact List.find?_eq_some_iff_append.2 ⟨by simpa using h1, before, after, h2, fun q hq => by simpa using h3 q hq⟩

/-! ## C99 -/

/-- **C99**: when everything the code insists on is there, the nodes found are those that a container of an addressed
pod offers under the wanted port name. -/
theorem C99_found_partial (cfg : Config) (list : Option String → Option (List Pod)) (ps : List Pod)
    (hl : list cfg.label = some ps) (hu : ∀ p ∈ ps, Usable cfg p) :
    ∃ nodes, discover cfg true list = .ok (some nodes) ∧
      ∀ s, s ∈ nodes ↔ ∃ p ∈ ps, ∃ addr spec c port, Addressed cfg p addr ∧ p.spec = some spec ∧ c ∈ spec.containers ∧
        Offers cfg c port ∧ s = addr ++ ":" ++ toString port.number := by
  refine ⟨ps.flatMap (podEntries cfg), by simp [discover, hl, pods_ok cfg ps [] hu], fun s => ?_⟩
  rw [List.mem_flatMap]
  constructor
  · rintro ⟨⟨spec, status⟩, hp, hs⟩
    refine ⟨_, hp, ?_⟩
    unfold podEntries at hs
    split at hs
    · rename_i sp st e1 e2
      simp only at e1 e2
      subst e1 e2
      split at hs
      · rename_i addr ha
        obtain ⟨c, hc, hs⟩ := List.mem_flatMap.1 hs
        obtain ⟨port, ho, rfl⟩ := (mem_entry cfg addr c s).1 hs
        exact ⟨addr, sp, c, port, (addressed_iff cfg sp st addr).1 ha, rfl, hc, ho, rfl⟩
      · cases hs
    · cases hs
  · rintro ⟨⟨spec, status⟩, hp, addr, sp, c, port, ha, e, hc, ho, rfl⟩
    refine ⟨_, hp, ?_⟩
    have ha' := ha
    obtain ⟨sp', st, e1, e2, _⟩ := ha'
    simp only at e e1 e2
    rw [e] at e1
    cases e1
    subst e e2
    have hA := (addressed_iff cfg sp st addr).2 ha
    simp only [podEntries, hA]
    exact List.mem_flatMap.2 ⟨c, hc, (mem_entry cfg addr c _).2 ⟨port, ho, rfl⟩⟩

/-- **C99**: exactly when discovery panics. -/
theorem C99_panic_iff (cfg : Config) (client : Bool) (list : Option String → Option (List Pod)) :
    discover cfg client list = .panic ↔ client = false ∨ ∃ ps, list cfg.label = some ps ∧ ∃ p ∈ ps, ¬ Usable cfg p := by
  cases client with
  | false => simp [discover]
  | true =>
    simp only [discover, if_true, Bool.true_eq_false, false_or]
    cases hl : list cfg.label with
    | none => simp
    | some ps =>
      simp only [Option.some.injEq, exists_eq_left']
      constructor
      · intro h
        apply Classical.byContradiction
        intro hno
        have hu : ∀ p ∈ ps, Usable cfg p := fun p hp => Classical.byContradiction fun hh => hno ⟨p, hp, hh⟩
        rw [pods_ok cfg ps [] hu] at h
        cases h
      · intro h
        rw [pods_panic cfg ps [] h]

/-- **C99**: pods without an address do not count, nor does the phase of a pod. -/
theorem C99_phase (cfg : Config) (client : Bool) (list : Option String → Option (List Pod)) (f : Option String → Option String) :
    discover cfg client (fun l => (list l).map fun ps => ps.map fun p =>
      { p with status := p.status.map fun s => { s with phase := f s.phase } }) = discover cfg client list := by
  have h : ∀ (ps : List Pod) (nodes : List String), pods cfg (ps.map fun p =>
      { p with status := p.status.map fun s => { s with phase := f s.phase } }) nodes = pods cfg ps nodes := by
    intro ps
    induction ps with
    | nil => intro _; rfl
    | cons p ps ih =>
      intro nodes
      obtain ⟨spec, status⟩ := p
      cases spec <;> cases status <;> simp only [List.map_cons, pods, Option.map_none, Option.map_some]
      simp only [addressOf, ih]
  unfold discover
  cases client with
  | false => rfl
  | true =>
    simp only
    cases list cfg.label with
    | none => rfl
    | some ps => simp only [Option.map_some, h]

/-- **C99**: the configuration from the environment: what is set counts, otherwise `app=coerce`, the port `coerce` and the
pods' IP addresses; host names are used if so said in letters of any case. -/
theorem C99_default (env : String → Option String) :
    (∀ s, env "COERCE_K8S_POD_SELECTOR" = some s → (Config.default env).label = some s) ∧
    (env "COERCE_K8S_POD_SELECTOR" = none → (Config.default env).label = some "app=coerce") ∧
    (∀ s, env "COERCE_K8S_PORT_NAME" = some s → (Config.default env).portName = some s) ∧
    (env "COERCE_K8S_PORT_NAME" = none → (Config.default env).portName = some "coerce") ∧
    ((Config.default env).address = .hostname ↔
      ∃ s, env "COERCE_K8S_ADDR_MODE" = some s ∧ s.toList.map Char.toLower = "hostname".toList) := by
  refine ⟨fun s h => congrArg (fun o => some (Option.getD o "app=coerce")) h,
    fun h => congrArg (fun o => some (Option.getD o "app=coerce")) h,
    fun s h => congrArg (fun o => some (Option.getD o "coerce")) h,
    fun h => congrArg (fun o => some (Option.getD o "coerce")) h, ?_⟩
  show addressMode (env "COERCE_K8S_ADDR_MODE") = _ ↔ _
  generalize env "COERCE_K8S_ADDR_MODE" = o
  cases o with
  | none => simp [addressMode]
  | some s =>
    show (if _ then _ else _) = _ ↔ _
    constructor
    · intro h
      by_cases hs : s.toList.map Char.toLower = "hostname".toList
      · exact ⟨s, rfl, hs⟩
      · rw [if_neg hs] at h; cases h
    · rintro ⟨s', h, hs⟩
      cases h
      exact if_pos hs

example : (Config.default fun v => if v = "COERCE_K8S_ADDR_MODE" then some "HostName" else none) =
    ⟨some "app=coerce", some "coerce", .hostname⟩ := by decide +kernel

/-- a pod with one container. -/
def podAt (ip : Option String) (phase : String) (ports : List Port) : Pod :=
  ⟨some ⟨some "a", some "b", [⟨some ports⟩]⟩, some ⟨ip, some phase⟩⟩

def byIp : Config := ⟨some "app=coerce", some "coerce", .podIp⟩

theorem podAt_usable (cfg : Config) (ip : Option String) (phase : String) (ports : List Port) :
    Usable cfg (podAt ip phase ports) := by
  refine ⟨⟨_, _, rfl, rfl, fun _ => ⟨by simp, by simp⟩⟩, ?_⟩
  intro addr spec _ hs c hc
  cases hs
  simp at hc
  simp [hc]

/-- two pods, of which one has an address, with two ports. -/
example : discover byIp true (fun l => if l = some "app=coerce" then
      some [podAt (some "10.0.0.1") "Running" [⟨some "http", 80⟩, ⟨some "coerce", 30100⟩], podAt none "Pending" []] else none)
    = .ok (some ["10.0.0.1:30100"]) := by decide +kernel

/-- A pod with a second container that declares no ports, as a sidecar does, makes discovery panic. -/
theorem C99_sidecar_refuted : ∃ p : Pod,
    Addressed byIp p "10.0.0.1" ∧
    (∃ spec c, p.spec = some spec ∧ c ∈ spec.containers ∧ Offers byIp c ⟨some "coerce", 30100⟩) ∧
    discover byIp true (fun _ => some [p]) = .panic :=
  ⟨⟨some ⟨none, none, [⟨some [⟨some "coerce", 30100⟩]⟩, ⟨none⟩]⟩, some ⟨some "10.0.0.1", some "Running"⟩⟩,
    ⟨_, _, rfl, rfl, .inl ⟨rfl, rfl⟩⟩, ⟨_, _, rfl, List.mem_cons_self, [], [], rfl, rfl, fun _ h => by cases h⟩,
    by decide +kernel⟩

/-- With host names, a pod without one (which is the rule outside of stateful sets) makes discovery panic, although the
configuration says the names are used `if set`. -/
theorem C99_hostname_refuted : ∃ spec : PodSpec, spec.hostname = none ∧
    discover ⟨some "app=coerce", some "coerce", .hostname⟩ true
      (fun _ => some [⟨some spec, some ⟨some "10.0.0.1", some "Running"⟩⟩]) = .panic :=
  ⟨⟨none, none, [⟨some [⟨some "coerce", 30100⟩]⟩]⟩, rfl, by decide +kernel⟩

/-- A pod that has ended is given as a node. -/
theorem C99_ended_refuted : discover byIp true (fun _ => some [podAt (some "10.0.0.1") "Failed" [⟨some "coerce", 30100⟩]])
    = .ok (some ["10.0.0.1:30100"]) := by decide +kernel

/-- An error of the API is given as a cluster without nodes. -/
theorem C99_error_refuted (cfg : Config) : discover cfg true (fun _ => none) = discover cfg true (fun _ => some []) := rfl

end Verif.K8s
