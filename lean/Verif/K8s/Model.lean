/-!
# Discovery of nodes in Kubernetes

Models `/repo/providers/discovery/coerce-k8s/src/lib.rs` and `/repo/providers/discovery/coerce-k8s/src/config.rs`. What the
API answers is a parameter. Of a pod only what the code reads is kept, and the phase of its status, which it does not
read.
-/

namespace Verif.K8s

/-- `Address`, `/repo/providers/discovery/coerce-k8s/src/config.rs` 1-7. -/
inductive Address where
  | podIp | hostname
deriving DecidableEq, Repr

/-- `KubernetesDiscoveryConfig`, `/repo/providers/discovery/coerce-k8s/src/config.rs` 9-17. -/
structure Config where
  label : Option String
  portName : Option String
  address : Address
deriving DecidableEq, Repr

/-- how `COERCE_K8S_ADDR_MODE` is read, `/repo/providers/discovery/coerce-k8s/src/config.rs` 28-37. No character outside ASCII has a
letter of `hostname` as its lower case, so ASCII will do for `to_lowercase`. -/
def addressMode : Option String → Address
  | none => .podIp
  | some s => if s.toList.map Char.toLower = "hostname".toList then .hostname else .podIp

/-- `KubernetesDiscoveryConfig::default`, `/repo/providers/discovery/coerce-k8s/src/config.rs` 19-40. `env`: the variables that are set to
text. -/
def Config.default (env : String → Option String) : Config where
  label := some ((env "COERCE_K8S_POD_SELECTOR").getD "app=coerce")
  portName := some ((env "COERCE_K8S_PORT_NAME").getD "coerce")
  address := addressMode (env "COERCE_K8S_ADDR_MODE")

/-- `ContainerPort` of the API. (As used in `/repo/providers/discovery/coerce-k8s/src/lib.rs` 61-70.) -/
structure Port where
  name : Option String
  number : Int
deriving DecidableEq, Repr

/-- `Container` of the API; the port list may be left out. (As used in
`/repo/providers/discovery/coerce-k8s/src/lib.rs` 61-70.) -/
structure Container where
  ports : Option (List Port)
deriving DecidableEq, Repr

/-- `PodSpec` of the API, the fields used in `/repo/providers/discovery/coerce-k8s/src/lib.rs` 33-70. -/
structure PodSpec where
  hostname : Option String
  subdomain : Option String
  containers : List Container
deriving DecidableEq, Repr

/-- `PodStatus` of the API, the fields used in `/repo/providers/discovery/coerce-k8s/src/lib.rs` 33-59. -/
structure PodStatus where
  podIp : Option String
  phase : Option String
deriving DecidableEq, Repr

/-- `Pod` of the API, as used in `/repo/providers/discovery/coerce-k8s/src/lib.rs` 33-42. -/
structure Pod where
  spec : Option PodSpec
  status : Option PodStatus
deriving DecidableEq, Repr

/-- the end of a call: `panic` is an `unwrap` of `None`. (`/repo/providers/discovery/coerce-k8s/src/lib.rs` 16-76.) -/
inductive Res (α : Type) where
  | ok (a : α)
  | panic
deriving DecidableEq, Repr

/-- the address of a pod, `/repo/providers/discovery/coerce-k8s/src/lib.rs` 43-59; `none`: `continue`. -/
def addressOf (cfg : Config) (spec : PodSpec) (status : PodStatus) : Res (Option String) :=
  match cfg.address with
  | .podIp => .ok status.podIp
  | .hostname =>
    match spec.hostname, spec.subdomain with
    | some h, some s => .ok (some (h ++ "." ++ s))
    | _, _ => .panic

/-- `format!("{}:{}", addr, port.container_port)`. (`/repo/providers/discovery/coerce-k8s/src/lib.rs` 61-70.) -/
def render (addr : String) (port : Port) : String := addr ++ ":" ++ toString port.number

/-- the loop over the containers, `/repo/providers/discovery/coerce-k8s/src/lib.rs` 61-70. -/
def containers (cfg : Config) (addr : String) : List Container → List String → Res (List String)
  | [], nodes => .ok nodes
  | c :: cs, nodes =>
    match c.ports with
    | none => .panic
    | some ps =>
      match ps.find? fun p => p.name == cfg.portName with
      | some p => containers cfg addr cs (nodes ++ [render addr p])
      | none => containers cfg addr cs nodes

/-- the loop over the pods, `/repo/providers/discovery/coerce-k8s/src/lib.rs` 33-71. -/
def pods (cfg : Config) : List Pod → List String → Res (List String)
  | [], nodes => .ok nodes
  | p :: ps, nodes =>
    match p.spec, p.status with
    | some spec, some status =>
      match addressOf cfg spec status with
      | .panic => .panic
      | .ok none => pods cfg ps nodes
      | .ok (some addr) =>
        match containers cfg addr spec.containers nodes with
        | .panic => .panic
        | .ok nodes => pods cfg ps nodes
    | _, _ => .panic

/-- `discover`, `/repo/providers/discovery/coerce-k8s/src/lib.rs` 16-76. `client`: a client could be made; `list`: the answer of the API
for the label, `none` for an error. -/
def discover (cfg : Config) (client : Bool) (list : Option String → Option (List Pod)) : Res (Option (List String)) :=
  if client then
    match list cfg.label with
    | none => .ok (some [])
    | some ps =>
      match pods cfg ps [] with
      | .panic => .panic
      | .ok nodes => .ok (some nodes)
  else .panic

end Verif.K8s
