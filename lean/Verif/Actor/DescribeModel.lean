/-! Describing the actor hierarchy: `/repo/coerce/src/actor/describe/mod.rs`. -/

namespace Verif.Actor.Describe

/-- `DescribeOptions`, `/repo/coerce/src/actor/describe/mod.rs` 25-30. Times are in milliseconds. -/
structure Options where
  maxDepth : Option Nat
  maxChildren : Option Nat
  childDescribeTimeout : Option Nat
  childDescribeAttached : Bool
deriving DecidableEq, Repr

/-- How an actor reacts to a `Describe`: `invalid`: its mailbox is closed, `notify` returns `Err`
(`/repo/coerce/src/actor/refs/mod.rs` 461-475); `after d`: its handler runs `d` after the message was sent;
`lost d`: it ends after `d` without handling the message, dropping the reply channel; `stuck`: neither ever
happens. -/
inductive Resp where
  | invalid
  | after (d : Nat)
  | lost (d : Nat)
  | stuck
deriving DecidableEq, Repr

/-- An actor with the children of its `Supervised`, in the order the map yields them. `attached`:
`ChildRef::is_attached` of the reference its parent holds. (`/repo/coerce/src/actor/supervised.rs` 14-40 and 184-186.)
-/
inductive Tree where
  | node (id : Nat) (attached : Bool) (resp : Resp) (kids : List Tree)

/-- `DescribeResult` with `ActorDescription` and `SupervisedDescription`,
`/repo/coerce/src/actor/describe/mod.rs` 44-83. Path, type, tags and `time_taken` are left out. -/
inductive Desc where
  | ok (id : Nat) (supervised : Option (List Desc))
  | err (id : Nat) (closed : Bool)  -- `closed`: `ResultChannelClosed`, else the error of `notify`
  | timeout (id : Nat)

/-- `actor_id`, `/repo/coerce/src/actor/describe/mod.rs` 67. -/
def Tree.id : Tree → Nat | .node i _ _ _ => i
/-- `ChildRef::is_attached`, `/repo/coerce/src/actor/supervised.rs` 184-186. -/
def Tree.attached : Tree → Bool | .node _ a _ _ => a
/-- how the actor reacts to a `Describe` (`/repo/coerce/src/actor/describe/mod.rs` 174-196). -/
def Tree.resp : Tree → Resp | .node _ _ r _ => r
/-- `Supervised::children`, `/repo/coerce/src/actor/supervised.rs` 17. -/
def Tree.kids : Tree → List Tree | .node _ _ _ ks => ks

/-- the `actor_id` of any result, `/repo/coerce/src/actor/describe/mod.rs` 44-57. -/
def Desc.id : Desc → Nat | .ok i _ => i | .err i _ => i | .timeout i => i

/-- `get_describable_actors`, `/repo/coerce/src/actor/describe/mod.rs` 203-213. The elements carry their
`is_attached` flag. -/
def getDescribable (describeAttached : Bool) (maxChildren : Option Nat) (kids : List (Bool × α)) : List α :=
  let ok := kids.filter (fun a => describeAttached || !a.1)
  (match maxChildren with
    | none => ok
    | some n => ok.take n).map Prod.snd

/-- Whether a message with this `current_depth` goes on to the children: `/repo/coerce/src/actor/describe/mod.rs` 103-110. -/
def goesDeeper (o : Options) (currentDepth : Nat) : Bool :=
  match o.maxDepth with
  | none => true
  | some m => !decide (m < currentDepth + 1)

/-- The wait of `describe_all` for each reply, `/repo/coerce/src/actor/describe/mod.rs` 168-172: `currentDepth` is
that of the message being handled, 0 for `DescribeAll`. `child_describe_timeout` is not read. -/
def waitFor (currentDepth : Nat) : Nat := if currentDepth > 0 then 5000 else 10000

/-- What comes back on the reply channel of one actor: a description at a time, the channel closed at a time, or
nothing. Times count from when the `Describe` was sent. (The channel: `/repo/coerce/src/actor/describe/mod.rs` 160.)
-/
inductive Reply where
  | desc (t : Nat) (d : Desc)
  | closed (t : Nat)
  | never

/-- `tokio::time::timeout(timeout, rx)`, `/repo/coerce/src/actor/describe/mod.rs` 178-192, as the result and the time
it takes. `tie` decides which comes first when the reply arrives exactly at the deadline. -/
def await (tie : Bool) (timeout : Nat) (id : Nat) : Reply → Nat × Desc
  | .desc t d => if t < timeout ∨ (t = timeout ∧ tie = true) then (t, d) else (timeout, .timeout id)
  | .closed t => if t < timeout ∨ (t = timeout ∧ tie = true) then (t, .err id true) else (timeout, .timeout id)
  | .never => (timeout, .timeout id)

/-- `join_all` is done when the last one is. (`/repo/coerce/src/actor/describe/mod.rs` 200.) -/
def lastOf (l : List Nat) : Nat := l.foldr max 0

/-- The reply of the handler of `Describe`, `/repo/coerce/src/actor/describe/mod.rs` 86-137, given the results `kids`
of the describable children (by time and description): without describable children, or beyond the depth limit, it
replies at once. `supervised` is `None` for an actor that never had children; that is the same as an empty list here.
-/
def handlerReply (id : Nat) (d : Nat) (deeper : Bool) (kids : List (Nat × Desc)) : Reply :=
  if deeper = true ∧ kids ≠ [] then .desc (d + lastOf (kids.map (·.1))) (.ok id (some (kids.map (·.2))))
  else .desc d (.ok id none)

mutual
/-- Reply of an actor to `Describe { current_depth }`, `/repo/coerce/src/actor/describe/mod.rs` 86-137 with
`describe_all` 154-201. `none`: `actor.describe` fails at once. -/
def reply (o : Options) (tie : Bool) (currentDepth : Nat) : Tree → Option Reply
  | .node _ _ .invalid _ => none
  | .node _ _ .stuck _ => some .never
  | .node _ _ (.lost d) _ => some (.closed d)
  | .node id _ (.after d) kids =>
    some (handlerReply id d (goesDeeper o currentDepth)
      (getDescribable o.childDescribeAttached o.maxChildren
        (results o tie currentDepth (currentDepth + 1) kids)))

/-- `describe_all`, `/repo/coerce/src/actor/describe/mod.rs` 154-201: the message handled has `currentDepth`, the
messages sent have `nextDepth`. Every actor of the list is paired with its `is_attached` flag for `getDescribable`;
the code selects before it describes, which gives the same list (`getDescribable_map`). -/
def results (o : Options) (tie : Bool) (currentDepth nextDepth : Nat) :
    List Tree → List (Bool × (Nat × Desc))
  | [] => []
  | t :: ts =>
    (t.attached, match reply o tie nextDepth t with
      | none => (0, .err t.id false)
      | some r => await tie (waitFor currentDepth) t.id r) :: results o tie currentDepth nextDepth ts
end

/-- The handler of `DescribeAll`, `/repo/coerce/src/actor/describe/mod.rs` 225-253: every tracked actor, then the
scheduler itself; `max_children` and `child_describe_attached` do not apply. The result with the time it takes. -/
def describeAll (o : Options) (tie : Bool) (actors : List Tree) (scheduler : Tree) : Nat × List Desc :=
  let rs := (results o tie 0 1 (actors ++ [scheduler])).map (·.2)
  (lastOf (rs.map (·.1)), rs.map (·.2))

end Verif.Actor.Describe
