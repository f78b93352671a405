import Verif.Singleton.ProxyLemmas
import Verif.Singleton.ManagerSpec

/-!
# C55 and C56: the singleton proxy

C55, full statement: messages sent through the proxy while no instance is known are kept and delivered
exactly once, in order, to the next announced instance, before any message sent later. C56, full
statement: notifying the singleton without waiting for a result delivers the message like a send and
never crashes the proxy.

C56 fails: such a message kills the proxy when it is delivered. C55 fails in two ways: the same crash
loses what is queued behind it; and every message is sent by a task of its own, so messages may overtake
each other. What holds is proved: without such messages nothing is lost, each message goes to the right
instance exactly once, and the tasks are created in order.
-/

namespace Verif.Singleton

/-- a message that waits for its result. -/
def POp.isSend : POp → Bool
  | .deliver m => m.channel
  | _ => true

theorem assigned_channel {cur : Option Nat} {ops : List POp} (h : ∀ op ∈ ops, op.isSend = true) :
    ∀ x ∈ assigned cur ops, x.1.channel = true := by
  induction ops generalizing cur with
  | nil => simp [assigned]
  | cons op ops ih =>
    have h2 : ∀ op ∈ ops, op.isSend = true := fun o ho => h o (by simp [ho])
    cases op with
    | deliver m =>
      intro x hx
      rcases List.mem_cons.1 (show x ∈ (m, dest cur ops) :: assigned cur ops from hx) with rfl | hx
      · exact h (.deliver m) (by simp)
      · exact ih h2 x hx
    | started r => exact ih h2
    | stopping => exact ih h2
    | task i => exact ih h2

/-- **C55, partial.** If every message waits for its result: tasks are created for exactly the messages
handled while an instance was known or announced afterwards, in the order of handling, each for the right
instance; the others wait in order; and what has arrived, together with the tasks that have still to run,
is exactly that. Missing: `notify`, and the order of arrival. -/
theorem C55_nothing_lost_partial (ops : List POp) (h : ∀ op ∈ ops, op.isSend = true) :
    (({} : Proxy).run ops).spawned = (settled (assigned none ops)).map entry ∧
      ((({} : Proxy).run ops).st = .buffered (waiting (assigned none ops)) ∨
        waiting (assigned none ops) = [] ∧ ∃ r, (({} : Proxy).run ops).st = .active r) ∧
      ((({} : Proxy).run ops).arrived ++ (({} : Proxy).run ops).tasks).Perm ((settled (assigned none ops)).map entry) := by
  obtain ⟨h1, h2, h3⟩ := run_todo ops {} (by simp)
  have ht : todo (({} : Proxy)).st ops = assigned none ops := by simp [todo]
  rw [ht] at h1 h2 h3
  have hg : allGood (settled (assigned none ops)) = true := by
    simp only [allGood, List.all_eq_true, settled, List.mem_filterMap, Option.map_eq_some_iff]
    rintro x ⟨y, hy, r, _, rfl⟩
    exact assigned_channel h y hy
  rw [good_all hg] at h1
  have hs : (({} : Proxy).run ops).spawned = (settled (assigned none ops)).map entry := by rw [h1]; simp
  refine ⟨hs, ?_, ?_⟩
  · have hnd : (({} : Proxy).run ops).st ≠ .dead := fun e => by rw [h2, hg] at e; cases e
    have hq := h3 hnd
    cases hst : (({} : Proxy).run ops).st with
    | dead => exact absurd hst hnd
    | buffered q => rw [hst] at hq; exact .inl (congrArg _ hq)
    | active r => rw [hst] at hq; exact .inr ⟨hq.symm, r, rfl⟩
  · rw [← hs]; exact accounted_run ops (List.Perm.refl _)

/-- two messages are queued, an instance is announced, a third message is sent, the instance stops, a
fourth one waits. -/
def proxyRun : List POp :=
  [.deliver ⟨1, true⟩, .deliver ⟨2, true⟩, .started 7, .deliver ⟨3, true⟩, .task 0, .stopping, .deliver ⟨4, true⟩]

example : (∀ op ∈ proxyRun, op.isSend = true) ∧
    (settled (assigned none proxyRun)).map entry = [(7, 1), (7, 2), (7, 3)] ∧ waiting (assigned none proxyRun) = [⟨4, true⟩] := by
  decide

/-- **C55 fails**: a queued message and one sent later arrive in the wrong order. -/
theorem C55_order_refuted :
    (({} : Proxy).run [.deliver ⟨1, true⟩, .started 7, .deliver ⟨2, true⟩, .task 1, .task 0]).arrived = [(7, 2), (7, 1)] := by
  decide

/-- **C55 fails**: a message queued behind a notification is lost. -/
theorem C55_lost_refuted :
    ({} : Proxy).run [.deliver ⟨1, false⟩, .deliver ⟨2, true⟩, .started 7] = { st := .dead } := by
  decide

/-- **C56 fails at once** if an instance is known: the proxy dies and the message is lost. -/
theorem C56_notify_refuted (p : Proxy) (r i : Nat) (h : p.st = .active r) :
    p.next (.deliver ⟨i, false⟩) = { p with st := .dead } := by
  simp [Proxy.next, Proxy.onDeliver, h, Proxy.deliver]

example : (({} : Proxy).run [.started 7]).st = .active 7 := by decide

/-- **C56, exactly when the proxy dies.** After any run the proxy is dead if and only if some message
without result channel was handled while an instance was known, or before an instance was announced; and
what was delivered is what comes before the first such message. -/
theorem C56_crash_exactly_partial (ops : List POp) :
    ((({} : Proxy).run ops).st = .dead ↔ ∃ x ∈ settled (assigned none ops), x.1.channel = false) ∧
      (({} : Proxy).run ops).spawned = ((settled (assigned none ops)).takeWhile fun x => x.1.channel).map entry := by
  obtain ⟨h1, h2, _⟩ := run_todo ops {} (by simp)
  have ht : todo (({} : Proxy)).st ops = assigned none ops := by simp [todo]
  rw [ht] at h1 h2
  refine ⟨?_, by rw [h1]; simp [good]⟩
  rw [h2]
  simp [allGood]

/-- **C55, the proxy of the node that stops the singleton** is not told: when a manager stops its
instance it tells the other managers, but not its own proxy, which goes on sending to the old instance. -/
theorem C55_own_proxy_not_told (sel : Nat → Bool) (σ : Mgr) (a n : Nat) (h : σ.st = .running a) :
    .proxyStopping ∉ (σ.step sel (.recv (.request n))).2 := by
  simp [Mgr.step, Mgr.recv, Mgr.onRequest, Mgr.beginStopping, h, MState.isRunning, MState.actor, Mgr.notifyManagers]

end Verif.Singleton
