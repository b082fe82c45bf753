import Verif.Spec.Refs

/-!
# Infinite executions in which the scheduler forgets no goroutine

An infinite execution is a sequence of states, each obtained from the one before by a step, that starts in a reachable
state. It is fair if

* the goroutine that executes a call of LoadPlugins or Reload takes its next step eventually, whenever it can,
* each free goroutine takes its next step eventually, whenever it can from some moment on,
* the clock does not stop.

Nothing is said about calls: there may be finitely many or infinitely many, and the lock may be taken again at once, every
time it is given back.
-/

namespace Hotswap

variable [GoRuntime]

/-- An infinite execution. -/
structure Execution (cfg : Config) where
  /-- The states. -/
  at_ : Nat → Machine
  /-- The steps. -/
  lab : Nat → Label
  start : Reachable cfg (at_ 0)
  next : ∀ n, (at_ n).step cfg (lab n) = some (at_ (n + 1))

/-- If the step `l` can be taken at all moments from `n` on, it is taken at some moment from `n` on. -/
def Execution.FairTo {cfg : Config} (e : Execution cfg) (l : Label) : Prop :=
  ∀ n, (∀ k, n ≤ k → ((e.at_ k).step cfg l).isSome = true) → ∃ k, n ≤ k ∧ e.lab k = l

structure Execution.Fair {cfg : Config} (e : Execution cfg) : Prop where
  act : e.FairTo .act
  ret : e.FairTo .ret
  free : ∀ n, e.FairTo (.free n)
  clock : ∀ t, ∃ k, t ≤ (e.at_ k).now

/-- The property holds at all moments from some moment on. -/
def Execution.Eventually {cfg : Config} (e : Execution cfg) (P : Machine → Prop) : Prop := ∃ n, ∀ k, n ≤ k → P (e.at_ k)

end Hotswap
