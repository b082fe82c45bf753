import Verif.Spec.Trace

/-!
# Who holds a reference, and when the program is at rest
-/

namespace Hotswap

variable [GoRuntime]

/-- Does the call that is running hold a reference to `i` for the manager it builds? -/
def Running.holding (r : Option Running) (i : Nat) : Bool :=
  match r with
  | none => false
  | some r => r.held.contains i

/-- The number of managers that hold instance `i` and have not yet released it: superseded managers whose free goroutine
has not yet released `i`; managers superseded under static linking, which never release anything; the current manager
(unless its free goroutine has already been started, in which case it is counted there); the manager under construction. -/
def Machine.holders (m : Machine) (i : Nat) : Nat :=
  m.frees.countP (fun t => t.todo.contains i) + m.abandoned.count i +
  (if m.pending.isNone && m.currentInsts.contains i then 1 else 0) +
  (if Running.holding m.running i then 1 else 0)

/-- No call is running and all delayed frees are done. -/
def Machine.Quiet (m : Machine) : Prop := m.running = none ∧ ∀ t ∈ m.frees, t.todo = [] ∧ t.phase = .idle

/-- Performing a sequence of steps. -/
def Machine.steps (cfg : Config) (m : Machine) : List Label → Option Machine
  | [] => some m
  | l :: r => match m.step cfg l with
    | none => none
    | some m' => m'.steps cfg r

/-- Does the step begin a new call? -/
def Label.isCall : Label → Bool
  | .call _ _ => true
  | _ => false

/-- `d` is the delay of superseded managers; the history is prompt if the program is never suspended for the whole delay
between the start of a delayed free and the publication of the new manager. -/
def PromptHistory (d : Nat) (tr : History) : Prop :=
  ∀ a1 T pm a2 t e a3, tr = a1 ++ (T, Ev.act (.spawnFree pm)) :: (a2 ++ (t, e) :: a3) → published a2 = [] → t < T + d

end Hotswap
