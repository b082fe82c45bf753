import Verif.Model.Hostile
import Verif.Spec.NilHist
import Verif.Spec.Goexit

/-! Histories in which plugins misbehave in every way, what is lost in them, and infinite executions. -/

namespace Hotswap

variable [GoRuntime]

/-- What a step loses: see `Machine.nilLoses` (Spec/NilHist) and `Machine.loses` (Spec/Goexit). -/
def Machine.wLoses (m : Machine) : WLabel → List Nat
  | .go l => m.nilLoses l
  | .exitCall => m.loses .exitCall
  | .exitFree n => m.loses (.exitFree n)

/-- The states that such a program can reach, with the references lost on the way. -/
inductive WReachable (cfg : Config) : Machine → List Nat → Prop
  | init : WReachable cfg Machine.init []
  | step {m m' : Machine} {L : List Nat} (l : WLabel) : WReachable cfg m L → m.wstep cfg l = some m' → WReachable cfg m' (m.wLoses l ++ L)

/-- `m'` is reached from `m` in some number of steps. -/
inductive WLater (cfg : Config) (m : Machine) : Machine → Prop
  | refl : WLater cfg m m
  | step {m' m'' : Machine} (l : WLabel) : WLater cfg m m' → m'.wstep cfg l = some m'' → WLater cfg m m''

/-- An infinite execution, with the references lost so far. -/
structure WExecution (cfg : Config) where
  at_ : Nat → Machine
  lost : Nat → List Nat
  lab : Nat → WLabel
  start : WReachable cfg (at_ 0) (lost 0)
  next : ∀ n, (at_ n).wstep cfg (lab n) = some (at_ (n + 1)) ∧ lost (n + 1) = (at_ n).wLoses (lab n) ++ lost n

/-- If the step can be taken at all moments from `n` on, it is taken at some moment from `n` on. -/
def WExecution.FairTo {cfg : Config} (e : WExecution cfg) (l : Label) : Prop :=
  ∀ n, (∀ k, n ≤ k → ((e.at_ k).wstep cfg (.go (.go l))).isSome = true) → ∃ k, n ≤ k ∧ e.lab k = .go (.go l)

/-- As in Spec/Fair. -/
structure WExecution.Fair {cfg : Config} (e : WExecution cfg) : Prop where
  act : e.FairTo .act
  ret : e.FairTo .ret
  free : ∀ n, e.FairTo (.free n)
  clock : ∀ t, ∃ k, t ≤ (e.at_ k).now

def WExecution.Eventually {cfg : Config} (e : WExecution cfg) (P : Machine → Prop) : Prop := ∃ n, ∀ k, n ≤ k → P (e.at_ k)

end Hotswap
