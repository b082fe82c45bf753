import Verif.Model.LogHist
import Verif.Spec.Goexit

/-!
# What is lost when the logger panics
-/

namespace Hotswap

variable [GoRuntime]

/-- What a step loses: if a call ends without returning, what it owed; if a free goroutine ends, what it had still to release. -/
def Machine.yLoses (m : Machine) : YLabel → List Nat
  | .go l => m.loses l
  | .escape => owed (lastCallActs m.trace)
  | _ => []

/-- The plugin that is about to be freed. -/
def Phase.due : Phase → List Nat
  | .zero i => [i]
  | _ => []

/-- The plugin at whose announcement the logger panics in a step: its count is 0, and its `OnFree` is not called. -/
def Machine.yMutes (m : Machine) : YLabel → List Nat
  | .muteCall | .escape => match m.running with
    | none => []
    | some r => r.phase.due
  | .muteFree n => match m.frees[n]? with
    | none => []
    | some t => t.phase.due
  | _ => []

/-- The states that such a program can reach, with the references lost on the way (`L`), and the plugins at whose announcement the logger has panicked (`Z`). -/
inductive YReachable (cfg : Config) : Machine → List Nat → List Nat → Prop
  | init : YReachable cfg Machine.init [] []
  | step {m m' : Machine} {L Z : List Nat} (l : YLabel) : YReachable cfg m L Z → m.ystep cfg l = some m' → YReachable cfg m' (m.yLoses l ++ L) (m.yMutes l ++ Z)

/-- `m'` is reached from `m` in some number of steps. -/
inductive YLater (cfg : Config) (m : Machine) : Machine → Prop
  | refl : YLater cfg m m
  | step {m' m'' : Machine} (l : YLabel) : YLater cfg m m' → m'.ystep cfg l = some m'' → YLater cfg m m''

end Hotswap
