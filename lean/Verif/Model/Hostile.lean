import Verif.Model.NilHist
import Verif.Model.Goexit

/-!
# Histories in which plugins misbehave in every way

The machine of Model/NilHist (panics, also with nil) with the steps of Model/Goexit (`runtime.Goexit` in any function of a plugin, in a callback, in
`OnFree`). A function that never returns is a goroutine that makes no further step.
-/

namespace Hotswap

variable [GoRuntime]

/-- The labels of the steps. -/
inductive WLabel where
  | go (l : NLabel)
  | exitCall
  | exitFree (n : Nat)

/-- One step: a step of pluginManagerSwapper.go:75-85, 126-210 and pluginManager.go:485-499 as in Model/NilHist, or the end of a goroutine by
`runtime.Goexit` as in Model/Goexit (only the deferred functions run: pluginManager.go:89-101, staticPlugin.go:46-57, pluginManagerSwapper.go:77,
175-179, 200). -/
def Machine.wstep (cfg : Config) (m : Machine) : WLabel → Option Machine
  | .go l => m.nstep cfg l
  | .exitCall => m.exitCall
  | .exitFree n => m.exitFree n

end Hotswap
