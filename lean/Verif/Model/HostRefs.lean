import Verif.Model.Machine

/-!
# A host that counts references itself

`Plugin.Refs` (plugin.go:46) is an exported field: the host can get at the plugins of a manager (`Plugins`, `FindPlugin`, `InvokeEach`) and change their reference counts with the operations of `atomic.Int64`.
-/

namespace Hotswap

variable [GoRuntime]

/-- The labels of the steps of a program whose host uses `Plugin.Refs`. -/
inductive HLabel where
  | go (l : Label)
  /-- `Refs.Inc()` -/
  | hold (i : Nat)
  /-- `Refs.Dec()` -/
  | unhold (i : Nat)
  /-- `Refs.Store(v)`, `Refs.Add(d)`, …: the count becomes `v` -/
  | set (i : Nat) (v : Int)

/-- One step of such a program. No function is called when the host changes a count: `OnFree` is called by `invokeEveryOnFree` only (pluginManager.go:485-511). In the ghost list `abandoned` are references that no
manager will give back, here with those of the host. (`Machine.onceDo` does not wait for an `OnFree` that runs in another goroutine as `sync.Once` does; this only allows more runs.) -/
def Machine.hstep (cfg : Config) (m : Machine) : HLabel → Option Machine
  | .go l => m.step cfg l
  | .hold i => some { m with refs := upd m.refs i (m.refs i + 1), abandoned := i :: m.abandoned }
  | .unhold i => some { m with refs := upd m.refs i (m.refs i - 1), abandoned := m.abandoned.erase i }
  | .set i v => some { m with refs := upd m.refs i v }

end Hotswap
