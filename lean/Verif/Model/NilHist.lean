import Verif.Model.Machine
import Verif.Model.PanicNil

/-!
# Histories in which plugins panic with nil

The concurrent machine (Model/Machine), where a panic of plugin code that reaches `loadPlugins` or `loadStaticPlugins` may be a `panic(nil)` (Model/PanicNil).
-/

namespace Hotswap

variable [GoRuntime]

/-- A call with the plan `p` takes the lock (pluginManagerSwapper.go:76, 199). -/
def Machine.start (m : Machine) (k : Kind) (p : Plan) : Machine :=
  { m.log (.called k) with
    next := p.next
    builts := p.built :: m.builts
    running := some { kind := k, todo := p.acts, res := p.res, phase := .idle, held := [] } }

/-- The labels of the steps. -/
inductive NLabel where
  | go (l : Label)
  /-- a call (pluginManagerSwapper.go:75-85, 188-210) in which a panic of a plugin, if there is one that reaches the load, is a `panic(nil)` -/
  | callNil (k : Kind) (env : Env)

/-- One step. When a call returns, the references it holds and has neither given back nor handed over to the published manager are references nobody will ever give back (ghost); a call that ends by the panic of pluginManagerSwapper.go:148
after a `panic(nil)` in a load has some (Model/PanicNil: nothing is freed), and returns, as any call, after `defer sw.mu.Unlock()` (pluginManagerSwapper.go:77, 200). -/
def Machine.nstep (cfg : Config) (m : Machine) : NLabel → Option Machine
  | .callNil k env =>
    if refused cfg k then some (m.log .refused)
    else match m.running with
      | some _ => none
      | none => some (m.start k (planNil cfg env k m.current m.next))
  | .go .ret =>
    match m.running with
    | none => none
    | some r => (m.step cfg .ret).map (fun m' => { m' with abandoned := r.held ++ m'.abandoned })
  | .go l => m.step cfg l

end Hotswap
