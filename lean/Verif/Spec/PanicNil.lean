import Verif.Spec.Calls
import Verif.Spec.Acts

/-! What a `panic(nil)` of a plugin does to the call. -/

namespace Hotswap

variable [GoRuntime]

/-- The call `q` succeeds with a manager whose plugins are not initialised. -/
structure Uninitialised (cfg : Config) (env : Env) (k : Kind) (old : Option Manager) (q : Plan) : Prop where
  succeeds : ∃ d, q.res = .ok d
  /-- the manager it has built is published -/
  published : publishes q.acts = [q.built]
  /-- `OnInit` of no plugin is called -/
  noInit : ∀ i mid v, Act.callOnInit i mid v ∉ q.acts
  noRelease : ∀ i, Act.release i ∉ q.acts
  /-- a function of a plugin of the manager has panicked -/
  culprit : ∃ P ∈ q.built.plugins, (Act.callLiveFuncs P.inst ∈ q.acts ∧ P.code.liveFuncs = .panics) ∨ (Act.callLiveTypes P.inst ∈ q.acts ∧ P.code.liveTypes = .panics)
  /-- the callbacks are called -/
  called : ∀ c ∈ callbacks cfg env k, ∃ o, Act.callback c.1 q.built.mid o ∈ q.acts
  /-- the delayed free of the old manager has begun -/
  replaced : cfg.static = none → ∀ om, old = some om → Act.spawnFree om ∈ q.acts

/-- The call `q` panics, and leaves behind what it has done. -/
structure LeftBehind (cfg : Config) (env : Env) (k : Kind) (name : Str) (q : Plan) : Prop where
  panics : q.res = .panic .nilDeref
  unpublished : publishes q.acts = []
  noRelease : ∀ i, Act.release i ∉ q.acts
  noFree : ∀ om, Act.spawnFree om ∉ q.acts
  /-- a reference has been taken for each plugin of the manager that nobody will see -/
  taken : (acquired q.acts).Perm q.built.insts
  /-- the callbacks have been called -/
  called : ∀ c ∈ callbacks cfg env k, ∃ o, Act.callback c.1 q.built.mid o ∈ q.acts
  /-- the plugin is not in the manager they were given -/
  lacking : q.built.findPlugin name = none
  culprit : ∃ f, env.fs.openPlugin f = .panics ∧ pluginName f = name ∧ Act.openPlugin f ∈ q.acts

/-- The call `q` returns the error of a callback and gives everything back. -/
structure GivenBack (q : Plan) : Prop where
  fails : q.res = .err .callback
  unpublished : publishes q.acts = []
  back : ∃ pre rel, q.acts = pre ++ rel.map Act.release ∧ (acquired pre).Perm rel ∧ rel.Nodup

end Hotswap
