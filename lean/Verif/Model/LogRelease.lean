import Verif.Model.Logging
import Verif.Model.FreeLog
import Verif.Model.Machine

/-!
# A load with any logger, to its end

If a load fails, the deferred function of `loadPlugins` or `loadStaticPlugins`, or `invokeReloadCallbacks`, releases the new manager. During the release the logger can panic again. That panic is not recovered by anyone: it leaves `LoadPlugins` or `Reload`
(whose mutex is unlocked by a deferred call). Model/Logging gives the load up to the release, Model/FreeLog the release.
(Simplification: no delayed free runs during the release.)
-/

namespace Hotswap

variable [GoRuntime]

/-- What the actions of a load before the release do to the counts: plugin.go:55 (a new plugin has the count 1) and pluginManager.go:65 (`Refs.Inc()` on a plugin that is kept); see `Machine.perform`. The releases are performed by Model/FreeLog. -/
def FreeSt.take (s : FreeSt) : Act → FreeSt
  | .register i => { s with refs := fun j => if j = i then 1 else s.refs j }
  | .inc i => { s with refs := fun j => if j = i then s.refs i + 1 else s.refs j }
  | _ => s

/-- The end of a call: the result, unless a panic of the logger leaves it (`escaped`), and the counts. -/
structure Ended where
  escaped : Bool
  res : Result
  st : FreeSt

/-- pluginManager.go:89-100, staticPlugin.go:46-57, pluginManagerSwapper.go:182-185: a call that fails releases the manager that it has built. (A call that fails before it has created a manager, or before it has put plugins into it, releases nothing;
`p.built` has no plugins then.) `lg` and `lgF` are the same logger, before and during the release. -/
def callToEnd (lg : Logger) (lgF : FreeLogger) (cfg : Config) (env : Env) (k : Kind) (old : Option Manager) (n0 : Nat) (s : FreeSt) : Ended :=
  let p := (planL lg cfg env k old n0).plan
  let s1 := p.acts.foldl FreeSt.take s
  match p.res with
  | .err _ =>
    let r := FreeLog.invokeEveryOnFree lgF env.it p.built s1
    ⟨r.1, p.res, r.2⟩
  | _ => ⟨false, p.res, s1⟩

/-- The counts in a state of the program. -/
def Machine.freeSt (m : Machine) : FreeSt := ⟨m.refs, m.once, [], []⟩

end Hotswap
