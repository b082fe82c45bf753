import Verif.Model.Machine

/-!
# `runtime.Goexit` in plugin code

`runtime.Goexit` ends the goroutine that calls it after running its deferred functions; a `recover()` in one of
them returns nil. Two more steps of the machine: the code a load is running ends the goroutine of the load, or
an `OnFree` called by a delayed-free goroutine ends that goroutine.
-/

namespace Hotswap

variable [GoRuntime]

/-- The actions that consist of running a function of a plugin or a reload callback (plugin.go:107-132,
pluginManager.go:203, 387-483, pluginManagerSwapper.go:174-181). A call can end there without returning in two ways: by
`runtime.Goexit`, and by a panic whose value cannot be printed (Model/Unprintable). In the package initialisation run by
`plugin.Open` only the second is covered: a `Goexit` there leaves the lock of the Go runtime's table of plugins in disorder. -/
def Act.mayExit : Act → Bool
  | .openPlugin _ | .callReloadable _ | .callExport _ | .callImport _ | .callOnLoad _ _ | .callLiveFuncs _ | .callLiveTypes _
  | .callOnInit _ _ _ | .callback _ _ _ => true
  | _ => false

/-- The running call ends without returning; whatever it holds a reference to stays referenced (ghost). Only
`defer sw.mu.Unlock()` (pluginManagerSwapper.go:77, 200) has an effect. -/
def Machine.drop (m : Machine) (r : Running) : Machine := { m with running := none, abandoned := r.held ++ m.abandoned }

/-- The code of a plugin or a callback calls `runtime.Goexit` while the call that holds the lock waits for it.

* In a function called while the plugins are loaded: in the deferred function of `loadPlugins`
  (pluginManager.go:89-101, staticPlugin.go:46-57) `recover()` returns nil and `errRet` is nil, so `invokeEveryOnFree` is not called.
* In a reload callback: the deferred function (pluginManagerSwapper.go:175-179) sees nil, and the rest of
  `invokeReloadCallbacks` and `loadPluginFiles` is not executed.
* In `OnFree`, called by the cleanup of a failed load (pluginManager.go:485-499): `sync.Once` regards the function as
  done, and the instances that are left are not visited.

In all cases nothing is stored and nothing is counted. -/
def Machine.exitCall (m : Machine) : Option Machine :=
  match m.running with
  | none => none
  | some r =>
    match r.phase with
    | .zero _ => none
    | .inside i => some ((m.onFreeDone i).drop r)
    | .idle =>
      match r.todo with
      | [] => none
      | a :: _ => if a.mayExit then some ((m.log (.act a)).drop r) else none

/-- `OnFree` calls `runtime.Goexit` in free goroutine number `n` (pluginManagerSwapper.go:155-162): the goroutine
ends, and the instances it had not yet released stay referenced. -/
def Machine.exitFree (m : Machine) (n : Nat) : Option Machine :=
  match m.frees[n]? with
  | none => none
  | some t =>
    match t.phase with
    | .inside i =>
      some { m.onFreeDone i with
        frees := m.frees.set n { t with todo := [], phase := .idle }
        abandoned := t.todo ++ m.abandoned }
    | _ => none

/-- The labels of the steps of a program whose plugins may call `runtime.Goexit`. -/
inductive XLabel where
  | go (l : Label)
  | exitCall
  | exitFree (n : Nat)

/-- One step of a program whose plugins may call `runtime.Goexit`. -/
def Machine.xstep (cfg : Config) (m : Machine) : XLabel → Option Machine
  | .go l => m.step cfg l
  | .exitCall => m.exitCall
  | .exitFree n => m.exitFree n

end Hotswap
