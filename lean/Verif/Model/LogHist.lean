import Verif.Model.LogRelease
import Verif.Model.Goexit
import Verif.Model.NilHist

/-!
# Histories with a logger that panics

The machine of Model/Goexit, in which the logger can panic too: in the lines of a load (Model/Logging; such a panic is recovered and makes the load fail), at the line that announces `OnFree` (Model/FreeLog; the handler of the plugin recovers it, and `OnFree`
is not called), and at the report of a panic of `OnFree` or of the logger. A panic at such a report leaves `LoadPlugins` or `Reload`; in a delayed-free goroutine it ends the process, so that there is no step for it.
(Simplifications: a call goes on with the same logger, whose answers are given by the number of the line; during a release the logger answers in any way. A logger does not call `runtime.Goexit`.)
-/

namespace Hotswap

variable [GoRuntime]

/-- The labels of the steps. -/
inductive YLabel where
  /-- a step in which the logger does not panic -/
  | go (l : XLabel)
  /-- a call with the logger `lg` -/
  | callLog (k : Kind) (env : Env) (lg : Logger)
  /-- in the release by a failed call, `Debugf` panics and `Errorf` does not -/
  | muteCall
  /-- the same in free goroutine number `n` -/
  | muteFree (n : Nat)
  /-- in the release by a failed call, `Errorf` panics -/
  | escape

/-- The numbers of the instances are those of the call with a logger that does not panic (numbers that are not used are skipped; they are only names), and the manager of a call that does not succeed is not recorded (`builts` is ghost). -/
def Plan.numbered (p : Plan) (next : Nat) : Plan :=
  { p with next := next, built := match p.res with
    | .ok _ => p.built
    | _ => noManager }

/-- pluginManagerSwapper.go:75-129, 188-210: the beginning of a call with a logger. -/
def Machine.callLog (cfg : Config) (m : Machine) (k : Kind) (env : Env) (lg : Logger) : Option Machine :=
  if refused cfg k then some (m.log .refused)
  else match m.running with
    | some _ => none
    | none => some (m.start k ((planL lg cfg env k m.current m.next).plan.numbered (plan cfg env k m.current m.next).next))

/-- pluginManager.go:489-498: `Dec` has returned 0, and the line before `freeOnce.Do` makes the logger panic; the deferred function recovers the panic and reports it. -/
def Machine.muteCall (m : Machine) : Option Machine :=
  match m.running with
  | none => none
  | some r =>
    match r.phase with
    | .zero _ => some { m with running := some { r with phase := .idle } }
    | _ => none

/-- pluginManager.go:489-498 in a free goroutine (pluginManagerSwapper.go:155-162). -/
def Machine.muteFree (m : Machine) (n : Nat) : Option Machine :=
  match m.frees[n]? with
  | none => none
  | some t =>
    match t.phase with
    | .zero _ => some { m with frees := m.frees.set n { t with phase := .idle } }
    | _ => none

/-- pluginManager.go:489-494: a panic of the logger at the announcement, or of `OnFree`, is being reported, and the logger panics. The panic leaves `invokeEveryOnFree`, the deferred function of the load (pluginManager.go:89-100, staticPlugin.go:46-57) or
`invokeReloadCallbacks` (pluginManagerSwapper.go:182-185), and the call of the API, whose `defer sw.mu.Unlock()` (pluginManagerSwapper.go:77, 200) runs; what has not been released stays referenced. -/
def Machine.escape (m : Machine) : Option Machine :=
  match m.running with
  | none => none
  | some r =>
    match r.phase with
    | .zero _ => some (m.drop r)
    | .inside i => some ((m.onFreeDone i).drop r)
    | .idle => none

/-- One step of a program whose logger may panic and whose plugins may call `runtime.Goexit` (pluginManagerSwapper.go:75-85, 126-210, pluginManager.go:485-499). -/
def Machine.ystep (cfg : Config) (m : Machine) : YLabel → Option Machine
  | .go l => m.xstep cfg l
  | .callLog k env lg => m.callLog cfg k env lg
  | .muteCall => m.muteCall
  | .muteFree n => m.muteFree n
  | .escape => m.escape

end Hotswap
