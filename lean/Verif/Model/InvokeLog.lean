import Verif.Model.Api

/-!
# `InvokeEach` with plugins and loggers that misbehave

Model/Api has plugin code that returns, returns an error or panics, and loggers that return. Here both the code that `InvokeFunc` runs and the methods of the logger may also panic with nil or end the goroutine (`runtime.Goexit`), and the logger may panic.
(A logger that is given a panic value that cannot be printed is a logger that panics.)
-/

namespace Hotswap

/-- What a call of user code does. -/
inductive Answer where
  | ok
  /-- it returns an error (methods of the logger do not) -/
  | err
  | panics
  | panicsNil
  /-- `runtime.Goexit` -/
  | exits
  deriving DecidableEq, Repr

/-- All that happens, in order, with the answers. -/
abbrev InvHist := List (InvEv × Answer)

/-- The user code, that of plugins and that of the logger: the answer may depend on everything that has happened so far. -/
abbrev UserCode := InvHist → InvEv → Answer

/-- How a function ends. -/
inductive Ending where
  | returns
  | panics
  | goexit
  deriving DecidableEq, Repr

/-- A call of user code. -/
def askUser (w : UserCode) (e : InvEv) (h : InvHist) : Answer × InvHist := (w h e, h ++ [(e, w h e)])

/-- pluginManager.go:523-527 and 541-545: the deferred function, when `recover` has returned a value that is not nil. A panic of `Errorf` is not recovered. -/
def reportPanic (w : UserCode) (p : Plugin) (h : InvHist) : Ending × InvHist :=
  match askUser w (.logPanic p.inst) h with
  | (.ok, h') | (.err, h') => (.returns, h')
  | (.panics, h') | (.panicsNil, h') => (.panics, h')
  | (.exits, h') => (.goexit, h')

/-- The closure `invokeImpl`, pluginManager.go:522-531 (and 540-549). After a `panic(nil)` `recover` returns nil: nothing is reported, and the closure returns. After `runtime.Goexit` the deferred function runs and the goroutine ends. -/
def invokeImplX (w : UserCode) (name : Str) (params : List Val) (p : Plugin) (h : InvHist) : Ending × InvHist :=
  match askUser w (.call p.inst name params) h with
  | (.ok, h') => (.returns, h')
  | (.err, h') =>
    match askUser w (.logErr p.inst) h' with
    | (.ok, h'') | (.err, h'') | (.panicsNil, h'') => (.returns, h'')
    | (.panics, h'') => reportPanic w p h''
    | (.exits, h'') => (.goexit, h'')
  | (.panics, h') => reportPanic w p h'
  | (.panicsNil, h') => (.returns, h')
  | (.exits, h') => (.goexit, h')

/-- pluginManager.go:533-536: the loop. -/
def eachLoop (w : UserCode) (name : Str) (params : List Val) : List Plugin → InvHist → Ending × InvHist
  | [], h => (.returns, h)
  | p :: r, h =>
    match invokeImplX w name params p h with
    | (.returns, h') => eachLoop w name params r h'
    | x => x

/-- The loop of pluginManager.go:552-554: `for i := len(all)-1; i >= 0; i--`, with `n = i + 1`. -/
def backLoopX (w : UserCode) (name : Str) (params : List Val) (all : List Plugin) : Nat → InvHist → Ending × InvHist
  | 0, h => (.returns, h)
  | n + 1, h =>
    match all[n]? with
    | some p =>
      match invokeImplX w name params p h with
      | (.returns, h') => backLoopX w name params all n h'
      | x => x
    | none => (.returns, h)

/-- pluginManager.go:521-537 `InvokeEach`. -/
def Manager.invokeEachX (pm : Manager) (w : UserCode) (name : Str) (params : List Val) (h : InvHist) : Ending × InvHist := eachLoop w name params pm.plugins h

/-- pluginManager.go:539-555 `InvokeEachBackward`. -/
def Manager.invokeEachBackwardX (pm : Manager) (w : UserCode) (name : Str) (params : List Val) (h : InvHist) : Ending × InvHist :=
  backLoopX w name params pm.plugins pm.plugins.length h

end Hotswap
