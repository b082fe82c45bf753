import Verif.Model.Swapper

/-!
# The concurrent machine

One swapper, used by any number of goroutines: calls of the API (serialised by `sw.mu`), the delayed-free
goroutines, readers of `Current()`, and the clock. Every action of a plan and every step of a release is
a separate atomic step, interleaved arbitrarily.
-/

namespace Hotswap

variable [GoRuntime]

/-- Progress of `invokeImpl` inside `invokeEveryOnFree` (pluginManager.go:486-499): nothing pending; `Dec` has
returned 0 or less and `freeOnce.Do` is about to run; `OnFree` is running. -/
inductive Phase where
  | idle
  | zero (i : Nat)
  | inside (i : Nat)
  deriving DecidableEq, Repr

/-- Observable events. -/
inductive Ev where
  /-- an API call that takes the lock begins -/
  | called (k : Kind)
  /-- an action of the running call -/
  | act (a : Act)
  /-- the running call returns -/
  | returned (k : Kind) (r : Result)
  /-- `Reload`/`ReloadWithCallback` refused under static linking (pluginManagerSwapper.go:196) -/
  | refused
  | freeBegin (i : Nat)
  | freeEnd (i : Nat)
  /-- `Current()` returns this manager -/
  | observed (m : Option Nat)
  /-- `ReloadCounter()` returns this number -/
  | counted (n : Nat)

/-- The call that holds the lock: what remains of its plan, its result, and (ghost) the instances it holds a
reference to. -/
structure Running where
  kind : Kind
  todo : List Act
  res : Result
  phase : Phase
  held : List Nat

/-- A delayed-free goroutine (pluginManagerSwapper.go:155-162): it may start working at time `due`; `todo` are
the instances it still has to release. -/
structure FreeTask where
  due : Nat
  todo : List Nat
  phase : Phase

/-- The state of the program. `once` is the state of `freeOnce` of each instance, `pending` (ghost) the due
time of the free goroutine started by the running call while the new manager is not yet published, and
`abandoned` (ghost) the instances of managers that were superseded under static linking and are never
released. `builts` (ghost) are the managers built by all calls so far. -/
structure Machine where
  now : Nat
  next : Nat
  counter : Nat
  current : Option Manager
  refs : Nat → Int
  once : Nat → Bool
  running : Option Running
  frees : List FreeTask
  pending : Option Nat
  abandoned : List Nat
  builts : List Manager
  trace : List (Nat × Ev)

/-- The labels of the steps. -/
inductive Label where
  | call (k : Kind) (env : Env)
  | act
  | ret
  | free (n : Nat)
  | tick (d : Nat)
  | read
  | readCounter

/-- A fresh swapper (pluginManagerSwapper.go:55-63). -/
def Machine.init : Machine where
  now := 0
  next := 0
  counter := 0
  current := none
  refs := fun _ => 0
  once := fun _ => false
  running := none
  frees := []
  pending := none
  abandoned := []
  builts := []
  trace := []

/-- Append an event, with its time. -/
def Machine.log (m : Machine) (e : Ev) : Machine := { m with trace := m.trace ++ [(m.now, e)] }

/-- Point update of a function. -/
def upd (f : Nat → α) (i : Nat) (v : α) : Nat → α := fun j => if j = i then v else f j

/-- `p.Refs.Dec()` (pluginManager.go:487): the new state and what is left to do. -/
def Machine.dec (m : Machine) (i : Nat) : Machine × Phase :=
  let v := m.refs i - 1
  ({ m with refs := upd m.refs i v }, if v > 0 then .idle else .zero i)

/-- `p.freeOnce.Do(...)` (pluginManager.go:496-498): call `OnFree` unless that has been done. (A concurrent
second caller would wait for the first; theorem `free_once_unshared` shows there is none.) -/
def Machine.onceDo (m : Machine) (i : Nat) : Machine × Phase :=
  if m.once i then (m, .idle)
  else ({ m with once := upd m.once i true }.log (.freeBegin i), .inside i)

/-- `OnFree` returns or panics; the panic is recovered and logged (pluginManager.go:490-494). -/
def Machine.onFreeDone (m : Machine) (i : Nat) : Machine := m.log (.freeEnd i)

/-- The instances of a manager in the order `invokeEveryOnFree` visits them (pluginManager.go:501-505); a
published manager has an order unless it is empty. -/
def Manager.releaseList (pm : Manager) : List Nat := (pm.ordered.map (·.inst)).reverse

/-- The instances of a manager. -/
def Manager.insts (pm : Manager) : List Nat := pm.pluginMap.vals.map (·.inst)

/-- The instances of the current manager. -/
def Machine.currentInsts (m : Machine) : List Nat :=
  match m.current with
  | none => []
  | some pm => pm.insts

/-- The effect of one action of a plan (except `release`, which takes several steps) on the shared
state. -/
def Machine.perform (cfg : Config) (m : Machine) (a : Act) : Machine :=
  match a with
  | .register i => { m with refs := upd m.refs i 1 }
  | .inc i => { m with refs := upd m.refs i (m.refs i + 1) }
  | .spawnFree om =>
    { m with frees := m.frees ++ [{ due := m.now + cfg.delay, todo := om.releaseList, phase := .idle }],
             pending := some (m.now + cfg.delay) }
  | .publish pm =>
    { m with current := some pm, pending := none,
             abandoned := if m.pending.isSome then m.abandoned else m.currentInsts ++ m.abandoned }
  | .count => { m with counter := m.counter + 1 }
  | _ => m

/-- Ghost: the references the running call holds after an action. -/
def heldAfter (held : List Nat) : Act → List Nat
  | .register i => i :: held
  | .inc i => i :: held
  | .release i => held.erase i
  | .publish _ => []
  | _ => held

/-- The next step of the call that holds the lock. -/
def Machine.stepRunning (cfg : Config) (m : Machine) (r : Running) : Option Machine :=
  match r.phase with
  | .zero i =>
    let (m', ph) := m.onceDo i
    some { m' with running := some { r with phase := ph } }
  | .inside i => some { m.onFreeDone i with running := some { r with phase := .idle } }
  | .idle =>
    match r.todo with
    | [] => none
    | .release i :: rest =>
      let (m', ph) := (m.log (.act (.release i))).dec i
      some { m' with running := some { r with todo := rest, phase := ph, held := r.held.erase i } }
    | a :: rest =>
      some { (m.log (.act a)).perform cfg a with
        running := some { r with todo := rest, held := heldAfter r.held a } }

/-- The next step of free goroutine number `n`. -/
def Machine.stepFree (m : Machine) (n : Nat) : Option Machine :=
  match m.frees[n]? with
  | none => none
  | some t =>
    match t.phase with
    | .zero i =>
      let (m', ph) := m.onceDo i
      some { m' with frees := m.frees.set n { t with phase := ph } }
    | .inside i => some { m.onFreeDone i with frees := m.frees.set n { t with phase := .idle } }
    | .idle =>
      match t.todo with
      | [] => none
      | i :: rest =>
        if m.now < t.due then none
        else
          let (m', ph) := m.dec i
          some { m' with frees := m.frees.set n { t with todo := rest, phase := ph } }

/-- Is this a call refused without taking the lock? -/
def refused (cfg : Config) : Kind → Bool
  | .load => false
  | .reload _ => cfg.static.isSome

/-- One step of the program; `none` if the step is not possible in this state. -/
def Machine.step (cfg : Config) (m : Machine) : Label → Option Machine
  | .call k env =>
    if refused cfg k then some (m.log .refused)
    else match m.running with
      | some _ => none      -- blocked by sw.mu
      | none =>
        let p := plan cfg env k m.current m.next
        some { m.log (.called k) with
          next := p.next
          builts := p.built :: m.builts
          running := some { kind := k, todo := p.acts, res := p.res, phase := .idle, held := [] } }
  | .act =>
    match m.running with
    | none => none
    | some r => m.stepRunning cfg r
  | .ret =>
    match m.running with
    | some r =>
      if r.todo.isEmpty && r.phase == .idle then
        some { m.log (.returned r.kind r.res) with running := none }
      else none
    | none => none
  | .free n => m.stepFree n
  | .tick d => some { m with now := m.now + d }
  | .read => some (m.log (.observed (m.current.map (·.mid))))
  | .readCounter => some (m.log (.counted m.counter))

/-- The states reachable in some number of steps, for any choice of calls, environments and schedule. -/
inductive Reachable (cfg : Config) : Machine → Prop
  | init : Reachable cfg Machine.init
  | step {m m' : Machine} (l : Label) : Reachable cfg m → m.step cfg l = some m' → Reachable cfg m'

end Hotswap
