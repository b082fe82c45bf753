import Verif.Model.Machine

/-!
# `Plugin.When`

The machine of Model/Machine together with the exported field `When` (plugin.go:39) of the plugins of the manager under construction and of the current manager. A manager has its own copy of each of its plugins (`addUnchanged` copies the struct,
pluginManager.go:61-67), so the field is kept once per manager, by instance. The clock is the monotonic clock that `time.Now()` reads; its wall-clock reading is not modelled.
-/

namespace Hotswap

variable [GoRuntime]

/-- The machine, `pm.when` of the manager of the running call (`none`: not yet set), and `When` of the plugins of that manager and of the current one. -/
structure TMachine where
  m : Machine
  stamp : Option Nat
  building : Nat → Option Nat
  shown : Nat → Option Nat

/-- A step of the machine, or the execution of `pm.when = time.Now()` by the running call. -/
inductive TLabel where
  | go (l : Label)
  | clock

/-- A fresh swapper. -/
def TMachine.init : TMachine := { m := .init, stamp := none, building := fun _ => none, shown := fun _ => none }

/-- Has the call still to enter kept plugins next? -/
def keeping : List Act → Bool
  | .inc _ :: _ => true
  | _ => false

/-- The effect of an action of a call on the field. In `loadPlugins`, `time.Now()` (pluginManager.go:134) comes after the loops that enter the kept plugins (lines 122-128) and before the loop that loads the others (lines 135-141) and everything that follows; in
`loadStaticPlugins` (staticPlugin.go:69) before the loop that loads the plugins (lines 70-75).

* `addUnchanged`: `*newP = *oldP` copies the field (pluginManager.go:62-63).
* `loadPlugin`, `loadStaticPlugin`: `p.When = pm.when` (pluginManager.go:202, staticPlugin.go:98), for the instance on which `Reloadable` is called next.
* the publication: `Current()` shows the plugins of the new manager. -/
def TMachine.act (s : TMachine) (m' : Machine) (a : Act) : Option TMachine :=
  match a, s.stamp with
  | .inc i, none => some { s with m := m', building := upd s.building i (s.shown i) }
  | .inc _, some _ => none
  | .callReloadable i, some w => some { s with m := m', building := upd s.building i (some w) }
  | .publish _, some _ => some { s with m := m', shown := s.building }
  | .release _, _ => some { s with m := m' }
  | .count, _ => some { s with m := m' }
  | _, some _ => some { s with m := m' }
  | _, none => none

/-- One step. (Simplification: a call that fails before line 134, or finds no files, may read the clock too; it does not use the value.) -/
def TMachine.step (cfg : Config) (s : TMachine) : TLabel → Option TMachine
  | .clock =>
    match s.m.running with
    | none => none
    | some r =>
      if r.phase = .idle ∧ s.stamp = none ∧ keeping r.todo = false then some { s with stamp := some s.m.now } else none
  | .go l =>
    match s.m.step cfg l with
    | none => none
    | some m' =>
      match l with
      | .call k _ => if refused cfg k then some { s with m := m' } else some { s with m := m', stamp := none, building := fun _ => none }
      | .act =>
        match s.m.running with
        | none => none
        | some r =>
          match r.phase, r.todo with
          | .idle, a :: _ => s.act m' a
          | _, _ => some { s with m := m' }
      | _ => some { s with m := m' }

/-- The states of a history. -/
inductive TReachable (cfg : Config) : TMachine → Prop
  | init : TReachable cfg .init
  | step {s s' : TMachine} (l : TLabel) : TReachable cfg s → s.step cfg l = some s' → TReachable cfg s'

/-- The states after a state. -/
inductive TLater (cfg : Config) (s : TMachine) : TMachine → Prop
  | refl : TLater cfg s s
  | step {s' s'' : TMachine} (l : TLabel) : TLater cfg s s' → s'.step cfg l = some s'' → TLater cfg s s''

end Hotswap
