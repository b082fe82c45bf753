import Verif.Spec.Acts

/-!
# Vocabulary for traces
-/

namespace Hotswap

variable [GoRuntime]

/-- The events so far, oldest first, without their times. -/
def Machine.events (m : Machine) : List Ev := m.trace.map (·.2)

/-- The instances registered in a manager so far. -/
def Machine.regs (m : Machine) : List Nat :=
  m.events.filterMap (fun e => match e with | .act (.register i) => some i | _ => none)

/-- The instances whose `OnFree` was called so far, in order. -/
def Machine.begins (m : Machine) : List Nat :=
  m.events.filterMap (fun e => match e with | .freeBegin i => some i | _ => none)

/-- The instances whose `OnFree` has returned (or panicked). -/
def Machine.ends (m : Machine) : List Nat :=
  m.events.filterMap (fun e => match e with | .freeEnd i => some i | _ => none)

/-- The plugin functions called so far, with the instances they were called on. -/
def Machine.hooks (m : Machine) : List (Nat × Hook) := m.events.filterMap evHook

/-- The functions called on instance `i`, in order. -/
def Machine.hooksOf (m : Machine) (i : Nat) : List Hook :=
  (m.hooks.filter (fun e => e.1 = i)).map (·.2)

/-- A timed history. -/
abbrev History := List (Nat × Ev)

/-- The managers published in a history, oldest first. -/
def published (tr : History) : List Manager :=
  tr.filterMap (fun e => match e.2 with | .act (.publish pm) => some pm | _ => none)

/-- The manager published last: what `Current()` should return after this history. -/
def lastPublished (tr : History) : Option Manager := (published tr).getLast?

/-- The actions of calls in a history. -/
def actsOf (tr : History) : List Act := tr.filterMap (fun e => match e.2 with | .act a => some a | _ => none)

/-- The call that has begun and not yet returned. -/
def openCall (tr : History) : Option Kind :=
  tr.foldl (fun o e => match e.2 with | .called k => some k | .returned _ _ => none | _ => o) none

/-- Is this the beginning of a call? -/
def Ev.isCall : Ev → Bool
  | .called _ => true
  | _ => false

/-- Did a `Reload` return nil here? -/
def Ev.isReloadOk : Ev → Bool
  | .returned (.reload _) (.ok _) => true
  | _ => false

/-- The number of `Reload`/`ReloadWithCallback` calls that have returned a nil error. -/
def reloadsOk (tr : History) : Nat := tr.countP (fun e => e.2.isReloadOk)

end Hotswap
