import Verif.Model.Machine

/-!
# Vocabulary for action lists and traces
-/

namespace Hotswap

/-- The functions of a plugin that hotswap calls at most once (README, "life cycle"). -/
inductive Hook where
  | reloadable
  | export
  | import
  | onLoad
  | onInit
  | onFree
  deriving DecidableEq, Repr

/-- Position in the life cycle. -/
def Hook.rank : Hook → Nat
  | .reloadable => 0
  | .export => 1
  | .import => 2
  | .onLoad => 3
  | .onInit => 4
  | .onFree => 5

/-- The documented order. -/
def lifecycle : List Hook := [.reloadable, .export, .import, .onLoad, .onInit, .onFree]

/-- The plugin function an action calls, and on which instance. `OnFree` is a separate event. -/
def hookOf : Act → Option (Nat × Hook)
  | .callReloadable i => some (i, .reloadable)
  | .callExport i => some (i, .export)
  | .callImport i => some (i, .import)
  | .callOnLoad i _ => some (i, .onLoad)
  | .callOnInit i _ _ => some (i, .onInit)
  | _ => none

/-- The plugin function an event begins to call. -/
def evHook : Ev → Option (Nat × Hook)
  | .act a => hookOf a
  | .freeBegin i => some (i, .onFree)
  | _ => none

/-- The sequence of hooks called on instance `i`. -/
def hooksOn (i : Nat) (l : List Act) : List Hook :=
  l.filterMap (fun a => match hookOf a with
    | some (j, h) => if j = i then some h else none
    | none => none)

/-- The phases of a load in the order of the README ("execution order"): 1 reading files and `Reloadable`,
`Export`; 2 `Import`; 3 `OnLoad`; 4 vault; 5 `OnInit`; 6 reload callbacks; 7 the end (publication or
cleanup). -/
def Act.stage : Act → Nat
  | .openPlugin _ | .callReloadable _ | .callExport _ | .register _ | .inc _ => 1
  | .callImport _ => 2
  | .callOnLoad _ _ => 3
  | .callLiveFuncs _ | .callLiveTypes _ => 4
  | .callOnInit _ _ _ => 5
  | .callback _ _ _ => 6
  | .release _ | .spawnFree _ | .publish _ | .count => 7

/-- The reference an action takes. -/
def acquires : Act → Option Nat
  | .register i => some i
  | .inc i => some i
  | _ => none

/-- The references taken by a list of actions. -/
def acquired (l : List Act) : List Nat := l.filterMap acquires

end Hotswap
