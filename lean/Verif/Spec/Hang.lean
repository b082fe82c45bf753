import Verif.Spec.Goexit

/-!
# Plugin code and callbacks that never return (C80)
-/

namespace Hotswap

variable [GoRuntime]

/-- The actions in which code of a plugin or of the user runs: the package initialisation by `plugin.Open`, the functions of a plugin, reload callbacks. -/
def Act.userCode : Act → Bool
  | .openPlugin _ => true
  | .callReloadable _ | .callExport _ | .callImport _ | .callOnLoad _ _ | .callLiveFuncs _ | .callLiveTypes _ | .callOnInit _ _ _ => true
  | .callback _ _ _ => true
  | _ => false

/-- The call that holds the lock is in user code: in an `OnFree`, or in what its next action calls. -/
def Running.InUserCode (r : Running) : Prop :=
  (∃ i, r.phase = .inside i) ∨ (r.phase = .idle ∧ ∃ a rest, r.todo = a :: rest ∧ a.userCode = true)

/-- Which user code never returns: the code that the running call is in, and the `OnFree` functions that the free goroutines with these numbers are in. -/
structure Hung where
  call : Bool
  frees : List Nat

/-- In this state the goroutines in question are in user code. -/
structure Hung.At (H : Hung) (m : Machine) : Prop where
  call : H.call = true → ∃ r, m.running = some r ∧ r.InUserCode
  frees : ∀ n ∈ H.frees, ∃ t i, m.frees[n]? = some t ∧ t.phase = .inside i

/-- The steps that do not belong to a hanging goroutine. -/
def Hung.allows (H : Hung) : Label → Prop
  | .act => H.call = false
  | .ret => H.call = false
  | .free n => n ∉ H.frees
  | _ => True

/-- `m'` is reached from `m` without a step of a hanging goroutine. -/
inductive Hung.Later (H : Hung) (cfg : Config) (m : Machine) : Machine → Prop
  | refl : Hung.Later H cfg m m
  | step {m' m'' : Machine} (l : Label) : Hung.Later H cfg m m' → H.allows l → m'.step cfg l = some m'' → Hung.Later H cfg m m''

/-- What the hanging goroutines hold: what the call has entered in its manager, and what the free goroutines have still to release. -/
def Hung.holding (H : Hung) (m : Machine) : List Nat :=
  (if H.call then owed (lastCallActs m.trace) else []) ++ H.frees.flatMap (fun n => match m.frees[n]? with
    | none => []
    | some t => t.todo)

/-- Everything that does not hang is done. -/
structure Hung.Rest (H : Hung) (m : Machine) : Prop where
  call : H.call = false → m.running = none
  frees : ∀ n t, n ∉ H.frees → m.frees[n]? = some t → t.todo = [] ∧ t.phase = .idle

end Hotswap
