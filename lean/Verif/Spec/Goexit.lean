import Verif.Model.Goexit
import Verif.Spec.Refs

/-!
# What is lost when plugin code calls `runtime.Goexit`
-/

namespace Hotswap

variable [GoRuntime]

/-- In this action a function of a plugin (other than `OnFree`), the initialisation of its packages, or a reload callback runs. -/
inductive RunsFunc : Act → Prop
  | open' (f : Str) : RunsFunc (.openPlugin f)
  | reloadable (i : Nat) : RunsFunc (.callReloadable i)
  | export' (i : Nat) : RunsFunc (.callExport i)
  | import' (i : Nat) : RunsFunc (.callImport i)
  | onLoad (i d : Nat) : RunsFunc (.callOnLoad i d)
  | liveFuncs (i : Nat) : RunsFunc (.callLiveFuncs i)
  | liveTypes (i : Nat) : RunsFunc (.callLiveTypes i)
  | onInit (i mid : Nat) (v : Vault) : RunsFunc (.callOnInit i mid v)
  | callback (n new : Nat) (old : Option Nat) : RunsFunc (.callback n new old)

/-- The actions of the call that began last. -/
def lastCallActs (tr : History) : List Act :=
  tr.foldl (fun l e => match e.2 with | .called _ => [] | .act a => l ++ [a] | _ => l) []

/-- The instances a call has entered in its manager, new or kept, and neither released nor published. -/
def owed (acts : List Act) : List Nat :=
  acts.foldl (fun l a => match a with
    | .register i => i :: l
    | .inc i => i :: l
    | .release i => l.erase i
    | .publish _ => []
    | _ => l) []

/-- What a step loses: if the call that holds the lock ends without returning, what it owed; if a free goroutine ends, what it had still
to release. -/
def Machine.loses (m : Machine) : XLabel → List Nat
  | .go _ => []
  | .exitCall => owed (lastCallActs m.trace)
  | .exitFree n => match m.frees[n]? with
    | none => []
    | some t => t.todo

/-- The states that a program whose plugins may call `runtime.Goexit` can reach, with the references lost on the way. -/
inductive XReachable (cfg : Config) : Machine → List Nat → Prop
  | init : XReachable cfg Machine.init []
  | step {m m' : Machine} {L : List Nat} (l : XLabel) : XReachable cfg m L → m.xstep cfg l = some m' → XReachable cfg m' (m.loses l ++ L)

/-- `m'` is reached from `m` in some number of steps. -/
inductive XLater (cfg : Config) (m : Machine) : Machine → Prop
  | refl : XLater cfg m m
  | step {m' m'' : Machine} (l : XLabel) : XLater cfg m m' → m'.xstep cfg l = some m'' → XLater cfg m m''

end Hotswap
