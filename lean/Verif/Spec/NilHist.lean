import Verif.Model.NilHist
import Verif.Spec.Goexit
import Verif.Spec.Acts

/-! Histories in which plugins panic with nil, and what is lost in them. -/

namespace Hotswap

variable [GoRuntime]

/-- What a step loses: when a call returns, the instances it has entered in its manager, new or kept, and neither released nor published (`owed`, Spec/Goexit). -/
def Machine.nilLoses (m : Machine) : NLabel → List Nat
  | .go .ret => owed (lastCallActs m.trace)
  | _ => []

/-- The states that a program whose plugins may panic with nil can reach, with the references lost on the way. -/
inductive NReachable (cfg : Config) : Machine → List Nat → Prop
  | init : NReachable cfg Machine.init []
  | step {m m' : Machine} {L : List Nat} (l : NLabel) : NReachable cfg m L → m.nstep cfg l = some m' → NReachable cfg m' (m.nilLoses l ++ L)

/-- `m'` is reached from `m` in some number of steps. -/
inductive NLater (cfg : Config) (m : Machine) : Machine → Prop
  | refl : NLater cfg m m
  | step {m' m'' : Machine} (l : NLabel) : NLater cfg m m' → m'.nstep cfg l = some m'' → NLater cfg m m''

end Hotswap
