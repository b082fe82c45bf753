import Verif.Model.HostRefs
import Verif.Spec.Refs

/-!
# Hosts that use `Plugin.Refs`
-/

namespace Hotswap

variable [GoRuntime]

/-- The states that a program can reach whose host does whatever it likes to reference counts. -/
inductive AnyHost (cfg : Config) : Machine → Prop
  | init : AnyHost cfg Machine.init
  | step {m m' : Machine} (l : HLabel) : AnyHost cfg m → m.hstep cfg l = some m' → AnyHost cfg m'

/-- The states that a program can reach whose host takes references only of plugins that have one (`Refs.Inc()` returns more than 1) and gives back only those it has. `H` are the references of the host; `D` are the
plugins of which the host has given back the last reference (`Refs.Dec()` returned 0). -/
inductive HostReachable (cfg : Config) : Machine → List Nat → List Nat → Prop
  | init : HostReachable cfg Machine.init [] []
  | go {m m' : Machine} {H D : List Nat} (l : Label) : HostReachable cfg m H D → m.hstep cfg (.go l) = some m' → HostReachable cfg m' H D
  | hold {m m' : Machine} {H D : List Nat} (i : Nat) : HostReachable cfg m H D → 0 < m.refs i → m.hstep cfg (.hold i) = some m' → HostReachable cfg m' (i :: H) D
  | unhold {m m' : Machine} {H D : List Nat} (i : Nat) : HostReachable cfg m H D → i ∈ H → 1 < m.refs i → m.hstep cfg (.unhold i) = some m' → HostReachable cfg m' (H.erase i) D
  | last {m m' : Machine} {H D : List Nat} (i : Nat) : HostReachable cfg m H D → i ∈ H → m.refs i = 1 → m.hstep cfg (.unhold i) = some m' → HostReachable cfg m' (H.erase i) (i :: D)

/-- Further steps of such a program. -/
inductive HostLater (cfg : Config) : Machine → List Nat → List Nat → Machine → List Nat → List Nat → Prop
  | refl {m : Machine} {H D : List Nat} : HostLater cfg m H D m H D
  | go {m m' m'' : Machine} {H D H' D' : List Nat} (l : Label) : HostLater cfg m H D m' H' D' → m'.hstep cfg (.go l) = some m'' → HostLater cfg m H D m'' H' D'
  | hold {m m' m'' : Machine} {H D H' D' : List Nat} (i : Nat) : HostLater cfg m H D m' H' D' → 0 < m'.refs i → m'.hstep cfg (.hold i) = some m'' → HostLater cfg m H D m'' (i :: H') D'
  | unhold {m m' m'' : Machine} {H D H' D' : List Nat} (i : Nat) : HostLater cfg m H D m' H' D' → i ∈ H' → 1 < m'.refs i → m'.hstep cfg (.unhold i) = some m'' → HostLater cfg m H D m'' (H'.erase i) D'
  | last {m m' m'' : Machine} {H D H' D' : List Nat} (i : Nat) : HostLater cfg m H D m' H' D' → i ∈ H' → m'.refs i = 1 → m'.hstep cfg (.unhold i) = some m'' → HostLater cfg m H D m'' (H'.erase i) (i :: D')

end Hotswap
