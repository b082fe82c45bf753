import Verif.Model.When
import Verif.Spec.Trace

/-! Vocabulary for C92. -/

namespace Hotswap

variable [GoRuntime]

/-- In the history `tr`, the time `w` lies in the call that loaded instance `i`: after the call began and took its references to kept plugins, and before it called `plugin.Open` for any plugin and `Reloadable` on the instance. -/
def LoadedAt (tr : History) (i w : Nat) : Prop :=
  ∃ a t0 k b t1 c, tr = a ++ (t0, .called k) :: (b ++ (t1, .act (.callReloadable i)) :: c) ∧ (∀ e ∈ b, e.2.isCall = false) ∧ t0 ≤ w ∧ w ≤ t1 ∧
    (∀ t f, (t, Ev.act (.openPlugin f)) ∈ b → w ≤ t) ∧ ∀ t j, (t, Ev.act (.inc j)) ∈ b → t ≤ w

end Hotswap
