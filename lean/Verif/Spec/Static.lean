import Verif.Model.Swapper
import Verif.Spec.Required

/-!
# Selected static plugins (C31, C32, C69)
-/

namespace Hotswap

/-- The statically linked plugin `sp`, stored under `n`, is selected: there is no whitelist or it names `n`. -/
def Selected (cfg : Config) (sps : GoMap StaticPlugin) (n : Str) (sp : StaticPlugin) : Prop :=
  sps.get? n = some sp ∧ (cfg.whitelist = [] ∨ n ∈ cfg.whitelist)

end Hotswap
