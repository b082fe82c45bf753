import Verif.Spec.Manager
import Verif.Spec.Acts

/-!
# Specification of the later phases of a load
-/

namespace Hotswap

variable [GoRuntime]

/-- The freshly loaded plugins of a list, in its order. -/
def freshOnes (l : List Plugin) : List Plugin := l.filter (fun p => !p.unchanged)

/-- The `OnInit` calls of the plugins in the list, each given the vault as the previous ones left it. -/
def initActs (mid : Nat) : Vault → List Plugin → List Act
  | _, [] => []
  | v, p :: r => .callOnInit p.inst mid v :: initActs mid (p.code.onInit v).2 r

/-- The vault after these `OnInit` calls. -/
def vaultAfter : Vault → List Plugin → Vault
  | v, [] => v
  | v, p :: r => vaultAfter (p.code.onInit v).2 r

/-- All these `OnInit` calls return nil. -/
def initOK : Vault → List Plugin → Prop
  | _, [] => True
  | v, p :: r => (p.code.onInit v).1 = .ok ∧ initOK (p.code.onInit v).2 r

/-- `m` holds exactly what the plugins of `l` declare. -/
def LiveUnion (live : Plugin → Ret (Option (GoMap Val))) (l : List Plugin) (m : GoMap Val) : Prop :=
  ∀ k v, m.get? k = some v ↔ ∃ p ∈ l, ∃ a, live p = .ret (some a) ∧ a.get? k = some v

/-- The vault handed to the first `OnInit` of a load. -/
structure VaultReady (l : List Plugin) (v0 v : Vault) : Prop where
  funcs : LiveUnion (·.code.liveFuncs) l v.liveFuncs
  types : LiveUnion (·.code.liveTypes) l v.liveTypes
  bag : v.dataBag = v0.dataBag
  ext : v.extension = v0.extension

end Hotswap
