import Verif.Model.Types

/-!
# The functions a plugin must have (C28, C35, C54, C55, C69)
-/

namespace Hotswap

/-- The Go function types of the required functions. -/
inductive Signature where
  /-- `func(data interface{}) error` -/
  | dataError
  /-- `func(sharedVault *vault.Vault) error` -/
  | vaultError
  /-- `func()` -/
  | nothing
  /-- `func() interface{}` -/
  | value
  /-- `func(name string, params ...interface{}) (interface{}, error)` -/
  | invoke
  /-- `func() bool` -/
  | bool
  /-- `func() map[string]interface{}` -/
  | liveFuncs
  /-- `func() map[string]func() interface{}` -/
  | liveTypes
  deriving DecidableEq, Repr

/-- Different signatures are different types; their numbers are arbitrary. -/
def Signature.typ : Signature → GoType
  | .dataError => .func 0
  | .vaultError => .func 1
  | .nothing => .func 2
  | .value => .func 3
  | .invoke => .func 4
  | .bool => .func 5
  | .liveFuncs => .func 6
  | .liveTypes => .func 7

theorem Signature.typ_inj : ∀ s t : Signature, s.typ = t.typ → s = t := by
  intro s t h
  cases s <;> cases t <;> first | rfl | (exact absurd h (by decide))

/-- The functions every plugin must have, in the documented order, with their signatures. -/
def requiredSignatures : List (Str × Signature) :=
  [ ("OnLoad".toList, .dataError),
    ("OnInit".toList, .vaultError),
    ("OnFree".toList, .nothing),
    ("Export".toList, .value),
    ("Import".toList, .value),
    ("InvokeFunc".toList, .invoke),
    ("Reloadable".toList, .bool),
    ("HotswapLiveFuncs".toList, .liveFuncs),
    ("HotswapLiveTypes".toList, .liveTypes) ]

/-- Their names. -/
def requiredFunctions : List Str := requiredSignatures.map Prod.fst

/-- The symbol `sym` of the image has the type `t`, or is a variable of that type. -/
def HasType [GoRuntime] (syms : Str → Option GoType) (sym : Str) (t : GoType) : Prop :=
  ∃ st, syms sym = some st ∧ (GoRuntime.assignable st t = true ∨ ∃ e, st = .ptr e ∧ GoRuntime.assignable e t = true)

/-- The image has all required functions, with the right types. -/
def Complete [GoRuntime] (syms : Str → Option GoType) : Prop :=
  ∀ sym sig, (sym, sig) ∈ requiredSignatures → HasType syms sym sig.typ

end Hotswap
