import Verif.Spec.Complete

/-!
# What decides a load (C68, C69)
-/

namespace Hotswap

section
variable [GoRuntime]

/-- Whether `OnInit` of a new plugin succeeds does not depend on the vault it is given. -/
def InitStableBy (off : Str → Bool → Plugin → Prop) (files : List Str) : Prop :=
  ∀ f ∈ files, ∀ P, off f false P → ∀ v w, (P.code.onInit v).1 = (P.code.onInit w).1

/-- The same, for plugin files. -/
def InitStable (env : Env) (old : Option Manager) (files : List Str) : Prop := InitStableBy (Offers env.fs old) files

/-- Two plugins are the same except for the identity of new instances: same name, file, digest, functions, dependencies and export, both kept or both new, and the same instance if kept. -/
structure SamePlugin (P Q : Plugin) : Prop where
  name : P.name = Q.name
  file : P.file = Q.file
  sha : P.sha = Q.sha
  code : P.code = Q.code
  deps : P.deps = Q.deps
  exported : P.exported = Q.exported
  reloadable : P.reloadable = Q.reloadable
  unchanged : P.unchanged = Q.unchanged
  inst : P.unchanged = true → P.inst = Q.inst

/-- The two managers find the same plugins. -/
def SamePlugins (pm pm' : Manager) : Prop :=
  ∀ name, match pm.findPlugin name, pm'.findPlugin name with
    | none, none => True
    | some P, some Q => SamePlugin P Q
    | _, _ => False

/-- The environment with another iteration order of maps. -/
def Env.withOrder (env : Env) (it : Iter) : Env := { env with it := it }

/-- What the statically linked plugin stored under `n` contributes to a load. -/
inductive StaticOffers (sps : GoMap StaticPlugin) (n : Str) : Bool → Plugin → Prop
  | new {sp : StaticPlugin} {r : Bool} {x : Option Val} (h : sps.get? n = some sp) (h1 : sp.code.reloadable = .ret r) (h2 : sp.code.exportRet = .ret x) :
      StaticOffers sps n false { inst := 0, name := sp.name, file := [], sha := 0, note := .ok, unchanged := false, syms := none,
                                 code := sp.code, deps := [], exported := x, reloadable := r, bound := [] }

/-- The names of the selected plugins: all, or those of the whitelist. -/
def selectedNames (cfg : Config) (sps : GoMap StaticPlugin) : List Str := sps.keys.filter (fun n => cfg.whitelist.isEmpty || cfg.whitelist.contains n)

/-- A set of statically linked plugins without faults. -/
structure StaticLoadable (cfg : Config) (sps : GoMap StaticPlugin) (data : Nat) : Prop extends Fits (StaticOffers sps) data (selectedNames cfg sps) where
  /-- every plugin the whitelist names is linked -/
  linked : ∀ n ∈ cfg.whitelist, sps.get? n ≠ none
  /-- nothing is missing, `Reloadable` and `Export` return -/
  usable : ∀ n sp, Selected cfg sps n sp → (∀ sym ∈ requiredFunctions, sp.missing sym = false) ∧ (∃ r, sp.code.reloadable = .ret r) ∧ ∃ x, sp.code.exportRet = .ret x

end

end Hotswap
