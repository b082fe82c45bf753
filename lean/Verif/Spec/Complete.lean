import Verif.Spec.ErrTrue

/-!
# Plugin sets that must load (C54, C55)
-/

namespace Hotswap

variable [GoRuntime]

/-- The instance `P` of the current manager that a load keeps for file `f`: it has the name of the file, and it is not reloadable or was loaded from the same contents. -/
def KeptFor (fs : FS) (old : Option Manager) (f : Str) (P : Plugin) : Prop :=
  ∃ om data, old = some om ∧ om.findPlugin (pluginName f) = some P ∧ fs.readFile f = some data ∧ (P.reloadable = false ∨ GoRuntime.sha1 data = P.sha)

/-- What file `f` contributes to a load: the instance that is kept for it (`true`), or else the plugin as it comes out of the file (`false`; it has no dependencies
yet). -/
inductive Offers (fs : FS) (old : Option Manager) (f : Str) : Bool → Plugin → Prop
  | kept {P : Plugin} (h : KeptFor fs old f P) : Offers fs old f true P
  | fresh {syms : Str → Option GoType} {code : Code} {r : Bool} {x : Option Val} {data : Nat} (h : NotKept fs old f) (hr : fs.readFile f = some data)
      (ho : fs.openPlugin f = .image syms code) (h1 : code.reloadable = .ret r) (h2 : code.exportRet = .ret x) :
      Offers fs old f false { inst := 0, name := pluginName f, file := f, sha := GoRuntime.sha1 data, note := .none, unchanged := false, syms := some syms,
                              code := code, deps := [], exported := x, reloadable := r, bound := [] }

/-- The field `fd` of plugin `P` can be bound to `Q`. -/
structure Bindable (P : Plugin) (fd : Field) (Q : Plugin) : Prop where
  name : name2key Q.name = name2key fd.name
  /-- a plugin that is not reloadable needs dependencies that are not reloadable -/
  stable : P.reloadable = false → Q.reloadable = false
  typed : ∀ v, Q.exported = some v → isNil (some v) = false → GoRuntime.assignable v.typ fd.typ = true ∧ ExportedName fd.name

/-- No two of the maps declare the same name. -/
def Disjoint (a b : Ret (Option (GoMap Val))) : Prop :=
  ∀ x y, a = .ret (some x) → b = .ret (some y) → ∀ n, x.get? n ≠ none → y.get? n = none

/-- What the sources of a load (plugin files, or names of static plugins) offer fits together. `off f u P`: source `f` offers `P`, which is kept from the current manager if `u`
and new otherwise. Nothing is required of kept plugins except that what they depend on is kept, too. -/
structure Fits (off : Str → Bool → Plugin → Prop) (data : Nat) (files : List Str) : Prop where
  /-- the other hooks of new plugins succeed -/
  hooks : ∀ f ∈ files, ∀ P, off f false P → GoodImport P.code ∧ P.code.onLoad data = .ok ∧ ∀ v, (P.code.onInit v).1 = .ok
  /-- every import of a new plugin can be bound to a plugin of the set -/
  imports : ∀ f ∈ files, ∀ P, off f false P → ∀ fd, ImportField P fd → importable fd = true →
    fd.anonymous = false ∧ ∃ g ∈ files, ∃ u Q, off g u Q ∧ Bindable P fd Q
  /-- the dependencies of kept plugins are kept -/
  keeps : ∀ f ∈ files, ∀ P, off f true P → ∀ d ∈ P.deps, ∃ g ∈ files, ∃ Q, off g true Q ∧ name2key Q.name = name2key d
  /-- the imports among new plugins have no cycle -/
  acyclic : ∃ rank : Str → Nat, ∀ f ∈ files, ∀ P, off f false P → ∀ fd, ImportField P fd → importable fd = true →
    ∀ g ∈ files, ∀ Q, off g false Q → name2key Q.name = name2key fd.name → rank (name2key Q.name) < rank (name2key P.name)
  /-- new plugins declare maps of live functions and types, and no name is declared twice -/
  live : ∀ f ∈ files, ∀ P, off f false P → (∃ m, P.code.liveFuncs = .ret (some m)) ∧ ∃ m, P.code.liveTypes = .ret (some m)
  disjoint : ∀ f ∈ files, ∀ g ∈ files, f ≠ g → ∀ u v P Q, off f u P → off g v Q → u = false ∨ v = false →
    Disjoint P.code.liveFuncs Q.code.liveFuncs ∧ Disjoint P.code.liveTypes Q.code.liveTypes

/-- A set of plugin files without faults, to be loaded while `old` is the current manager. -/
structure Loadable (env : Env) (old : Option Manager) (files : List Str) : Prop extends Fits (Offers env.fs old) env.data files where
  /-- names differ even in lower case -/
  names : (files.map (fun f => name2key (pluginName f))).Nodup
  readable : ∀ f ∈ files, env.fs.readFile f ≠ none
  /-- new plugins have lower-case names, their files can be copied and opened, nothing is missing, and `Reloadable` and `Export` return -/
  usable : ∀ f ∈ files, NotKept env.fs old f → name2key (pluginName f) = pluginName f ∧ env.fs.copyOk f = true ∧
    ∃ syms code, env.fs.openPlugin f = .image syms code ∧ Complete syms ∧ (∃ r, code.reloadable = .ret r) ∧ ∃ x, code.exportRet = .ret x

/-- The plugin files are those of the plugins of the manager `om`, and none has changed: the names are the same, and every file has the contents its plugin was loaded from (or
the plugin is not reloadable). -/
structure SameFiles (fs : FS) (om : Manager) (files : List Str) : Prop where
  same : (files.map (fun f => name2key (pluginName f))).Perm (om.plugins.map (fun p => name2key p.name))
  contents : ∀ f ∈ files, ∀ P, om.findPlugin (pluginName f) = some P → ∃ data, fs.readFile f = some data ∧ (P.code.reloadable = .ret false ∨ P.sha = GoRuntime.sha1 data)

end Hotswap
