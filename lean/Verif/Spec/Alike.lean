import Verif.Spec.Refs
import Mathlib.Data.List.Forall2

/-!
# Programs that differ only in what a load must not look at (C19)
-/

namespace Hotswap

variable [GoRuntime]

/-- The two results of `Import()` have the same value and the same fields, in the same order, except for fields that are tagged `hotswap:"-"` or whose names do not begin with an
upper-case byte. -/
def ImportAlike (a b : Ret ImportRet) : Prop :=
  match a, b with
  | .panics, .panics => True
  | .ret x, .ret y => x.val = y.val ∧ x.fields.filter importable = y.fields.filter importable
  | _, _ => False

/-- The two plugins behave alike during loads: they may differ in ignored fields of `Import()`, in whether `OnFree` panics and in what `InvokeFunc` does. -/
structure CodeAlike (a b : Code) : Prop where
  reloadable : a.reloadable = b.reloadable
  exportRet : a.exportRet = b.exportRet
  importRet : ImportAlike a.importRet b.importRet
  onLoad : a.onLoad = b.onLoad
  onInit : a.onInit = b.onInit
  liveFuncs : a.liveFuncs = b.liveFuncs
  liveTypes : a.liveTypes = b.liveTypes

/-- The file holds alike plugins. -/
def OpenAlike (a b : OpenRes) : Prop :=
  match a, b with
  | .err, .err => True
  | .panics, .panics => True
  | .image s c, .image s' c' => s = s' ∧ CodeAlike c c'
  | _, _ => False

/-- Two environments that differ only in the plugins, which are alike. -/
structure EnvAlike (a b : Env) : Prop where
  it : a.it = b.it
  dir : a.dir = b.dir
  data : a.data = b.data
  cbResult : a.cbResult = b.cbResult
  ext : a.ext = b.ext
  readFile : a.fs.readFile = b.fs.readFile
  copyOk : a.fs.copyOk = b.fs.copyOk
  openPlugin : ∀ f, OpenAlike (a.fs.openPlugin f) (b.fs.openPlugin f)

/-- Two configurations with alike statically linked plugins and otherwise the same settings. -/
structure ConfigAlike (a b : Config) : Prop where
  whitelist : a.whitelist = b.whitelist
  freeDelay : a.freeDelay = b.freeDelay
  hasCallback : a.hasCallback = b.hasCallback
  hasNewExt : a.hasNewExt = b.hasNewExt
  mode : a.static.isSome = b.static.isSome
  static : ∀ sa sb, a.static = some sa → b.static = some sb →
    List.Forall₂ (fun x y => x.1 = y.1 ∧ x.2.name = y.2.name ∧ x.2.missing = y.2.missing ∧ CodeAlike x.2.code y.2.code) sa.entries sb.entries

/-- Two plugins of two managers are the same up to the parts of their code that loads do not look at: same identity, name, file, status, dependencies, exported value, what was
assigned to import fields, ... -/
structure PluginAlike (a b : Plugin) : Prop where
  same : { a with code := b.code } = b
  code : CodeAlike a.code b.code

/-- Two managers hold alike plugins, in the same order and under the same names, and equal vaults. -/
structure ManagerAlike (a b : Manager) : Prop where
  mid : a.mid = b.mid
  vault : a.vault = b.vault
  plugins : List.Forall₂ PluginAlike a.plugins b.plugins
  find : ∀ n, Option.Rel PluginAlike (a.findPlugin n) (b.findPlugin n)

/-- The same action, up to the managers that are published or handed to the delayed free, which are alike. -/
inductive ActAlike : Act → Act → Prop
  | spawnFree {a b : Manager} : ManagerAlike a b → ActAlike (.spawnFree a) (.spawnFree b)
  | publish {a b : Manager} : ManagerAlike a b → ActAlike (.publish a) (.publish b)
  | same (a : Act) : ActAlike a a

/-- The same event, at the same time. -/
inductive EvAlike : Nat × Ev → Nat × Ev → Prop
  | act (t : Nat) {a b : Act} : ActAlike a b → EvAlike (t, .act a) (t, .act b)
  | same (e : Nat × Ev) : EvAlike e e

/-- A finite execution with the given steps. -/
inductive Run (cfg : Config) : Machine → List Label → Machine → Prop
  | nil (m : Machine) : Run cfg m [] m
  | cons {m m1 m2 : Machine} {l : Label} {ls : List Label} : m.step cfg l = some m1 → Run cfg m1 ls m2 → Run cfg m (l :: ls) m2

/-- The same steps, in alike environments. -/
inductive LabelAlike : Label → Label → Prop
  | call (k : Kind) {a b : Env} (h : EnvAlike a b) : LabelAlike (.call k a) (.call k b)
  | same (l : Label) : LabelAlike l l

end Hotswap
