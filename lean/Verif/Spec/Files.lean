import Verif.Spec.Load
import Verif.Spec.Required

/-!
# What a load does with each file
-/

namespace Hotswap

variable [GoRuntime]

/-- The map key of the plugin in a file: its lower-cased name. -/
def fileKey (f : Str) : Str := name2key (pluginName f)

/-- The plugin was built from the file: opened, complete, and answering for itself. -/
structure BuiltFrom (fs : FS) (f : Str) (data : Nat) (p : Plugin) : Prop where
  changed : p.unchanged = false
  note : p.note = .none
  name : p.name = pluginName f
  file : p.file = f
  sha : p.sha = GoRuntime.sha1 data
  lower : name2key p.name = p.name
  image : ∃ syms, fs.openPlugin f = .image syms p.code ∧ p.syms = some syms ∧ Complete syms
  faithful : Faithful p

/-- The plugin a load puts into the new manager for file `f` with contents `data`. -/
inductive FileFate (fs : FS) (old : Option Manager) (f : Str) (data : Nat) (p : Plugin) : Prop
  /-- the old manager has it and it is not reloadable: kept whatever the file contains -/
  | notReloadable (om : Manager) (oldP : Plugin) (h : old = some om) (hk : om.pluginMap.get? (fileKey f) = some oldP)
      (hr : oldP.reloadable = false) (hp : p = { oldP with unchanged := true, note := .notReloadable })
  /-- the old manager has it with the same digest: kept -/
  | unchanged (om : Manager) (oldP : Plugin) (h : old = some om) (hk : om.pluginMap.get? (fileKey f) = some oldP)
      (hr : oldP.reloadable = true) (hs : GoRuntime.sha1 data = oldP.sha)
      (hp : p = { oldP with unchanged := true, note := .unchanged })
  /-- otherwise it is loaded anew -/
  | renewed (h : ∀ om oldP, old = some om → om.pluginMap.get? (fileKey f) = some oldP →
        oldP.reloadable = true ∧ GoRuntime.sha1 data ≠ oldP.sha)
      (hb : BuiltFrom fs f data p)

end Hotswap
