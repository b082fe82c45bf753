import Verif.Spec.Files

/-!
# What is wrong with a plugin file that cannot be loaded
-/

namespace Hotswap

variable [GoRuntime]

/-- The required functions that are missing from an image, in the documented order. -/
def missingSyms (syms : Str → Option GoType) : List Str :=
  requiredFunctions.filter (fun s => (syms s).isNone)

/-- Symbol `sym` of the image is not of the type `t`, nor a pointer to it. -/
def WrongType (syms : Str → Option GoType) (sym : Str) (t : GoType) : Prop :=
  ∃ st, syms sym = some st ∧ GoRuntime.assignable st t = false ∧ ∀ e, st = .ptr e → GoRuntime.assignable e t = false

/-- The error `e` is a true statement about the plugin in file `f`. -/
def FileFault (fs : FS) (f : Str) : Err → Prop
  | .copy => fs.copyOk f = false
  | .openFailed => fs.openPlugin f = .err
  | .lookup sym => ∃ syms code, fs.openPlugin f = .image syms code ∧ ∃ sig, (sym, sig) ∈ requiredSignatures ∧ WrongType syms sym sig.typ
  | .missing l => ∃ syms code, fs.openPlugin f = .image syms code ∧ l = missingSyms syms ∧ l ≠ []
  | .hookPanic n => n = pluginName f ∧ ∃ syms code, fs.openPlugin f = .image syms code ∧ missingSyms syms = [] ∧
      (code.reloadable = .panics ∨ code.exportRet = .panics)
  | _ => False

/-- The plugin in file `f` is not kept from the old manager. -/
def NotKept (fs : FS) (old : Option Manager) (f : Str) : Prop :=
  ∀ om oldP data, old = some om → om.pluginMap.get? (fileKey f) = some oldP → fs.readFile f = some data →
    oldP.reloadable = true ∧ GoRuntime.sha1 data ≠ oldP.sha

end Hotswap
