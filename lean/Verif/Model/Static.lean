import Verif.Model.Load

/-!
# Statically linked plugins (staticPlugin.go:44-126)
-/

namespace Hotswap

variable [GoRuntime]

open M

/-- staticPlugin.go:102-109: the missing functions, in the order of `makePluginFuncItemList`. -/
def staticMissing (sp : StaticPlugin) : List Str :=
  (pluginFuncItems.map Prod.fst).filter sp.missing

/-- staticPlugin.go:95-126 `loadStaticPlugin`. `File`, `FileSha1` and `P` keep their zero values: the empty
string, a digest that is modelled as `0` (static plugins never meet `removeUnchanged`), nil. -/
def loadStaticPlugin (sp : StaticPlugin) : M Unit := do
  let i ← alloc
  match staticMissing sp with
  | m :: ms => M.throw (.missing (m :: ms))
  | [] =>
    emit (.callReloadable i)
    let reloadable ← invokeRet sp.name sp.code.reloadable
    emit (.callExport i)
    let exported ← invokeRet sp.name sp.code.exportRet
    setPlugin (name2key sp.name)
      { inst := i, name := sp.name, file := [], sha := 0, note := .ok,
        unchanged := false, syms := none, code := sp.code, deps := [], exported := exported,
        reloadable := reloadable, bound := [] }
    emit (.register i)

/-- staticPlugin.go:63-75: load the plugins in the order of their map keys. (Simplification: the map has no
nil pointers; the generator never stores one, hotswapStaticPlugins.tpl. With them: Model/NilStatic.) -/
def loadStaticNew (it : Iter) (sps : GoMap StaticPlugin) : M Unit :=
  forEach (sortStrings (sps.range it .static)) (fun name =>
    match sps.get? name with
    | none => tagPanic none (M.panic .nilDeref)
    | some sp => tagPanic (some sp.name) (wrapLoading name (loadStaticPlugin sp)))

/-- staticPlugin.go:59-92: the body of `loadStaticPlugins`. -/
def loadStaticBody (it : Iter) (sps : GoMap StaticPlugin) (data : Nat) : M Unit := do
  let s ← M.get
  if s.pm.pluginMap.size ≠ 0 then M.throw .twice
  loadStaticNew it sps
  finishLoad it data

/-- staticPlugin.go:44-93 `(*PluginManager).loadStaticPlugins`. -/
def loadStatic (it : Iter) (sps : GoMap StaticPlugin) (data : Nat) : M Unit :=
  withCleanup it (loadStaticBody it sps data)

end Hotswap
