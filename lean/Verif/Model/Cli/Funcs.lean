import Verif.Model.Types

/-!
# Required plugin functions at build time (cli/hotswap/cmd/build.go:514-576) and the generated call of
`NewPluginFuncs` (staticPlugin.go:15-37, hotswapStaticPluginInit.tpl)
-/

namespace Hotswap.Cli

/-- A top-level declaration of a Go file, as far as the tool looks at it: a function or method, a group of type
declarations (name, is it literally a struct type), or anything else. -/
inductive Decl where
  | func (name : Str) (isMethod : Bool)
  | types (specs : List (Str × Bool))
  | other
  deriving DecidableEq, Repr

/-- A parsed directory: packages, their files, their declarations (maps in Go, so the order is arbitrary). -/
abbrev ParsedDir := List (List (List Decl))

/-- The keys of `pluginFuncMap` in source order, build.go:515-525. -/
def requiredFuncs : List Str :=
  ["OnLoad".toList, "OnInit".toList, "OnFree".toList, "Export".toList, "Import".toList, "InvokeFunc".toList,
   "Reloadable".toList, "HotswapLiveFuncs".toList, "HotswapLiveTypes".toList]

/-- build.go:515-529: the initial map, `"nil"` for every name; without a package name the two generated functions are
deleted. -/
def initialFuncMap (pkgName : Str) : GoMap Str :=
  let m := requiredFuncs.foldl (fun m f => m.insert f "nil".toList) GoMap.empty
  if pkgName = [] then m.filter (fun k _ => k != "HotswapLiveFuncs".toList && k != "HotswapLiveTypes".toList) else m

/-- build.go:541-548: one declaration. -/
def scanDecl (pkgName : Str) (m : GoMap Str) (d : Decl) : GoMap Str :=
  match d with
  | .func name false =>
    match m.get? name with
    | some _ => m.insert name (pkgName ++ '.' :: name)
    | none => m
  | _ => m

/-- build.go:538-551. -/
def scanDir (pkgName : Str) (m : GoMap Str) (dir : ParsedDir) : GoMap Str :=
  dir.foldl (fun m pkg => pkg.foldl (fun m file => file.foldl (scanDecl pkgName) m) m) m

/-- build.go:514-576 `parseRequiredPluginFuncs`: the panic with the sorted missing names, or the sorted list of
(name, expression). -/
def parseRequired (it : Iter) (dir : ParsedDir) (pkgName : Str) : Except (List Str) (List (Str × Str)) :=
  let m := scanDir pkgName (initialFuncMap pkgName) dir
  let kv := m.rangeKV it (.other 0)
  let missing := (kv.filter (fun e => e.2 == "nil".toList)).map Prod.fst
  let a := (kv.filter (fun e => e.2 != "nil".toList)).map Prod.fst
  if missing ≠ [] then .error (sortStrings missing)
  else .ok ((sortStrings a).map (fun k => (k, (m.get? k).getD [])))

/-- staticPlugin.go:15-37 `NewPluginFuncs`: which plugin function is stored from the argument in each position. The
parameters are fExport, hotswapLiveFuncs, hotswapLiveTypes, fImport, InvokeFunc, fOnFree, fOnInit, fOnLoad, fReloadable; a parameter
fF (or F, or f) is stored in the field that serves as `F` (plugin.go:21-33, pluginManager.go:178-190). -/
def newPluginFuncs (args : List Str) : Option (List (Str × Str)) :=
  match args with
  | [fExport, hotswapLiveFuncs, hotswapLiveTypes, fImport, invokeFunc, fOnFree, fOnInit, fOnLoad, fReloadable] =>
    some [("OnLoad".toList, fOnLoad), ("OnInit".toList, fOnInit), ("OnFree".toList, fOnFree), ("Export".toList, fExport), ("Import".toList, fImport),
      ("InvokeFunc".toList, invokeFunc), ("Reloadable".toList, fReloadable), ("HotswapLiveFuncs".toList, hotswapLiveFuncs),
      ("HotswapLiveTypes".toList, hotswapLiveTypes)]
  | _ => none

/-- hotswapStaticPluginInit.tpl:13-17: the argument list of the generated call. -/
def generatedArgs (fns : List (Str × Str)) : List Str := fns.map Prod.snd

end Hotswap.Cli
