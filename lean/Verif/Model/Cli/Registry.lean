import Verif.Model.Cli.Templates
import Verif.Model.Cli.StaticGen

/-!
# What the generated static code does at start-up (cli/hotswap/cmd/hotswapStaticPluginInit.tpl, hotswapStaticPlugins.tpl, staticPlugin.go:15-37)

The output directory is a Go package. Its file `hotswap.staticPlugins.go` makes the empty map `HotswapStaticPlugins`; then the `init` functions of the init files that are there run, each of which
enters its plugin.
-/

namespace Hotswap.Cli

/-- A plugin for which static code was generated. -/
structure StaticBuild where
  /-- the last element of the plugin directory -/
  name : Str
  /-- name of the plugin's package, not empty -/
  pkgName : Str
  /-- the parsed plugin directory -/
  dir : ParsedDir
  /-- what the nine functions of the package do -/
  code : Code
  /-- what would be called if another function were in the place of one of the nine -/
  other : Code

/-- The functions behind a function table: a slot that holds the expression `package.F` for its own `F` calls that function of the package. -/
def linkFuncs (pkg : Str) (table : List (Str × Str)) (own other : Code) : Code :=
  let is (f : String) : Bool := table.lookup f.toList == some (pkg ++ '.' :: f.toList)
  { reloadable := if is "Reloadable" then own.reloadable else other.reloadable
    exportRet := if is "Export" then own.exportRet else other.exportRet
    importRet := if is "Import" then own.importRet else other.importRet
    onLoad := if is "OnLoad" then own.onLoad else other.onLoad
    onInit := if is "OnInit" then own.onInit else other.onInit
    onFreePanics := if is "OnFree" then own.onFreePanics else other.onFreePanics
    invokeFunc := if is "InvokeFunc" then own.invokeFunc else other.invokeFunc
    liveFuncs := if is "HotswapLiveFuncs" then own.liveFuncs else other.liveFuncs
    liveTypes := if is "HotswapLiveTypes" then own.liveTypes else other.liveTypes }

/-- hotswapStaticPluginInit.tpl:10-18: the `init` function of the init file generated for the plugin. `none`: no file was generated because functions are missing (build.go:605), or it does not compile. -/
def runStaticInit (it : Iter) (b : StaticBuild) (m : GoMap StaticPlugin) : Option (GoMap StaticPlugin) :=
  match parseRequired it b.dir (importAlias b.pkgName) with
  | .error _ => none
  | .ok fns =>
    match newPluginFuncs (generatedArgs fns) with
    | none => none
    | some table => some (m.insert b.name ⟨b.name, fun s => (table.lookup s).isNone, linkFuncs (importAlias b.pkgName) table b.code b.other⟩)

/-- hotswapStaticPlugins.tpl:9-11 and the `init` functions in the order `bs`: the map `HotswapStaticPlugins` that the program passes to `WithStaticPlugins`. -/
def runStaticInits (it : Iter) : List StaticBuild → GoMap StaticPlugin → Option (GoMap StaticPlugin)
  | [], m => some m
  | b :: r, m => (runStaticInit it b m).bind (runStaticInits it r)

end Hotswap.Cli
