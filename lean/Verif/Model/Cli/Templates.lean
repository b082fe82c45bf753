import Verif.Model.Cli.Live
import Verif.Model.Cli.StaticGen

/-!
# The generated files (cli/hotswap/cmd/*.tpl and build.go:578-655, 925-1001)

The texts as `text/template` renders them (white space is trimmed at `{{-`). `text/template` does not quote or escape. Formatting by gofmt is not modelled.
-/

namespace Hotswap.Cli

/-- The first line of every generated file and the package clause. -/
def tplHeader (pkgName : Str) : Str := "// Code generated by hotswap. DO NOT EDIT.\n\npackage ".toList ++ pkgName ++ "\n\n".toList

/-- hotswapMain.tpl. -/
def renderMain (pkgName bureauPath : Str) (livePackages : List Str) : Str :=
  tplHeader pkgName ++ "import (\n\t\"".toList ++ bureauPath ++ "\"\n".toList ++ "\n".toList ++
    livePackages.flatMap (fun p => "\n\t_ \"".toList ++ p ++ "\"".toList) ++ "\n)\n\n".toList ++
    "func HotswapLiveFuncs() map[string]interface{} {\n\treturn hotswapbureau.LiveFuncs\n}\n\n".toList ++
    "func HotswapLiveTypes() map[string]func() interface{} {\n\treturn hotswapbureau.LiveTypes\n}\n".toList

/-- hotswapLive.tpl. -/
def renderLive (pkgName bureauPath : Str) (funcs types : List Str) : Str :=
  tplHeader pkgName ++ "import (\n\t\"".toList ++ bureauPath ++ "\"\n)\n\nfunc init() {".toList ++
    funcs.flatMap (fun f => "\n\thotswapbureau.RegisterFunc(\"".toList ++ f ++ "\", ".toList ++ f ++ ")".toList) ++
    types.flatMap (fun t => "\n\thotswapbureau.RegisterType(\"".toList ++ t ++ "\", func() interface{} {\n\t\treturn &".toList ++ t ++ "{}\n\t})".toList) ++
    "\n}\n".toList

/-- hotswapStaticPluginInit.tpl. -/
def renderStaticInit (pkgName alias pkgPath plugin : Str) (exprs : List Str) : Str :=
  tplHeader pkgName ++ "import (\n\t\"github.com/edwingeng/hotswap\"\n\t".toList ++ alias ++ " \"".toList ++ pkgPath ++ "\"\n)\n\nfunc init() {\n\tHotswapStaticPlugins[\"".toList ++
    plugin ++ "\"] = &hotswap.StaticPlugin {\n\t\tName: \"".toList ++ plugin ++ "\",\n\t\tPluginFuncs: hotswap.NewPluginFuncs(".toList ++
    exprs.flatMap (fun e => "\n\t\t\t".toList ++ e ++ ",".toList) ++ "\n\t\t),\n\t}\n}\n".toList

/-- build.go:925-933 `genHotswapMain`: the packages to import. `order` are the keys (directories) of `livePackages` in some iteration order, `pkgPath` the package path of a directory. -/
def mainImports (order : List Str) (pkgPath : Str → Str) (tmpPkgPath : Str) : List Str :=
  sortStrings ((order.map pkgPath).filter (fun p => p != tmpPkgPath))

/-- `path.Join(args.tmpPkgPath, hotswapBureauPackageName)` (build.go:952, 982), `tmpPkgPath` clean and not empty. -/
def bureauPath (tmpPkgPath : Str) : Str := tmpPkgPath ++ '/' :: bureauDir

/-- build.go:925-970 `genHotswapMain`: the file. `pkgName` is `main`, or the name of the package in static mode. -/
def genMain (pkgName : Str) (order : List Str) (pkgPath : Str → Str) (tmpPkgPath : Str) : Str :=
  renderMain pkgName (bureauPath tmpPkgPath) (mainImports order pkgPath tmpPkgPath)

/-- build.go:972-1001 `genHotswapLive` as called at build.go:1140: the file for directory `dir`. -/
def genLive (st : LiveSt) (pkgName tmpPkgPath dir : Str) : Str :=
  renderLive pkgName (bureauPath tmpPkgPath) ((st.liveFuncs.get? dir).getD []) ((st.liveTypes.get? dir).getD [])

/-- build.go:587-590. -/
def importAlias (pkgName : Str) : Str := if pkgName = "hotswap".toList then "hotswapx".toList else pkgName

/-- build.go:578-626 `genHotswapStaticPluginInit`: the file, or the names of the missing functions. `outPkg` is the package of the output directory; `pkgName`, `pkgPath` that of the plugin. -/
def genStaticInit (it : Iter) (outPkg pkgName pkgPath plugin : Str) (dir : ParsedDir) : Except (List Str) Str :=
  match parseRequired it dir (importAlias pkgName) with
  | .error missing => .error missing
  | .ok fns => .ok (renderStaticInit outPkg (importAlias pkgName) pkgPath plugin (generatedArgs fns))

end Hotswap.Cli
