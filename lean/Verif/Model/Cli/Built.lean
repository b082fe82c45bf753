import Verif.Model.Cli.Funcs
import Verif.Model.Cli.Collect

/-!
# From the files of a plugin directory to the package that is compiled (cli/hotswap/cmd/build.go:294-297, 425-451, 514-576, 669-672, 713-844, 926-1001, 1097-1143)

Only the directory of the plugin itself, not its subdirectories: the required functions are looked up in the plugin's main package.
-/

namespace Hotswap.Cli

/-- A file of a plugin directory. -/
structure SrcFile where
  name : Str
  /-- the package clause -/
  pkg : Str
  decls : List Decl
  /-- the variables declared at package level -/
  vars : List Str
  /-- the functions among `decls` that have type parameters -/
  generic : List Str
  /-- the parser accepts it -/
  parses : Bool
  /-- its build constraints (`//go:build` lines, an operating system or architecture in its name) admit it -/
  admitted : Bool
  deriving DecidableEq, Repr

/-- build.go:531-533: the files `parser.ParseDir` looks at: those whose names end with `.go` (ParseDir's own rule) and that pass the filter. Neither build constraints
nor leading `_` or `.` matter. -/
def scanned (f : SrcFile) : Bool := Str.hasSuffix f.name ".go".toList && !Str.hasSuffix f.name "_test.go".toList

/-- The map `parser.ParseDir` returns: one entry per package name. -/
def addFile (m : List (Str × List (List Decl))) (f : SrcFile) : List (Str × List (List Decl)) :=
  match m with
  | [] => [(f.pkg, [f.decls])]
  | (p, fs) :: r => if p = f.pkg then (p, fs ++ [f.decls]) :: r else (p, fs) :: addFile r f

/-- build.go:531-536: `none` is the panic with the parser's error. -/
def parseDir (files : List SrcFile) : Option ParsedDir :=
  if (files.filter scanned).all (·.parses) then some (((files.filter scanned).foldl addFile []).map Prod.snd) else none

/-- What the check of the required functions can say. -/
inductive Check where
  | passed
  | syntaxError
  /-- "missing fundamental plugin functions: ..." -/
  | missing (l : List Str)
  deriving DecidableEq, Repr

/-- `parseRequiredPluginFuncs` (build.go:514-576), seen from outside. -/
def checkFuncs (it : Iter) (files : List SrcFile) (pkgName : Str) : Check :=
  match parseDir files with
  | none => .syntaxError
  | some dir =>
    match parseRequired it dir pkgName with
    | .ok _ => .passed
    | .error l => .missing l

/-- build.go:294-297: the check of a dynamic build; `v` is the value of the environment variable `hotswap:checkRequiredPluginFuncs` (empty if it is not set). -/
def dynamicCheck (it : Iter) (v : Str) (files : List SrcFile) : Check :=
  if v ≠ "false".toList ∧ v ≠ "0".toList then checkFuncs it files [] else .passed

/-- hotswapMain.tpl, build.go:926-970: what the generated `hotswap.main.go` declares. -/
def mainFile (pkgName : Str) : SrcFile :=
  ⟨"hotswap.main.go".toList, pkgName, [.other, .func "HotswapLiveFuncs".toList false, .func "HotswapLiveTypes".toList false], [], [], true, true⟩

/-- hotswapLive.tpl, build.go:972-1001: what the generated `hotswap.live.go` declares. -/
def liveFile (pkgName : Str) : SrcFile := ⟨"hotswap.live.go".toList, pkgName, [.other, .func "init".toList false], [], [], true, true⟩

/-- build.go:775-786, 822-831: the copy of a file. The package clause of a `.go` file becomes `package main` (build.go:777; see C51 for what the replacement does to a text). -/
def copyOf (f : SrcFile) : SrcFile := if Str.hasSuffix f.name ".go".toList then { f with pkg := "main".toList } else f

/-- build.go:669-672, 1129-1143: the files in the temporary directory when `go build` runs: the copies (`collectFiles`, `copyFiles`), then what `completePlugin` generates; `live`: the
plugin's main package declares live names. -/
def tmpFiles (inc exc : Option Regex) (files : List SrcFile) (live : Bool) : List SrcFile :=
  (files.filter (fun f => wantFile inc exc f.name)).map copyOf ++ mainFile "main".toList :: (if live then [liveFile "main".toList] else [])

/-- build.go:425-451, 1097-1099, 1129-1143: the files in the plugin directory when the init file of a static build is generated (`genHotswapStaticPluginInit` is the epilogue): those that
were there without the old generated ones, and the new generated ones. -/
def staticFiles (files : List SrcFile) (pkgName : Str) (live : Bool) : List SrcFile :=
  files.filter (fun f => !hotswapFiles.contains f.name) ++ mainFile pkgName :: (if live then [liveFile pkgName] else [])

/-- build.go:605: the check of a static build; `pkgName` is the name under which the plugin is imported (build.go:587-590, "hotswapx" for "hotswap"). -/
def staticCheck (it : Iter) (files : List SrcFile) (pkgName : Str) (live : Bool) : Check := checkFuncs it (staticFiles files pkgName live) pkgName

end Hotswap.Cli
