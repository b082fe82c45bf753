import Verif.Model.Cli.Collect

/-!
# Static generation and cleaning (cli/hotswap/cmd/build.go:393-507, 578-655, 848-1001, 1096-1143)

The two directories as lists of the relative paths of their files. Which files exist is modelled, not what is in them. Errors of the file system and of gofmt are
not modelled. The output directory never lies in the plugin directory (C48), and only files directly in it are touched, so the two lists never
speak about the same file.
-/

namespace Hotswap.Cli

/-- Is there `.go` in the string, before any newline? The rest of the regular expression of `findPluginInitFiles` after `.`, i.e. `.*?\.go`. -/
def goFollows : Str → Bool
  | [] => false
  | c :: r => ".go".toList.isPrefixOf (c :: r) || (c != '\n' && goFollows r)

/-- The constant part of `hotswapStaticPluginInitFile` before `%s` (build.go:42). -/
def initPrefix : Str := "hotswap.staticPluginInit.".toList

/-- Does `hotswap\.staticPluginInit\..+?\.go` match at the beginning of the string? (build.go:403-405) -/
def initMatchHere (s : Str) : Bool :=
  if initPrefix.isPrefixOf s then
    match s.drop initPrefix.length with
    | [] => false
    | c :: r => c != '\n' && goFollows r
  else false

/-- `rexName.MatchString(name)` (build.go:417): does the expression match anywhere? -/
def initMatch : Str → Bool
  | [] => false
  | c :: r => initMatchHere (c :: r) || initMatch r

/-- The files of the plugin directory and of the output directory. -/
structure Disk where
  plugin : List RelPath
  output : List RelPath
  deriving DecidableEq, Repr

/-- `hotswapBureauPackageName` (build.go:35). -/
def bureauDir : Str := "hotswapbureau".toList

/-- build.go:402-423 `findPluginInitFiles`: subdirectories are skipped. Simplification: the base name of the output directory itself, which the code tests,
too, is assumed not to match. -/
def findPluginInitFiles (output : List RelPath) : List RelPath :=
  output.filter (fun p => match p with
    | [name] => initMatch name
    | _ => false)

/-- build.go:426-442: the generated files of the plugin directory. -/
def findGeneratedFiles (plugin : List RelPath) : List RelPath := plugin.filter (fun p => hotswapFiles.contains (p.getLastD []))

/-- build.go:459-464: the path lies in the directory `hotswapbureau`. -/
def inBureau : RelPath → Bool
  | d :: _ :: _ => d == bureauDir
  | _ => false

/-- build.go:425-507 `removeStaticFiles`. -/
def removeStaticFiles (cleanOnly : Bool) (d : Disk) : Disk :=
  let files := findGeneratedFiles d.plugin
  let plugin := d.plugin.filter (fun p => !files.contains p)
  let plugin := if cleanOnly then plugin.filter (fun p => !inBureau p) else plugin
  let initFiles := findPluginInitFiles d.output
  ⟨plugin, d.output.filter (fun p => !initFiles.contains p)⟩

/-- `ioutil.WriteFile`: afterwards the file exists. -/
def writeFile (l : List RelPath) (p : RelPath) : List RelPath := if l.contains p then l else l ++ [p]

/-- build.go:612: the name of the init file of a plugin. -/
def initFileName (plugin : Str) : Str := initPrefix ++ plugin ++ ".go".toList

/-- build.go:43. -/
def staticPluginsFile : Str := "hotswap.staticPlugins.go".toList

/-- What the sources say: the result of the search for live functions and types (`none`: it reported errors, else the directories that have some), and whether
all required functions are there. -/
structure Sources where
  live : Option (List RelPath)
  funcsOK : Bool

/-- build.go:1129-1143 with the epilogue of build.go:395-398: what is generated in the plugin directory. -/
def genInPlugin (live : List RelPath) (plugin : List RelPath) : List RelPath :=
  let l := writeFile plugin [bureauDir, "hotswap.bureau.go".toList]
  let l := writeFile l ["hotswap.main.go".toList]
  live.foldl (fun l dir => writeFile l (dir ++ ["hotswap.live.go".toList])) l

/-- build.go:393-400 `genStaticPlugin` for the plugin `name`; the flag is `false` if it ended with a panic. The order is that of `completePlugin` (build.go:1003): search for live names,
`removeStaticFiles` (build.go:1098), generation in the plugin directory, and then the epilogue, where missing functions are found (build.go:605). -/
def genStaticPlugin (name : Str) (src : Sources) (d : Disk) : Disk × Bool :=
  match src.live with
  | none => (d, false)
  | some live =>
    let d := removeStaticFiles false d
    let d := { d with plugin := genInPlugin live d.plugin }
    if src.funcsOK then
      ({ d with output := writeFile (writeFile d.output [initFileName name]) [staticPluginsFile] }, true)
    else (d, false)

/-- `hotswap build --staticLinking --clean` (build.go:300). -/
def cleanStatic (d : Disk) : Disk := removeStaticFiles true d

end Hotswap.Cli
