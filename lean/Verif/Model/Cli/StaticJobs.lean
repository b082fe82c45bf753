import Verif.Model.Cli.Jobs
import Verif.Model.Cli.StaticGen

/-!
# Static builds as programs on a file system, several of them at the same time (cli/hotswap/cmd/build.go:300-305, 393-507, 578-655, 908-1001, 1003-1143)

`hotswap build --staticLinking`, with or without `--clean`, after its preparations (build.go:144-264), without signals and without I/O errors other than those that follow from the state of
the file system. Paths are lists of components, the last one first. Writing a file is one step, and gofmt (build.go:616-620, 647-651) is part of it.
-/

namespace Hotswap.Cli.StaticJobs

open Hotswap.Cli.Jobs (Files Entry GenOp at' tree isFile removeAll mkdirAll)

structure Job where
  plugin : AbsDir
  outDir : AbsDir
  /-- `--clean` -/
  cleanOnly : Bool
  deriving DecidableEq

/-- build.go:612-613: the init file of the plugin. -/
def Job.initPath (j : Job) : AbsDir := initFileName j.plugin.base :: j.outDir
/-- build.go:643: the file that declares the list of all plugins. -/
def Job.listPath (j : Job) : AbsDir := staticPluginsFile :: j.outDir
/-- build.go:460: the directory `hotswapbureau` of the plugin. -/
def Job.bureau (j : Job) : AbsDir := bureauDir :: j.plugin

/-- What is to be generated in the plugin directory: the contents of the two files that are always written, and for every directory with live names that of its file. -/
structure Gen where
  bureau : Str
  main : Str
  live : List (RelPath × Str)

/-- build.go:1129-1141 with 908-1001: `genHotswapBureau`, `genHotswapMain`, `genHotswapLive` for each directory. -/
def Gen.ops (g : Gen) : List GenOp :=
  .mkdir [bureauDir] :: .write [bureauDir, "hotswap.bureau.go".toList] g.bureau :: .write ["hotswap.main.go".toList] g.main ::
    g.live.map (fun p => .write (p.1 ++ ["hotswap.live.go".toList]) p.2)

/-- The parts of a build that read files, as functions of what they read. -/
structure Tools where
  /-- build.go:1009-1095 and the templates (C41, C61, C62): `none` if the build stops with an error -/
  search : Job → Files → Option Gen
  /-- build.go:579-611 (C40, C52, C63, C78): the contents of the init file; `none`: a panic, for example because a required function is missing -/
  init : Job → Files → Option Str
  /-- build.go:629-642: the contents of the list; `none`: a panic -/
  list : Job → Files → Option Str

inductive Phase where
  | searching
  /-- at the beginning of `removeStaticFiles` -/
  | found (ops : List GenOp)
  /-- build.go:453-457: generated files of the plugin directory still to be removed -/
  | removing (files : List AbsDir) (ops : List GenOp)
  /-- build.go:467 -/
  | listing (ops : List GenOp)
  /-- build.go:468-472: init files still to be removed -/
  | dropping (files : List AbsDir) (ops : List GenOp)
  | generating (ops : List GenOp)
  /-- in `genHotswapStaticPluginInit` -/
  | initing
  /-- in `genHotswapStaticPlugins` -/
  | closing
  /-- `ok`: without a panic -/
  | ended (ok : Bool)

/-- `os.Remove` of a file that may be missing. (Nothing that is removed in this way is a directory.) -/
def removeFile (fs : Files) (p : AbsDir) : Option Files :=
  if isFile (fs p) then some (fun q => if q = p then none else fs q) else none

/-- One operation in the plugin directory (build.go:908-1001). -/
def genOne (j : Job) (fs : Files) : GenOp → Option Files
  | .mkdir rel => mkdirAll fs (at' j.plugin rel)
  | .write rel data => Jobs.writeFile fs (at' j.plugin rel) data

/-- One step of a build. -/
inductive Step (T : Tools) (j : Job) : Phase → Files → Phase → Files → Prop
  /-- build.go:1009-1099 -/
  | search {fs : Files} {g : Gen} : j.cleanOnly = false → T.search j fs = some g → Step T j .searching fs (.found g.ops) fs
  | searchFails {fs : Files} : j.cleanOnly = false → T.search j fs = none → Step T j .searching fs (.ended false) fs
  /-- build.go:300-301 -/
  | clean {fs : Files} : j.cleanOnly = true → Step T j .searching fs (.found []) fs
  /-- build.go:426-442: the walk through the plugin directory -/
  | collect {fs : Files} {files : List AbsDir} {ops : List GenOp} :
      (∀ q, q ∈ files ↔ ∃ rel, q = at' j.plugin rel ∧ isFile (tree fs j.plugin rel) = true ∧ hotswapFiles.contains (rel.getLastD []) = true) → files.Nodup →
      Step T j (.found ops) fs (.removing files ops) fs
  /-- build.go:453-457 -/
  | remove {fs : Files} {f : AbsDir} {files : List AbsDir} {ops : List GenOp} : Step T j (.removing (f :: files) ops) fs (.removing files ops) (removeAll fs f)
  /-- build.go:459-464 -/
  | removed {fs : Files} {ops : List GenOp} : Step T j (.removing [] ops) fs (.listing ops) (if j.cleanOnly && fs j.bureau == some .dir then removeAll fs j.bureau else fs)
  /-- build.go:402-423: only files directly in the output directory; the order is that of the directory. Simplification: the base name of the output directory itself is assumed not to match. -/
  | list {fs : Files} {files : List AbsDir} {ops : List GenOp} :
      (∀ q, q ∈ files ↔ ∃ name, q = name :: j.outDir ∧ isFile (fs q) = true ∧ initMatch name = true) → files.Nodup →
      Step T j (.listing ops) fs (.dropping files ops) fs
  /-- build.go:468-472 -/
  | drop {fs fs' : Files} {f : AbsDir} {files : List AbsDir} {ops : List GenOp} : removeFile fs f = some fs' →
      Step T j (.dropping (f :: files) ops) fs (.dropping files ops) fs'
  | dropFails {fs : Files} {f : AbsDir} {files : List AbsDir} {ops : List GenOp} : removeFile fs f = none →
      Step T j (.dropping (f :: files) ops) fs (.ended false) fs
  | dropped {fs : Files} {ops : List GenOp} : Step T j (.dropping [] ops) fs (if j.cleanOnly then .ended true else .generating ops) fs
  /-- build.go:1129-1141 -/
  | gen {fs fs' : Files} {o : GenOp} {ops : List GenOp} : genOne j fs o = some fs' → Step T j (.generating (o :: ops)) fs (.generating ops) fs'
  | genFails {fs : Files} {o : GenOp} {ops : List GenOp} : genOne j fs o = none → Step T j (.generating (o :: ops)) fs (.ended false) fs
  | generated {fs : Files} : Step T j (.generating []) fs .initing fs
  /-- build.go:578-623 -/
  | init {fs fs' : Files} {data : Str} : T.init j fs = some data → Jobs.writeFile fs j.initPath data = some fs' → Step T j .initing fs .closing fs'
  | initFails {fs : Files} : (T.init j fs = none ∨ ∃ data, T.init j fs = some data ∧ Jobs.writeFile fs j.initPath data = none) → Step T j .initing fs (.ended false) fs
  /-- build.go:625-655 -/
  | close {fs fs' : Files} {data : Str} : T.list j fs = some data → Jobs.writeFile fs j.listPath data = some fs' → Step T j .closing fs (.ended true) fs'
  | closeFails {fs : Files} : (T.list j fs = none ∨ ∃ data, T.list j fs = some data ∧ Jobs.writeFile fs j.listPath data = none) → Step T j .closing fs (.ended false) fs

/-- Executions of several builds at the same time: in any order, each step is a step of one of them. -/
inductive Together {ι : Type} (T : Tools) (jobs : ι → Job) (fs0 : Files) : (ι → Phase) → Files → Prop
  | start : Together T jobs fs0 (fun _ => .searching) fs0
  | step {ph ph' : ι → Phase} {fs fs' : Files} (i : ι) : Together T jobs fs0 ph fs → Step T (jobs i) (ph i) fs (ph' i) fs' → (∀ k, k ≠ i → ph' k = ph k) →
      Together T jobs fs0 ph' fs'

end Hotswap.Cli.StaticJobs
