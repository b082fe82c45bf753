import Verif.Model.Cli.Naming
import Verif.Model.Cli.Collect
import Verif.Model.Cli.Rewrite
import Verif.Model.Cli.Output

/-!
# Dynamic builds as programs on a file system, several of them at the same time (cli/hotswap/cmd/build.go:293-299, 356-360, 657-762, 764-844, 908-1001, 1129-1143)

A build from the check of the required functions to the removal of its temporary directory, without signals (C49, C56) and I/O errors other than those that follow from the state of the
file system. Paths are lists of components, the last one first (`AbsDir`).
-/

namespace Hotswap.Cli.Jobs

inductive Entry where
  | dir
  | file (data : Str)
  deriving DecidableEq, Repr

/-- A file system. -/
abbrev Files := AbsDir → Option Entry

/-- The path of `rel` (first component first) in the directory `d`. -/
def at' (d : AbsDir) (rel : RelPath) : AbsDir := rel.reverse ++ d

/-- What lies in a directory. -/
def tree (fs : Files) (d : AbsDir) : RelPath → Option Entry := fun rel => fs (at' d rel)

def isFile : Option Entry → Bool
  | some (.file _) => true
  | _ => false

/-- Is the path, or something above it, a file? -/
def blocked (fs : Files) : AbsDir → Bool
  | [] => isFile (fs [])
  | x :: p => isFile (fs (x :: p)) || blocked fs p

/-- `os.MkdirAll`: fails if the path or something above it is a file. -/
def mkdirAll (fs : Files) (p : AbsDir) : Option Files :=
  if blocked fs p then none else some (fun q => if q <:+ p then some .dir else fs q)

/-- `ioutil.WriteFile`: fails if there is no directory for the file or if the path is a directory. -/
def writeFile (fs : Files) (p : AbsDir) (data : Str) : Option Files :=
  if fs p.tail = some .dir ∧ fs p ≠ some .dir ∧ p ≠ [] then some (fun q => if q = p then some (.file data) else fs q) else none

/-- `ioutil.ReadFile`. -/
def readFile (fs : Files) (p : AbsDir) : Option Str :=
  match fs p with
  | some (.file d) => some d
  | _ => none

/-- `os.RemoveAll`. -/
def removeAll (fs : Files) (p : AbsDir) : Files := fun q => if p <:+ q then none else fs q

/-- A build after its preparations (build.go:144-264): directories, commit, time, flags. -/
structure Job where
  plugin : AbsDir
  outDir : AbsDir
  /-- the result of `commitInfo` -/
  commit : Str
  now : Civil
  pkgPath : Str
  inc : Option Regex
  exc : Option Regex
  leaveTemps : Bool
  goBuild : Bool

/-- build.go:235. -/
def Job.tmp (j : Job) : AbsDir := tmpDir j.plugin j.commit j.now
/-- build.go:236. -/
def Job.tmpPkg (j : Job) : Str := tmpPkgPath j.pkgPath j.plugin j.commit j.now
/-- build.go:674-675. -/
def Job.out (j : Job) : AbsDir := (j.plugin.base ++ fileNameExt) :: j.outDir

/-- What `completePlugin` writes, relative to the temporary directory: `genHotswapBureau` (a directory and a file), `genHotswapMain`, `genHotswapLive` (files). -/
inductive GenOp where
  | mkdir (rel : RelPath)
  | write (rel : RelPath) (data : Str)

/-- The tools a build uses, as functions of what they read. -/
structure Tools where
  /-- `parseRequiredPluginFuncs` (C78): does the plugin directory pass? -/
  check : (RelPath → Option Entry) → Bool
  /-- `packages.Load`, the scan for live names and the templates (C41, C61, C62): what to write; `none`: the build stops with an error -/
  generate : Job → Files → Option (List GenOp)
  /-- `go build -buildmode=plugin`: the plugin; `none`: it fails -/
  compile : Job → Files → Option Str

/-- How far a build is. -/
inductive Phase where
  | checking
  | collecting
  /-- `collectFiles` and `copyFiles`: directories still to be made, files still to be copied -/
  | copying (dirs files : List RelPath)
  | completing
  | generating (ops : List GenOp)
  | compiling
  /-- the deferred removal of the temporary directory; `ok`: no panic -/
  | cleaning (ok : Bool)
  | ended (ok : Bool)

/-- build.go:822-835: one file. -/
def copyOne (j : Job) (fs : Files) (rel : RelPath) : Option Files :=
  match readFile fs (at' j.plugin rel) with
  | none => none
  | some data => writeFile fs (at' j.tmp rel) (copyContents j.pkgPath j.tmpPkg rel data)

/-- build.go:908-1001: one operation of `completePlugin`. -/
def genOne (j : Job) (fs : Files) : GenOp → Option Files
  | .mkdir rel => mkdirAll fs (at' j.tmp rel)
  | .write rel data => writeFile fs (at' j.tmp rel) data

/-- One step of a build. -/
inductive Step (T : Tools) (j : Job) : Phase → Files → Phase → Files → Prop
  /-- build.go:294-297 -/
  | check {fs : Files} : Step T j .checking fs (if T.check (tree fs j.plugin) then .collecting else .cleaning false) fs
  /-- build.go:731-757: the walk; files in any order, as the workers of `copyFiles` take them (C43) -/
  | collect {fs : Files} {dirs files : List RelPath} : (∀ rel, rel ∈ dirs ↔ tree fs j.plugin rel = some .dir) →
      (∀ rel, rel ∈ files ↔ isFile (tree fs j.plugin rel) = true ∧ wantFile j.inc j.exc (rel.getLastD []) = true) → files.Nodup →
      Step T j .collecting fs (.copying dirs files) fs
  /-- build.go:740 -/
  | mkdir {fs fs' : Files} {d : RelPath} {dirs files : List RelPath} : mkdirAll fs (at' j.tmp d) = some fs' →
      Step T j (.copying (d :: dirs) files) fs (.copying dirs files) fs'
  | mkdirFails {fs : Files} {d : RelPath} {dirs files : List RelPath} : mkdirAll fs (at' j.tmp d) = none →
      Step T j (.copying (d :: dirs) files) fs (.cleaning false) fs
  /-- build.go:764-844 -/
  | copy {fs fs' : Files} {f : RelPath} {files : List RelPath} : copyOne j fs f = some fs' →
      Step T j (.copying [] (f :: files)) fs (.copying [] files) fs'
  | copyFails {fs : Files} {f : RelPath} {files : List RelPath} : copyOne j fs f = none →
      Step T j (.copying [] (f :: files)) fs (.cleaning false) fs
  | copied {fs : Files} : Step T j (.copying [] []) fs .completing fs
  /-- build.go:1009-1095 -/
  | complete {fs : Files} {ops : List GenOp} : T.generate j fs = some ops → Step T j .completing fs (.generating ops) fs
  | completeFails {fs : Files} : T.generate j fs = none → Step T j .completing fs (.cleaning false) fs
  /-- build.go:1129-1141 -/
  | gen {fs fs' : Files} {o : GenOp} {ops : List GenOp} : genOne j fs o = some fs' → Step T j (.generating (o :: ops)) fs (.generating ops) fs'
  | genFails {fs : Files} {o : GenOp} {ops : List GenOp} : genOne j fs o = none → Step T j (.generating (o :: ops)) fs (.cleaning false) fs
  | generated {fs : Files} : Step T j (.generating []) fs .compiling fs
  /-- build.go:688-695 -/
  | skip {fs : Files} : j.goBuild = false → Step T j .compiling fs (.cleaning true) fs
  /-- build.go:700-708 -/
  | compile {fs fs' : Files} {data : Str} : j.goBuild = true → T.compile j fs = some data → writeFile fs j.out data = some fs' →
      Step T j .compiling fs (.cleaning true) fs'
  | compileFails {fs : Files} : j.goBuild = true → (T.compile j fs = none ∨ ∃ data, T.compile j fs = some data ∧ writeFile fs j.out data = none) →
      Step T j .compiling fs (.cleaning false) fs
  /-- build.go:285-291, 282, 356-360 (with build.go:260-261: without `go build` nothing is removed) -/
  | clean {fs : Files} {ok : Bool} : Step T j (.cleaning ok) fs (.ended ok) (if j.leaveTemps || !j.goBuild then fs else removeAll fs j.tmp)

/-- Executions of one build alone. -/
inductive Alone (T : Tools) (j : Job) (fs0 : Files) : Phase → Files → Prop
  | start : Alone T j fs0 .checking fs0
  | step {p p' : Phase} {fs fs' : Files} : Alone T j fs0 p fs → Step T j p fs p' fs' → Alone T j fs0 p' fs'

/-- Executions of several builds at the same time: in any order, each step is a step of one of them. -/
inductive Together {ι : Type} (T : Tools) (jobs : ι → Job) (fs0 : Files) : (ι → Phase) → Files → Prop
  | start : Together T jobs fs0 (fun _ => .checking) fs0
  | step {ph ph' : ι → Phase} {fs fs' : Files} (i : ι) : Together T jobs fs0 ph fs → Step T (jobs i) (ph i) fs (ph' i) fs' → (∀ k, k ≠ i → ph' k = ph k) →
      Together T jobs fs0 ph' fs'

end Hotswap.Cli.Jobs
