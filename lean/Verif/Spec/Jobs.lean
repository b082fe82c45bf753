import Verif.Model.Cli.Jobs
import Verif.Props.CliNaming

/-!
# What a dynamic build does, and when builds do not disturb each other (C79)
-/

namespace Hotswap.Cli.Jobs

/-- Whatever exists lies in a directory. -/
def WellFormed (fs : Files) : Prop := ∀ x p, fs (x :: p) ≠ none → fs p = some .dir

/-- What a build may change: everything in its temporary directory, and its output file. -/
def Footprint (j : Job) (q : AbsDir) : Prop := j.tmp <:+ q ∨ q = j.out

/-- The copy of the plugin directory: all directories, and the files that are wanted (C42), rewritten (C51). -/
def copyTree (j : Job) (src : RelPath → Option Entry) : RelPath → Option Entry := fun rel =>
  match src rel with
  | some .dir => some .dir
  | some (.file d) => if wantFile j.inc j.exc (rel.getLastD []) then some (.file (copyContents j.pkgPath j.tmpPkg rel d)) else none
  | none => none

/-- The file system with `t` in place of the directory `d`. -/
def withTree (fs : Files) (d : AbsDir) (t : RelPath → Option Entry) : Files := fun q =>
  if d <:+ q then t (q.take (q.length - d.length)).reverse else fs q

/-- The file system in which the temporary directory holds the copy. -/
def copiedState (j : Job) (fs : Files) : Files := withTree fs j.tmp (copyTree j (tree fs j.plugin))

/-- The state in which the compiler is called: the copy, then what is generated. -/
def compilerInput (T : Tools) (j : Job) (fs : Files) : Option Files :=
  if T.check (tree fs j.plugin) then (T.generate j (copiedState j fs)).bind (fun ops => ops.foldlM (genOne j) (copiedState j fs)) else none

/-- The plugin that a build of these sources yields; `none`: the build fails. -/
def expected (T : Tools) (j : Job) (fs : Files) : Option Str := (compilerInput T j fs).bind (T.compile j)

/-- The state of the file system when the build starts its work. -/
structure Ready (fs : Files) (j : Job) : Prop where
  /-- the plugin directory is not the root -/
  named : ∃ c parent, j.plugin = c :: parent ∧ IsComponent c
  commit : ∃ out time, commitInfo out time = some j.commit
  plugin : fs j.plugin = some .dir
  outDir : fs j.outDir = some .dir
  /-- no directory has the name of the output file -/
  out : fs j.out ≠ some .dir
  /-- the temporary directory has been removed, if there was one (build.go:249-253) -/
  fresh : fs j.tmp = none

/-- The conditions under which the builds are independent. -/
structure Apart {ι : Type} (jobs : ι → Job) : Prop where
  /-- they are of different plugins, and no plugin directory lies in another one -/
  plugins : ∀ i k, i ≠ k → ¬ (jobs i).plugin <:+ (jobs k).plugin
  /-- no output directory lies in the plugin directory of another build -/
  outDirs : ∀ i k, i ≠ k → ¬ (jobs i).plugin <:+ (jobs k).outDir
  /-- in a common output directory they write different files -/
  outs : ∀ i k, i ≠ k → (jobs i).outDir = (jobs k).outDir → (jobs i).plugin.base ≠ (jobs k).plugin.base

/-- What the other builds may change. -/
def Others {ι : Type} (jobs : ι → Job) (i : ι) (q : AbsDir) : Prop := ∃ k, k ≠ i ∧ Footprint (jobs k) q

/-- The tools do not look at what satisfies `W` when they work for `j`. -/
def Blind (T : Tools) (j : Job) (W : AbsDir → Prop) : Prop :=
  ∀ fs g : Files, (∀ q, ¬ W q → fs q = g q) → T.generate j fs = T.generate j g ∧ T.compile j fs = T.compile j g

end Hotswap.Cli.Jobs
