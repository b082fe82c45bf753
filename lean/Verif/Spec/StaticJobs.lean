import Verif.Model.Cli.StaticJobs
import Verif.Props.CliStaticGen
import Verif.Spec.Jobs

/-!
# What static builds that run at the same time may change (C81)
-/

namespace Hotswap.Cli.StaticJobs

open Hotswap.Cli.Jobs (Files Entry GenOp at' tree isFile removeAll mkdirAll WellFormed)

/-- What a static build may change in the plugin directory: files with one of the three generated names, and the directory `hotswapbureau`; `--clean` also everything in that directory. -/
def InPlugin (j : Job) (q : AbsDir) : Prop :=
  ∃ rel, q = at' j.plugin rel ∧ (GeneratedName (rel.getLastD []) ∨ rel = ["hotswapbureau".toList] ∨ (j.cleanOnly = true ∧ InBureau rel))

/-- The file that registers the plugin of a build: `hotswap.staticPluginInit.<plugin>.go` in the output directory. -/
def initOf (j : Job) : AbsDir := ("hotswap.staticPluginInit.".toList ++ j.plugin.base ++ ".go".toList) :: j.outDir

/-- The file that declares the list of the plugins. -/
def listOf (j : Job) : AbsDir := "hotswap.staticPlugins.go".toList :: j.outDir

/-- What a static build may change in the output directory: files directly in it that look like init files and, without `--clean`, the init file of the plugin and the list. -/
def InOutput (j : Job) (q : AbsDir) : Prop :=
  (∃ name, q = name :: j.outDir ∧ LooksLikeInit name) ∨ (j.cleanOnly = false ∧ (q = initOf j ∨ q = listOf j))

def Footprint (j : Job) (q : AbsDir) : Prop := InPlugin j q ∨ InOutput j q

/-- The state of the file system when the builds start: all directories are there (build.go:179-192), and none of them lies in the directory `hotswapbureau` of a plugin. -/
structure Sane {ι : Type} (fs : Files) (jobs : ι → Job) : Prop where
  plugin : ∀ i, fs (jobs i).plugin = some .dir
  outDir : ∀ i, fs (jobs i).outDir = some .dir
  plugins : ∀ i k, ¬ ("hotswapbureau".toList :: (jobs i).plugin) <:+ (jobs k).plugin
  outDirs : ∀ i k, ¬ ("hotswapbureau".toList :: (jobs i).plugin) <:+ (jobs k).outDir

/-- The build has not yet written its init file, and it has not failed. -/
def Phase.Before : Phase → Prop
  | .closing => False
  | .ended _ => False
  | _ => True

/-- The build is about to remove the init files it has found, and this one is left. -/
def Phase.MayDrop (p : Phase) (f : AbsDir) : Prop := ∃ files ops, p = .dropping files ops ∧ f ∈ files

/-- The files to be generated in the plugin directory, with their contents. -/
def Gen.files (g : Gen) : List (RelPath × Str) :=
  (["hotswapbureau".toList, "hotswap.bureau.go".toList], g.bureau) :: (["hotswap.main.go".toList], g.main) :: g.live.map (fun p => (p.1 ++ ["hotswap.live.go".toList], p.2))

/-- What the file `rel` of the plugin directory shall contain (the last entry counts; `none`: it shall not exist). -/
def Gen.written (g : Gen) (rel : RelPath) : Option Str := g.files.reverse.lookup rel

/-- No plugin directory lies in that of another build. -/
def Apart {ι : Type} (jobs : ι → Job) : Prop := ∀ i k, i ≠ k → ¬ (jobs i).plugin <:+ (jobs k).plugin

/-- Executions of one build, without steps of others in between. -/
inductive Own (T : Tools) (j : Job) (p : Phase) (fs : Files) : Phase → Files → Prop
  | refl : Own T j p fs p fs
  | step {p1 p2 : Phase} {fs1 fs2 : Files} : Own T j p fs p1 fs1 → Step T j p1 fs1 p2 fs2 → Own T j p fs p2 fs2

end Hotswap.Cli.StaticJobs
