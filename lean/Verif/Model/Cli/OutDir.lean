import Verif.Go.Str

/-!
# The check of the output directory (cli/hotswap/cmd/build.go:216-223)

Clean absolute paths as the lists of their components, outermost first (`filepath.Abs` cleans, build.go:205-214). Symbolic links are not resolved by the code and not modelled.
-/

namespace Hotswap.Cli

/-- What remains of two paths after their longest common prefix of components. -/
def stripCommon : List Str → List Str → List Str × List Str
  | a :: x, b :: y => if a = b then stripCommon x y else (a :: x, b :: y)
  | x, y => (x, y)

/-- `filepath.Rel(base, target)` for clean absolute paths: one `..` for every remaining component of `base`, then the remaining components of `target`; `.` if nothing remains. -/
def filepathRel (base target : List Str) : Str :=
  match stripCommon base target with
  | ([], []) => ['.']
  | (up, down) => Str.join ['/'] (up.map (fun _ => ['.', '.']) ++ down)

/-- build.go:216-223: does a static build refuse the directories? -/
def refusesOutputDir (pluginDir outputDir : List Str) : Bool :=
  if outputDir = pluginDir then true
  else !Str.hasPrefix (filepathRel pluginDir outputDir) ['.', '.']

end Hotswap.Cli
