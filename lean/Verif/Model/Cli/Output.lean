import Verif.Model.Cli.PkgPath
import Verif.Model.Cli.Args

/-!
# The file a build writes (cli/hotswap/cmd/build.go:674-675)
-/

namespace Hotswap.Cli

/-- build.go:674-675: `filepath.Join(outputDir, filepath.Base(pluginDir) + hutils.FileNameExt)`; `outputDir` as a clean absolute path, `pluginDir` as the list of its components. -/
def outputFile (outputDir : Str) (pluginDir : AbsDir) : Str := joinPath outputDir (pluginDir.base ++ fileNameExt)

end Hotswap.Cli
