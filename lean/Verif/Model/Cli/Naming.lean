import Verif.Model.Naming
import Verif.Model.Cli.PkgPath

/-!
# The temporary directory of a build: its name, place and package path (cli/hotswap/cmd/build.go:225-236, 255-257, 362-391)
-/

namespace Hotswap.Cli

/-- `bytes.Trim(s, "\r\n")` (build.go:370, 379). -/
def trimCRLF (s : Str) : Str :=
  let cut := fun c : Char => c == '\r' || c == '\n'
  ((s.dropWhile cut).reverse.dropWhile cut).reverse

/-- build.go:362-391 `commitInfo`: the commit time (UTC) and the first 8 characters of the hash of `HEAD`. `hashOut` is what `git log --format=%H` prints; `time` is the date of the number that
`git log --format=%ct` prints, `none` if it is not a number. The result is `none` if the function panics (failure of git, no number, hash too short). -/
def commitInfo (hashOut : Option Str) (time : Option Civil) : Option Str :=
  match hashOut, time with
  | some out, some t =>
    let hash := trimCRLF out
    if hash.length < 8 then none else some (formatCompact t ++ '-' :: hash.take 8)
  | _, _ => none

/-- build.go:230: `time.Now().Format("02150405")`: day of the month, hour, minute, second of the local time. -/
def formatNow (t : Civil) : Str := pad2 t.day ++ pad2 t.hour ++ pad2 t.min ++ pad2 t.sec

/-- build.go:233-234: `fmt.Sprintf("%s-%s-%s", filepath.Base(pluginDir), commitInfo, now)`. -/
def tmpDirName (pluginDir : AbsDir) (commit : Str) (now : Civil) : Str := pluginDir.base ++ '-' :: commit ++ '-' :: formatNow now

/-- `filepath.Join(dir, name)` for one component `name`; leading slashes vanish. -/
def AbsDir.child (dir : AbsDir) (name : Str) : AbsDir := name.dropWhile (· == '/') :: dir

/-- build.go:235: `filepath.Join(filepath.Dir(pluginDir), tmpDirName)`. -/
def tmpDir (pluginDir : AbsDir) (commit : Str) (now : Civil) : AbsDir := pluginDir.parent.child (tmpDirName pluginDir commit now)

/-- `path.Dir` of a clean relative slash-separated path: everything before the last slash, `.` if there is none. -/
def pathDir (p : Str) : Str :=
  if '/' ∈ p then ((p.reverse.dropWhile (· != '/')).drop 1).reverse else ['.']

/-- `path.Join(dir, name)` for a clean `dir` and one component `name`; leading slashes of `name` vanish. -/
def pathJoin (dir name : Str) : Str :=
  let n := name.dropWhile (· == '/')
  if dir = ['.'] then n else dir ++ '/' :: n

/-- build.go:236: `path.Join(path.Dir(pluginPkgPath), tmpDirName)`. -/
def tmpPkgPath (pluginPkgPath : Str) (pluginDir : AbsDir) (commit : Str) (now : Civil) : Str :=
  pathJoin (pathDir pluginPkgPath) (tmpDirName pluginDir commit now)

end Hotswap.Cli
