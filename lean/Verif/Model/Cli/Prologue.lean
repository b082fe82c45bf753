import Verif.Model.Cli.Naming
import Verif.Model.Cli.OutDir
import Verif.Model.Types

/-!
# What `hotswap build` does before it builds (cli/hotswap/cmd/build.go:144-264)

The arguments are checked, the directories are located, the temporary directory is named and a stale one is removed. The check for Windows (build.go:161-166), messages and timing are
not modelled.
-/

namespace Hotswap.Cli

/-- The flags (build.go:96-123) that matter here. -/
structure Flags where
  leaveTemps : Bool
  goBuild : Bool
  staticLinking : Bool
  cleanOnly : Bool
  livePrefix : Str
  rexInclude : Str
  rexExclude : Str

/-- What `os.Stat` says about a path. -/
inductive StatResult where
  | absent
  | failure
  | file
  | dir
  deriving DecidableEq, Repr

/-- The world as the command finds it: `os.Stat` on arguments and on absolute directories, `filepath.Abs`, whether `os.MkdirAll` and `os.RemoveAll` succeed, the tools found in the path, the package path of the plugin
directory (`none`: error), the commit (`none`: `commitInfo` panics), the clock, and which regular expressions compile. -/
structure World where
  stat : Str → StatResult
  statAbs : AbsDir → StatResult
  abs : Str → Option AbsDir
  mkdirOk : Bool
  removeOk : Bool
  hasGo : Bool
  hasGofmt : Bool
  hasGit : Bool
  pkgPath : AbsDir → Option Str
  commit : Option Str
  now : Civil
  compiles : Str → Bool

/-- Changes of the file system. -/
inductive Eff where
  | mkdirAll (arg : Str)
  | removeAll (dir : AbsDir)
  deriving DecidableEq, Repr

/-- Why the command stops with exit code 1. -/
inductive Refusal where
  | usage
  | cleanNeedsStatic
  | emptyPrefix
  | pluginDir
  | outputDir
  | mkdir
  | tools
  | abs
  | nested
  | package
  | commit
  | regexp
  | stale
  deriving DecidableEq, Repr

/-- The fields of `buildCmdT` (build.go:125-142) when the work begins. -/
structure Prepared where
  pluginDir : AbsDir
  outputDir : AbsDir
  pluginPkgPath : Str
  tmpDir : AbsDir
  tmpPkgPath : Str
  leaveTemps : Bool
  livePrefix : Str
  deriving DecidableEq, Repr

/-- `unicode.IsSpace`. -/
def isUnicodeSpace (c : Char) : Bool :=
  let n := c.toNat
  (9 ≤ n && n ≤ 13) || n == 0x20 || n == 0x85 || n == 0xA0 || n == 0x1680 || (0x2000 ≤ n && n ≤ 0x200a) || n == 0x2028 || n == 0x2029 || n == 0x202f || n == 0x205f || n == 0x3000

/-- `strings.TrimSpace`. -/
def trimSpace (s : Str) : Str := ((s.dropWhile isUnicodeSpace).reverse.dropWhile isUnicodeSpace).reverse

/-- internal/hutils/hutils.go:24-34 `FindDirectory`: is it a directory? -/
inductive Found where
  | yes
  | missing
  | bad
  deriving DecidableEq, Repr

/-- internal/hutils/hutils.go:24-34 `FindDirectory` on an argument; `missing`: `os.IsNotExist` holds of the error. -/
def findDirectory (w : World) (arg : Str) : Found :=
  if trimSpace arg = [] then .bad
  else match w.stat arg with
    | .absent => .missing
    | .dir => .yes
    | _ => .bad

/-- `strings.ToLower(strings.TrimSpace(livePrefix))` (build.go:172). -/
def normalPrefix [GoRuntime] (s : Str) : Str := (trimSpace s).map GoRuntime.toLower

/-- build.go:156-175: the arguments `<pluginDir>` and `<outputDir>`. -/
def checkArgs [GoRuntime] (f : Flags) (args : List Str) : Except Refusal (Str × Str) :=
  match args with
  | [p, o] =>
    if !f.staticLinking && f.cleanOnly then .error .cleanNeedsStatic
    else if normalPrefix f.livePrefix = [] then .error .emptyPrefix
    else .ok (p, o)
  | _ => .error .usage

/-- build.go:178-193: both directories must exist; a dynamic build creates the output directory. -/
def checkDirs (f : Flags) (w : World) (p o : Str) : List Eff × Option Refusal :=
  if findDirectory w p ≠ .yes then ([], some .pluginDir)
  else match findDirectory w o with
    | .yes => ([], none)
    | .bad => ([], some .outputDir)
    | .missing =>
      if f.staticLinking then ([], some .outputDir)
      else if w.mkdirOk then ([.mkdirAll o], none)
      else ([.mkdirAll o], some .mkdir)

/-- build.go:195-231: tools, absolute paths, their relation, package path, commit. -/
def locate (f : Flags) (w : World) (p o : Str) : Except Refusal (AbsDir × AbsDir × Str × Str) :=
  if !w.hasGo || !w.hasGofmt || !w.hasGit then .error .tools
  else match w.abs p, w.abs o with
    | some pd, some od =>
      if f.staticLinking && refusesOutputDir pd.reverse od.reverse then .error .nested
      else match w.pkgPath pd with
        | none => .error .package
        | some pkg => match w.commit with
          | none => .error .commit
          | some c => .ok (pd, od, pkg, c)
    | _, _ => .error .abs

/-- build.go:260-264. -/
def keepsTemps (f : Flags) : Bool := if !f.goBuild then true else if f.staticLinking then true else f.leaveTemps

/-- build.go:238-253: the regular expressions of a dynamic build, then the stale temporary directory. -/
def clearTmp (f : Flags) (w : World) (tmp : AbsDir) : List Eff × Option Refusal :=
  if (f.rexInclude ≠ [] ∧ w.compiles f.rexInclude = false) ∨ (f.rexExclude ≠ [] ∧ w.compiles f.rexExclude = false) then ([], some .regexp)
  else if w.statAbs tmp = .dir then (if w.removeOk then ([.removeAll tmp], none) else ([.removeAll tmp], some .stale))
  else ([], none)

/-- build.go:144-264: the changes of the file system in order, and what the work begins with or why it does not. -/
def prologue [GoRuntime] (f : Flags) (args : List Str) (w : World) : List Eff × Except Refusal Prepared :=
  match checkArgs f args with
  | .error e => ([], .error e)
  | .ok (p, o) => match checkDirs f w p o with
    | (effs, some e) => (effs, .error e)
    | (effs, none) => match locate f w p o with
      | .error e => (effs, .error e)
      | .ok (pd, od, pkg, c) =>
        if f.staticLinking then (effs, .ok ⟨pd, od, pkg, pd, pkg, keepsTemps f, normalPrefix f.livePrefix⟩)
        else match clearTmp f w (tmpDir pd c w.now) with
          | (effs', some e) => (effs ++ effs', .error e)
          | (effs', none) => (effs ++ effs', .ok ⟨pd, od, pkg, tmpDir pd c w.now, tmpPkgPath pkg pd c w.now, keepsTemps f, normalPrefix f.livePrefix⟩)

end Hotswap.Cli
