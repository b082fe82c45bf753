import Verif.Go.Map

/-!
# Command line of `hotswap` (cli/hotswap/hotswap.go), the `go build` command, `hutils.Join`
-/

namespace Hotswap.Cli

/-- `--` -/
def dashes : Str := "--".toList

/-- cli/hotswap/hotswap.go:11-17, the loop of `main` from index `i` on: the new `os.Args` and `g.BuildFlags`. -/
def splitLoop (args : List Str) : Nat → List Str → List Str × List Str
  | _, [] => (args, [])
  | i, arg :: r => if arg = dashes then (args.take i, args.drop (i + 1)) else splitLoop args (i + 1) r

/-- cli/hotswap/hotswap.go:10-17: `os.Args` and `g.BuildFlags` as `cmd.Execute` sees them. -/
def splitArgs (args : List Str) : List Str × List Str := splitLoop args 0 args

/-- cli/hotswap/cmd/build.go:677-682: the arguments of the `go` command. -/
def goBuildArgs (outputFile : Str) (buildFlags : List Str) : List Str :=
  ["build".toList] ++ ["-trimpath".toList] ++ ["-buildmode=plugin".toList] ++ ["-o".toList, outputFile] ++ buildFlags

/-- internal/hutils/hutils.go:130-141 `Join`. -/
def joinAnd (a : List Str) : Str :=
  match a with
  | [] => []
  | [x] => x
  | [x, y] => x ++ " and ".toList ++ y
  | a => Str.join ", ".toList (a.take (a.length - 1)) ++ " and ".toList ++ a.getLastD []

end Hotswap.Cli
