import Verif.Go.Str

/-!
# Package of a directory (internal/hutils/hutils.go:36-108 `PackageFromDirectory`)
-/

namespace Hotswap.Cli

/-- An absolute directory: its components, the innermost first; `[]` is the root. -/
abbrev AbsDir := List Str

/-- What `go.mod` of a directory yields: no such file (`os.Stat` fails), an error (reading, parsing, no module path), or the module path. -/
inductive GoMod where
  | none
  | bad
  | path (p : Str)
  deriving DecidableEq, Repr

inductive PkgErr where
  /-- hutils.go:44-46: a source file does not parse -/
  | parse
  /-- hutils.go:61-63 -/
  | noName
  /-- hutils.go:66-68 -/
  | emptyName
  /-- hutils.go:72-73, with the number of packages -/
  | many (n : Nat)
  /-- hutils.go:84-97 -/
  | goMod
  deriving DecidableEq, Repr

/-- `filepath.Dir` on Unix: the root is its own parent. -/
def AbsDir.parent : AbsDir → AbsDir
  | [] => []
  | _ :: r => r

/-- `filepath.Base` on Unix. -/
def AbsDir.base : AbsDir → Str
  | [] => ['/']
  | c :: _ => c

/-- hutils.go:75-105: the search for `go.mod`. `fuel` bounds the number of iterations: the result is `none` if the loop has not ended by then. The condition `absDir != ""` always holds,
because `filepath.Dir` of an absolute path is never empty. The swap loop of lines 99-101 is list reversal. `path.Join` is modelled as joining with slashes: the module path and the names of directories are clean. -/
def pkgPathLoop (goMod : AbsDir → GoMod) : Nat → AbsDir → List Str → Option (Except PkgErr Str)
  | 0, _, _ => none
  | fuel + 1, dir, a1 =>
    match goMod dir with
    | .none => pkgPathLoop goMod fuel dir.parent (a1 ++ [dir.base])
    | .bad => some (.error .goMod)
    | .path m => some (.ok (Str.join ['/'] (m :: a1.reverse)))

/-- hutils.go:54: the characters of an ASCII identifier. -/
def isIdentChar (r : Char) : Bool :=
  ('A' ≤ r && r ≤ 'Z') || ('a' ≤ r && r ≤ 'z') || ('0' ≤ r && r ≤ '9') || r == '_'

/-- `strings.Trim(s, "_")` -/
def trimUnderscores (s : Str) : Str :=
  ((s.dropWhile (· == '_')).reverse.dropWhile (· == '_')).reverse

/-- hutils.go:51-63: a package name for a directory without Go files. -/
def derivePkgName (base : Str) : Except PkgErr Str :=
  let n := trimUnderscores (base.map (fun r => if isIdentChar r then r else '_'))
  if n = [] then .error .noName else .ok n

/-- `parser.ParseDir(fset, dir, nil, parser.PackageClauseOnly)` (hutils.go:43): the distinct package names of the `.go` files of a directory, test files included; `none` stands for a file that does not
parse. -/
def parsePkgs : List (Option Str) → Except PkgErr (List Str)
  | [] => .ok []
  | none :: _ => .error .parse
  | some n :: r => (parsePkgs r).map (fun l => if l.contains n then l else n :: l)

/-- hutils.go:42-73. -/
def pkgNameOf (base : Str) (clauses : List (Option Str)) : Except PkgErr Str :=
  match parsePkgs clauses with
  | .error e => .error e
  | .ok [] => derivePkgName base
  | .ok [n] => if n = [] then .error .emptyName else .ok n
  | .ok l => .error (.many l.length)

/-- hutils.go:36-108 `PackageFromDirectory` for a directory given as an absolute path: the package name and the package path; `none` if it has not ended after
`fuel` iterations. -/
def packageFromDirectory (goMod : AbsDir → GoMod) (clauses : List (Option Str)) (fuel : Nat) (dir : AbsDir) : Option (Except PkgErr (Str × Str)) :=
  match pkgNameOf dir.base clauses with
  | .error e => some (.error e)
  | .ok n => (pkgPathLoop goMod fuel dir []).map (fun r => r.map (fun p => (n, p)))

end Hotswap.Cli
