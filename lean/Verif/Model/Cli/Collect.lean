import Verif.Go.Str

/-!
# Which files a build copies (cli/hotswap/cmd/build.go:713-762 `collectFiles`)
-/

namespace Hotswap.Cli

/-- An entry of a directory. -/
inductive Node where
  | file (name : Str)
  | dir (name : Str) (children : List Node)

/-- A path relative to the plugin directory, as its components. -/
abbrev RelPath := List Str

mutual
/-- `filepath.WalkDir`: the entries below a node in visiting order, with a flag for directories; a directory comes before
its contents. The order of the children is the order in which they are listed. -/
def Node.walk (rel : RelPath) : Node → List (RelPath × Bool)
  | .file name => [(rel ++ [name], false)]
  | .dir name children => (rel ++ [name], true) :: walkAll (rel ++ [name]) children
/-- The entries of a list of nodes. -/
def walkAll (rel : RelPath) : List Node → List (RelPath × Bool)
  | [] => []
  | n :: r => n.walk rel ++ walkAll rel r
end

/-- build.go:46-50 `hotswapFiles`. -/
def hotswapFiles : List Str := ["hotswap.bureau.go".toList, "hotswap.main.go".toList, "hotswap.live.go".toList]

/-- A compiled regular expression: any predicate on strings. -/
abbrev Regex := Str → Bool

/-- build.go:714-728 `rexMatch`. -/
def rexMatch (inc exc : Option Regex) (path : Str) : Bool :=
  match inc, exc with
  | some i, some e => i path && !e path
  | some i, none => i path
  | none, _ => false

/-- The `switch` of build.go:743-753: is the file with this base name copied? The suffix tests of the code are made on the full path;
as the suffixes contain no slash, this is the same as testing the base name. -/
def wantFile (inc exc : Option Regex) (base : Str) : Bool :=
  if Str.hasSuffix base "_test.go".toList then false
  else if Str.hasSuffix base ".go".toList then !hotswapFiles.contains base
  else rexMatch inc exc base

/-- What `collectFiles` does: the directories it creates below the temporary directory and the files it returns. -/
structure Collected where
  dirs : List RelPath
  files : List RelPath

/-- build.go:731-757: the callback of `WalkDir`. -/
def collectEntry (inc exc : Option Regex) (c : Collected) (e : RelPath × Bool) : Collected :=
  if e.2 then { c with dirs := c.dirs ++ [e.1] }
  else if wantFile inc exc (e.1.getLastD []) then { c with files := c.files ++ [e.1] }
  else c

/-- build.go:713-762 `collectFiles` for a plugin directory with the given contents. File-system errors are not modelled. -/
def collectFiles (inc exc : Option Regex) (children : List Node) : Collected :=
  (([], true) :: walkAll [] children).foldl (collectEntry inc exc) ⟨[], []⟩

end Hotswap.Cli
