/-!
# Go strings, as far as hotswap uses them

Go strings are modelled as lists of Unicode scalar values (`List Char`).  Simplification: invalid
UTF-8 byte sequences do not occur.  `sort.Strings` compares bytes; for valid UTF-8 that order is the
order of code points, i.e. the lexicographic order on `List Char`.
-/

namespace Hotswap

/-- A Go string. -/
abbrev Str := List Char

namespace Str

/-- `strings.HasPrefix` (used at build.go:220, 1052, 1073). -/
def hasPrefix (s p : Str) : Bool := p.isPrefixOf s

/-- `strings.HasSuffix` (used at pluginManagerSwapper.go:105, build.go:533, 744, 746, 827). -/
def hasSuffix (s x : Str) : Bool := x.isSuffixOf s

/-- `strings.TrimSuffix` (used at pluginManager.go:621, pluginManagerSwapper.go:234). -/
def trimSuffix (s x : Str) : Str :=
  if hasSuffix s x then s.take (s.length - x.length) else s

/-- Byte-wise `<=` on strings, the order used by `sort.Strings`. -/
def le (a b : Str) : Bool := decide (a ≤ b)

/-- `strings.Join(a, sep)` (used at pluginManager.go:81-83, 112, 221, 303; hutils.go:139). -/
def join (sep : Str) : List Str → Str
  | [] => []
  | [a] => a
  | a :: b :: r => a ++ sep ++ join sep (b :: r)

/-- One insertion step of `sortStrings`. -/
def insertSorted (a : Str) : List Str → List Str
  | [] => [a]
  | b :: r => if le a b then a :: b :: r else b :: insertSorted a r

end Str

/-- `sort.Strings` (pluginManager.go:243, 357, 612; pluginManagerSwapper.go:227; staticPlugin.go:67).
The result of sorting strings is unique, so the algorithm does not matter; insertion sort is used
here. -/
def sortStrings : List Str → List Str
  | [] => []
  | a :: r => Str.insertSorted a (sortStrings r)

/-- `hutils.FileNameExt` (internal/hutils/os.go:4). -/
def fileNameExt : Str := ".so".toList

/-- Drops trailing slashes (first loop of `filepath.Base`). -/
def dropTrailingSlashes (s : Str) : Str := (s.reverse.dropWhile (· == '/')).reverse

/-- Go's `filepath.Base` on Unix: strip trailing slashes, keep what follows the last slash;
`""` gives `"."`, a string of slashes gives `"/"` (used at pluginManager.go:621 and
pluginManagerSwapper.go:234). -/
def filepathBase (s : Str) : Str :=
  if s = [] then ['.']
  else
    let t := dropTrailingSlashes s
    if t = [] then ['/'] else (t.reverse.takeWhile (· != '/')).reverse

/-- `filepath.Join(absDir, name)` for a clean absolute directory and a directory-entry name
(pluginManagerSwapper.go:113).  Simplification: `Clean` is the identity on such arguments, apart from
the root directory, whose trailing slash is not doubled. -/
def joinPath (dir name : Str) : Str :=
  if dir = ['/'] then '/' :: name else dir ++ '/' :: name

/-- pluginManager.go:620-622 `pluginName`. -/
def pluginName (file : Str) : Str := Str.trimSuffix (filepathBase file) fileNameExt

end Hotswap
