import Verif.Go.Str

/-!
# What a build does to the copied sources (cli/hotswap/cmd/build.go:765-784, `replaceCode`)

File contents are byte strings in Go; here a byte is the character with the same number, so that `Str` covers all contents.
-/

namespace Hotswap.Cli

/-- `bytes.ReplaceAll(s, old, new)` for a non-empty `old`: the non-overlapping occurrences from left to right. `skip` counts the bytes of an
occurrence that still have to be dropped. -/
def replaceAllFrom (old new : Str) : Nat → Str → Str
  | _, [] => []
  | skip + 1, _ :: r => replaceAllFrom old new skip r
  | 0, c :: r =>
    if old.isPrefixOf (c :: r) then new ++ replaceAllFrom old new (old.length - 1) r else c :: replaceAllFrom old new 0 r

/-- `bytes.ReplaceAll`. -/
def replaceAll (s old new : Str) : Str := replaceAllFrom old new 0 s

/-- `\s` of Go's regexp package. -/
def isSpace (c : Char) : Bool := c == ' ' || c == '\t' || c == '\n' || c == '\x0c' || c == '\r'

/-- The length of the match of `package\s+\S+` at the beginning of `s`, if there is one. `\s+` and `\S+` are greedy; giving back white space never
makes `\S+` match, so there is no backtracking. -/
def pkgClauseLen (s : Str) : Option Nat :=
  if "package".toList.isPrefixOf s then
    let r := s.drop 7
    let ws := r.takeWhile isSpace
    let name := (r.dropWhile isSpace).takeWhile (fun c => !isSpace c)
    if ws = [] ∨ name = [] then none else some (7 + ws.length + name.length)
  else none

/-- `rexPkg.ReplaceAll(data, "package main")` with ``rexPkg = (?m)^package\s+\S+`` (build.go:765, 777). `bol`: is this the beginning of a line?
`skip` counts the bytes of a match that still have to be dropped. -/
def replacePkgFrom : Bool → Nat → Str → Str
  | _, _, [] => []
  | _, skip + 1, c :: r => replacePkgFrom (c == '\n') skip r
  | bol, 0, c :: r =>
    match (if bol then pkgClauseLen (c :: r) else none) with
    | some n => "package main".toList ++ replacePkgFrom (c == '\n') (n - 1) r
    | none => c :: replacePkgFrom (c == '\n') 0 r

/-- build.go:777. -/
def replacePkg (s : Str) : Str := replacePkgFrom true 0 s

/-- build.go:779-782: the four replacements, with the strings of build.go:766-773. -/
def replaceImports (pkgPath tmpPkgPath : Str) (s : Str) : Str :=
  let s2 := replaceAll s ('"' :: pkgPath ++ ['"']) ('"' :: tmpPkgPath ++ ['"'])
  let s3 := replaceAll s2 ('"' :: pkgPath ++ ['/']) ('"' :: tmpPkgPath ++ ['/'])
  let s4 := replaceAll s3 ('`' :: pkgPath ++ ['`']) ('`' :: tmpPkgPath ++ ['`'])
  replaceAll s4 ('`' :: pkgPath ++ ['/']) ('`' :: tmpPkgPath ++ ['/'])

/-- build.go:775-784 `replaceCode`; `top` is `filepath.Dir(rel) == "."`. -/
def replaceCode (pkgPath tmpPkgPath : Str) (top : Bool) (data : Str) : Str :=
  replaceImports pkgPath tmpPkgPath (if top then replacePkg data else data)

/-- build.go:826-829: the contents of the copy of a file. -/
def copyContents (pkgPath tmpPkgPath : Str) (rel : List Str) (data : Str) : Str :=
  if Str.hasSuffix (rel.getLastD []) ".go".toList then replaceCode pkgPath tmpPkgPath (rel.length == 1) data else data

end Hotswap.Cli
