import Verif.Model.Cli.Funcs

/-!
# Live functions and types: collection (cli/hotswap/cmd/build.go:1023-1095) and registration (hotswapLive.tpl,
hotswapBureau.tpl)
-/

namespace Hotswap.Cli

variable [GoRuntime]

/-- A package found by `packages.Load`: its directory (`filepath.Dir(pkg.GoFiles[0])`), whether it has Go files, and its parsed files. -/
structure Pkg where
  dir : Str
  hasGoFiles : Bool
  files : List (List Decl)

/-- The local variables of `completePlugin`, build.go:1023-1028. `liveNames` is a set; `livePackages` is kept as the set of
its keys. -/
structure LiveSt where
  liveNames : List Str
  liveFuncs : GoMap (List Str)
  liveTypes : GoMap (List Str)
  livePackages : List Str
  numErrs : Nat

/-- build.go:1023-1028. -/
def LiveSt.init : LiveSt := ⟨[], .empty, .empty, [], 0⟩

/-- `m[dir] = append(m[dir], name)` -/
def appendAt (m : GoMap (List Str)) (dir name : Str) : GoMap (List Str) := m.insert dir ((m.get? dir).getD [] ++ [name])

/-- `strings.HasPrefix(strings.ToLower(name), livePrefix)` (build.go:1051-1052, 1072-1073). -/
def isLive (livePrefix name : Str) : Bool := Str.hasPrefix (name.map GoRuntime.toLower) livePrefix

/-- `livePackages[dir] = pkg` -/
def addDir (l : List Str) (dir : Str) : List Str := if l.contains dir then l else l ++ [dir]

/-- build.go:1046-1061: a function declaration. -/
def scanFunc (livePrefix dir : Str) (st : LiveSt) (name : Str) (isMethod : Bool) : LiveSt :=
  if isMethod then st
  else if isLive livePrefix name = false then st
  else if st.liveNames.contains name then { st with numErrs := st.numErrs + 1 }
  else { st with
    liveNames := st.liveNames ++ [name]
    liveFuncs := appendAt st.liveFuncs dir name
    livePackages := addDir st.livePackages dir }

/-- build.go:1066-1088: one type specification. -/
def scanType (livePrefix dir : Str) (st : LiveSt) (spec : Str × Bool) : LiveSt :=
  if isLive livePrefix spec.1 = false then st
  else if spec.2 = false then { st with numErrs := st.numErrs + 1 }
  else if st.liveNames.contains spec.1 then { st with numErrs := st.numErrs + 1 }
  else { st with
    liveNames := st.liveNames ++ [spec.1]
    liveTypes := appendAt st.liveTypes dir spec.1
    livePackages := addDir st.livePackages dir }

/-- build.go:1045-1090: one declaration. -/
def scanLiveDecl (livePrefix dir : Str) (st : LiveSt) (d : Decl) : LiveSt :=
  match d with
  | .func name isMethod => scanFunc livePrefix dir st name isMethod
  | .types specs => specs.foldl (scanType livePrefix dir) st
  | .other => st

/-- build.go:1034-1092: one package; packages without Go files are skipped. The interruption by SIGINT is not modelled here. -/
def scanPkg (livePrefix : Str) (st : LiveSt) (pkg : Pkg) : LiveSt :=
  if pkg.hasGoFiles = false then st
  else pkg.files.foldl (fun st file => file.foldl (scanLiveDecl livePrefix pkg.dir) st) st

/-- build.go:1034-1095: the live names of all packages, or the panic with the number of errors. -/
def collectLive (livePrefix : Str) (pkgs : List Pkg) : Except Nat LiveSt :=
  let st := pkgs.foldl (scanPkg livePrefix) LiveSt.init
  if st.numErrs > 0 then .error st.numErrs else .ok st

/-- hotswapBureau.tpl: the two maps of package hotswapbureau. A value is identified by the directory of the package that
declares it. -/
structure Bureau where
  liveFuncs : GoMap Str
  liveTypes : GoMap Str

/-- The maps are created empty. -/
def Bureau.init : Bureau := ⟨.empty, .empty⟩

/-- hotswapBureau.tpl:14-20 `RegisterFunc`; `none` is the panic. -/
def registerFunc (dir : Str) (b : Bureau) (name : Str) : Option Bureau :=
  match b.liveFuncs.get? name with
  | none => some { b with liveFuncs := b.liveFuncs.insert name dir }
  | some _ => none

/-- hotswapBureau.tpl:22-28 `RegisterType`; `none` is the panic. -/
def registerType (dir : Str) (b : Bureau) (name : Str) : Option Bureau :=
  match b.liveTypes.get? name with
  | none => some { b with liveTypes := b.liveTypes.insert name dir }
  | some _ => none

/-- hotswapLive.tpl as generated by `genHotswapLive` (build.go:972-1001) for directory `dir`: the generated `init`. -/
def liveInit (st : LiveSt) (b : Bureau) (dir : Str) : Option Bureau :=
  (((st.liveFuncs.get? dir).getD []).foldlM (registerFunc dir) b).bind
    (fun b => ((st.liveTypes.get? dir).getD []).foldlM (registerType dir) b)

/-- Package initialisation at run time: the generated files (one per key of `livePackages`, build.go:1134-1141) in some order. -/
def runInits (st : LiveSt) (order : List Str) : Option Bureau := order.foldlM (liveInit st) Bureau.init

end Hotswap.Cli
