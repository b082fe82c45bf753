import Verif.Model.Monad
import Verif.Model.Lookup

/-!
# `PluginManager`: loading, dependencies, vault, freeing (pluginManager.go)
-/

namespace Hotswap

variable [GoRuntime]

open M

/-- pluginManager.go:38-59 `newPluginManager`, after the extension newer returned `ext`. `dirName`, the
logger and the test hooks `cbOpen` and `panicTrigger` (no-ops in production) are not modelled. -/
def newManager (mid : Nat) (ext : Option Val) : Manager where
  mid := mid
  pluginMap := .empty
  ordered := []
  vault := { liveFuncs := .empty, liveTypes := .empty, dataBag := .empty, extension := ext }

/-- pluginManager.go:513-515 `FindPlugin`. -/
def Manager.findPlugin (pm : Manager) (name : Str) : Option Plugin := pm.pluginMap.get? (name2key name)

/-- pluginManager.go:517-519 `Plugins`. -/
def Manager.plugins (pm : Manager) : List Plugin := pm.ordered

/-- `pm.pluginMap[k] = p` -/
def setPlugin (k : Str) (p : Plugin) : M Unit :=
  modPm (fun pm => { pm with pluginMap := pm.pluginMap.insert k p })

/-- pluginManager.go:61-67 `addUnchanged`. -/
def addUnchanged (oldP : Plugin) (note : Note) : M Unit := do
  let newP := { oldP with unchanged := true, note := note }
  emit (.inc oldP.inst)
  setPlugin (name2key oldP.name) newP

/-- pluginManager.go:106-114: the counters of `loadPlugins`; the first (in iteration order) key that
occurs more than once. -/
def findDuplicate (it : Iter) (files : List Str) : Option Str :=
  let ks := files.map (fun f => name2key (pluginName f))
  (it.ord .counters ks.eraseDups).find? (fun k => decide (1 < ks.count k))

/-- pluginManager.go:624-635 `fileInfoMap.add`. -/
def fileInfoAdd (m : GoMap FileInfo) (file : Str) (data : Nat) : GoMap FileInfo :=
  let name := pluginName file
  m.insert (name2key name) { name := name, file := file, data := data, sha := GoRuntime.sha1 data }

/-- pluginManager.go:637-649 `buildFileInfoMap`. -/
def buildFileInfoMap (fs : FS) : List Str → GoMap FileInfo → Except Err (GoMap FileInfo)
  | [], m => .ok m
  | f :: r, m =>
    match fs.readFile f with
    | none => .error (.readFile f)
    | some d => buildFileInfoMap fs r (fileInfoAdd m f d)

/-- pluginManager.go:568-583: is the file `k` to be taken out by `removeNotReloadable`? -/
def isNotReloadable (old : Option Manager) (k : Str) : Bool :=
  match old with
  | none => false
  | some om => match om.pluginMap.get? k with
    | none => false
    | some oldP => !oldP.reloadable

/-- pluginManager.go:589-605: is the file `k` to be taken out by `removeUnchanged`? -/
def isUnchanged (old : Option Manager) (k : Str) (info : FileInfo) : Bool :=
  match old with
  | none => false
  | some om => match om.pluginMap.get? k with
    | none => false
    | some oldP => info.sha == oldP.sha

/-- pluginManager.go:122-124 and 126-128: `pm.addUnchanged(oldManager.pluginMap[k], note)` for each `k`. A
missing entry would be a nil dereference. -/
def keepPlugins (old : Option Manager) (note : Note) (ks : List Str) : M Unit :=
  forEach ks (fun k =>
    match old with
    | none => M.panic .nilDeref
    | some om => match om.pluginMap.get? k with
      | none => M.panic .nilDeref
      | some oldP => addUnchanged oldP note)

/-- pluginManager.go:69-85 `outputStats1`; only its panic matters (logging is not modelled). -/
def outputStats1 : M Unit := do
  let s ← M.get
  if s.pm.pluginMap.vals.all (fun p => p.note == .notReloadable || p.note == .unchanged) then
    M.pure ()
  else
    M.panic .unknownNote

/-- pluginManager.go:607-614 `fileInfoMap.names`. -/
def infoNames (it : Iter) (m : GoMap FileInfo) : List Str :=
  sortStrings ((m.rangeKV it .names).map (fun e => e.2.name))

/-- A hook that returns a value, with its panic turned into an error
(plugin.go:107-132 `invokeExport`, `invokeImport`, `invokeReloadable`). -/
def invokeRet (p : Str) (r : Ret α) : M α :=
  match r with
  | .ret a => M.pure a
  | .panics => M.throw (.hookPanic p)

/-- pluginManager.go:192-235 `loadPlugin`. -/
def loadPlugin (fs : FS) (info : FileInfo) : M Unit := do
  if fs.copyOk info.file = false then M.throw .copy
  let i ← alloc
  emit (.openPlugin info.file)
  match fs.openPlugin info.file with
  | .err => M.throw .openFailed
  | .panics => M.panic .user
  | .image syms code =>
    match lookupAll syms pluginFuncItems with
    | .error sym => M.throw (.lookup sym)
    | .ok (m :: ms) => M.throw (.missing (m :: ms))
    | .ok [] =>
      emit (.callReloadable i)
      let reloadable ← invokeRet info.name code.reloadable
      emit (.callExport i)
      let exported ← invokeRet info.name code.exportRet
      setPlugin (name2key info.name)
        { inst := i, name := info.name, file := info.file, sha := info.sha, note := .none,
          unchanged := false, syms := some syms, code := code, deps := [], exported := exported,
          reloadable := reloadable, bound := [] }
      emit (.register i)

/-- An error of `loadPlugin` is wrapped (pluginManager.go:138-140, staticPlugin.go:72-74). -/
def wrapLoading (name : Str) (x : M Unit) : M Unit := fun s =>
  match x s with
  | (.err e, s') => (.err (.loading name e), s')
  | r => r

/-- Runs `x` as `loadPlugins` runs it after setting `curFileInfo`: a panic is tagged with the name so that
`recover` (pluginManager.go:90-96) can report it. The tag is threaded through the error value. -/
def tagPanic (cur : Option Str) (x : M Unit) : M Unit := fun s =>
  match x s with
  | (.panic p, s') => (.err (.panicked cur p), s')
  | r => r

/-- pluginManager.go:135-141: load the remaining files in name order. The loop indexes `infoMap.m`, which is
keyed by lower-cased names, with the *original* name; a miss yields a nil `*fileInfo`, whose first
use (`info.file`, pluginManager.go:163) panics, with `curFileInfo == nil`. -/
def loadNew (it : Iter) (fs : FS) (infoMap : GoMap FileInfo) : M Unit :=
  forEach (infoNames it infoMap) (fun name =>
    match infoMap.get? name with
    | none => tagPanic none (M.panic .nilDeref)
    | some info => tagPanic (some info.name) (wrapLoading info.name (loadPlugin fs info)))

/-- First byte of the UTF-8 encoding of a character. -/
def firstByte (c : Char) : Nat :=
  let n := c.toNat
  if n < 0x80 then n
  else if n < 0x800 then 0xC0 + n / 64
  else if n < 0x10000 then 0xE0 + n / 4096
  else 0xF0 + n / 262144

/-- `unicode.IsUpper(rune(b))` for a byte `b`: `A`-`Z` and the Latin-1 capitals U+00C0-U+00DE without U+00D7. -/
def isUpperByte (b : Nat) : Bool :=
  (0x41 ≤ b && b ≤ 0x5A) || (0xC0 ≤ b && b ≤ 0xDE && b != 0xD7)

/-- pluginManager.go:263-268: does `initDeps` look at this field? (A Go field name is never empty.) -/
def importable (f : Field) : Bool :=
  match f.name with
  | [] => false
  | c :: _ => isUpperByte (firstByte c) && f.tag != ['-']

/-- Whether the Go field is exported, i.e. settable through `reflect`. -/
def isExportedName (s : Str) : Bool :=
  match s with
  | [] => false
  | c :: _ => GoRuntime.isUpper c

/-- pluginManager.go:280, 288-289: append the dependency and (ghost) remember what was stored. -/
def addDep (k : Str) (dep : Plugin) (f : Field) (v : Option Val) : M Unit :=
  modPm (fun pm => { pm with pluginMap := pm.pluginMap.modify k (fun p =>
    { p with deps := p.deps ++ [dep.name], bound := p.bound ++ [⟨f.name, dep.inst, v⟩] }) })

/-- pluginManager.go:261-290: one field of the import struct of plugin `p`, stored under key `k`. -/
def bindField (k : Str) (p : Plugin) (f : Field) : M Unit := do
  if importable f = false then M.pure ()
  else if f.anonymous then M.throw (.anonymousField f.name p.name)
  else
    let s ← M.get
    match s.pm.pluginMap.get? (name2key f.name) with
    | none => M.throw (.unknownDep f.name p.name)
    | some dep =>
      if !p.reloadable && dep.reloadable then M.throw (.depReloadable p.name dep.name)
      else if isNil dep.exported then addDep k dep f none
      else match dep.exported with
        | none => addDep k dep f none
        | some v =>
          if GoRuntime.assignable v.typ f.typ = false then
            M.throw (.notAssignable dep.name p.name f.name)
          else if isExportedName f.name = false then M.panic .setUnexported
          else addDep k dep f (some v)

/-- Is the type of the value a pointer to a struct? (pluginManager.go:256-257) -/
def isStructPtr : GoType → Bool
  | .ptr (.struct _) => true
  | _ => false

/-- pluginManager.go:245-290: the imports of the plugin stored under `k`. -/
def importPlugin (k : Str) : M Unit := do
  let s ← M.get
  match s.pm.pluginMap.get? k with
  | none => M.panic .nilDeref
  | some p =>
    if p.unchanged then M.pure ()
    else
      emit (.callImport p.inst)
      let imp ← invokeRet p.name p.code.importRet
      match imp.val with
      | none => M.pure ()
      | some v =>
        if isNil (some v) then M.pure ()
        else if isStructPtr v.typ = false then M.throw (.importNotStructPtr p.name)
        else forEach imp.fields (bindField k p)

/-- Result of the cycle check: nothing found, the chain of plugins found, or a nil dereference. `fuel`
means that the recursion limit of the model was hit; theorem C06 shows that this never happens. -/
inductive Chk where
  | clean
  | cycle (names : List Str)
  | nilDeref
  | fuel
  deriving DecidableEq, Repr

/-- The loop of pluginManager.go:332-338: the first result that is not `nil`. -/
def Chk.first : List Chk → Chk
  | [] => .clean
  | .clean :: r => Chk.first r
  | c :: _ => c

/-- `append(me[:], ret...)` (pluginManager.go:336) -/
def Chk.push (name : Str) : Chk → Chk
  | .cycle l => .cycle (name :: l)
  | c => c

/-- pluginManager.go:321-341 `checkCyclicDependency`. The pointer set `visited` is modelled by the keys of its
members; inside one manager pointers and keys correspond one to one. The recursion is bounded by
`fuel`, see `Chk.fuel`. -/
def checkCyclic (m : GoMap Plugin) : Nat → Option Plugin → List Str → Chk
  | 0, _, _ => .fuel
  | _ + 1, none, _ => .nilDeref
  | n + 1, some p, visited =>
    if visited.contains (name2key p.name) then .cycle [p.name]
    else
      (Chk.first (p.deps.map (fun d => checkCyclic m n (m.get? (name2key d)) (name2key p.name :: visited)))).push p.name

/-- Recursion bound for `checkCyclic`: one more than the longest possible path plus one. -/
def cyclicFuel (m : GoMap Plugin) : Nat := m.size + 2

/-- pluginManager.go:293-305. -/
def checkAllCyclic (it : Iter) : M Unit := do
  let s ← M.get
  forEach (s.pm.pluginMap.rangeKV it .cyclic) (fun e =>
    if e.2.deps = [] then M.pure ()
    else match checkCyclic s.pm.pluginMap (cyclicFuel s.pm.pluginMap) (some e.2) [] with
      | .clean => M.pure ()
      | .cycle names => M.throw (.cyclic names)
      | .nilDeref => M.panic .nilDeref
      | .fuel => M.panic .orderBroken)

/-- pluginManager.go:307-315: a kept plugin must not depend on a rebuilt one. -/
def checkRebuilt (it : Iter) : M Unit := do
  let s ← M.get
  forEach (s.pm.pluginMap.rangeKV it .rebuilt) (fun e =>
    if e.2.unchanged then
      forEach e.2.deps (fun d =>
        match s.pm.pluginMap.get? (name2key d) with
        | none => M.panic .nilDeref
        | some dep => if dep.unchanged then M.pure () else M.throw (.rebuilt dep.name e.2.name))
    else M.pure ())

/-- Is the plugin already in the list? The code keeps a pointer set `m` in parallel with the slice `a`
(pluginManager.go:345-346, 378-379). -/
def placed (a : List Plugin) (p : Plugin) : Bool := a.any (fun q => name2key q.name == name2key p.name)

/-- pluginManager.go:368-377: are all dependencies placed? A missing dependency is a nil pointer, which
is never in the set. -/
def depsPlaced (m : GoMap Plugin) (a : List Plugin) (p : Plugin) : Bool :=
  p.deps.all (fun d => match m.get? (name2key d) with
    | none => false
    | some dep => placed a dep)

/-- Body of the inner loop, pluginManager.go:363-381. -/
def orderStep (m : GoMap Plugin) (a : List Plugin) (k : Str) : List Plugin :=
  match m.get? k with
  | none => a
  | some p => if placed a p then a else if depsPlaced m a p then a ++ [p] else a

/-- pluginManager.go:358-382: at most `i` further rounds; `none` is the panic of line 384. -/
def orderLoop (m : GoMap Plugin) (keys : List Str) : Nat → List Plugin → Option (List Plugin)
  | 0, _ => none
  | i + 1, a => if a.length = m.size then some a else orderLoop m keys i (keys.foldl (orderStep m) a)

/-- pluginManager.go:343-385 `orderPlugins`: first the plugins without dependencies in map order, then the
others in rounds over the sorted keys. -/
def orderPlugins (it : Iter) (m : GoMap Plugin) : Option (List Plugin) :=
  let kv := m.rangeKV it .order
  let a := (kv.filter (fun e => e.2.deps.isEmpty)).map Prod.snd
  let keys := sortStrings ((kv.filter (fun e => !e.2.deps.isEmpty)).map Prod.fst)
  orderLoop m keys (m.size + 1) a

/-- pluginManager.go:317 and 360: store the order. -/
def setOrder (it : Iter) : M Unit := do
  let s ← M.get
  match orderPlugins it s.pm.pluginMap with
  | none => M.panic .orderBroken
  | some a => modPm (fun pm => { pm with ordered := a })

/-- pluginManager.go:237-319 `initDeps`. -/
def initDeps (it : Iter) : M Unit := do
  let s ← M.get
  forEach (sortStrings (s.pm.pluginMap.range it .depKeys)) importPlugin
  checkAllCyclic it
  checkRebuilt it
  setOrder it

/-- pluginManager.go:387-408 `invokeEveryOnLoad`. -/
def invokeEveryOnLoad (data : Nat) : M Unit := do
  let s ← M.get
  forEach s.pm.ordered (fun p =>
    if p.unchanged then M.pure ()
    else do
      emit (.callOnLoad p.inst data)
      match p.code.onLoad data with
      | .ok => M.pure ()
      | .err => M.throw (.hookErr p.name)
      | .panics => M.throw (.hookPanic p.name))

/-- pluginManager.go:410-431 `invokeEveryOnInit`; `OnInit` may change the vault it is given. -/
def invokeEveryOnInit : M Unit := do
  let s ← M.get
  forEach s.pm.ordered (fun p =>
    if p.unchanged then M.pure ()
    else do
      let s' ← M.get
      emit (.callOnInit p.inst s'.pm.mid s'.pm.vault)
      modPm (fun pm => { pm with vault := (p.code.onInit s'.pm.vault).2 })
      match (p.code.onInit s'.pm.vault).1 with
      | .ok => M.pure ()
      | .err => M.throw (.hookErr p.name)
      | .panics => M.throw (.hookPanic p.name))

/-- pluginManager.go:445-452 and 469-476: the first earlier plugin that also has the name `k`; `""` if
there is none. `live` selects functions or types. -/
def findOwner (live : Plugin → Ret (Option (GoMap Val))) (k : Str) : List Plugin → Str
  | [] => []
  | q :: r =>
    match live q with
    | .ret (some m) => if (m.get? k).isSome then q.name else findOwner live k r
    | _ => findOwner live k r

/-- pluginManager.go:439-455: the live functions of one plugin. -/
def addLiveFuncs (it : Iter) (before : List Plugin) (p : Plugin) (m : GoMap Val) : M Unit :=
  forEach (m.rangeKV it (.liveFuncs before.length)) (fun e => do
    let s ← M.get
    match s.pm.vault.liveFuncs.get? e.1 with
    | none => modPm (fun pm => { pm with vault := { pm.vault with liveFuncs := pm.vault.liveFuncs.insert e.1 e.2 } })
    | some _ => M.throw (.dupLiveFunc e.1 (findOwner (·.code.liveFuncs) e.1 before) p.name))

/-- pluginManager.go:434-456. -/
def setupLiveFuncs (it : Iter) : List Plugin → List Plugin → M Unit
  | _, [] => M.pure ()
  | before, p :: r => do
    emit (.callLiveFuncs p.inst)
    match p.code.liveFuncs with
    | .panics => M.panic .user
    | .ret none => M.throw (.badLiveFuncs p.name)
    | .ret (some m) =>
      addLiveFuncs it before p m
      setupLiveFuncs it (before ++ [p]) r

/-- pluginManager.go:463-479: the live types of one plugin. -/
def addLiveTypes (it : Iter) (before : List Plugin) (p : Plugin) (m : GoMap Val) : M Unit :=
  forEach (m.rangeKV it (.liveTypes before.length)) (fun e => do
    let s ← M.get
    match s.pm.vault.liveTypes.get? e.1 with
    | none => modPm (fun pm => { pm with vault := { pm.vault with liveTypes := pm.vault.liveTypes.insert e.1 e.2 } })
    | some _ => M.throw (.dupLiveType e.1 (findOwner (·.code.liveTypes) e.1 before) p.name))

/-- pluginManager.go:458-480. -/
def setupLiveTypes (it : Iter) : List Plugin → List Plugin → M Unit
  | _, [] => M.pure ()
  | before, p :: r => do
    emit (.callLiveTypes p.inst)
    match p.code.liveTypes with
    | .panics => M.panic .user
    | .ret none => M.throw (.badLiveTypes p.name)
    | .ret (some m) =>
      addLiveTypes it before p m
      setupLiveTypes it (before ++ [p]) r

/-- pluginManager.go:433-483 `setupVault`. -/
def setupVault (it : Iter) : M Unit := do
  let s ← M.get
  setupLiveFuncs it [] s.pm.ordered
  setupLiveTypes it [] s.pm.ordered

/-- pluginManager.go:501-510: the order in which `invokeEveryOnFree` visits the plugins: reverse of `Plugins()`,
or map order if no order has been established. -/
def freeOrder (it : Iter) (pm : Manager) : List Plugin :=
  if pm.ordered = [] then (pm.pluginMap.rangeKV it .free).map Prod.snd else pm.ordered.reverse

/-- pluginManager.go:485-511 `invokeEveryOnFree`, as a list of releases (see `Act.release`). It never fails: the
panics of `OnFree` are recovered one by one. -/
def invokeEveryOnFree (it : Iter) : M Unit := fun s =>
  (.ok (), { s with acts := s.acts ++ (freeOrder it s.pm).map (fun p => .release p.inst) })

/-- The deferred function of pluginManager.go:89-100 and staticPlugin.go:46-57: turn a panic into an
error, and on any failure free everything that was entered in the manager. -/
def withCleanup (it : Iter) (x : M Unit) : M Unit := fun s =>
  match x s with
  | (.ok (), s') => (.ok (), s')
  | (.err e, s') => (.err e, (invokeEveryOnFree it s').2)
  | (.panic p, s') => (.err (.panicked none p), (invokeEveryOnFree it s').2)

/-- pluginManager.go:145-156, staticPlugin.go:78-89: dependencies, OnLoad, vault, OnInit. -/
def finishLoad (it : Iter) (data : Nat) : M Unit := do
  initDeps it
  invokeEveryOnLoad data
  setupVault it
  invokeEveryOnInit

/-- pluginManager.go:102-159: the body of `loadPlugins`. -/
def loadPluginsBody (it : Iter) (fs : FS) (files : List Str) (old : Option Manager) (data : Nat) : M Unit := do
  let s ← M.get
  if s.pm.pluginMap.size ≠ 0 then M.throw .twice
  match findDuplicate it files with
  | some k => M.throw (.duplicateName k)
  | none =>
    match buildFileInfoMap fs files .empty with
    | .error e => M.throw e
    | .ok infoMap =>
      let notReloadable := infoMap.filter (fun k _ => isNotReloadable old k)
      let infoMap := infoMap.filter (fun k _ => !isNotReloadable old k)
      keepPlugins old .notReloadable (notReloadable.range it .notReloadable)
      let unchanged := infoMap.filter (fun k info => isUnchanged old k info)
      let infoMap := infoMap.filter (fun k info => !isUnchanged old k info)
      keepPlugins old .unchanged (unchanged.range it .unchanged)
      let s ← M.get
      if infoMap.size + s.pm.pluginMap.size ≠ files.length then M.throw .lenMismatch
      outputStats1
      loadNew it fs infoMap
      finishLoad it data

/-- pluginManager.go:87-160 `loadPlugins`. -/
def loadPlugins (it : Iter) (fs : FS) (files : List Str) (old : Option Manager) (data : Nat) : M Unit :=
  withCleanup it (loadPluginsBody it fs files old data)

end Hotswap
