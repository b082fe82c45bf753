import Verif.Model.Swapper

/-!
# Loads with pointers

The same functions as in `Model/Load`, `Model/Static` and `Model/Swapper`, but one level closer to the Go code: `Plugin` and `PluginManager` structs live in a heap, maps and slices hold
pointers to them, copies are made where the code copies a struct, fields are assigned through pointers, and the sets of the cycle check and of the ordering are sets of pointers. Every assignment is recorded, so that one can
ask whether a load ever assigns to a struct that others can see.
-/

namespace Hotswap
namespace Ptr

/-- pluginManager.go:24-36 `PluginManager`, with pointers to plugins. -/
structure PMgr where
  pluginMap : GoMap Nat
  ordered : List Nat
  vault : Vault

/-- The structs that exist: a `*Plugin` is an index of `cells`; a `*PluginManager` is the identity of the manager. -/
structure Heap where
  cells : List Plugin
  mgrs : Nat → Option PMgr

/-- No structs at all. -/
def Heap.empty : Heap := ⟨[], fun _ => none⟩

/-- A struct that is assigned to. -/
inductive Wr where
  | plugin (r : Nat)
  | manager (mid : Nat)
  deriving DecidableEq, Repr

/-- State of a load: `me` is the receiver `pm` (nil until `newPluginManager`), `writes` (ghost) the structs that have been assigned to. -/
structure PSt where
  next : Nat
  heap : Heap
  me : Option Nat
  acts : List Act
  writes : List Wr

/-- A computation of the load. -/
def PM (α : Type) := PSt → Exit α × PSt

namespace PM

def pure (a : α) : PM α := fun s => (.ok a, s)

def bind (x : PM α) (f : α → PM β) : PM β := fun s =>
  match x s with
  | (.ok a, s') => f a s'
  | (.err e, s') => (.err e, s')
  | (.panic p, s') => (.panic p, s')

instance : Monad PM where
  pure := PM.pure
  bind := PM.bind

def get : PM PSt := fun s => (.ok s, s)
/-- `return err` -/
def throw (e : Err) : PM α := fun s => (.err e, s)
/-- `panic(...)` -/
def panic (p : Panic) : PM α := fun s => (.panic p, s)
/-- record an action -/
def emit (a : Act) : PM Unit := fun s => (.ok (), { s with acts := s.acts ++ [a] })
/-- allocate an identity -/
def alloc : PM Nat := fun s => (.ok s.next, { s with next := s.next + 1 })

/-- `*r` for a `*Plugin` -/
def cell (r : Nat) : PM Plugin := fun s =>
  match s.heap.cells[r]? with
  | none => (.panic .nilDeref, s)
  | some p => (.ok p, s)

/-- a new `Plugin` struct with the given contents -/
def new (p : Plugin) : PM Nat := fun s =>
  (.ok s.heap.cells.length, { s with heap := { s.heap with cells := s.heap.cells ++ [p] }, writes := s.writes ++ [.plugin s.heap.cells.length] })

/-- an assignment to fields of the struct `r` points to -/
def write (r : Nat) (f : Plugin → Plugin) : PM Unit := fun s =>
  (.ok (), { s with heap := { s.heap with cells := s.heap.cells.modify r f }, writes := s.writes ++ [.plugin r] })

/-- `*om` for a `*PluginManager` -/
def mgr (om : Nat) : PM PMgr := fun s =>
  match s.heap.mgrs om with
  | none => (.panic .nilDeref, s)
  | some g => (.ok g, s)

/-- `*pm` -/
def self : PM PMgr := fun s =>
  match s.me with
  | none => (.panic .nilDeref, s)
  | some i => mgr i s

/-- an assignment to fields of `*pm` or to its maps -/
def modSelf (f : PMgr → PMgr) : PM Unit := fun s =>
  match s.me with
  | none => (.panic .nilDeref, s)
  | some i => (.ok (), { s with heap := { s.heap with mgrs := fun j => if j = i then (s.heap.mgrs i).map f else s.heap.mgrs j }, writes := s.writes ++ [.manager i] })

/-- `for _, a := range l { f(a) }`, leaving the loop at the first error or panic. -/
def forEach (l : List α) (f : α → PM Unit) : PM Unit :=
  match l with
  | [] => PM.pure ()
  | a :: r => PM.bind (f a) (fun _ => forEach r f)

end PM

open PM

/-- The contents of structs that do not exist (never used). -/
def nobody : Plugin where
  inst := 0
  name := []
  file := []
  sha := 0
  note := .none
  unchanged := false
  syms := none
  code := { reloadable := .panics, exportRet := .panics, importRet := .panics, onLoad := fun _ => .panics, onInit := fun v => (.panics, v), onFreePanics := true, invokeFunc := fun _ _ => .panics, liveFuncs := .panics, liveTypes := .panics }
  deps := []
  exported := none
  reloadable := false
  bound := []

/-- What `r` points to. -/
def Heap.deref (h : Heap) (r : Nat) : Plugin := h.cells[r]?.getD nobody

/-- What a user finds who follows the pointers from the manager `mid`. -/
def Heap.manager (h : Heap) (mid : Nat) : Option Manager :=
  (h.mgrs mid).map (fun g => { mid := mid, pluginMap := ⟨g.pluginMap.entries.map (fun e => (e.1, h.deref e.2)), by
      simpa [List.map_map, Function.comp_def] using g.pluginMap.nodup⟩, ordered := g.ordered.map h.deref, vault := g.vault })

section
variable [GoRuntime]

/-- `pm.pluginMap[k] = p` -/
def setPlugin (k : Str) (p : Nat) : PM Unit := modSelf (fun g => { g with pluginMap := g.pluginMap.insert k p })

/-- pluginManager.go:61-67 `addUnchanged`: the struct is copied, the counter behind `Refs` is shared. -/
def addUnchanged (oldP : Nat) (note : Note) : PM Unit := do
  let o ← cell oldP
  let newP ← new o
  write newP (fun p => { p with unchanged := true })
  write newP (fun p => { p with note := note })
  emit (.inc o.inst)
  setPlugin (name2key o.name) newP

/-- pluginManager.go:568-583: is the file `k` to be taken out by `removeNotReloadable`? -/
def isNotReloadable (h : Heap) (old : Option Nat) (k : Str) : Bool :=
  match old.bind h.mgrs with
  | none => false
  | some om => match om.pluginMap.get? k with
    | none => false
    | some oldP => !(h.deref oldP).reloadable

/-- pluginManager.go:589-605: is the file `k` to be taken out by `removeUnchanged`? -/
def isUnchanged (h : Heap) (old : Option Nat) (k : Str) (info : FileInfo) : Bool :=
  match old.bind h.mgrs with
  | none => false
  | some om => match om.pluginMap.get? k with
    | none => false
    | some oldP => info.sha == (h.deref oldP).sha

/-- pluginManager.go:122-124 and 126-128. -/
def keepPlugins (old : Option Nat) (note : Note) (ks : List Str) : PM Unit :=
  forEach ks (fun k =>
    match old with
    | none => PM.panic .nilDeref
    | some om => do
      let g ← mgr om
      match g.pluginMap.get? k with
      | none => PM.panic .nilDeref
      | some oldP => addUnchanged oldP note)

/-- pluginManager.go:69-85 `outputStats1`. -/
def outputStats1 : PM Unit := do
  let g ← self
  let s ← PM.get
  if g.pluginMap.vals.all (fun p => (s.heap.deref p).note == .notReloadable || (s.heap.deref p).note == .unchanged) then PM.pure ()
  else PM.panic .unknownNote

/-- plugin.go:107-132 `invokeExport`, `invokeImport`, `invokeReloadable`. -/
def invokeRet (p : Str) (r : Ret α) : PM α :=
  match r with
  | .ret a => PM.pure a
  | .panics => PM.throw (.hookPanic p)

/-- pluginManager.go:192-235 `loadPlugin`. (Simplification: the struct is allocated when it is entered in the map; until then only `loadPlugin` itself has a pointer to it.) -/
def loadPlugin (fs : FS) (info : FileInfo) : PM Unit := do
  if fs.copyOk info.file = false then PM.throw .copy
  let i ← alloc
  emit (.openPlugin info.file)
  match fs.openPlugin info.file with
  | .err => PM.throw .openFailed
  | .panics => PM.panic .user
  | .image syms code =>
    match lookupAll syms pluginFuncItems with
    | .error sym => PM.throw (.lookup sym)
    | .ok (m :: ms) => PM.throw (.missing (m :: ms))
    | .ok [] =>
      emit (.callReloadable i)
      let reloadable ← invokeRet info.name code.reloadable
      emit (.callExport i)
      let exported ← invokeRet info.name code.exportRet
      let p ← new { inst := i, name := info.name, file := info.file, sha := info.sha, note := .none, unchanged := false, syms := some syms, code := code, deps := [],
                    exported := exported, reloadable := reloadable, bound := [] }
      setPlugin (name2key info.name) p
      emit (.register i)

/-- An error of `loadPlugin` is wrapped (pluginManager.go:138-140, staticPlugin.go:72-74). -/
def wrapLoading (name : Str) (x : PM Unit) : PM Unit := fun s =>
  match x s with
  | (.err e, s') => (.err (.loading name e), s')
  | r => r

/-- pluginManager.go:90-96, as in `Model/Load`. -/
def tagPanic (cur : Option Str) (x : PM Unit) : PM Unit := fun s =>
  match x s with
  | (.panic p, s') => (.err (.panicked cur p), s')
  | r => r

/-- pluginManager.go:135-141. -/
def loadNew (it : Iter) (fs : FS) (infoMap : GoMap FileInfo) : PM Unit :=
  forEach (infoNames it infoMap) (fun name =>
    match infoMap.get? name with
    | none => tagPanic none (PM.panic .nilDeref)
    | some info => tagPanic (some info.name) (wrapLoading info.name (loadPlugin fs info)))

/-- pluginManager.go:280, 288-289: `p.Deps = append(p.Deps, dep.Name)`, through the pointer `p`. -/
def addDep (p : Nat) (dep : Plugin) (f : Field) (v : Option Val) : PM Unit :=
  write p (fun q => { q with deps := q.deps ++ [dep.name], bound := q.bound ++ [⟨f.name, dep.inst, v⟩] })

/-- pluginManager.go:261-290: one field of the import struct of the plugin `p` points to. -/
def bindField (p : Nat) (f : Field) : PM Unit := do
  if importable f = false then PM.pure ()
  else
    let me ← cell p
    if f.anonymous then PM.throw (.anonymousField f.name me.name)
    else
      let g ← self
      match g.pluginMap.get? (name2key f.name) with
      | none => PM.throw (.unknownDep f.name me.name)
      | some q =>
        let dep ← cell q
        if !me.reloadable && dep.reloadable then PM.throw (.depReloadable me.name dep.name)
        else if isNil dep.exported then addDep p dep f none
        else match dep.exported with
          | none => addDep p dep f none
          | some v =>
            if GoRuntime.assignable v.typ f.typ = false then PM.throw (.notAssignable dep.name me.name f.name)
            else if isExportedName f.name = false then PM.panic .setUnexported
            else addDep p dep f (some v)

/-- pluginManager.go:245-290: the imports of the plugin stored under `k`. -/
def importPlugin (k : Str) : PM Unit := do
  let g ← self
  match g.pluginMap.get? k with
  | none => PM.panic .nilDeref
  | some r =>
    let p ← cell r
    if p.unchanged then PM.pure ()
    else
      emit (.callImport p.inst)
      let imp ← invokeRet p.name p.code.importRet
      match imp.val with
      | none => PM.pure ()
      | some v =>
        if isNil (some v) then PM.pure ()
        else if isStructPtr v.typ = false then PM.throw (.importNotStructPtr p.name)
        else forEach imp.fields (bindField r)

/-- pluginManager.go:321-341 `checkCyclicDependency`; `visited` is a set of pointers. -/
def checkCyclic (h : Heap) (m : GoMap Nat) : Nat → Option Nat → List Nat → Chk
  | 0, _, _ => .fuel
  | _ + 1, none, _ => .nilDeref
  | n + 1, some p, visited =>
    if visited.contains p then .cycle [(h.deref p).name]
    else (Chk.first ((h.deref p).deps.map (fun d => checkCyclic h m n (m.get? (name2key d)) (p :: visited)))).push (h.deref p).name

/-- pluginManager.go:293-305. -/
def checkAllCyclic (it : Iter) : PM Unit := do
  let g ← self
  let s ← PM.get
  forEach (g.pluginMap.rangeKV it .cyclic) (fun e =>
    if (s.heap.deref e.2).deps = [] then PM.pure ()
    else match checkCyclic s.heap g.pluginMap (g.pluginMap.size + 2) (some e.2) [] with
      | .clean => PM.pure ()
      | .cycle names => PM.throw (.cyclic names)
      | .nilDeref => PM.panic .nilDeref
      | .fuel => PM.panic .orderBroken)

/-- pluginManager.go:307-315. -/
def checkRebuilt (it : Iter) : PM Unit := do
  let g ← self
  let s ← PM.get
  forEach (g.pluginMap.rangeKV it .rebuilt) (fun e =>
    if (s.heap.deref e.2).unchanged then
      forEach (s.heap.deref e.2).deps (fun d =>
        match g.pluginMap.get? (name2key d) with
        | none => PM.panic .nilDeref
        | some dep => if (s.heap.deref dep).unchanged then PM.pure () else PM.throw (.rebuilt (s.heap.deref dep).name (s.heap.deref e.2).name))
    else PM.pure ())

/-- pluginManager.go:368-377: are all dependencies in the set of pointers? -/
def depsPlaced (h : Heap) (m : GoMap Nat) (a : List Nat) (p : Nat) : Bool :=
  (h.deref p).deps.all (fun d => match m.get? (name2key d) with
    | none => false
    | some dep => a.contains dep)

/-- pluginManager.go:363-381. -/
def orderStep (h : Heap) (m : GoMap Nat) (a : List Nat) (k : Str) : List Nat :=
  match m.get? k with
  | none => a
  | some p => if a.contains p then a else if depsPlaced h m a p then a ++ [p] else a

/-- pluginManager.go:358-382. -/
def orderLoop (h : Heap) (m : GoMap Nat) (keys : List Str) : Nat → List Nat → Option (List Nat)
  | 0, _ => none
  | i + 1, a => if a.length = m.size then some a else orderLoop h m keys i (keys.foldl (orderStep h m) a)

/-- pluginManager.go:343-385 `orderPlugins`. -/
def orderPlugins (it : Iter) (h : Heap) (m : GoMap Nat) : Option (List Nat) :=
  let kv := m.rangeKV it .order
  let a := (kv.filter (fun e => (h.deref e.2).deps.isEmpty)).map Prod.snd
  let keys := sortStrings ((kv.filter (fun e => !(h.deref e.2).deps.isEmpty)).map Prod.fst)
  orderLoop h m keys (m.size + 1) a

/-- pluginManager.go:317 and 360. -/
def setOrder (it : Iter) : PM Unit := do
  let g ← self
  let s ← PM.get
  match orderPlugins it s.heap g.pluginMap with
  | none => PM.panic .orderBroken
  | some a => modSelf (fun g => { g with ordered := a })

/-- pluginManager.go:237-319 `initDeps`. -/
def initDeps (it : Iter) : PM Unit := do
  let g ← self
  forEach (sortStrings (g.pluginMap.range it .depKeys)) importPlugin
  checkAllCyclic it
  checkRebuilt it
  setOrder it

/-- pluginManager.go:387-408 `invokeEveryOnLoad`. -/
def invokeEveryOnLoad (data : Nat) : PM Unit := do
  let g ← self
  forEach g.ordered (fun r => do
    let p ← cell r
    if p.unchanged then PM.pure ()
    else
      emit (.callOnLoad p.inst data)
      match p.code.onLoad data with
      | .ok => PM.pure ()
      | .err => PM.throw (.hookErr p.name)
      | .panics => PM.throw (.hookPanic p.name))

/-- pluginManager.go:410-431 `invokeEveryOnInit`; `OnInit` is given a pointer to the vault of the new manager. -/
def invokeEveryOnInit : PM Unit := do
  let g ← self
  forEach g.ordered (fun r => do
    let p ← cell r
    if p.unchanged then PM.pure ()
    else
      let s ← PM.get
      let g' ← self
      emit (.callOnInit p.inst (s.me.getD 0) g'.vault)
      modSelf (fun x => { x with vault := (p.code.onInit g'.vault).2 })
      match (p.code.onInit g'.vault).1 with
      | .ok => PM.pure ()
      | .err => PM.throw (.hookErr p.name)
      | .panics => PM.throw (.hookPanic p.name))

/-- pluginManager.go:439-455: the live functions of one plugin. -/
def addLiveFuncs (it : Iter) (before : List Nat) (p : Plugin) (m : GoMap Val) : PM Unit :=
  forEach (m.rangeKV it (.liveFuncs before.length)) (fun e => do
    let g ← self
    let s ← PM.get
    match g.vault.liveFuncs.get? e.1 with
    | none => modSelf (fun x => { x with vault := { x.vault with liveFuncs := x.vault.liveFuncs.insert e.1 e.2 } })
    | some _ => PM.throw (.dupLiveFunc e.1 (findOwner (·.code.liveFuncs) e.1 (before.map s.heap.deref)) p.name))

/-- pluginManager.go:434-456. -/
def setupLiveFuncs (it : Iter) : List Nat → List Nat → PM Unit
  | _, [] => PM.pure ()
  | before, r :: rest => do
    let p ← cell r
    emit (.callLiveFuncs p.inst)
    match p.code.liveFuncs with
    | .panics => PM.panic .user
    | .ret none => PM.throw (.badLiveFuncs p.name)
    | .ret (some m) =>
      addLiveFuncs it before p m
      setupLiveFuncs it (before ++ [r]) rest

/-- pluginManager.go:463-479: the live types of one plugin. -/
def addLiveTypes (it : Iter) (before : List Nat) (p : Plugin) (m : GoMap Val) : PM Unit :=
  forEach (m.rangeKV it (.liveTypes before.length)) (fun e => do
    let g ← self
    let s ← PM.get
    match g.vault.liveTypes.get? e.1 with
    | none => modSelf (fun x => { x with vault := { x.vault with liveTypes := x.vault.liveTypes.insert e.1 e.2 } })
    | some _ => PM.throw (.dupLiveType e.1 (findOwner (·.code.liveTypes) e.1 (before.map s.heap.deref)) p.name))

/-- pluginManager.go:458-480. -/
def setupLiveTypes (it : Iter) : List Nat → List Nat → PM Unit
  | _, [] => PM.pure ()
  | before, r :: rest => do
    let p ← cell r
    emit (.callLiveTypes p.inst)
    match p.code.liveTypes with
    | .panics => PM.panic .user
    | .ret none => PM.throw (.badLiveTypes p.name)
    | .ret (some m) =>
      addLiveTypes it before p m
      setupLiveTypes it (before ++ [r]) rest

/-- pluginManager.go:433-483 `setupVault`. -/
def setupVault (it : Iter) : PM Unit := do
  let g ← self
  setupLiveFuncs it [] g.ordered
  setupLiveTypes it [] g.ordered

/-- pluginManager.go:501-510: the pointers in the order in which `invokeEveryOnFree` visits them. -/
def freeOrder (it : Iter) (g : PMgr) : List Nat :=
  if g.ordered = [] then (g.pluginMap.rangeKV it .free).map Prod.snd else g.ordered.reverse

/-- pluginManager.go:485-511 `invokeEveryOnFree`. -/
def invokeEveryOnFree (it : Iter) : PM Unit := fun s =>
  match s.me.bind s.heap.mgrs with
  | none => (.ok (), s)
  | some g => (.ok (), { s with acts := s.acts ++ (freeOrder it g).map (fun r => .release (s.heap.deref r).inst) })

/-- The deferred function of pluginManager.go:89-100 and staticPlugin.go:46-57. -/
def withCleanup (it : Iter) (x : PM Unit) : PM Unit := fun s =>
  match x s with
  | (.ok (), s') => (.ok (), s')
  | (.err e, s') => (.err e, (invokeEveryOnFree it s').2)
  | (.panic p, s') => (.err (.panicked none p), (invokeEveryOnFree it s').2)

/-- pluginManager.go:145-156, staticPlugin.go:78-89. -/
def finishLoad (it : Iter) (data : Nat) : PM Unit := do
  initDeps it
  invokeEveryOnLoad data
  setupVault it
  invokeEveryOnInit

/-- pluginManager.go:102-159: the body of `loadPlugins`. -/
def loadPluginsBody (it : Iter) (fs : FS) (files : List Str) (old : Option Nat) (data : Nat) : PM Unit := do
  let g ← self
  if g.pluginMap.size ≠ 0 then PM.throw .twice
  match findDuplicate it files with
  | some k => PM.throw (.duplicateName k)
  | none =>
    match buildFileInfoMap fs files .empty with
    | .error e => PM.throw e
    | .ok infoMap =>
      let s ← PM.get
      let notReloadable := infoMap.filter (fun k _ => isNotReloadable s.heap old k)
      let infoMap := infoMap.filter (fun k _ => !isNotReloadable s.heap old k)
      keepPlugins old .notReloadable (notReloadable.range it .notReloadable)
      let s ← PM.get
      let unchanged := infoMap.filter (fun k info => isUnchanged s.heap old k info)
      let infoMap := infoMap.filter (fun k info => !isUnchanged s.heap old k info)
      keepPlugins old .unchanged (unchanged.range it .unchanged)
      let g ← self
      if infoMap.size + g.pluginMap.size ≠ files.length then PM.throw .lenMismatch
      outputStats1
      loadNew it fs infoMap
      finishLoad it data

/-- pluginManager.go:87-160 `loadPlugins`. -/
def loadPlugins (it : Iter) (fs : FS) (files : List Str) (old : Option Nat) (data : Nat) : PM Unit :=
  withCleanup it (loadPluginsBody it fs files old data)

/-- staticPlugin.go:95-126 `loadStaticPlugin`. -/
def loadStaticPlugin (sp : StaticPlugin) : PM Unit := do
  let i ← alloc
  match staticMissing sp with
  | m :: ms => PM.throw (.missing (m :: ms))
  | [] =>
    emit (.callReloadable i)
    let reloadable ← invokeRet sp.name sp.code.reloadable
    emit (.callExport i)
    let exported ← invokeRet sp.name sp.code.exportRet
    let p ← new { inst := i, name := sp.name, file := [], sha := 0, note := .ok, unchanged := false, syms := none, code := sp.code, deps := [], exported := exported,
                  reloadable := reloadable, bound := [] }
    setPlugin (name2key sp.name) p
    emit (.register i)

/-- staticPlugin.go:63-75. -/
def loadStaticNew (it : Iter) (sps : GoMap StaticPlugin) : PM Unit :=
  forEach (sortStrings (sps.range it .static)) (fun name =>
    match sps.get? name with
    | none => tagPanic none (PM.panic .nilDeref)
    | some sp => tagPanic (some sp.name) (wrapLoading name (loadStaticPlugin sp)))

/-- staticPlugin.go:59-92. -/
def loadStaticBody (it : Iter) (sps : GoMap StaticPlugin) (data : Nat) : PM Unit := do
  let g ← self
  if g.pluginMap.size ≠ 0 then PM.throw .twice
  loadStaticNew it sps
  finishLoad it data

/-- staticPlugin.go:44-93 `(*PluginManager).loadStaticPlugins`. -/
def loadStatic (it : Iter) (sps : GoMap StaticPlugin) (data : Nat) : PM Unit :=
  withCleanup it (loadStaticBody it sps data)

/-- pluginManagerSwapper.go:169-188 `invokeReloadCallbacks`. -/
def invokeReloadCallbacks (it : Iter) (old : Option Nat) : List (Nat × Outcome) → PM Unit
  | [] => PM.pure ()
  | (n, o) :: r => do
    let s ← PM.get
    emit (.callback n (s.me.getD 0) old)
    match o with
    | .ok => invokeReloadCallbacks it old r
    | _ => do
      invokeEveryOnFree it
      PM.throw .callback

/-- pluginManagerSwapper.go:145-153. -/
def buildDetails (h : Heap) (m : GoMap Nat) : List Str → Details → Option Details
  | [], d => some d
  | f :: r, d =>
    match m.get? (name2key (pluginName f)) with
    | none => none
    | some p => buildDetails h m r (d.insert (h.deref p).file (if (h.deref p).note.str ≠ [] then (h.deref p).note.str else "ok".toList))

/-- pluginManagerSwapper.go:154-165: `sw.current.Store(newManager)`. The actions show what the pointers lead to at that moment. -/
def publishNew (old : Option Nat) : PM Unit := do
  let s ← PM.get
  match old with
  | none => PM.pure ()
  | some om =>
    match s.heap.manager om with
    | none => PM.panic .nilDeref
    | some pm => emit (.spawnFree pm)
  match s.me.bind s.heap.manager with
  | none => PM.panic .nilDeref
  | some pm => emit (.publish pm)

/-- pluginManager.go:38-59 `newPluginManager`: a new struct with new maps. -/
def newPluginManager (mid : Nat) (ext : Option Val) : PM Unit := fun s =>
  (.ok (), { s with
    heap := { s.heap with mgrs := fun j => if j = mid then some ⟨.empty, [], { liveFuncs := .empty, liveTypes := .empty, dataBag := .empty, extension := ext }⟩ else s.heap.mgrs j }
    me := some mid
    writes := s.writes ++ [.manager mid] })

/-- `newPluginManager` as part of a call. -/
def createManager (cfg : Config) (env : Env) : PM Unit := do
  let mid ← alloc
  if cfg.hasNewExt then
    match env.ext with
    | .panics => PM.panic .user
    | .ret ext => newPluginManager mid ext
  else newPluginManager mid none

/-- pluginManagerSwapper.go:131-167 `loadPluginFiles`. -/
def loadPluginFiles (cfg : Config) (env : Env) (cbs : List (Nat × Outcome)) (old : Option Nat) (files : List Str) : PM Details :=
  if files = [] then PM.pure .empty
  else do
    createManager cfg env
    loadPlugins env.it env.fs files old env.data
    invokeReloadCallbacks env.it old cbs
    let g ← self
    let s ← PM.get
    match buildDetails s.heap g.pluginMap files .empty with
    | none => PM.panic .nilDeref
    | some d => do
      publishNew old
      PM.pure d

/-- pluginManagerSwapper.go:87-129 `loadPluginsImpl`. -/
def loadPluginsImpl (cfg : Config) (env : Env) (cbs : List (Nat × Outcome)) (old : Option Nat) : PM Details :=
  match env.dir with
  | none => PM.throw .directory
  | some (absDir, entries) =>
    let names := qualifying cfg.whitelist entries
    match whitelistError cfg.whitelist names with
    | some e => PM.throw e
    | none => loadPluginFiles cfg env cbs old (names.map (joinPath absDir))

/-- staticPlugin.go:128-156 `(*PluginManagerSwapper).loadStaticPlugins`. -/
def loadStaticPlugins (cfg : Config) (env : Env) (cbs : List (Nat × Outcome)) (sps : GoMap StaticPlugin) : PM Details := do
  createManager cfg env
  match (if cfg.whitelist.isEmpty then .ok sps else selectStatic sps cfg.whitelist .empty) with
  | .error e => PM.throw e
  | .ok sel => do
    loadStatic env.it sel env.data
    invokeReloadCallbacks env.it none cbs
    publishNew none
    PM.pure ⟨sel.entries.map (fun e => (e.1, "ok".toList)), by
      simpa [List.map_map, Function.comp_def] using sel.nodup⟩

/-- pluginManagerSwapper.go:75-85 `LoadPlugins` (inside the lock); `old` is `sw.Current()`. -/
def apiLoad (cfg : Config) (env : Env) (old : Option Nat) : PM Details :=
  match cfg.static with
  | some sps => loadStaticPlugins cfg env (callbacks cfg env .load) sps
  | none => loadPluginsImpl cfg env (callbacks cfg env .load) old

/-- pluginManagerSwapper.go:194-210 `ReloadWithCallback` (inside the lock). -/
def apiReload (cfg : Config) (env : Env) (extra : Option Outcome) (old : Option Nat) : PM Details := do
  let d ← loadPluginsImpl cfg env (callbacks cfg env (.reload extra)) old
  emit .count
  PM.pure d

/-- A call, made with the structs `h`, while the manager `old` is current and the identities below `next` are taken: its result and the state it ends in. -/
def run (cfg : Config) (env : Env) (k : Kind) (old : Option Nat) (next : Nat) (h : Heap) : Result × PSt :=
  (match k with
    | .load => apiLoad cfg env old
    | .reload extra => apiReload cfg env extra old) { next := next, heap := h, me := none, acts := [], writes := [] }

end

end Ptr
end Hotswap
