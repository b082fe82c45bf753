import Verif.Model.Swapper

/-!
# What a load writes to the log

The logger is an interface that the user provides (`WithLogger`). A load calls `Infof` once (pluginManager.go:84), `Debugf` before each `OnLoad` and `OnInit` (lines 394, 417), and under static linking `Warn` at the end (staticPlugin.go:91). A method of
the logger may panic; a nil logger always does. (Simplifications: what is written during `invokeEveryOnFree` is in Model/FreeLog; here the logger does not panic at those lines. What `InvokeEach` writes is not part of a load. The value of a panic can be printed, see Model/Unprintable.)
-/

namespace Hotswap

variable [GoRuntime]

open M

/-- A line of the log of a load. -/
inductive Line where
  /-- pluginManager.go:84: `not reloadable: [...], unchanged: [...], to be loaded: [...]` -/
  | stats (notReloadable unchanged toLoad : List Str)
  /-- pluginManager.go:394: `invoking %s.OnLoad` -/
  | onLoad (name : Str)
  /-- pluginManager.go:417: `invoking %s.OnInit` -/
  | onInit (name : Str)
  /-- staticPlugin.go:91: `running under static linking mode` -/
  | static
  deriving DecidableEq, Repr

/-- A logger, seen from one load: does it panic when it is given the `n`-th line of the load, counted from 0? -/
abbrev Logger := Nat → Bool

/-- The state of a load, with the lines given to the logger so far. Each line is stored with the number of actions that the load has performed before it. -/
structure LogSt where
  st : LoadSt
  lines : List (Nat × Line)

/-- A computation of a load with a logger. -/
def LM (α : Type) := LogSt → Exit α × LogSt

namespace LM

def bind {α β : Type} (x : LM α) (f : α → LM β) : LM β := fun s =>
  match x s with
  | (.ok a, s') => f a s'
  | (.err e, s') => (.err e, s')
  | (.panic p, s') => (.panic p, s')

instance : Monad LM where
  pure a := fun s => (.ok a, s)
  bind := LM.bind

/-- Code that does not use the logger. -/
def lift {α : Type} (x : M α) : LM α := fun s => ((x s.st).1, ⟨(x s.st).2, s.lines⟩)

/-- A call of a method of the logger. -/
def write (lg : Logger) (l : Line) : LM Unit := fun s =>
  (if lg s.lines.length then .panic .user else .ok (), ⟨s.st, s.lines ++ [(s.st.acts.length, l)]⟩)

/-- `for _, a := range l { f(a) }` -/
def forEach {α : Type} (l : List α) (f : α → LM Unit) : LM Unit :=
  match l with
  | [] => Pure.pure ()
  | a :: r => LM.bind (f a) (fun _ => forEach r f)

end LM

open LM (lift write)

/-- pluginManager.go:69-85 `outputStats1`. The range over the map may meet the plugins in any order, `it .stats`. -/
def outputStats1L (lg : Logger) (it : Iter) (infoMap : GoMap FileInfo) : LM Unit := do
  let s ← lift M.get
  let ps := (s.pm.pluginMap.rangeKV it .stats).map Prod.snd
  if ps.all (fun p => p.note == .notReloadable || p.note == .unchanged) then
    write lg (.stats ((ps.filter (fun p => p.note == .notReloadable)).map (·.name)) ((ps.filter (fun p => p.note == .unchanged)).map (·.name)) (infoNames it infoMap))
  else
    lift (M.panic .unknownNote)

/-- pluginManager.go:390-395, 413-418: `Debugf` runs inside the closure whose handler makes an error of a panic. -/
def debugLine (lg : Logger) (p : Str) (l : Line) : LM Unit := fun s =>
  match write lg l s with
  | (.panic _, s') => (.err (.hookPanic p), s')
  | r => r

/-- pluginManager.go:387-408 `invokeEveryOnLoad`. -/
def invokeEveryOnLoadL (lg : Logger) (data : Nat) : LM Unit := do
  let s ← lift M.get
  LM.forEach s.pm.ordered (fun p =>
    if p.unchanged then lift (M.pure ())
    else do
      debugLine lg p.name (.onLoad p.name)
      lift (do
        emit (.callOnLoad p.inst data)
        match p.code.onLoad data with
        | .ok => M.pure ()
        | .err => M.throw (.hookErr p.name)
        | .panics => M.throw (.hookPanic p.name)))

/-- pluginManager.go:410-431 `invokeEveryOnInit`. -/
def invokeEveryOnInitL (lg : Logger) : LM Unit := do
  let s ← lift M.get
  LM.forEach s.pm.ordered (fun p =>
    if p.unchanged then lift (M.pure ())
    else do
      debugLine lg p.name (.onInit p.name)
      lift (do
        let s' ← M.get
        emit (.callOnInit p.inst s'.pm.mid s'.pm.vault)
        modPm (fun pm => { pm with vault := (p.code.onInit s'.pm.vault).2 })
        match (p.code.onInit s'.pm.vault).1 with
        | .ok => M.pure ()
        | .err => M.throw (.hookErr p.name)
        | .panics => M.throw (.hookPanic p.name)))

/-- pluginManager.go:145-156, staticPlugin.go:78-89. -/
def finishLoadL (lg : Logger) (it : Iter) (data : Nat) : LM Unit := do
  lift (initDeps it)
  invokeEveryOnLoadL lg data
  lift (setupVault it)
  invokeEveryOnInitL lg

/-- The deferred function of pluginManager.go:89-100 and staticPlugin.go:46-57. -/
def withCleanupL (it : Iter) (x : LM Unit) : LM Unit := fun s =>
  match x s with
  | (.ok (), s') => (.ok (), s')
  | (.err e, s') => (.err e, ⟨(invokeEveryOnFree it s'.st).2, s'.lines⟩)
  | (.panic p, s') => (.err (.panicked none p), ⟨(invokeEveryOnFree it s'.st).2, s'.lines⟩)

/-- pluginManager.go:102-131: the files, and the plugins that are kept; what remains is to be loaded. -/
def keepStage (it : Iter) (fs : FS) (files : List Str) (old : Option Manager) : M (GoMap FileInfo) := do
  let s ← M.get
  if s.pm.pluginMap.size ≠ 0 then M.throw .twice
  match findDuplicate it files with
  | some k => M.throw (.duplicateName k)
  | none =>
    match buildFileInfoMap fs files .empty with
    | .error e => M.throw e
    | .ok infoMap =>
      let notReloadable := infoMap.filter (fun k _ => isNotReloadable old k)
      let infoMap := infoMap.filter (fun k _ => !isNotReloadable old k)
      keepPlugins old .notReloadable (notReloadable.range it .notReloadable)
      let unchanged := infoMap.filter (fun k info => isUnchanged old k info)
      let infoMap := infoMap.filter (fun k info => !isUnchanged old k info)
      keepPlugins old .unchanged (unchanged.range it .unchanged)
      let s ← M.get
      if infoMap.size + s.pm.pluginMap.size ≠ files.length then M.throw .lenMismatch
      M.pure infoMap

/-- pluginManager.go:102-159: the body of `loadPlugins`. -/
def loadPluginsBodyL (lg : Logger) (it : Iter) (fs : FS) (files : List Str) (old : Option Manager) (data : Nat) : LM Unit := do
  let infoMap ← lift (keepStage it fs files old)
  outputStats1L lg it infoMap
  lift (loadNew it fs infoMap)
  finishLoadL lg it data

/-- staticPlugin.go:59-92: the body of `loadStaticPlugins`. -/
def loadStaticBodyL (lg : Logger) (it : Iter) (sps : GoMap StaticPlugin) (data : Nat) : LM Unit := do
  lift (do
    let s ← M.get
    if s.pm.pluginMap.size ≠ 0 then M.throw .twice
    loadStaticNew it sps)
  finishLoadL lg it data
  write lg .static

/-- pluginManagerSwapper.go:131-167 `loadPluginFiles`. -/
def loadPluginFilesL (lg : Logger) (cfg : Config) (env : Env) (cbs : List (Nat × Outcome)) (old : Option Manager) (files : List Str) : LM Details :=
  if files = [] then lift (M.pure .empty)
  else do
    lift (createManager cfg env)
    withCleanupL env.it (loadPluginsBodyL lg env.it env.fs files old env.data)
    lift (do
      invokeReloadCallbacks env.it old cbs
      let s ← M.get
      match buildDetails s.pm files .empty with
      | none => M.panic .nilDeref
      | some d => do
        publishNew old
        M.pure d)

/-- pluginManagerSwapper.go:87-129 `loadPluginsImpl`. -/
def loadPluginsImplL (lg : Logger) (cfg : Config) (env : Env) (cbs : List (Nat × Outcome)) (old : Option Manager) : LM Details :=
  match env.dir with
  | none => lift (M.throw .directory)
  | some (absDir, entries) =>
    let names := qualifying cfg.whitelist entries
    match whitelistError cfg.whitelist names with
    | some e => lift (M.throw e)
    | none => loadPluginFilesL lg cfg env cbs old (names.map (joinPath absDir))

/-- staticPlugin.go:128-156 `(*PluginManagerSwapper).loadStaticPlugins`. -/
def loadStaticPluginsL (lg : Logger) (cfg : Config) (env : Env) (cbs : List (Nat × Outcome)) (sps : GoMap StaticPlugin) : LM Details := do
  lift (createManager cfg env)
  match (if cfg.whitelist.isEmpty then .ok sps else selectStatic sps cfg.whitelist .empty) with
  | .error e => lift (M.throw e)
  | .ok sel => do
    withCleanupL env.it (loadStaticBodyL lg env.it sel env.data)
    lift (do
      invokeReloadCallbacks env.it none cbs
      publishNew none
      M.pure ⟨sel.entries.map (fun e => (e.1, "ok".toList)), by
        simpa [List.map_map, Function.comp_def] using sel.nodup⟩)

/-- pluginManagerSwapper.go:75-85 `LoadPlugins`. -/
def apiLoadL (lg : Logger) (cfg : Config) (env : Env) (old : Option Manager) : LM Details :=
  match cfg.static with
  | some sps => loadStaticPluginsL lg cfg env (callbacks cfg env .load) sps
  | none => loadPluginsImplL lg cfg env (callbacks cfg env .load) old

/-- pluginManagerSwapper.go:194-210 `ReloadWithCallback`. -/
def apiReloadL (lg : Logger) (cfg : Config) (env : Env) (extra : Option Outcome) (old : Option Manager) : LM Details := do
  let d ← loadPluginsImplL lg cfg env (callbacks cfg env (.reload extra)) old
  lift (do
    emit .count
    M.pure d)

/-- A call, and what it has written. -/
structure LogPlan where
  plan : Plan
  lines : List (Nat × Line)

/-- The plan of a call with a logger. -/
def planL (lg : Logger) (cfg : Config) (env : Env) (k : Kind) (old : Option Manager) (next : Nat) : LogPlan :=
  let x := match k with
    | .load => apiLoadL lg cfg env old
    | .reload extra => apiReloadL lg cfg env extra old
  let r := x ⟨{ next := next, pm := noManager, acts := [] }, []⟩
  { plan := { acts := r.2.st.acts, res := r.1, next := r.2.st.next, built := r.2.st.pm }, lines := r.2.lines }

end Hotswap
