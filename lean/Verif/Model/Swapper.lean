import Verif.Model.Static

/-!
# `PluginManagerSwapper` (pluginManagerSwapper.go), one call at a time

A call is turned into a `Plan`: the list of its atomic actions and its result. The plan depends only on
the current manager (which cannot change while the call holds the lock) and on the environment.
-/

namespace Hotswap

variable [GoRuntime]

open M

/-- pluginManagerSwapper.go:37-53 and 240-282: the settings of a swapper. Times are in nanoseconds. A nil
`staticPlugins` map is `none`. The logger and the plugin directory (an input of every call) are not
part of it. -/
structure Config where
  whitelist : List Str
  static : Option (GoMap StaticPlugin)
  freeDelay : Nat
  hasCallback : Bool
  hasNewExt : Bool

/-- pluginManagerSwapper.go:20-22. -/
def minFreeDelay : Nat := 15000000000

/-- pluginManagerSwapper.go:156-159: the delay actually used. -/
def Config.delay (cfg : Config) : Nat :=
  if minFreeDelay < cfg.freeDelay then cfg.freeDelay else minFreeDelay

/-- A directory entry as `ioutil.ReadDir` reports it. -/
structure DirEntry where
  name : Str
  isDir : Bool
  deriving DecidableEq, Repr

/-- The environment of one call: map orders, file system, directory listing (`none`: one of
`FindDirectory`, `Abs`, `ReadDir` fails), the argument `data`, the behaviour of the option's callback
and of the extension newer. -/
structure Env where
  it : Iter
  fs : FS
  dir : Option (Str × List DirEntry)
  data : Nat
  cbResult : Outcome
  ext : Ret (Option Val)

/-- `Details` (pluginManagerSwapper.go:220): plugin file to status. -/
abbrev Details := GoMap Str

/-- `Plugin.Note` as a string (pluginManager.go:123, 127; staticPlugin.go:99). -/
def Note.str : Note → Str
  | .none => []
  | .notReloadable => "not reloadable".toList
  | .unchanged => "unchanged".toList
  | .ok => "ok".toList

/-- pluginManagerSwapper.go:28-35 `pluginWhitelist.Contains`. -/
def whitelistContains (wl : List Str) (name : Str) : Bool := wl.any (· == name)

/-- pluginManagerSwapper.go:99-115: the names of the qualifying directory entries. -/
def qualifying (wl : List Str) (entries : List DirEntry) : List Str :=
  (entries.filter (fun e =>
    !e.isDir && Str.hasSuffix e.name fileNameExt &&
      (wl.isEmpty || whitelistContains wl (pluginName e.name)))).map (·.name)

/-- pluginManagerSwapper.go:116-126: `found`, and the names missing from it, as an error if the two sizes
differ. `found` is a set. -/
def whitelistError (wl : List Str) (names : List Str) : Option Err :=
  if wl.isEmpty then none
  else
    let found := (names.map pluginName).eraseDups
    if found.length ≠ wl.length then
      some (.notFound (wl.filter (fun v => !found.contains v)))
    else none

/-- pluginManagerSwapper.go:169-188 `invokeReloadCallbacks` on the non-nil callbacks, numbered 0 (option)
and 1 (extra). On failure the new manager is freed. -/
def invokeReloadCallbacks (it : Iter) (old : Option Manager) : List (Nat × Outcome) → M Unit
  | [] => M.pure ()
  | (n, o) :: r => do
    let s ← M.get
    emit (.callback n s.pm.mid (old.map (·.mid)))
    match o with
    | .ok => invokeReloadCallbacks it old r
    | _ => do
      invokeEveryOnFree it
      M.throw .callback

/-- pluginManagerSwapper.go:145-153: the status of every loaded file; a file that is not found is a nil
dereference. -/
def buildDetails (pm : Manager) : List Str → Details → Option Details
  | [], d => some d
  | f :: r, d =>
    match pm.findPlugin (pluginName f) with
    | none => none
    | some p => buildDetails pm r (d.insert p.file (if p.note.str ≠ [] then p.note.str else "ok".toList))

/-- pluginManagerSwapper.go:154-165: start the delayed free of the old manager, publish the new one. -/
def publishNew (old : Option Manager) : M Unit := do
  match old with
  | none => M.pure ()
  | some om => emit (.spawnFree om)
  let s ← M.get
  emit (.publish s.pm)

/-- pluginManager.go:38-59 `newPluginManager` as part of a call: the extension newer runs first and its
panic is not recovered. -/
def createManager (cfg : Config) (env : Env) : M Unit := do
  let mid ← alloc
  if cfg.hasNewExt then
    match env.ext with
    | .panics => M.panic .user
    | .ret ext => modPm (fun _ => newManager mid ext)
  else modPm (fun _ => newManager mid none)

/-- pluginManagerSwapper.go:131-167 `loadPluginFiles`. -/
def loadPluginFiles (cfg : Config) (env : Env) (cbs : List (Nat × Outcome)) (old : Option Manager)
    (files : List Str) : M Details :=
  if files = [] then M.pure .empty
  else do
    createManager cfg env
    loadPlugins env.it env.fs files old env.data
    invokeReloadCallbacks env.it old cbs
    let s ← M.get
    match buildDetails s.pm files .empty with
    | none => M.panic .nilDeref
    | some d => do
      publishNew old
      M.pure d

/-- pluginManagerSwapper.go:87-129 `loadPluginsImpl`. -/
def loadPluginsImpl (cfg : Config) (env : Env) (cbs : List (Nat × Outcome)) (old : Option Manager) : M Details :=
  match env.dir with
  | none => M.throw .directory
  | some (absDir, entries) =>
    let names := qualifying cfg.whitelist entries
    match whitelistError cfg.whitelist names with
    | some e => M.throw e
    | none => loadPluginFiles cfg env cbs old (names.map (joinPath absDir))

/-- staticPlugin.go:130-139: the plugins selected by the whitelist, or the first name that is unknown. -/
def selectStatic (sps : GoMap StaticPlugin) : List Str → GoMap StaticPlugin → Except Err (GoMap StaticPlugin)
  | [], acc => .ok acc
  | n :: r, acc =>
    match sps.get? n with
    | none => .error (.staticNotFound n)
    | some p => selectStatic sps r (acc.insert n p)

/-- staticPlugin.go:128-156 `(*PluginManagerSwapper).loadStaticPlugins`. The old manager is neither consulted
nor freed. -/
def loadStaticPlugins (cfg : Config) (env : Env) (cbs : List (Nat × Outcome)) (sps : GoMap StaticPlugin) : M Details := do
  createManager cfg env
  match (if cfg.whitelist.isEmpty then .ok sps else selectStatic sps cfg.whitelist .empty) with
  | .error e => M.throw e
  | .ok sel => do
    loadStatic env.it sel env.data
    invokeReloadCallbacks env.it none cbs
    publishNew none
    M.pure ⟨sel.entries.map (fun e => (e.1, "ok".toList)), by
      simpa [List.map_map, Function.comp_def] using sel.nodup⟩

/-- An API call that takes the lock. `extra` is the behaviour of the extra callback, if one is given. -/
inductive Kind where
  | load
  | reload (extra : Option Outcome)
  deriving DecidableEq, Repr

/-- The callbacks of a call: pluginManagerSwapper.go:79, 201-204. -/
def callbacks (cfg : Config) (env : Env) (k : Kind) : List (Nat × Outcome) :=
  (if cfg.hasCallback then [(0, env.cbResult)] else []) ++
    match k with
    | .reload (some o) => [(1, o)]
    | _ => []

/-- pluginManagerSwapper.go:75-85 `LoadPlugins` (inside the lock). -/
def apiLoad (cfg : Config) (env : Env) (old : Option Manager) : M Details :=
  match cfg.static with
  | some sps => loadStaticPlugins cfg env (callbacks cfg env .load) sps
  | none => loadPluginsImpl cfg env (callbacks cfg env .load) old

/-- pluginManagerSwapper.go:194-210 `ReloadWithCallback` (inside the lock; `Reload` is the case without extra
callback, line 191-193). -/
def apiReload (cfg : Config) (env : Env) (extra : Option Outcome) (old : Option Manager) : M Details := do
  let d ← loadPluginsImpl cfg env (callbacks cfg env (.reload extra)) old
  emit .count
  M.pure d

/-- How a call ends. -/
abbrev Result := Exit Details

/-- The actions and the result of one call. `built` (ghost) is the manager the call built, whether it was
published or not. -/
structure Plan where
  acts : List Act
  res : Result
  next : Nat
  built : Manager

/-- The manager field of the initial state of a call; it is replaced by `createManager` before use. -/
def noManager : Manager := newManager 0 none

/-- The plan of a call made while `old` is current and the identities below `next` are taken. -/
def plan (cfg : Config) (env : Env) (k : Kind) (old : Option Manager) (next : Nat) : Plan :=
  let x := match k with
    | .load => apiLoad cfg env old
    | .reload extra => apiReload cfg env extra old
  let r := x { next := next, pm := noManager, acts := [] }
  { acts := r.2.acts, res := r.1, next := r.2.next, built := r.2.pm }

end Hotswap
