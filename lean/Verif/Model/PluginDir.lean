import Verif.Model.Machine
import Verif.Model.Cli.Prologue

/-!
# `ResetPluginDir` and the beginning of a load (pluginManagerSwapper.go:65-67, 87-98)

`Model/Machine` gets the listing of the plugin directory with every call. Here the swapper has a plugin directory, which any goroutine may replace at any time (`ResetPluginDir` takes no lock), and a call looks at it in the
steps of the code. Under static linking the directory is never looked at.
-/

namespace Hotswap

variable [GoRuntime]

/-- The file system at one moment: `os.Stat`, `filepath.Abs` (`none`: the working directory cannot be determined) and `ioutil.ReadDir` (`none`: error). -/
structure Disk where
  stat : Str → Cli.StatResult
  abs : Str → Option Str
  readDir : Str → Option (List DirEntry)

/-- internal/hutils/hutils.go:24-34 `FindDirectory` returns nil. -/
def Disk.findDirectory (disk : Disk) (dir : Str) : Bool := Cli.trimSpace dir != [] && disk.stat dir == .dir

/-- How far `loadPluginsImpl` has come. -/
inductive Stage where
  /-- pluginManagerSwapper.go:89: about to check the directory -/
  | start
  /-- pluginManagerSwapper.go:91: the check has succeeded -/
  | checked
  /-- pluginManagerSwapper.go:95: about to read this directory -/
  | resolved (absDir : Str)

/-- A call that holds the lock and is looking for the plugin files. `env.dir` is not used yet. -/
structure Searching where
  kind : Kind
  env : Env
  stage : Stage

/-- The machine with `sw.opts.pluginDir` (pluginManagerSwapper.go:42). -/
structure DirMachine where
  m : Machine
  dir : Str
  search : Option Searching

/-- pluginManagerSwapper.go:55-63 `NewPluginManagerSwapper(pluginDir)`. -/
def DirMachine.init (pluginDir : Str) : DirMachine := ⟨Machine.init, pluginDir, none⟩

/-- Steps. -/
inductive DirLabel where
  /-- `ResetPluginDir(dir)` -/
  | reset (dir : Str)
  /-- a call of the API gets the lock -/
  | begin (k : Kind) (env : Env)
  /-- `FindDirectory(sw.opts.pluginDir, ...)` -/
  | check (disk : Disk)
  /-- `filepath.Abs(sw.opts.pluginDir)` -/
  | resolve (disk : Disk)
  /-- `ioutil.ReadDir(absDir)` -/
  | list (disk : Disk)
  /-- any step of `Model/Machine`; calls only under static linking -/
  | other (l : Label)

/-- The search is over with this result (`none`: an error), and the call goes on as in `Model/Machine`. (Its event `called` is recorded now; the call has done nothing before that one could see.) -/
def DirMachine.found (cfg : Config) (s : DirMachine) (c : Searching) (r : Option (Str × List DirEntry)) : Option DirMachine :=
  (s.m.step cfg (.call c.kind { c.env with dir := r })).map (fun m => { s with m := m, search := none })

/-- pluginManagerSwapper.go:65-67 `ResetPluginDir`. (A Go string is two words, and an unsynchronised write can be seen half done. That is a data race, whose outcome the language leaves open; here the assignment is one
step.) -/
def DirMachine.resetPluginDir (s : DirMachine) (dir : Str) : DirMachine := { s with dir := dir }

/-- One step; `none` if it is not possible. -/
def DirMachine.step (cfg : Config) (s : DirMachine) : DirLabel → Option DirMachine
  | .reset dir => some (s.resetPluginDir dir)
  | .begin k env =>
    if cfg.static.isSome || s.m.running.isSome || s.search.isSome then none
    else some { s with search := some ⟨k, env, .start⟩ }
  | .check disk =>
    match s.search with
    | some c => match c.stage with
      | .start => if disk.findDirectory s.dir then some { s with search := some { c with stage := .checked } } else s.found cfg c none
      | _ => none
    | none => none
  | .resolve disk =>
    match s.search with
    | some c => match c.stage with
      | .checked => match disk.abs s.dir with
        | some a => some { s with search := some { c with stage := .resolved a } }
        | none => s.found cfg c none
      | _ => none
    | none => none
  | .list disk =>
    match s.search with
    | some c => match c.stage with
      | .resolved a => s.found cfg c ((disk.readDir a).map (fun es => (a, es)))
      | _ => none
    | none => none
  | .other (.call k env) => if cfg.static.isSome then (s.m.step cfg (.call k env)).map (fun m => { s with m := m }) else none
  | .other l => (s.m.step cfg l).map (fun m => { s with m := m })

/-- A sequence of steps. -/
inductive DirSteps (cfg : Config) : DirMachine → List DirLabel → DirMachine → Prop
  | refl (s : DirMachine) : DirSteps cfg s [] s
  | step {s s' s'' : DirMachine} {ls : List DirLabel} (l : DirLabel) : DirSteps cfg s ls s' → s'.step cfg l = some s'' → DirSteps cfg s (ls ++ [l]) s''

end Hotswap
