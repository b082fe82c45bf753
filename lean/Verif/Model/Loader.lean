import Verif.Model.Machine
import Verif.Model.Naming

/-!
# The plugin loader of the Go run-time

`plugin.Open` (called at pluginManager.go:203) is not part of the repository. This file states how it answers, from the sources of Go (`plugin/plugin_dlopen.go` `open`, `runtime/plugin.go` `plugin_lastmoduleinit`), so
that properties which depend on it can be stated (C67). Nothing else in the model uses it: in the other theorems `plugin.Open` may answer anything.
-/

namespace Hotswap

/-- The plugins the process has opened or failed to initialise, by path: `some p` for a plugin with plugin path `p` (for a file made by `hotswap build`, the package path of its temporary directory), `none` for a recorded failure. -/
structure Loader where
  cache : List (Str × Option Str)

/-- The plugin paths of the modules that are in the process. They are never unloaded. -/
def Loader.loaded (l : Loader) : List Str := l.cache.filterMap (·.2)

/-- The contents of a file, for the loader: its plugin path (`none`: not a plugin), and whether its packages are the same as those of the program. -/
structure Build where
  pluginPath : Option Str
  compatible : Bool

/-- One call of `plugin.Open(path)`, the answer and the loader afterwards. -/
inductive Opens (l : Loader) (path : Str) (b : Build) : OpenRes → Loader → Prop
  /-- the path has been opened before: the same plugin again -/
  | again {p : Str} {syms : Str → Option GoType} {code : Code} : (path, some p) ∈ l.cache → Opens l path b (.image syms code) l
  /-- `(previous failure)` -/
  | failedBefore : (path, none) ∈ l.cache → Opens l path b .err l
  /-- `dlopen` fails -/
  | invalid : path ∉ l.cache.map (·.1) → b.pluginPath = none → Opens l path b .err l
  /-- `plugin already loaded` -/
  | alreadyLoaded {p : Str} : path ∉ l.cache.map (·.1) → b.pluginPath = some p → p ∈ l.loaded → Opens l path b .err ⟨(path, none) :: l.cache⟩
  /-- `plugin was built with a different version of package` -/
  | incompatible {p : Str} : path ∉ l.cache.map (·.1) → b.pluginPath = some p → p ∉ l.loaded → b.compatible = false → Opens l path b .err ⟨(path, none) :: l.cache⟩
  /-- loaded; the initialisation of its packages may panic -/
  | loads {p : Str} {r : OpenRes} : path ∉ l.cache.map (·.1) → b.pluginPath = some p → p ∉ l.loaded → b.compatible = true → r ≠ .err → Opens l path b r ⟨(path, some p) :: l.cache⟩

/-- A process: its number, what the loader makes of contents, and the checksum function (`xxHash32` of the SHA-1 digest, pluginManager.go:168). -/
structure Process where
  pid : Nat
  build : Nat → Build
  sum : Nat → Nat

section
variable [GoRuntime]

/-- The path of the copy that a load at local time `stamp` makes of file `f` with contents `data` (pluginManager.go:39-40, 162-171). -/
def Process.copy (P : Process) (stamp : Civil) (f : Str) (data : Nat) : Str := runtimeCopy stamp P.pid f (P.sum (GoRuntime.sha1 data))

/-- The calls of `plugin.Open` of one load, for these files in this order. -/
inductive OpensAll (P : Process) (stamp : Civil) (fs : FS) : Loader → List Str → Loader → Prop
  | nil {l : Loader} : OpensAll P stamp fs l [] l
  | cons {l l' l'' : Loader} {f : Str} {r : List Str} {data : Nat} : fs.readFile f = some data →
      Opens l (P.copy stamp f data) (P.build data) (fs.openPlugin f) l' → OpensAll P stamp fs l' r l'' → OpensAll P stamp fs l (f :: r) l''

/-- The files a call opens, in order. -/
def Plan.opens (p : Plan) : List Str := p.acts.filterMap (fun a => match a with | .openPlugin f => some f | _ => none)

/-- A step of a process with one swapper: a step of the machine, in which `plugin.Open` answers as the loader does. (Only loads use the loader, and they exclude each other, so the loader may be advanced when the call
begins.) -/
inductive LStep (cfg : Config) (P : Process) : Machine → Loader → Machine → Loader → Prop
  | call {m m' : Machine} {l l' : Loader} (k : Kind) (env : Env) (stamp : Civil) : m.step cfg (.call k env) = some m' →
      OpensAll P stamp env.fs l (if refused cfg k then [] else (plan cfg env k m.current m.next).opens) l' → LStep cfg P m l m' l'
  | other {m m' : Machine} {l : Loader} (lab : Label) : (∀ k env, lab ≠ .call k env) → m.step cfg lab = some m' → LStep cfg P m l m' l

/-- Any number of steps. -/
inductive LSteps (cfg : Config) (P : Process) (m : Machine) (l : Loader) : Machine → Loader → Prop
  | refl : LSteps cfg P m l m l
  | step {m' m'' : Machine} {l' l'' : Loader} : LSteps cfg P m l m' l' → LStep cfg P m' l' m'' l'' → LSteps cfg P m l m'' l''

end

end Hotswap
