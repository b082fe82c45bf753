import Verif.Model.Loader
import Verif.Props.Naming
import Verif.Props.Selection

/-!
# Several swappers in one process

`NewPluginManagerSwapper` (pluginManagerSwapper.go:55) may be called any number of times. Every swapper has a lock, a current manager and a counter of its own (pluginManagerSwapper.go:28-42); they share the plugin loader of the process and
the file system. Their loads may overlap, so that each `plugin.Open` (pluginManager.go:203) is a step of its own here.
-/

namespace Hotswap

section
variable [GoRuntime]

/-- What a load of a swapper has to do with the loader. -/
structure LoadCtx where
  /-- the number of the load in this process -/
  load : Nat
  env : Env
  /-- the local time at which the load made its manager (pluginManager.go:39) -/
  stamp : Civil
  /-- the file that was opened last, and the package that `plugin.Open` gave for it (`p.P`, pluginManager.go:203-207) -/
  opened : Option (Str × Str)

/-- Load number `load` called `Reloadable` of package `pkg`, which it opened as `file`, for instance `inst` of swapper `swapper`. -/
structure Use where
  load : Nat
  file : Str
  swapper : Nat
  inst : Nat
  pkg : Str

/-- The process: its swappers, the loader, and the history of the packages. -/
structure Procs where
  machines : Nat → Machine
  ctx : Nat → Option LoadCtx
  loader : Loader
  uses : List Use
  /-- time and directory of the loads -/
  loads : List (Civil × Option Str)

def Procs.init : Procs := ⟨fun _ => Machine.init, fun _ => none, ⟨[]⟩, [], []⟩

/-- The next action of a load or reload. -/
def Machine.nextAct (m : Machine) : Option Act :=
  match m.running with
  | some r => if r.phase = .idle then r.todo.head? else none
  | none => none

/-- The plugin at this path. -/
def Loader.package (l : Loader) (path : Str) : Option Str :=
  match l.cache.lookup path with
  | some (some p) => some p
  | _ => none

def setAt {α : Type} (f : Nat → α) (j : Nat) (a : α) : Nat → α := fun i => if i = j then a else f i

/-- One step of swapper `j`. -/
inductive PStep (cfg : Nat → Config) (P : Process) (s : Procs) : Procs → Prop
  /-- a load or reload begins -/
  | call (j : Nat) (k : Kind) (env : Env) (stamp : Civil) (m' : Machine) : (s.machines j).step (cfg j) (.call k env) = some m' → refused (cfg j) k = false → stamp.Valid →
      (∀ dir entries, env.dir = some (dir, entries) → CleanDir dir ∧ RealEntries entries) →
      PStep cfg P s { s with machines := setAt s.machines j m', ctx := setAt s.ctx j (some ⟨s.loads.length, env, stamp, none⟩), loads := s.loads ++ [(stamp, env.dir.map (·.1))] }
  /-- `plugin.Open` -/
  | opens (j : Nat) (c : LoadCtx) (f : Str) (data : Nat) (l' : Loader) (m' : Machine) : s.ctx j = some c → (s.machines j).nextAct = some (.openPlugin f) →
      c.env.fs.readFile f = some data → Opens s.loader (P.copy c.stamp f data) (P.build data) (c.env.fs.openPlugin f) l' → (s.machines j).step (cfg j) .act = some m' →
      PStep cfg P s { s with machines := setAt s.machines j m', ctx := setAt s.ctx j (some { c with opened := (l'.package (P.copy c.stamp f data)).map (fun p => (f, p)) }), loader := l' }
  /-- the first function of a new instance is called -/
  | begins (j : Nat) (c : LoadCtx) (i : Nat) (f p : Str) (m' : Machine) : s.ctx j = some c → (s.machines j).nextAct = some (.callReloadable i) → c.opened = some (f, p) →
      (s.machines j).step (cfg j) .act = some m' → PStep cfg P s { s with machines := setAt s.machines j m', uses := s.uses ++ [⟨c.load, f, j, i, p⟩] }
  /-- anything else -/
  | other (j : Nat) (lab : Label) (m' : Machine) : (∀ k env, lab = .call k env → refused (cfg j) k = true) →
      (lab = .act → (∀ f, (s.machines j).nextAct ≠ some (.openPlugin f)) ∧ ∀ i, (s.machines j).nextAct = some (.callReloadable i) → ∀ c, s.ctx j = some c → c.opened = none) →
      (s.machines j).step (cfg j) lab = some m' → PStep cfg P s { s with machines := setAt s.machines j m' }

/-- Any number of steps of any swappers. -/
inductive PSteps (cfg : Nat → Config) (P : Process) : Procs → Prop
  | init : PSteps cfg P .init
  | step {s s' : Procs} : PSteps cfg P s → PStep cfg P s s' → PSteps cfg P s'

end

end Hotswap
