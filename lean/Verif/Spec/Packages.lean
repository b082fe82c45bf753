import Verif.Model.Loader
import Verif.Spec.Trace
import Verif.Props.Naming
import Verif.Props.Selection

/-!
# The packages behind the instances (C83)

A load makes a new `*Plugin` for every file it opens, but the functions it calls are those of the Go package that `plugin.Open` gives, and what a plugin author keeps in package variables belongs to the package.
-/

namespace Hotswap

/-- Which instance was made for which file: the instance whose `Reloadable` is called after the file was opened (one plugin after the other, pluginManager.go:135-141, 192-235). -/
def openedFor : Option Str → List Act → List (Nat × Str)
  | _, [] => []
  | _, .openPlugin f :: r => openedFor (some f) r
  | some f, .callReloadable i :: r => (i, f) :: openedFor (some f) r
  | o, _ :: r => openedFor o r

section
variable [GoRuntime]

/-- The packages of these instances, after the load that has opened the files at local time `stamp`. -/
def packagesOf (P : Process) (stamp : Civil) (fs : FS) (l : Loader) (made : List (Nat × Str)) : List (Nat × Str) :=
  made.filterMap (fun e => match fs.readFile e.2 with
    | none => none
    | some d => match l.cache.lookup (P.copy stamp e.2 d) with
      | some (some p) => some (e.1, p)
      | _ => none)

/-- A run of a process with one swapper, with the packages of the instances and the local times at which loads began. The directory that a load lists has an absolute path as `filepath.Abs` gives it, and the names of its entries
contain no slash. -/
inductive PRun (cfg : Config) (P : Process) : Machine → Loader → List (Nat × Str) → List Civil → Prop
  | init : PRun cfg P .init ⟨[]⟩ [] []
  | call {m m' : Machine} {l l' : Loader} {own : List (Nat × Str)} {stamps : List Civil} (k : Kind) (env : Env) (stamp : Civil) : PRun cfg P m l own stamps →
      m.step cfg (.call k env) = some m' → refused cfg k = false → stamp.Valid →
      (∀ dir entries, env.dir = some (dir, entries) → CleanDir dir ∧ RealEntries entries) → OpensAll P stamp env.fs l (plan cfg env k m.current m.next).opens l' →
      PRun cfg P m' l' (own ++ packagesOf P stamp env.fs l' (openedFor none (plan cfg env k m.current m.next).acts)) (stamps ++ [stamp])
  | other {m m' : Machine} {l : Loader} {own : List (Nat × Str)} {stamps : List Civil} (lab : Label) : PRun cfg P m l own stamps →
      (∀ k env, lab = .call k env → refused cfg k = true) → m.step cfg lab = some m' → PRun cfg P m' l own stamps

/-- The functions called so far on package `p`, in order. -/
def packageHooks (own : List (Nat × Str)) (m : Machine) (p : Str) : List Hook :=
  (m.hooks.filter (fun e => own.contains (e.1, p))).map (·.2)

end

end Hotswap
