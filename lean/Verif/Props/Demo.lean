import Verif.Proofs.FreeOrder

/-!
# A concrete program

Two plugins, `base` and `app`; `app` imports `base`. The examples beside the theorems use it to show that the
hypotheses are met by real executions.
-/

namespace Hotswap
namespace Demo

/-- ASCII case mapping is enough for the examples. -/
theorem toLower_idem (c : Char) : c.toLower.toLower = c.toLower := by
  unfold Char.toLower
  split
  · rename_i h
    split
    · rename_i h2
      exfalso
      simp only [UInt32.le_iff_toNat_le] at h h2
      simp at h h2
      omega
    · rfl
  · rename_i h
    rfl

/-- A runtime for the examples. -/
@[reducible] def rt : GoRuntime where
  toLower := Char.toLower
  toLower_idem := toLower_idem
  isUpper := Char.isUpper
  assignable := fun a b => decide (a = b)
  sha1 := fun n => n

attribute [local instance] rt

/-- A plugin that exports the function value number `n` and imports the given fields. -/
def code (reloadable : Bool) (n : Nat) (fields : List Field) : Code where
  reloadable := .ret reloadable
  exportRet := .ret (some ⟨.func n, false, n⟩)
  importRet := .ret ⟨if fields.isEmpty then none else some ⟨.ptr (.struct 0), false, 0⟩, fields⟩
  onLoad := fun _ => .ok
  onInit := fun v => (.ok, { v with dataBag := v.dataBag.insert (Nat.repr n).toList ⟨.basic 0, false, n⟩ })
  onFreePanics := false
  invokeFunc := fun _ _ => .ok
  liveFuncs := .ret (some (GoMap.empty.insert ("live_".toList ++ (Nat.repr n).toList) ⟨.func 9, false, n⟩))
  liveTypes := .ret (some .empty)

/-- All required symbols are present. -/
def syms (s : Str) : Option GoType := pluginFuncItems.lookup s

def baseFile : Str := "/p/base.so".toList
def appFile : Str := "/p/app.so".toList
def baseField : Field := ⟨"Base".toList, [], false, .func 1⟩

/-- Files with the given contents; both plugins behave well unless overridden. -/
def fs (baseData appData : Nat) (base app : Code) : FS where
  readFile := fun f => if f = baseFile then some baseData else if f = appFile then some appData else none
  copyOk := fun _ => true
  openPlugin := fun f => if f = baseFile then .image syms base else if f = appFile then .image syms app else .err

def goodBase : Code := code true 1 []
def goodApp : Code := code true 2 [baseField]

/-- The environment of a call on a directory that holds the named files. -/
def env (files : List Str) (f : FS) : Env where
  it := .id
  fs := f
  dir := some ("/p".toList, files.map (fun n => ⟨n, false⟩))
  data := 7
  cbResult := .ok
  ext := .ret none

def both : List Str := ["app.so".toList, "base.so".toList]

/-- First contents, both plugins. -/
def env1 : Env := env both (fs 10 20 goodBase goodApp)
/-- `app` has changed. -/
def env2 : Env := env both (fs 10 21 goodBase goodApp)
/-- `base` has changed, `app` has not: such a reload fails. -/
def env3 : Env := env both (fs 11 21 goodBase goodApp)
/-- `app` is gone. -/
def env4 : Env := env ["base.so".toList] (fs 10 21 goodBase goodApp)
/-- `app` has changed and its `OnInit` fails. -/
def env5 : Env := env both (fs 10 22 goodBase { goodApp with onInit := fun v => (.err, v) })
/-- An empty directory. -/
def env0 : Env := env [] (fs 0 0 goodBase goodApp)

/-- Default options. -/
def cfg : Config where
  whitelist := []
  static := none
  freeDelay := 0
  hasCallback := true
  hasNewExt := false

theorem cfg_ok : cfg.OK := by intro sps h; cases h

/-- The details a call returns. -/
def details? : Result → Option (List (Str × Str))
  | .ok d => some d.entries
  | _ => none

/-- The error a call returns. -/
def error? : Result → Option Err
  | .err e => some e
  | _ => none

/-- A sequence of steps. -/
def run (c : Config) : Machine → List Label → Option Machine
  | m, [] => some m
  | m, l :: r => match m.step c l with
    | none => none
    | some m' => run c m' r

theorem run_reachable {c : Config} {ls : List Label} {m m' : Machine} (h : Reachable c m) (hr : run c m ls = some m') : Reachable c m' := by
  induction ls generalizing m with
  | nil => simp [run] at hr; exact hr ▸ h
  | cons l r ih =>
    unfold run at hr
    cases hs : m.step c l with
    | none => rw [hs] at hr; cases hr
    | some m1 => rw [hs] at hr; exact ih (.step l h hs) hr

/-- A call, performed without interruption, in `n` steps. -/
def callSteps (k : Kind) (e : Env) (n : Nat) : List Label := .call k e :: (List.replicate n .act ++ [.ret])

/-- The machine after a sequence of steps. -/
def after (c : Config) (ls : List Label) : Machine := (run c .init ls).getD .init

theorem after_reachable {c : Config} {ls : List Label} (h : (run c .init ls).isSome = true) : Reachable c (after c ls) := by
  obtain ⟨m, hm⟩ := Option.isSome_iff_exists.mp h
  refine run_reachable .init (ls := ls) ?_
  rw [after, hm]; rfl

/-- Load both plugins. -/
def steps1 : List Label := callSteps .load env1 20
/-- Then reload with a changed `app`. -/
def steps2 : List Label := steps1 ++ callSteps (.reload none) env2 16
/-- Then a reload that fails in `OnInit`. -/
def steps3 : List Label := steps2 ++ callSteps (.reload (some .ok)) env5 16
/-- Then the delayed free of the first manager. -/
def steps4 : List Label := steps3 ++ [.tick 15000000000] ++ List.replicate 4 (.free 0) ++ [.read, .readCounter]
/-- Then a reload without `app`, and the delayed free of the second manager. -/
def steps5 : List Label := steps4 ++ callSteps (.reload none) env4 7 ++ [.tick 15000000000] ++ List.replicate 4 (.free 1) ++ [.read, .readCounter]

def m1 : Machine := after cfg steps1
def m2 : Machine := after cfg steps2
def m3 : Machine := after cfg steps3
def m4 : Machine := after cfg steps4
def m5 : Machine := after cfg steps5

theorem m1_reachable : Reachable cfg m1 := after_reachable (by decide +kernel)
theorem m2_reachable : Reachable cfg m2 := after_reachable (by decide +kernel)
theorem m3_reachable : Reachable cfg m3 := after_reachable (by decide +kernel)
theorem m4_reachable : Reachable cfg m4 := after_reachable (by decide +kernel)
theorem m5_reachable : Reachable cfg m5 := after_reachable (by decide +kernel)

/-- What the runs look like: instances 1 (`app`) and 2 (`base`) of the first load, 4 (new `app`), 6 (`app` of the
failed reload). -/
theorem m1_facts : m1.currentInsts = [2, 1] ∧ m1.begins = [] ∧ m1.counter = 0 ∧ m1.running.isNone = true := by decide +kernel
theorem m2_facts : m2.currentInsts = [4, 2] ∧ m2.begins = [] ∧ m2.counter = 1 ∧ m2.refs 2 = 2 := by decide +kernel
theorem m3_facts : m3.currentInsts = [4, 2] ∧ m3.begins = [6] ∧ m3.counter = 1 ∧ m3.regs = [1, 2, 4, 6] := by decide +kernel
theorem m4_facts : m4.currentInsts = [4, 2] ∧ m4.begins = [6, 1] ∧ m4.ends = [6, 1] ∧ m4.refs 2 = 1 := by decide +kernel
theorem m5_facts : m5.currentInsts = [2] ∧ m5.begins = [6, 1, 4] ∧ m5.ends = [6, 1, 4] ∧ m5.counter = 2 ∧ m5.refs 2 = 1 ∧
    m5.hooksOf 4 = lifecycle := by decide +kernel

end Demo
end Hotswap
