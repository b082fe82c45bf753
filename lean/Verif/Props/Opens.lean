import Verif.Proofs.Emits
import Verif.Props.Complete

/-!
# Files that a call opens (C15), names that load (C27)
-/

namespace Hotswap

section
variable [GoRuntime]

/-- **C15.** Whatever way a call ends — also with an error or a panic — it opens only files the listing offers (C30), that could be read and copied, and whose plugins are not kept. A load in static linking mode opens nothing. -/
theorem C15_opens_only (cfg : Config) (env : Env) (k : Kind) (m : Machine) {f : Str} (h : Act.openPlugin f ∈ (plan cfg env k m.current m.next).acts) :
    (cfg.static = none ∨ k ≠ .load) ∧ ∃ absDir entries, env.dir = some (absDir, entries) ∧ f ∈ listedFiles cfg absDir entries ∧ NotKept env.fs m.current f ∧
      (∃ data, env.fs.readFile f = some data) ∧ env.fs.copyOk f = true := by
  obtain ⟨h1, a, es, h2, h3, h4, h5, h6⟩ := plan_opens h
  exact ⟨h1, a, es, h2, h3, h4, h5, h6⟩

/-- **C27**, the part that holds: a set of plugin files without faults whose new plugins have lower-case names (`Loadable.usable`) loads, whatever the history, and afterwards `FindPlugin` finds, under any spelling of its name, the plugin of
every listed file. Missing: names with upper-case letters, for which the claim is false (`C27_violated`, `C27_upper_case_never_loads`). -/
theorem C27_lower_case_loads_partial {cfg : Config} (hcfg : cfg.OK) (hst : cfg.static = none) {m : Machine} (h : Reachable cfg m) (env : Env) (k : Kind)
    (hext : cfg.hasNewExt = true → env.ext ≠ .panics) (hcb : ∀ c ∈ callbacks cfg env k, c.2 = .ok)
    {absDir : Str} {entries : List DirEntry} (hdir : env.dir = some (absDir, entries))
    (hreal : RealEntries entries) (hnd : cfg.whitelist.Nodup) (hall : ∀ v ∈ cfg.whitelist, Present entries v) (hne : ∃ e ∈ entries, Considered cfg.whitelist e)
    (hl : Loadable env m.current (listedFiles cfg absDir entries)) :
    ∃ d pm, (plan cfg env k m.current m.next).res = .ok d ∧ .publish pm ∈ (plan cfg env k m.current m.next).acts ∧
      ∀ f ∈ listedFiles cfg absDir entries, ∀ name : Str, name.map GoRuntime.toLower = (pluginName f).map GoRuntime.toLower →
        ∃ p, pm.findPlugin name = some p ∧ p.name.map GoRuntime.toLower = name.map GoRuntime.toLower := by
  obtain ⟨d, pm, hres, hp⟩ := C54_loadable_succeeds hcfg hst h env k hext hcb hdir hreal hnd hall hne hl
  refine ⟨d, pm, hres, hp, ?_⟩
  intro f hf name hname
  exact C26_total hcfg hst h env hp hdir hf hname

end

/-! ### Examples -/

namespace Demo

attribute [local instance] rt

/-- A load that fails (in `OnInit`) and has opened one file, the one that changed. -/
example : openedFiles (plan cfg env5 (.reload none) m2.current m2.next).acts = [appFile] ∧ error? (plan cfg env5 (.reload none) m2.current m2.next).res = some (.hookErr "app".toList) := by
  decide +kernel

/-- The hypotheses of `C27_lower_case_loads_partial` are those of `C54_loadable_succeeds`, met by the first load of the example program (Props/Complete). -/
example : Loadable env1 Machine.init.current (listedFiles cfg "/p".toList (both.map (fun n => ⟨n, false⟩))) := by
  rw [ex_files]; exact ex_loadable

end Demo

end Hotswap
