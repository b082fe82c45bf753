import Verif.Props.Imports
import Verif.Proofs.Drain

/-!
# Where the plugins of the current manager come from: C73
-/

namespace Hotswap

section
variable [GoRuntime]

/-! ### Specification -/

/-- The swapper can get from the first state to the second: any goroutines, any order, any number of steps. -/
inductive Leads (cfg : Config) : Machine → Machine → Prop
  | refl (m : Machine) : Leads cfg m m
  | step {m m' m'' : Machine} (l : Label) : Leads cfg m m' → m'.step cfg l = some m'' → Leads cfg m m''

/-- In the past of `m`, a call of `LoadPlugins` or `Reload` found the file `file` with the contents `data` in the plugin directory and opened it, giving the image `(syms, code)`; the instance `inst` was created by that call. -/
structure OpenedFrom (cfg : Config) (m : Machine) (file : Str) (data : Nat) (syms : Str → Option GoType) (code : Code) (inst : Nat) : Prop where
  call : ∃ m0 m1 k env, Reachable cfg m0 ∧ m0.running = none ∧ m0.step cfg (.call k env) = some m1 ∧ Leads cfg m1 m ∧
    (∃ absDir entries, env.dir = some (absDir, entries) ∧ file ∈ listedFiles cfg absDir entries) ∧
    env.fs.readFile file = some data ∧ env.fs.openPlugin file = .image syms code ∧ m0.next ≤ inst ∧ inst < m1.next

/-- What the public fields of a plugin say about its origin. -/
structure CameFrom (cfg : Config) (m : Machine) (p : Plugin) (data : Nat) : Prop where
  opened : ∃ syms, p.syms = some syms ∧ OpenedFrom cfg m p.file data syms p.code p.inst
  name : p.name = pluginName p.file
  digest : p.sha = GoRuntime.sha1 data

/-! ### Proofs -/

theorem OpenedFrom.later {cfg : Config} {m m' : Machine} {l : Label} {file : Str} {data : Nat} {syms : Str → Option GoType} {code : Code} {inst : Nat}
    (h : OpenedFrom cfg m file data syms code inst) (hs : m.step cfg l = some m') : OpenedFrom cfg m' file data syms code inst := by
  obtain ⟨m0, m1, k, env, h1, h2, h3, h4, h5⟩ := h.call
  exact ⟨m0, m1, k, env, h1, h2, h3, .step l h4 hs, h5⟩

theorem CameFrom.later {cfg : Config} {m m' : Machine} {l : Label} {p : Plugin} {data : Nat} (h : CameFrom cfg m p data) (hs : m.step cfg l = some m') : CameFrom cfg m' p data := by
  obtain ⟨syms, h1, h2⟩ := h.opened
  exact ⟨⟨syms, h1, h2.later hs⟩, h.name, h.digest⟩

theorem CameFrom.kept {cfg : Config} {m : Machine} {old p : Plugin} {data : Nat} (h : CameFrom cfg m old data) (hk : KeptCopy old p) : CameFrom cfg m p data := by
  unfold KeptCopy at hk
  obtain ⟨syms, h1, h2⟩ := h.opened
  rw [hk]
  exact ⟨⟨syms, h1, h2⟩, h.name, h.digest⟩

/-- Every plugin of a published manager belongs to a listed file. -/
theorem plugin_listed {cfg : Config} (hcfg : cfg.OK) (hst : cfg.static = none) {m : Machine} (h : Reachable cfg m) (env : Env) {k : Kind} {pm : Manager}
    (hp : .publish pm ∈ (plan cfg env k m.current m.next).acts) {p : Plugin} (hm : p ∈ pm.plugins) :
    ∃ absDir entries f, env.dir = some (absDir, entries) ∧ f ∈ listedFiles cfg absDir entries ∧ pm.findPlugin (pluginName f) = some p ∧ p.inst < (plan cfg env k m.current m.next).next := by
  obtain ⟨absDir, entries, hd, hperm⟩ := C15_exactly_listed hcfg hst h env hp
  have hk := hperm.mem_iff.mp (List.mem_map.mpr ⟨p, hm, rfl⟩)
  obtain ⟨f, hf, he⟩ := List.mem_map.mp hk
  obtain ⟨hb, s0, s1, s, d, hs⟩ := (view hcfg h env k).published (by cases k <;> simp [refused, hst]) hp
  rw [hs.built] at hb
  subst hb
  have hget : s.pm.pluginMap.get? (name2key p.name) = some p := hs.good.toSoundManager.get hm
  refine ⟨absDir, entries, f, hd, hf, ?_, ?_⟩
  · unfold Manager.findPlugin
    rw [he]; exact hget
  · rw [hs.next]
    exact hs.good.fresh _ (List.mem_map.mpr ⟨p, hs.good.ordered.mem_iff.mp hm, rfl⟩)

/-- What a successful load makes of every plugin, in terms of its origin. -/
theorem origin_of_published {cfg : Config} (hcfg : cfg.OK) (hst : cfg.static = none) {m m' : Machine} (h : Reachable cfg m) (hi : m.running = none) (env : Env) {k : Kind} {pm : Manager}
    (hs : m.step cfg (.call k env) = some m') (hp : .publish pm ∈ (plan cfg env k m.current m.next).acts)
    (hold : ∀ om, m.current = some om → ∀ p ∈ om.plugins, ∃ data, CameFrom cfg m p data) : ∀ p ∈ pm.plugins, ∃ data, CameFrom cfg m' p data := by
  intro p hm
  obtain ⟨absDir, entries, f, hd, hf, hfind, hlt⟩ := plugin_listed hcfg hst h env hp hm
  obtain ⟨data, p', hread, hfind', h1, h2, h3⟩ := C15_kept_or_renewed hcfg hst h env hp hd hf
  rw [hfind] at hfind'; cases hfind'
  have kept : ∀ old, previous m f = some old → KeptCopy old p → ∃ data, CameFrom cfg m' p data := by
    intro old ho hk
    unfold previous at ho
    obtain ⟨om, hc, hg⟩ := Option.bind_eq_some_iff.mp ho
    obtain ⟨data, hd⟩ := hold om hc old ((current_good hcfg h hc).mem hg)
    exact ⟨data, (hd.kept hk).later hs⟩
  by_cases hx : ∃ old, previous m f = some old ∧ NotReloadable old
  · obtain ⟨old, ho, hn⟩ := hx
    exact kept old ho (h1 old ho hn).1
  by_cases hy : ∃ old, previous m f = some old ∧ old.sha = GoRuntime.sha1 data
  · obtain ⟨old, ho, hn⟩ := hy
    exact kept old ho (h2 old ho (fun hnr => hx ⟨old, ho, hnr⟩) hn).1
  · obtain ⟨hn, _, hname, hfile, hsha, syms, himg, hsy⟩ := h3 (fun old ho => ⟨fun hnr => hx ⟨old, ho, hnr⟩, fun hsh => hy ⟨old, ho, hsh⟩⟩)
    refine ⟨data, ⟨syms, hsy, ⟨m, m', k, env, h, hi, hs, .refl _, ⟨absDir, entries, hd, ?_⟩, ?_, ?_, hn, ?_⟩⟩, ?_, hsha⟩
    · rw [hfile]; exact hf
    · rw [hfile]; exact hread
    · rw [hfile]; exact himg
    · cases step_view hs with
      | call => exact hlt
      | refused k env hr => cases k <;> simp [refused, hst] at hr
    · rw [hname, hfile]

/-- The invariant: the plugins of the current manager, and those of the manager a running call is going to publish, come from files. -/
theorem origin_inv {cfg : Config} (hcfg : cfg.OK) (hst : cfg.static = none) {m : Machine} (h : Reachable cfg m) :
    (∀ pm, m.current = some pm → ∀ p ∈ pm.plugins, ∃ data, CameFrom cfg m p data) ∧
    (∀ r, m.running = some r → ∀ pm, .publish pm ∈ r.todo → ∀ p ∈ pm.plugins, ∃ data, CameFrom cfg m p data) := by
  refine Reachable.ind (P := fun m => (∀ pm, m.current = some pm → ∀ p ∈ pm.plugins, ∃ data, CameFrom cfg m p data) ∧
    (∀ r, m.running = some r → ∀ pm, .publish pm ∈ r.todo → ∀ p ∈ pm.plugins, ∃ data, CameFrom cfg m p data)) ?_ ?_ h
  · exact ⟨(by intro pm h; cases h), (by intro r h; cases h)⟩
  · intro m m' l hr ih hst'
    obtain ⟨ih1, ih2⟩ := ih
    have hs := hst'.enabled
    have same : ∀ pm, m.current = some pm → ∀ p ∈ pm.plugins, ∃ data, CameFrom cfg m' p data := by
      intro pm hc p hp
      obtain ⟨d, hd⟩ := ih1 pm hc p hp
      exact ⟨d, hd.later hs⟩
    have todo : ∀ r, m.running = some r → ∀ pm, .publish pm ∈ r.todo → ∀ p ∈ pm.plugins, ∃ data, CameFrom cfg m' p data := by
      intro r hrun pm hc p hp
      obtain ⟨d, hd⟩ := ih2 r hrun pm hc p hp
      exact ⟨d, hd.later hs⟩
    have hs' := hs
    cases hst' with
    | refused => exact ⟨same, todo⟩
    | call k env _ run =>
      refine ⟨same, ?_⟩
      intro r hr' pm hpm
      cases hr'
      exact origin_of_published hcfg hst hr run env hs' hpm ih1
    | act r a rest run phase td plain =>
      constructor
      · intro pm hc
        have : m.current = some pm ∨ a = .publish pm := by
          cases a <;> first | exact .inl hc | (right; cases hc; rfl)
        rcases this with hc | rfl
        · exact same pm hc
        · exact todo r run pm (by rw [td]; simp)
      · intro r' hr' pm hpm
        cases hr'
        exact todo r run pm (by rw [td]; exact List.mem_cons_of_mem _ hpm)
    | release r i rest run phase td =>
      refine ⟨same, ?_⟩
      intro r' hr' pm hpm
      cases hr'
      exact todo r run pm (by rw [td]; exact List.mem_cons_of_mem _ hpm)
    | runSkip r i run => exact ⟨same, by intro r' hr' pm hpm; cases hr'; exact todo r run pm hpm⟩
    | runBegin r i run => exact ⟨same, by intro r' hr' pm hpm; cases hr'; exact todo r run pm hpm⟩
    | runEnd r i run => exact ⟨same, by intro r' hr' pm hpm; cases hr'; exact todo r run pm hpm⟩
    | ret => exact ⟨same, by intro r' hr'; cases hr'⟩
    | freeDec => exact ⟨same, todo⟩
    | freeSkip => exact ⟨same, todo⟩
    | freeBegin => exact ⟨same, todo⟩
    | freeEnd => exact ⟨same, todo⟩
    | tick => exact ⟨same, todo⟩
    | read => exact ⟨same, todo⟩
    | readCounter => exact ⟨same, todo⟩

/-- **C73.** Every plugin of the current manager was opened, by some call in the past, from the file its `File` names; its `Name` is that of the file, its code is what the file gave, and its `FileSha1` is the digest of what the file contained then. -/
theorem C73_origin {cfg : Config} (hcfg : cfg.OK) (hst : cfg.static = none) {m : Machine} (h : Reachable cfg m) {pm : Manager} (hc : m.current = some pm) {p : Plugin} (hp : p ∈ pm.plugins) :
    ∃ data, CameFrom cfg m p data := (origin_inv hcfg hst h).1 pm hc p hp

/-- **C73.** After a successful load no reloadable plugin is stale: its `FileSha1` is the digest of what this load read from the plugin's file. (A plugin that is not reloadable keeps the digest of the version that runs.) -/
theorem C73_not_stale {cfg : Config} (hcfg : cfg.OK) (hst : cfg.static = none) {m : Machine} (h : Reachable cfg m) (env : Env) {k : Kind} {pm : Manager}
    (hp : .publish pm ∈ (plan cfg env k m.current m.next).acts) {p : Plugin} (hm : p ∈ pm.plugins) (hr : ¬ NotReloadable p) :
    ∃ absDir entries f data, env.dir = some (absDir, entries) ∧ f ∈ listedFiles cfg absDir entries ∧ pm.findPlugin (pluginName f) = some p ∧ env.fs.readFile f = some data ∧ p.sha = GoRuntime.sha1 data := by
  obtain ⟨absDir, entries, f, hd, hf, hfind, _⟩ := plugin_listed hcfg hst h env hp hm
  obtain ⟨data, p', hread, hfind', h1, h2, h3⟩ := C15_kept_or_renewed hcfg hst h env hp hd hf
  rw [hfind] at hfind'; cases hfind'
  refine ⟨absDir, entries, f, data, hd, hf, hfind, hread, ?_⟩
  have nr : ∀ old, previous m f = some old → ¬ NotReloadable old := by
    intro old ho hn
    have hk := (h1 old ho hn).1
    unfold KeptCopy at hk
    apply hr
    rw [hk]; exact hn
  by_cases hy : ∃ old, previous m f = some old ∧ old.sha = GoRuntime.sha1 data
  · obtain ⟨old, ho, hn⟩ := hy
    have hk := (h2 old ho (nr old ho) hn).1
    unfold KeptCopy at hk
    rw [hk]; exact hn
  · exact (h3 (fun old ho => ⟨nr old ho, fun hsh => hy ⟨old, ho, hsh⟩⟩)).2.2.2.2.1

theorem Leads.reachable {cfg : Config} {m m' : Machine} (h : Leads cfg m m') (hr : Reachable cfg m) : Reachable cfg m' := by
  induction h with
  | refl => exact hr
  | step l _ hs ih => exact .step l ih hs

/-- **C73.** What runs is what was there: if SHA-1 does not collide on the contents in question, every reloadable plugin of the manager a call has published was opened from a file with exactly the contents that this very call read from the plugin's
file — whether the call opened it itself or kept it. -/
theorem C73_runs_what_was_read {cfg : Config} (hcfg : cfg.OK) (hst : cfg.static = none) {m m1 m2 : Machine} (h : Reachable cfg m) {env : Env} {k : Kind} {pm : Manager}
    (hs : m.step cfg (.call k env) = some m1) (hl : Leads cfg m1 m2) (hp : .publish pm ∈ (plan cfg env k m.current m.next).acts) (hc : m2.current = some pm)
    (hinj : ∀ a b, GoRuntime.sha1 a = GoRuntime.sha1 b → a = b) {p : Plugin} (hm : p ∈ pm.plugins) (hr : ¬ NotReloadable p) :
    ∃ absDir entries f data, env.dir = some (absDir, entries) ∧ f ∈ listedFiles cfg absDir entries ∧ pm.findPlugin (pluginName f) = some p ∧ env.fs.readFile f = some data ∧ CameFrom cfg m2 p data := by
  obtain ⟨absDir, entries, f, data, h1, h2, h3, h4, h5⟩ := C73_not_stale hcfg hst h env hp hm hr
  obtain ⟨data', h6⟩ := C73_origin hcfg hst (hl.reachable (.step _ h hs)) hc hm
  have : data' = data := hinj _ _ (h6.digest.symm.trans h5)
  subst this
  exact ⟨absDir, entries, f, data', h1, h2, h3, h4, h6⟩

end

namespace Demo

attribute [local instance] rt

/-- After a reload that keeps `base` (instance 2, opened by the first load) and renews `app`: the hypotheses are met. -/
example : Reachable cfg m2 ∧ cfg.OK ∧ cfg.static = none ∧ m2.current.isSome = true ∧
    (m2.current.map (fun pm => pm.plugins.map (fun p => (p.inst, p.unchanged, p.sha)))) = some [(2, true, rt.sha1 10), (4, false, rt.sha1 21)] :=
  ⟨m2_reachable, cfg_ok, rfl, by decide +kernel, by decide +kernel⟩

end Demo

end Hotswap
