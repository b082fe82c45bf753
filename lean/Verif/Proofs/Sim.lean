import Verif.Spec.Alike
import Verif.Proofs.MapLemmas

/-!
# A load depends only on the essence of plugins

`ess` forgets ignored import fields, whether `OnFree` panics, and `InvokeFunc`. Every function of the model commutes with it.
-/

namespace Hotswap

/-! ### maps -/

namespace GoMap
variable {α β : Type}

def mapV (f : α → β) (m : GoMap α) : GoMap β where
  entries := m.entries.map (fun e => (e.1, f e.2))
  nodup := by
    rw [List.map_map]
    exact m.nodup

@[simp] theorem keys_mapV (f : α → β) (m : GoMap α) : (m.mapV f).keys = m.keys := by simp [keys, mapV]

@[simp] theorem vals_mapV (f : α → β) (m : GoMap α) : (m.mapV f).vals = m.vals.map f := by simp [vals, mapV]

@[simp] theorem size_mapV (f : α → β) (m : GoMap α) : (m.mapV f).size = m.size := by simp [size, mapV]

@[simp] theorem get?_mapV (f : α → β) (m : GoMap α) (k : Str) : (m.mapV f).get? k = (m.get? k).map f := lookup_map_fst m.entries (fun _ => f) k

@[simp] theorem range_mapV (f : α → β) (m : GoMap α) (it : Iter) (s : Site) : (m.mapV f).range it s = m.range it s := by simp [range]

theorem rangeKV_mapV (f : α → β) (m : GoMap α) (it : Iter) (s : Site) : (m.mapV f).rangeKV it s = (m.rangeKV it s).map (fun e => (e.1, f e.2)) := by
  unfold rangeKV
  rw [range_mapV, List.map_filterMap]
  congr 1
  funext k
  rw [get?_mapV]
  cases m.get? k <;> rfl

theorem ext {m m' : GoMap α} (h : m.entries = m'.entries) : m = m' := by
  cases m; cases m'; cases h; rfl

theorem mapV_insert (f : α → β) (m : GoMap α) (k : Str) (v : α) : (m.insert k v).mapV f = (m.mapV f).insert k (f v) := by
  apply ext
  simp only [mapV, insert, List.map_cons, List.filter_map]
  rfl

theorem mapV_modify (f : α → β) (m : GoMap α) (k : Str) (g : α → α) (g' : β → β) (h : ∀ a, f (g a) = g' (f a)) : (m.modify k g).mapV f = (m.mapV f).modify k g' := by
  apply ext
  simp only [mapV, modify, List.map_map]
  congr 1
  funext e
  simp only [Function.comp]
  split <;> simp [h]

@[simp] theorem mapV_empty (f : α → β) : (empty : GoMap α).mapV f = empty := rfl

end GoMap

section
variable [GoRuntime]

/-! ### the essence -/

def ImportRet.ess (r : ImportRet) : ImportRet := { r with fields := r.fields.filter importable }

def Ret.map {α β : Type} (f : α → β) : Ret α → Ret β
  | .ret a => .ret (f a)
  | .panics => .panics

def Code.ess (c : Code) : Code := { c with importRet := c.importRet.map ImportRet.ess, onFreePanics := false, invokeFunc := fun _ _ => .ok }

def Plugin.ess (p : Plugin) : Plugin := { p with code := p.code.ess }

def Manager.ess (pm : Manager) : Manager := { pm with pluginMap := pm.pluginMap.mapV Plugin.ess, ordered := pm.ordered.map Plugin.ess }

def Act.ess : Act → Act
  | .spawnFree om => .spawnFree om.ess
  | .publish pm => .publish pm.ess
  | a => a

def LoadSt.ess (s : LoadSt) : LoadSt := { s with pm := s.pm.ess, acts := s.acts.map Act.ess }

def OpenRes.ess : OpenRes → OpenRes
  | .image s c => .image s c.ess
  | r => r

def FS.ess (fs : FS) : FS := { fs with openPlugin := fun f => (fs.openPlugin f).ess }

def Env.ess (env : Env) : Env := { env with fs := env.fs.ess }

def StaticPlugin.ess (sp : StaticPlugin) : StaticPlugin := { sp with code := sp.code.ess }

def Config.ess (cfg : Config) : Config := { cfg with static := cfg.static.map (GoMap.mapV StaticPlugin.ess) }

def Plan.ess (p : Plan) : Plan := { p with acts := p.acts.map Act.ess, built := p.built.ess }

def Ev.ess : Ev → Ev
  | .act a => .act a.ess
  | e => e

def Running.ess (r : Running) : Running := { r with todo := r.todo.map Act.ess }

def Machine.ess (m : Machine) : Machine :=
  { m with
    current := m.current.map Manager.ess
    running := m.running.map Running.ess
    builts := m.builts.map Manager.ess
    trace := m.trace.map (fun e => (e.1, e.2.ess)) }

def Label.ess : Label → Label
  | .call k env => .call k env.ess
  | l => l

/-! ### simulation -/

/-- `y` does to the essence of the state what `x` does to the state. -/
def SimAt {α : Type} (x y : M α) (s : LoadSt) : Prop := y s.ess = ((x s).1, (x s).2.ess)

def Sim {α : Type} (x y : M α) : Prop := ∀ s, SimAt x y s

open M

theorem SimAt.bind {α β : Type} {x x' : M α} {f f' : α → M β} {s : LoadSt} (h : SimAt x x' s) (hf : ∀ a, SimAt (f a) (f' a) (x s).2) :
    SimAt (x >>= f) (x' >>= f') s := by
  unfold SimAt at *
  change M.bind x' f' s.ess = ((M.bind x f s).1, (M.bind x f s).2.ess)
  unfold M.bind
  rw [h]
  have hf' := hf
  revert hf'
  rcases x s with ⟨r, s'⟩
  intro hf'
  cases r with
  | ok a => exact hf' a
  | err e => rfl
  | panic p => rfl

theorem Sim.bind {α β : Type} {x x' : M α} {f f' : α → M β} (h : Sim x x') (hf : ∀ a, Sim (f a) (f' a)) : Sim (x >>= f) (x' >>= f') :=
  fun s => SimAt.bind (h s) (fun a => hf a _)

theorem Sim.bind' {α β : Type} {x x' : M α} {f f' : α → M β} (h : Sim x x') (hf : ∀ a, Sim (f a) (f' a)) : Sim (M.bind x f) (M.bind x' f') :=
  Sim.bind h hf

theorem Sim.get {β : Type} {f f' : LoadSt → M β} (h : ∀ s, SimAt (f s) (f' s.ess) s) : Sim (M.get >>= f) (M.get >>= f') :=
  fun s => h s

theorem Sim.pure {α : Type} (a : α) : Sim (M.pure a) (M.pure a) := fun _ => rfl
theorem Sim.pure' {α : Type} (a : α) : Sim (Pure.pure a : M α) (Pure.pure a) := fun _ => rfl
theorem Sim.throw {α : Type} (e : Err) : Sim (M.throw e : M α) (M.throw e) := fun _ => rfl
theorem Sim.panic {α : Type} (e : Panic) : Sim (M.panic e : M α) (M.panic e) := fun _ => rfl
theorem Sim.alloc : Sim M.alloc M.alloc := fun _ => rfl

theorem Sim.emit {a a' : Act} (h : a' = a.ess) : Sim (M.emit a) (M.emit a') := by
  intro s
  subst h
  simp [SimAt, M.emit, LoadSt.ess]

theorem Sim.modPm {f f' : Manager → Manager} (h : ∀ pm, f' pm.ess = (f pm).ess) : Sim (M.modPm f) (M.modPm f') := by
  intro s
  simp [SimAt, M.modPm, LoadSt.ess, h]

theorem Sim.forEach {α β : Type} {l : List α} {g : α → β} {f : α → M Unit} {f' : β → M Unit} (h : ∀ a ∈ l, Sim (f a) (f' (g a))) :
    Sim (M.forEach l f) (M.forEach (l.map g) f') := by
  induction l with
  | nil => exact Sim.pure ()
  | cons a r ih => exact Sim.bind (h a (by simp)) (fun _ => ih (fun b hb => h b (List.mem_cons_of_mem _ hb)))

theorem Sim.forEach' {α : Type} {l : List α} {f f' : α → M Unit} (h : ∀ a ∈ l, Sim (f a) (f' a)) : Sim (M.forEach l f) (M.forEach l f') := by
  have := Sim.forEach (g := fun a => a) (f' := f') h
  rwa [List.map_id'] at this

theorem Sim.ite {α : Type} {c : Prop} [Decidable c] {x x' y y' : M α} (h : Sim x x') (h' : Sim y y') : Sim (if c then x else y) (if c then x' else y') := by
  split
  · exact h
  · exact h'

end

end Hotswap
