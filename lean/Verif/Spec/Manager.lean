import Verif.Model.Machine

/-!
# What a well-formed manager is
-/

namespace Hotswap

variable [GoRuntime]

/-- Every plugin is stored under its own lower-cased name. -/
def Keyed (m : GoMap Plugin) : Prop := ∀ k p, m.get? k = some p → name2key p.name = k

/-- `p` lists `q` among its dependencies. -/
def DependsOn (m : GoMap Plugin) (p q : Plugin) : Prop := ∃ d ∈ p.deps, m.get? (name2key d) = some q

/-- Every dependency of every plugin is present. -/
def Closed (m : GoMap Plugin) : Prop :=
  ∀ k p, m.get? k = some p → ∀ d ∈ p.deps, ∃ q, m.get? (name2key d) = some q

/-- The fields of the object returned by `Import()` that name dependencies: none if `Import` returned nil;
otherwise the fields that are importable. -/
def importFields (p : Plugin) : List Field :=
  match p.code.importRet with
  | .panics => []
  | .ret imp => if isNil imp.val then [] else imp.fields.filter importable

/-- The value stored in a field bound to `dep`: the dependency's export, or nothing if that is nil. -/
def boundValue (dep : Plugin) : Option Val := if isNil dep.exported then none else dep.exported

/-- Go's rule for exported identifiers: the first character is an upper-case letter. -/
def ExportedName (s : Str) : Prop := ∃ c r, s = c :: r ∧ GoRuntime.isUpper c = true

theorem exportedName_iff {s : Str} : isExportedName s = true ↔ ExportedName s := by
  unfold isExportedName ExportedName
  cases s with
  | nil => simp
  | cons c r => simp

theorem not_exportedName_iff {s : Str} : isExportedName s = false ↔ ¬ ExportedName s := by
  rw [← exportedName_iff, Bool.not_eq_true]

/-- The rules a field of plugin `p` bound to `dep` obeys. -/
structure FieldOK (p : Plugin) (f : Field) (dep : Plugin) : Prop where
  named : f.anonymous = false
  stable : p.reloadable = false → dep.reloadable = false
  typed : ∀ v, boundValue dep = some v → GoRuntime.assignable v.typ f.typ = true
  settable : boundValue dep ≠ none → ExportedName f.name

/-- `Import()` returned nil or a pointer to a struct. -/
def GoodImport (c : Code) : Prop :=
  ∃ imp, c.importRet = .ret imp ∧ (isNil imp.val = true ∨ ∃ v id, imp.val = some v ∧ v.typ = .ptr (.struct id))

omit [GoRuntime] in
theorem isStructPtr_true {t : GoType} (h : isStructPtr t = true) : ∃ id, t = .ptr (.struct id) := by
  unfold isStructPtr at h
  split at h
  · exact ⟨_, rfl⟩
  · cases h

/-- The imports of `p` are resolved within `m`: `Import` returned nil or a pointer to a struct; every import field names a plugin of `m` and obeys the rules;
`Deps` lists these plugins, and every field holds the export of the plugin it names. -/
def Resolved (m : GoMap Plugin) (p : Plugin) : Prop :=
  (∀ f ∈ importFields p, ∃ dep, m.get? (name2key f.name) = some dep ∧ FieldOK p f dep) ∧
  p.deps = (importFields p).filterMap (fun f => (m.get? (name2key f.name)).map (·.name)) ∧
  p.bound = (importFields p).filterMap (fun f =>
    (m.get? (name2key f.name)).map (fun dep => ⟨f.name, dep.inst, boundValue dep⟩)) ∧
  GoodImport p.code

/-- A duplicate-free list of plugins in which every plugin comes after its dependencies. -/
def Topological (m : GoMap Plugin) (l : List Plugin) : Prop :=
  ∀ before p after, l = before ++ p :: after → ∀ d ∈ p.deps, ∃ q ∈ before, m.get? (name2key d) = some q

/-- The hooks whose results a manager remembers did return them. -/
def Faithful (p : Plugin) : Prop :=
  p.code.reloadable = .ret p.reloadable ∧ p.code.exportRet = .ret p.exported

/-- No live name is declared by two plugins, and every plugin declares a (non-nil) map. -/
def LiveOK (live : Plugin → Ret (Option (GoMap Val))) (l : List Plugin) : Prop :=
  (∀ p ∈ l, ∃ m, live p = .ret (some m)) ∧
  l.Pairwise (fun p q => ∀ a b, live p = .ret (some a) → live q = .ret (some b) →
    ∀ k, a.get? k ≠ none → b.get? k = none)

/-- A manager whose dependencies are resolved and ordered. `next` bounds the instances in use. -/
structure SoundManager (next : Nat) (pm : Manager) : Prop where
  keyed : Keyed pm.pluginMap
  ordered : pm.ordered.Perm pm.pluginMap.vals
  topo : Topological pm.pluginMap pm.ordered
  nodup : pm.insts.Nodup
  fresh : ∀ i ∈ pm.insts, i < next
  resolved : ∀ k p, pm.pluginMap.get? k = some p → Resolved pm.pluginMap p
  faithful : ∀ k p, pm.pluginMap.get? k = some p → Faithful p

/-- The invariant of published managers. -/
structure GoodManager (next : Nat) (pm : Manager) : Prop extends SoundManager next pm where
  liveFuncs : LiveOK (·.code.liveFuncs) pm.ordered
  liveTypes : LiveOK (·.code.liveTypes) pm.ordered

end Hotswap
