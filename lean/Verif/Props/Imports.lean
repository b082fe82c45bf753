import Verif.Props.Selection
import Verif.Proofs.LiveInv

/-!
# Imports and dependencies: C18, C19, C20, C21
-/

namespace Hotswap

section
variable [GoRuntime]

/-- `f` is a field of the struct that `Import()` of this plugin points to (and `Import()` did not return nil). -/
def ImportField (p : Plugin) (f : Field) : Prop := ∃ imp, p.code.importRet = .ret imp ∧ isNil imp.val = false ∧ f ∈ imp.fields

/-- Go's notion of a nil interface value or a nil value in an interface: pointers, functions, channels, maps, slices and unsafe pointers may be nil; structs, arrays, strings and numbers are never. -/
inductive GoNil : Option Val → Prop
  | nil : GoNil none
  | ptr (t : GoType) (id : Nat) : GoNil (some ⟨.ptr t, true, id⟩)
  | func (k id : Nat) : GoNil (some ⟨.func k, true, id⟩)
  | other (k id : Nat) : GoNil (some ⟨.nilable k, true, id⟩)

omit [GoRuntime] in
/-- **C18, C35.** What hotswap takes for nil (exports, imports, the `out` of `Lookup`) is what Go calls nil. -/
theorem C18_nil (v : Option Val) : isNil v = true ↔ GoNil v := by
  constructor
  · intro h
    match v with
    | none => exact .nil
    | some ⟨.ptr t, b, id⟩ => have : b = true := by simpa [isNil, GoType.isNilableKind] using h
                              subst this; exact .ptr t id
    | some ⟨.func k, b, id⟩ => have : b = true := by simpa [isNil, GoType.isNilableKind] using h
                               subst this; exact .func k id
    | some ⟨.nilable k, b, id⟩ => have : b = true := by simpa [isNil, GoType.isNilableKind] using h
                                  subst this; exact .other k id
    | some ⟨.struct k, b, id⟩ => simp [isNil, GoType.isNilableKind] at h
    | some ⟨.basic k, b, id⟩ => simp [isNil, GoType.isNilableKind] at h
  · intro h
    cases h <;> rfl

/-- What `reflect` stores in a field that is bound to an export: nothing if the export is nil. -/
def stored (export_ : Option Val) : Option Val := if isNil export_ then none else export_

theorem mem_importFields {p : Plugin} {f : Field} : f ∈ importFields p ↔ ImportField p f ∧ importable f = true := by
  unfold importFields ImportField
  cases p.code.importRet with
  | panics => simp
  | ret imp =>
    cases hn : isNil imp.val with
    | true => simp [hn]
    | false => simp [hn]

/-- The current manager is well-formed. -/
theorem current_good {cfg : Config} (hcfg : cfg.OK) {m : Machine} (h : Reachable cfg m) {pm : Manager} (hc : m.current = some pm) : GoodManager m.next pm :=
  ((inv hcfg h).cur pm hc).1.good ((liveInv hcfg h).cur pm hc)

theorem SoundManager.get {n : Nat} {pm : Manager} (g : SoundManager n pm) {p : Plugin} (hp : p ∈ pm.plugins) : pm.pluginMap.get? (name2key p.name) = some p := by
  obtain ⟨k, hk⟩ := GoMap.mem_vals.mp (g.ordered.mem_iff.mp hp)
  rw [g.keyed _ _ hk]; exact hk

theorem SoundManager.mem {n : Nat} {pm : Manager} (g : SoundManager n pm) {k : Str} {p : Plugin} (hp : pm.pluginMap.get? k = some p) : p ∈ pm.plugins :=
  g.ordered.mem_iff.mpr (GoMap.mem_vals.mpr ⟨k, hp⟩)

/-! ### C18 -/

/-- **C18.** In the current manager, every importable field of every plugin holds the `Export()` value of the very instance that `FindPlugin` returns for the field's name
from that manager (the field is left alone if that value is nil). -/
theorem C18_bound_to_same_manager {cfg : Config} (hcfg : cfg.OK) {m : Machine} (h : Reachable cfg m) {pm : Manager} (hc : m.current = some pm)
    {p : Plugin} (hp : p ∈ pm.plugins) {f : Field} (hf : ImportField p f) (hi : importable f = true) :
    ∃ dep export_, pm.findPlugin f.name = some dep ∧ dep ∈ pm.plugins ∧ dep.code.exportRet = .ret export_ ∧
      (⟨f.name, dep.inst, stored export_⟩ : Binding) ∈ p.bound ∧ dep.name ∈ p.deps := by
  have g := current_good hcfg h hc
  obtain ⟨h1, h2, h3, _⟩ := g.resolved _ _ (g.get hp)
  have hm := mem_importFields.mpr ⟨hf, hi⟩
  obtain ⟨dep, hd, _⟩ := h1 f hm
  have hfa := g.faithful _ _ hd
  refine ⟨dep, dep.exported, hd, g.mem hd, hfa.2, ?_, ?_⟩
  · rw [h3, List.mem_filterMap]
    exact ⟨f, hm, by rw [hd]; rfl⟩
  · rw [h2, List.mem_filterMap]
    exact ⟨f, hm, by rw [hd]; rfl⟩

/-- **C18.** Nothing else is bound, and `Deps` lists nothing else: every binding of a plugin of the current manager belongs to an importable field and to the instance the
manager has under that name; every dependency is the name of such an instance. -/
theorem C18_nothing_else {cfg : Config} (hcfg : cfg.OK) {m : Machine} (h : Reachable cfg m) {pm : Manager} (hc : m.current = some pm)
    {p : Plugin} (hp : p ∈ pm.plugins) :
    (∀ b ∈ p.bound, ∃ f dep, ImportField p f ∧ importable f = true ∧ b.field = f.name ∧ pm.findPlugin f.name = some dep ∧ b.dep = dep.inst) ∧
    (∀ d ∈ p.deps, ∃ f dep, ImportField p f ∧ importable f = true ∧ pm.findPlugin f.name = some dep ∧ dep.name = d ∧ pm.findPlugin d = some dep) := by
  have g := current_good hcfg h hc
  obtain ⟨_, h2, h3, _⟩ := g.resolved _ _ (g.get hp)
  constructor
  · intro b hb
    rw [h3] at hb
    obtain ⟨f, hf, he⟩ := List.mem_filterMap.mp hb
    obtain ⟨dep, hd, rfl⟩ := Option.map_eq_some_iff.mp he
    obtain ⟨h4, h5⟩ := mem_importFields.mp hf
    exact ⟨f, dep, h4, h5, rfl, hd, rfl⟩
  · intro d hd
    rw [h2] at hd
    obtain ⟨f, hf, he⟩ := List.mem_filterMap.mp hd
    obtain ⟨dep, hdep, rfl⟩ := Option.map_eq_some_iff.mp he
    obtain ⟨h4, h5⟩ := mem_importFields.mp hf
    refine ⟨f, dep, h4, h5, hdep, rfl, ?_⟩
    unfold Manager.findPlugin
    rw [g.keyed _ _ hdep]; exact hdep

/-! ### C19 -/

omit [GoRuntime] in
/-- **C19.** For a field whose name begins with an ASCII character: it counts iff that character is one of A-Z and the field is not tagged `hotswap:"-"`. -/
theorem C19_ascii (f : Field) (c : Char) (r : Str) (hn : f.name = c :: r) (hc : c.toNat < 0x80) :
    importable f = true ↔ ('A' ≤ c ∧ c ≤ 'Z') ∧ f.tag ≠ "-".toList := by
  have hle : ∀ a b : Char, a ≤ b ↔ a.toNat ≤ b.toNat := fun a b => by rw [Char.le_def, UInt32.le_iff_toNat_le]; rfl
  unfold importable
  rw [hn]
  simp only [firstByte, hc, if_true, isUpperByte, Bool.and_eq_true, Bool.or_eq_true, decide_eq_true_eq, bne_iff_ne, hle]
  have hA : 'A'.toNat = 65 := rfl
  have hZ : 'Z'.toNat = 90 := rfl
  have ht : ("-".toList : Str) = ['-'] := rfl
  rw [hA, hZ, ht]
  constructor
  · rintro ⟨h | h, ht⟩
    · exact ⟨h, ht⟩
    · omega
  · rintro ⟨h, ht⟩
    exact ⟨.inl h, ht⟩

omit [GoRuntime] in
/-- **C19.** For a field whose name begins with a non-ASCII character the first *byte* decides, whatever the character: everything below U+07C0 except U+05C0-U+05FF counts (upper case or
not), and nothing from U+07C0 on does. -/
theorem C19_non_ascii (f : Field) (c : Char) (r : Str) (hn : f.name = c :: r) (hc : 0x80 ≤ c.toNat) :
    importable f = true ↔ (c.toNat < 0x7C0 ∧ ¬ (0x5C0 ≤ c.toNat ∧ c.toNat < 0x600)) ∧ f.tag ≠ "-".toList := by
  have hv : c.toNat < 0x110000 := by
    have := c.valid
    rw [UInt32.isValidChar, Nat.isValidChar] at this
    have e : c.val.toNat = c.toNat := rfl
    rw [e] at this
    omega
  have key : isUpperByte (firstByte c) = true ↔ (c.toNat < 0x7C0 ∧ ¬ (0x5C0 ≤ c.toNat ∧ c.toNat < 0x600)) := by
    unfold isUpperByte firstByte
    simp only [Bool.or_eq_true, Bool.and_eq_true, decide_eq_true_eq, bne_iff_ne]
    generalize c.toNat = n at *
    split
    · omega
    · split
      · omega
      · split
        · omega
        · omega
  have ht : ("-".toList : Str) = ['-'] := rfl
  unfold importable
  rw [hn, ht]
  simp only [Bool.and_eq_true, key, bne_iff_ne]

/-- **C19.** When a load succeeds, every field of every plugin that counts is named, names a loaded plugin, and (unless the plugin's export is nil) is settable and of a type to
which the export is assignable. -/
theorem C19_success_rules {cfg : Config} (hcfg : cfg.OK) {m : Machine} (h : Reachable cfg m) (env : Env) {k : Kind} (hk : refused cfg k = false) {pm : Manager}
    (hpub : .publish pm ∈ (plan cfg env k m.current m.next).acts) {p : Plugin} (hp : p ∈ pm.plugins) {f : Field} (hf : ImportField p f) (hi : importable f = true) :
    f.anonymous = false ∧ ∃ dep export_, pm.findPlugin f.name = some dep ∧ dep.code.exportRet = .ret export_ ∧
      (isNil export_ = false → ExportedName f.name ∧ ∀ v, export_ = some v → GoRuntime.assignable v.typ f.typ = true) := by
  obtain ⟨rfl, s0, s1, s, d, hs⟩ := (view hcfg h env k).published hk hpub
  rw [hs.built] at hp ⊢
  have g := hs.good
  obtain ⟨h1, _⟩ := g.resolved _ _ (g.get hp)
  obtain ⟨dep, hd, hok⟩ := h1 f (mem_importFields.mpr ⟨hf, hi⟩)
  refine ⟨hok.named, dep, dep.exported, hd, (g.faithful _ _ hd).2, ?_⟩
  intro hn
  have hb : boundValue dep = dep.exported := by unfold boundValue; rw [hn]; rfl
  refine ⟨hok.settable ?_, ?_⟩
  · rw [hb]; intro he; rw [he] at hn; cases hn
  · intro v hv
    exact hok.typed v (by rw [hb, hv])

/-- A plugin under construction whose `Import()` object has the field `f`, which counts. -/
def Importer (pm : Manager) (n : Str) (f : Field) : Prop :=
  ∃ p, pm.findPlugin n = some p ∧ p.name = n ∧ ImportField p f ∧ importable f = true

/-- What each of the errors about imports says. -/
def ImportFault (pm : Manager) : Err → Prop
  | .importNotStructPtr n => ∃ p imp v, pm.findPlugin n = some p ∧ p.code.importRet = .ret imp ∧ imp.val = some v ∧ isNil (some v) = false ∧ ∀ id, v.typ ≠ .ptr (.struct id)
  | .anonymousField fn n => ∃ f, Importer pm n f ∧ f.name = fn ∧ f.anonymous = true
  | .unknownDep fn n => ∃ f, Importer pm n f ∧ f.name = fn ∧ pm.findPlugin fn = none
  | .depReloadable n d => ∃ f, Importer pm n f ∧ ∃ p q, pm.findPlugin n = some p ∧ p.reloadable = false ∧ pm.findPlugin f.name = some q ∧ q.name = d ∧ q.reloadable = true
  | .notAssignable d n fn => ∃ f, Importer pm n f ∧ f.name = fn ∧ ∃ q v, pm.findPlugin fn = some q ∧ q.name = d ∧ q.exported = some v ∧ isNil (some v) = false ∧
      GoRuntime.assignable v.typ f.typ = false
  | .panicked _ .setUnexported => ∃ f n, Importer pm n f ∧ ¬ ExportedName f.name ∧ ∃ Q, pm.findPlugin f.name = some Q ∧ isNil Q.exported = false
  | _ => True

theorem isStructPtr_false {t : GoType} (h : isStructPtr t = false) : ∀ id, t ≠ .ptr (.struct id) := by
  rintro id rfl
  cases h

/-- **C19.** An error about imports is a true statement about the manager that was under construction. -/
theorem C19_error_is_true {cfg : Config} (hcfg : cfg.OK) {m : Machine} (h : Reachable cfg m) (env : Env) (k : Kind) {e : Err}
    (hr : (plan cfg env k m.current m.next).res = .err e) : ImportFault (plan cfg env k m.current m.next).built e := by
  have hv := view hcfg h env k
  generalize plan cfg env k m.current m.next = p at hr hv ⊢
  cases hv.err hr with
  | list acts what => rcases what with rfl | ⟨_, rfl⟩ | ⟨_, rfl⟩ <;> trivial
  | callback what => subst what; trivial
  | early absDir entries dyn dir s0 sb f cr base why what acts built =>
    cases f with
    | inl e' =>
      simp only [errOf] at what; subst what
      cases e with
      | panicked c q =>
        cases q <;> first | trivial | (rcases why.2 with ⟨_, h, _⟩ | ⟨h, _⟩ <;> cases h)
      | _ => first | trivial | exact why.elim
    | inr q =>
      simp only [errOf] at what; subst what
      cases q <;> first | trivial | exact why.elim
  | earlyStatic sps sel st hsel s0 sb f cr base why what acts built =>
    cases f with
    | inl e' =>
      simp only [errOf] at what; subst what
      cases e <;> first | trivial | exact why.elim | (rename_i c q; cases q <;> first | trivial | exact why.elim)
    | inr q =>
      simp only [errOf] at what; subst what
      cases q <;> first | trivial | exact why.elim
  | late s0 s1 sb f cr keyed why what acts built body =>
    have hk := why.frame.same.keyed keyed
    have hfind : ∀ q ∈ sb.pm.pluginMap.vals, sb.pm.findPlugin q.name = some q := by
      intro q hq
      obtain ⟨key, hq⟩ := GoMap.mem_vals.mp hq
      unfold Manager.findPlugin
      rw [hk _ _ hq]; exact hq
    have hfail := why.fail
    rw [built]
    cases f with
    | inl e' =>
      simp only [errOf] at what; subst what
      cases e with
      | importNotStructPtr n =>
        obtain ⟨q, hq, rfl, _, imp, v, h1, h2, h3, h4⟩ := hfail
        exact ⟨q, imp, v, hfind q hq, h1, h2, h3, isStructPtr_false h4⟩
      | anonymousField fn n =>
        obtain ⟨q, hq, rfl, _, f, hf, h1, h2⟩ := hfail
        exact ⟨f, ⟨q, hfind q hq, rfl, (mem_importFields.mp hf).1, (mem_importFields.mp hf).2⟩, h1, h2⟩
      | unknownDep fn n =>
        obtain ⟨q, hq, rfl, _, f, hf, h1, h2⟩ := hfail
        exact ⟨f, ⟨q, hfind q hq, rfl, (mem_importFields.mp hf).1, (mem_importFields.mp hf).2⟩, h1, h2⟩
      | depReloadable n d =>
        obtain ⟨q, hq, rfl, _, hrl, f, hf, q', h1, h2, h3⟩ := hfail
        exact ⟨f, ⟨q, hfind q hq, rfl, (mem_importFields.mp hf).1, (mem_importFields.mp hf).2⟩, q, q', hfind q hq, hrl, h1, h2, h3⟩
      | notAssignable d n fn =>
        obtain ⟨q, hq, rfl, _, f, hf, h1, q', v, h2, h3, h4, h5⟩ := hfail
        refine ⟨f, ⟨q, hfind q hq, rfl, (mem_importFields.mp hf).1, (mem_importFields.mp hf).2⟩, h1, q', v, h2, h3, ?_⟩
        unfold boundValue at h4
        cases hn : isNil q'.exported with
        | true => rw [hn] at h4; cases h4
        | false =>
          rw [hn] at h4
          simp only [Bool.false_eq_true, if_false] at h4
          exact ⟨h4, by rw [← h4]; exact hn, h5⟩
      | panicked c q => exact hfail.elim
      | _ => trivial
    | inr q =>
      simp only [errOf] at what; subst what
      cases q with
      | setUnexported =>
        obtain ⟨q, hq, _, f, hf, h1, Q, v, hQ, hv⟩ := hfail
        refine ⟨f, q.name, ⟨q, hfind q hq, rfl, (mem_importFields.mp hf).1, (mem_importFields.mp hf).2⟩, h1, Q, hQ, ?_⟩
        unfold boundValue at hv
        cases hn : isNil Q.exported with
        | false => rfl
        | true => rw [hn] at hv; cases hv
      | _ => trivial

/-! ### C20 -/

/-- **C20.** In any manager that is ever current, every dependency of a plugin whose `Reloadable()` returned false is a plugin whose `Reloadable()` returned false. -/
theorem C20_not_reloadable_closed {cfg : Config} (hcfg : cfg.OK) {m : Machine} (h : Reachable cfg m) {pm : Manager} (hc : m.current = some pm)
    {p : Plugin} (hp : p ∈ pm.plugins) (hn : NotReloadable p) {d : Str} (hd : d ∈ p.deps) :
    ∃ q, pm.findPlugin d = some q ∧ NotReloadable q := by
  have g := current_good hcfg h hc
  obtain ⟨h1, h2, _⟩ := g.resolved _ _ (g.get hp)
  rw [h2] at hd
  obtain ⟨f, hf, he⟩ := List.mem_filterMap.mp hd
  obtain ⟨dep, hdep, rfl⟩ := Option.map_eq_some_iff.mp he
  obtain ⟨dep', hdep', hok⟩ := h1 f hf
  rw [hdep] at hdep'; cases hdep'
  refine ⟨dep, ?_, ?_⟩
  · unfold Manager.findPlugin
    rw [g.keyed _ _ hdep]; exact hdep
  · rw [faithful_notReloadable (g.faithful _ _ hdep)]
    exact hok.stable ((faithful_notReloadable (g.faithful _ _ (g.get hp))).mp hn)

/-! ### C21 -/

/-- **C21.** After a successful reload, every dependency of a kept plugin is kept too, and it is the instance the old manager had under that name. -/
theorem C21_kept_depends_on_kept {cfg : Config} (hcfg : cfg.OK) {m : Machine} (h : Reachable cfg m) (env : Env) {k : Kind} (hk : refused cfg k = false) {pm : Manager}
    (hpub : .publish pm ∈ (plan cfg env k m.current m.next).acts) {p : Plugin} (hp : p ∈ pm.plugins) (hkept : isNew m.current p = false) {d : Str} (hd : d ∈ p.deps) :
    ∃ om old q, m.current = some om ∧ om.findPlugin d = some old ∧ pm.findPlugin d = some q ∧ q.inst = old.inst ∧ q.code = old.code := by
  have hgood := sound_old hcfg h
  obtain ⟨rfl, s0, s1, s, dt, hs⟩ := (view hcfg h env k).published hk hpub
  rw [hs.built] at hp ⊢
  have g := hs.good
  have hget := g.get hp
  rw [isNew_iff hgood hs.origin hget] at hkept
  obtain ⟨q, hq, hqu⟩ := hs.fin.ok.rebuilt _ _ hget (by simpa using hkept) d hd
  rcases hs.origin _ _ hq with ⟨_, om, old, ho, hop, hi, hrest⟩ | ⟨hu, _⟩
  · exact ⟨om, old, q, ho, hop, hq, hi.symm, hrest.2.2.symm⟩
  · rw [hqu] at hu; cases hu

/-- The file's plugin will be kept: the current manager has it, and it is not reloadable or has the file's digest. -/
def WillBeKept (env : Env) (m : Machine) (f : Str) (old : Plugin) : Prop :=
  previous m f = some old ∧ (NotReloadable old ∨ ∃ data, env.fs.readFile f = some data ∧ old.sha = GoRuntime.sha1 data)

/-- **C21.** If a plugin would be kept although the file of one of its dependencies has been removed from the list or demands a new instance, the load fails. -/
theorem C21_rebuilt_or_removed_fails {cfg : Config} (hcfg : cfg.OK) (hst : cfg.static = none) {m : Machine} (h : Reachable cfg m) (env : Env) (k : Kind)
    {absDir : Str} {entries : List DirEntry} (hdir : env.dir = some (absDir, entries)) {f : Str} (hf : f ∈ listedFiles cfg absDir entries) {old : Plugin} (hkept : WillBeKept env m f old)
    {d : Str} (hd : d ∈ old.deps)
    (hdep : (∀ f' ∈ listedFiles cfg absDir entries, name2key (pluginName f') ≠ name2key d) ∨
      ∃ f' ∈ listedFiles cfg absDir entries, name2key (pluginName f') = name2key d ∧ NotKeptFile env m f') :
    ∀ dt, (plan cfg env k m.current m.next).res ≠ .ok dt := by
  intro dt hr
  have hv := view hcfg h env k
  have hgood := sound_old hcfg h
  have hk : refused cfg k = false := by cases k <;> simp [refused, hst]
  rcases hv.success hk hr with ⟨_, _, _, a, es, hdr, hnil⟩ | ⟨_, hpub⟩
  · rw [hdir] at hdr; cases hdr; rw [hnil] at hf; cases hf
  · have hp : Act.publish (plan cfg env k m.current m.next).built ∈ (plan cfg env k m.current m.next).acts := mem_publishes.mp (by rw [hpub]; simp)
    obtain ⟨hprev, hwhy⟩ := hkept
    obtain ⟨om, ho, hom⟩ := Option.bind_eq_some_iff.mp hprev
    obtain ⟨data, p, hread, hfind, h1, h2, _⟩ := C15_kept_or_renewed hcfg hst h env hp hdir hf
    have hcopy : KeptCopy old p := by
      by_cases hn : NotReloadable old
      · exact (h1 old hprev hn).1
      · rcases hwhy with hw | ⟨data', hr', hs'⟩
        · exact absurd hw hn
        · rw [hread] at hr'; cases hr'
          exact (h2 old hprev hn hs').1
    obtain ⟨_, s0, s1, s, d', hs⟩ := hv.published hk hp
    have hfind' : s.pm.pluginMap.get? (fileKey f) = some p := by rw [← hs.built]; exact hfind
    have hmem : p ∈ (plan cfg env k m.current m.next).built.plugins := by rw [hs.built]; exact hs.good.mem hfind'
    have hold : isNew m.current p = false := by
      unfold isNew; rw [ho]
      have : p.inst ∈ om.insts := by
        rw [hcopy]
        exact List.mem_map.mpr ⟨old, GoMap.mem_vals.mpr ⟨_, hom⟩, rfl⟩
      simp [this]
    have hdp : d ∈ p.deps := by rw [hcopy]; exact hd
    obtain ⟨om', old', q, ho', hold', hq, hqi, _⟩ := C21_kept_depends_on_kept hcfg h env hk hp hmem hold hdp
    rw [ho] at ho'; cases ho'
    rcases hdep with hno | ⟨f', hf', hkey, hnew⟩
    · obtain ⟨absDir', entries', s0, s1, s', d', hd, _, cr, done, _, _, hpm, _⟩ := hv.dynamic hst hp
      rw [hdir] at hd; cases hd
      rw [hpm] at hq
      obtain ⟨q', _, _, hq', _, _⟩ := done.fin.frame.same.get' hq
      obtain ⟨f', hf', hkey⟩ := done.stage1.only _ _ hq'
      exact hno f' hf' hkey
    · obtain ⟨data', q', hread', hfind'', _, _, h3⟩ := C15_kept_or_renewed hcfg hst h env hp hdir hf'
      have : q' = q := by
        have e : (plan cfg env k m.current m.next).built.findPlugin (pluginName f') = (plan cfg env k m.current m.next).built.findPlugin d := by
          unfold Manager.findPlugin; rw [hkey]
        rw [e, hq] at hfind''; cases hfind''; rfl
      subst this
      have hlo := (h3 (fun o ho' => hnew o data' ho' hread')).1
      have hhi := (hgood om ho).fresh old'.inst (List.mem_map.mpr ⟨old', GoMap.mem_vals.mpr ⟨_, hold'⟩, rfl⟩)
      omega

end

section Examples
open Demo
attribute [local instance] Demo.rt

/-- C18, C20: the hypotheses are met by the two-plugin program; `app` (instance 4) is bound to `base` (instance 2), which was kept by the reload. -/
example : Reachable cfg m2 ∧ cfg.OK ∧ (m2.current.map (fun pm => pm.plugins.map (fun p => (p.inst, p.deps, p.bound)))) =
    some [(2, [], []), (4, ["base".toList], [⟨"Base".toList, 2, some ⟨.func 1, false, 1⟩⟩])] ∧
    (∀ p : Plugin, p.code = goodApp → ImportField p baseField) ∧ importable baseField = true :=
  ⟨m2_reachable, cfg_ok, by decide +kernel, fun p hp => ⟨_, by rw [hp]; rfl, rfl, by decide⟩, by decide⟩

/-- A field whose name begins with a lower-case Greek letter counts nevertheless, so this load fails. -/
def omegaField : Field := ⟨"ωmega".toList, [], false, .func 1⟩
/-- A field whose name begins with the upper-case letter U+FF21 does not count, so this load succeeds, and the field stays empty. -/
def wideField : Field := ⟨"Ａpp".toList, [], false, .func 1⟩
/-- `app` with other fields. -/
def envFields (fields : List Field) : Env := env both (fs 10 20 goodBase (code true 2 fields))

/-- **C19.** The byte test and Go's notion of exported differ: an unexported field is examined and makes the load fail, an exported one is ignored silently; fields tagged
`hotswap:"-"` and unexported ASCII fields are ignored. -/
theorem C19_non_ascii_witness :
    error? (plan cfg (envFields [omegaField]) .load none 0).res = some (.unknownDep "ωmega".toList "app".toList) ∧
    (details? (plan cfg (envFields [wideField]) .load none 0).res).isSome = true ∧
    (details? (plan cfg (envFields [⟨"omega".toList, [], false, .func 1⟩, ⟨"Omega".toList, "-".toList, true, .func 1⟩, baseField]) .load none 0).res).isSome = true := by
  decide +kernel

/-- C19: each of the errors about imports occurs. -/
example : error? (plan cfg (envFields [⟨"Nobody".toList, [], false, .func 1⟩]) .load none 0).res = some (.unknownDep "Nobody".toList "app".toList) ∧
    error? (plan cfg (envFields [⟨"Base".toList, [], true, .func 1⟩]) .load none 0).res = some (.anonymousField "Base".toList "app".toList) ∧
    error? (plan cfg (envFields [⟨"Base".toList, [], false, .func 8⟩]) .load none 0).res = some (.notAssignable "base".toList "app".toList "Base".toList) ∧
    error? (plan cfg (env both (fs 10 20 goodBase (code false 2 [baseField]))) .load none 0).res = some (.depReloadable "app".toList "base".toList) ∧
    error? (plan cfg (env both (fs 10 20 goodBase { goodApp with importRet := .ret ⟨some ⟨.func 3, false, 0⟩, []⟩ })) .load none 0).res =
      some (.importNotStructPtr "app".toList) := by decide +kernel

/-- Two plugins that are not reloadable, loaded together. -/
def mFrozen : Machine := after cfg (callSteps .load (env both (fs 10 20 (code false 1 []) (code false 2 [baseField]))) 20)

/-- C20: its hypotheses are met. -/
example : Reachable cfg mFrozen ∧ (mFrozen.current.map (fun pm => pm.plugins.map (fun p => (p.inst, p.reloadable, p.deps)))) =
    some [(2, false, []), (1, false, ["base".toList])] :=
  ⟨after_reachable (by decide +kernel), by decide +kernel⟩

/-- C21: a reload in which `base` has changed and `app` has not, and one in which `base` is gone, both fail; a reload in which only `app` has changed succeeds and keeps
`base`. -/
example : Reachable cfg m2 ∧ (previous m2 appFile).map (fun p => (p.inst, p.sha, p.deps)) = some (4, 21, ["base".toList]) ∧
    env3.fs.readFile appFile = some 21 ∧ env3.fs.readFile baseFile = some 11 ∧ (previous m2 baseFile).map (fun p => (p.inst, p.sha)) = some (2, 10) ∧
    error? (plan cfg env3 (.reload none) m2.current m2.next).res = some (.rebuilt "base".toList "app".toList) ∧
    error? (plan cfg (env ["app.so".toList] (fs 10 21 goodBase goodApp)) (.reload none) m2.current m2.next).res = some (.panicked none .nilDeref) :=
  ⟨m2_reachable, by decide +kernel, by decide +kernel, by decide +kernel, by decide +kernel, by decide +kernel, by decide +kernel⟩

end Examples
end Hotswap
