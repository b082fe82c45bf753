import Verif.Proofs.Graph
import Verif.Proofs.Hoare
import Verif.Spec.Acts

/-! The import phase of `initDeps`. -/

namespace Hotswap

variable [GoRuntime]

open M

/-- `m'` is `m` with other dependencies and bindings of the freshly loaded plugins. -/
structure SameMap (m m' : GoMap Plugin) : Prop where
  keys : m'.keys = m.keys
  insts : m'.vals.map (·.inst) = m.vals.map (·.inst)
  get : ∀ k p, m.get? k = some p → ∃ d b, m'.get? k = some { p with deps := d, bound := b }
  kept : ∀ k p, m.get? k = some p → p.unchanged = true → m'.get? k = some p

theorem SameMap.refl (m : GoMap Plugin) : SameMap m m :=
  ⟨rfl, rfl, fun _ p h => ⟨p.deps, p.bound, h⟩, fun _ _ h _ => h⟩

theorem SameMap.none {m m' : GoMap Plugin} (h : SameMap m m') {k : Str} (hk : m.get? k = none) : m'.get? k = none := by
  rw [GoMap.get?_eq_none] at *
  rw [h.keys]; exact hk

theorem SameMap.get' {m m' : GoMap Plugin} (h : SameMap m m') {k : Str} {p' : Plugin} (hp : m'.get? k = some p') :
    ∃ p d b, m.get? k = some p ∧ p' = { p with deps := d, bound := b } ∧ (p.unchanged = true → p' = p) := by
  cases hk : m.get? k with
  | none => rw [h.none hk] at hp; cases hp
  | some p =>
    obtain ⟨d, b, e⟩ := h.get k p hk
    rw [e] at hp
    refine ⟨p, d, b, rfl, ?_, fun hu => ?_⟩
    · cases hp; rfl
    · have := h.kept k p hk hu
      rw [e] at this
      cases hp; injection this

theorem SameMap.size {m m' : GoMap Plugin} (h : SameMap m m') : m'.size = m.size := by
  rw [GoMap.size_eq_keys, GoMap.size_eq_keys, h.keys]

theorem SameMap.trans {m m' m'' : GoMap Plugin} (h : SameMap m m') (h' : SameMap m' m'') : SameMap m m'' := by
  refine ⟨h'.keys.trans h.keys, h'.insts.trans h.insts, fun k p hp => ?_, fun k p hp hu => ?_⟩
  · obtain ⟨d, b, e⟩ := h.get k p hp
    obtain ⟨d', b', e'⟩ := h'.get k _ e
    exact ⟨d', b', e'⟩
  · exact h'.kept k p (h.kept k p hp hu) hu

theorem SameMap.keyed {m m' : GoMap Plugin} (h : SameMap m m') (hk : Keyed m) : Keyed m' := by
  intro k p' hp'
  obtain ⟨p, d, b, hp, rfl, _⟩ := h.get' hp'
  exact hk k p hp

/-- Looking only at parts of a plugin that the import phase does not touch, the maps agree. -/
theorem SameMap.map {m m' : GoMap Plugin} (h : SameMap m m') {β : Type} (g : Plugin → β)
    (hg : ∀ p d b, g { p with deps := d, bound := b } = g p) (k : Str) :
    (m'.get? k).map g = (m.get? k).map g := by
  cases hk : m.get? k with
  | none => rw [h.none hk]
  | some p =>
    obtain ⟨d, b, e⟩ := h.get k p hk
    rw [e]; exact congrArg some (hg p d b)

theorem Resolved.transfer {m m' : GoMap Plugin} (h : SameMap m m') {p : Plugin} (hr : Resolved m p) : Resolved m' p := by
  obtain ⟨h1, h2, h3, h4⟩ := hr
  refine ⟨fun f hf => ?_, ?_, ?_, h4⟩
  · obtain ⟨dep, hd, hok⟩ := h1 f hf
    obtain ⟨d, b, e⟩ := h.get _ dep hd
    exact ⟨_, e, ⟨hok.named, hok.stable, hok.typed, hok.settable⟩⟩
  · rw [h2]; congr 1; funext f; exact (h.map (·.name) (fun _ _ _ => rfl) _).symm
  · rw [h3]; congr 1; funext f
    exact (h.map (fun dep => (⟨f.name, dep.inst, boundValue dep⟩ : Binding)) (fun _ _ _ => rfl) _).symm

/-- The instance whose `Import` is called for key `k`. -/
def importInst (m : GoMap Plugin) (k : Str) : Option Nat :=
  match m.get? k with
  | some p => if p.unchanged then none else some p.inst
  | none => none

/-- What the import phase may change. -/
structure ImpFrame (s0 s : LoadSt) : Prop where
  next : s.next = s0.next
  pm : s.pm = { s0.pm with pluginMap := s.pm.pluginMap }
  same : SameMap s0.pm.pluginMap s.pm.pluginMap

/-- Facts about errors that later theorems rely on. -/
def FailOK (pm : Manager) : Fail → Prop
  | .inl (.cyclic names) => (∃ pre last, names = pre ++ [last] ∧ Chain pm.pluginMap names ∧ name2key last ∈ pre.map name2key) ∧
      ∀ k p, pm.pluginMap.get? k = some p → p.unchanged = false → Resolved pm.pluginMap p
  | .inl (.dupLiveFunc k a b) => ∃ x y before mid after mx my, pm.ordered = before ++ x :: mid ++ y :: after ∧ x.name = a ∧ y.name = b ∧
      x.code.liveFuncs = .ret (some mx) ∧ y.code.liveFuncs = .ret (some my) ∧ mx.get? k ≠ none ∧ my.get? k ≠ none
  | .inl (.dupLiveType k a b) => ∃ x y before mid after mx my, pm.ordered = before ++ x :: mid ++ y :: after ∧ x.name = a ∧ y.name = b ∧
      x.code.liveTypes = .ret (some mx) ∧ y.code.liveTypes = .ret (some my) ∧ mx.get? k ≠ none ∧ my.get? k ≠ none
  | .inl (.rebuilt a b) => ∃ p q, p.name = b ∧ q.name = a ∧ p ∈ pm.pluginMap.vals ∧ p.unchanged = true ∧ q.unchanged = false ∧
      DependsOn pm.pluginMap p q
  | .inl (.hookErr n) => ∃ p ∈ pm.pluginMap.vals, p.name = n ∧ p.unchanged = false ∧
      ((∃ d, p.code.onLoad d = .err) ∨ ∃ v, (p.code.onInit v).1 = .err)
  | .inl (.hookPanic n) => ∃ p ∈ pm.pluginMap.vals, p.name = n ∧ p.unchanged = false ∧
      (p.code.importRet = .panics ∨ (∃ d, p.code.onLoad d = .panics) ∨ ∃ v, (p.code.onInit v).1 = .panics)
  | .inl (.importNotStructPtr n) => ∃ p ∈ pm.pluginMap.vals, p.name = n ∧ p.unchanged = false ∧
      ∃ imp v, p.code.importRet = .ret imp ∧ imp.val = some v ∧ isNil (some v) = false ∧ isStructPtr v.typ = false
  | .inl (.anonymousField f n) => ∃ p ∈ pm.pluginMap.vals, p.name = n ∧ p.unchanged = false ∧
      ∃ fd ∈ importFields p, fd.name = f ∧ fd.anonymous = true
  | .inl (.unknownDep f n) => ∃ p ∈ pm.pluginMap.vals, p.name = n ∧ p.unchanged = false ∧
      ∃ fd ∈ importFields p, fd.name = f ∧ pm.pluginMap.get? (name2key f) = none
  | .inl (.depReloadable n d) => ∃ p ∈ pm.pluginMap.vals, p.name = n ∧ p.unchanged = false ∧ p.reloadable = false ∧
      ∃ fd ∈ importFields p, ∃ q, pm.pluginMap.get? (name2key fd.name) = some q ∧ q.name = d ∧ q.reloadable = true
  | .inl (.notAssignable d n f) => ∃ p ∈ pm.pluginMap.vals, p.name = n ∧ p.unchanged = false ∧
      ∃ fd ∈ importFields p, fd.name = f ∧ ∃ q v, pm.pluginMap.get? (name2key f) = some q ∧ q.name = d ∧ boundValue q = some v ∧
        GoRuntime.assignable v.typ fd.typ = false
  | .inl (.badLiveFuncs n) => ∃ p ∈ pm.ordered, p.name = n ∧ p.code.liveFuncs = .ret none
  | .inl (.badLiveTypes n) => ∃ p ∈ pm.ordered, p.name = n ∧ p.code.liveTypes = .ret none
  | .inl _ => False
  | .inr .nilDeref => ∃ p ∈ pm.pluginMap.vals, p.unchanged = true ∧ ∃ d ∈ p.deps, pm.pluginMap.get? (name2key d) = none
  | .inr .setUnexported => ∃ p ∈ pm.pluginMap.vals, p.unchanged = false ∧ ∃ fd ∈ importFields p, ¬ ExportedName fd.name ∧
      ∃ q v, pm.pluginMap.get? (name2key fd.name) = some q ∧ boundValue q = some v
  | .inr .user => ∃ p ∈ pm.ordered, p.code.liveFuncs = .panics ∨ p.code.liveTypes = .panics
  | .inr _ => False

/-- State inside the field loop of plugin `p` (key `k`): the fields `done` have been processed. -/
structure FieldInv (k : Str) (p : Plugin) (s1 : LoadSt) (done : List Field) (s : LoadSt) : Prop where
  frame : ImpFrame s1 s
  acts : s.acts = s1.acts
  mine : s.pm.pluginMap.get? k = some { p with
    deps := (done.filter importable).filterMap (fun f => (s1.pm.pluginMap.get? (name2key f.name)).map (·.name))
    bound := (done.filter importable).filterMap (fun f =>
      (s1.pm.pluginMap.get? (name2key f.name)).map (fun dep => ⟨f.name, dep.inst, boundValue dep⟩)) }
  others : ∀ k', k' ≠ k → s.pm.pluginMap.get? k' = s1.pm.pluginMap.get? k'
  ok : ∀ f ∈ done.filter importable, ∃ dep, s1.pm.pluginMap.get? (name2key f.name) = some dep ∧ FieldOK p f dep

theorem addDep_inv {k : Str} {p : Plugin} {s1 s : LoadSt} {done : List Field} {f : Field} {dep dep1 : Plugin}
    (hu : p.unchanged = false)
    (hp1 : s1.pm.pluginMap.get? k = some p)
    (h : FieldInv k p s1 done s) (hf : importable f = true) (hanon : f.anonymous = false)
    (hd1 : s1.pm.pluginMap.get? (name2key f.name) = some dep1)
    (hdep : ∃ d b, dep = { dep1 with deps := d, bound := b })
    (hstable : p.reloadable = false → dep.reloadable = false)
    (htyped : ∀ v, boundValue dep = some v → GoRuntime.assignable v.typ f.typ = true)
    (hset : boundValue dep ≠ none → ExportedName f.name) :
    FieldInv k p s1 (done ++ [f])
      { s with pm := { s.pm with pluginMap := s.pm.pluginMap.modify k (fun q =>
        { q with deps := q.deps ++ [dep.name], bound := q.bound ++ [⟨f.name, dep.inst, boundValue dep⟩] }) } } := by
  obtain ⟨d, b, rfl⟩ := hdep
  have hfil : (done ++ [f]).filter importable = done.filter importable ++ [f] := by simp [hf]
  have hmine : (s.pm.pluginMap.modify k (fun q =>
        { q with deps := q.deps ++ [dep1.name], bound := q.bound ++ [⟨f.name, dep1.inst, boundValue dep1⟩] })).get? k
      = some { p with
        deps := ((done ++ [f]).filter importable).filterMap (fun f => (s1.pm.pluginMap.get? (name2key f.name)).map (·.name))
        bound := ((done ++ [f]).filter importable).filterMap (fun f =>
          (s1.pm.pluginMap.get? (name2key f.name)).map (fun dep => ⟨f.name, dep.inst, boundValue dep⟩)) } := by
    rw [GoMap.get?_modify, if_pos rfl, h.mine, hfil]
    simp [hd1]
  have hothers : ∀ k', k' ≠ k → (s.pm.pluginMap.modify k (fun q =>
        { q with deps := q.deps ++ [dep1.name], bound := q.bound ++ [⟨f.name, dep1.inst, boundValue dep1⟩] })).get? k'
      = s1.pm.pluginMap.get? k' := by
    intro k' hk'
    rw [GoMap.get?_modify, if_neg hk']
    exact h.others k' hk'
  refine ⟨⟨h.frame.next, ?_, ?_⟩, h.acts, hmine, hothers, ?_⟩
  · have := h.frame.pm
    generalize s.pm = pm at *
    rw [this]
  · refine ⟨?_, ?_, ?_, ?_⟩
    · rw [← h.frame.same.keys]; exact GoMap.keys_modify ..
    · rw [← h.frame.same.insts]; exact GoMap.map_vals_modify _ _ _ _ (fun _ => rfl)
    · intro k' q hq
      by_cases hk' : k' = k
      · subst hk'
        rw [hp1] at hq; cases hq
        exact ⟨_, _, hmine⟩
      · exact ⟨q.deps, q.bound, (hothers k' hk').trans hq⟩
    · intro k' q hq hqu
      by_cases hk' : k' = k
      · subst hk'
        rw [hp1] at hq; cases hq; rw [hu] at hqu; cases hqu
      · exact (hothers k' hk').trans hq
  · intro g hg
    rw [hfil] at hg
    rcases List.mem_append.mp hg with hg | hg
    · exact h.ok g hg
    · simp at hg; subst hg
      exact ⟨dep1, hd1, ⟨hanon, hstable, htyped, hset⟩⟩

/-- What holds when the import phase stops with an error or panic after `importing` the plugins `ks`. -/
def ImpFail (s0 : LoadSt) (ks : List Str) (f : Fail) (s : LoadSt) : Prop :=
  ImpFrame s0 s ∧ FailOK s.pm f ∧
    ∃ done, done <+: ks ∧ s.acts = s0.acts ++ (done.filterMap (importInst s0.pm.pluginMap)).map Act.callImport

theorem bindField_wp {k : Str} {p : Plugin} {s1 s : LoadSt} {done : List Field} {f : Field}
    {F : Fail → LoadSt → Prop}
    (hF : ∀ fl s', FailOK s'.pm fl → ImpFrame s1 s' → s'.acts = s1.acts → F fl s')
    (hu : p.unchanged = false) (hmem : importable f = true → f ∈ importFields p)
    (hp1 : s1.pm.pluginMap.get? k = some p) (h : FieldInv k p s1 done s) :
    wp (bindField k p f) (fun _ s' => FieldInv k p s1 (done ++ [f]) s') F s := by
  unfold bindField
  cases hf : importable f with
  | false =>
    simp only [if_true, wp_mpure]
    have hfil : (done ++ [f]).filter importable = done.filter importable := by simp [hf]
    exact ⟨h.frame, h.acts, by rw [hfil]; exact h.mine, h.others, by rw [hfil]; exact h.ok⟩
  | true =>
    simp only [Bool.true_eq_false, if_false]
    have hcur : ∃ q ∈ s.pm.pluginMap.vals, q.name = p.name ∧ q.unchanged = false ∧ q.reloadable = p.reloadable ∧ f ∈ importFields q :=
      ⟨_, GoMap.mem_vals.mpr ⟨k, h.mine⟩, rfl, hu, rfl, hmem hf⟩
    obtain ⟨q, hq, hqn, hqu, hqr, hqf⟩ := hcur
    cases hanon : f.anonymous with
    | true =>
      simp only [if_true, wp_throw]
      exact hF _ _ ⟨q, hq, hqn, hqu, f, hqf, rfl, hanon⟩ h.frame h.acts
    | false =>
      simp only [Bool.false_eq_true, if_false, wp_bind, wp_get]
      cases hd : s.pm.pluginMap.get? (name2key f.name) with
      | none =>
        simp only [wp_throw]
        exact hF _ _ ⟨q, hq, hqn, hqu, f, hqf, rfl, hd⟩ h.frame h.acts
      | some dep =>
        obtain ⟨dep1, d, b, hd1, hdep, _⟩ := h.frame.same.get' hd
        dsimp only
        cases hrel : (!p.reloadable && dep.reloadable) with
        | true =>
          simp only [if_true, wp_throw]
          simp at hrel
          exact hF _ _ ⟨q, hq, hqn, hqu, by rw [hqr]; exact hrel.1, f, hqf, dep, hd, rfl, hrel.2⟩ h.frame h.acts
        | false =>
          have hst : p.reloadable = false → dep.reloadable = false := by
            intro hpr; rw [hpr] at hrel; simpa using hrel
          simp only [Bool.false_eq_true, if_false]
          cases hnil : isNil dep.exported with
          | true =>
            have hbv : boundValue dep = none := by simp [boundValue, hnil]
            simp only [if_true, addDep, wp_modPm]
            rw [← hbv]
            exact addDep_inv hu hp1 h hf hanon hd1 ⟨d, b, hdep⟩ hst (by rw [hbv]; intro v hv; cases hv) (by rw [hbv]; intro h; exact absurd rfl h)
          | false =>
            simp only [Bool.false_eq_true, if_false]
            cases hex : dep.exported with
            | none => rw [hex] at hnil; simp [isNil] at hnil
            | some v =>
              have hbv : boundValue dep = some v := by unfold boundValue; rw [hnil, hex]; rfl
              dsimp only
              cases hasg : GoRuntime.assignable v.typ f.typ with
              | false =>
                simp only [if_true, wp_throw]
                exact hF _ _ ⟨q, hq, hqn, hqu, f, hqf, rfl, dep, v, hd, rfl, hbv, hasg⟩ h.frame h.acts
              | true =>
                simp only [Bool.true_eq_false, if_false]
                cases hexp : isExportedName f.name with
                | false =>
                  simp only [if_true, wp_panic]
                  exact hF _ _ ⟨q, hq, hqu, f, hqf, not_exportedName_iff.mp hexp, dep, v, hd, hbv⟩ h.frame h.acts
                | true =>
                  simp only [Bool.true_eq_false, if_false, addDep, wp_modPm]
                  rw [← hbv]
                  exact addDep_inv hu hp1 h hf hanon hd1 ⟨d, b, hdep⟩ hst
                    (by rw [hbv]; intro w hw; cases hw; exact hasg) (fun _ => exportedName_iff.mp hexp)

/-- State after the plugins with keys `done` have been imported. -/
structure ImpInv (s0 : LoadSt) (done : List Str) (s : LoadSt) : Prop where
  frame : ImpFrame s0 s
  acts : s.acts = s0.acts ++ (done.filterMap (importInst s0.pm.pluginMap)).map Act.callImport
  fresh : ∀ k p, s.pm.pluginMap.get? k = some p → p.unchanged = false → k ∈ done → Resolved s0.pm.pluginMap p
  todo : ∀ k, k ∉ done → s.pm.pluginMap.get? k = s0.pm.pluginMap.get? k

theorem importPlugin_wp {s0 s : LoadSt} {done rest : List Str} {k : Str} {ks : List Str}
    (hempty : ∀ k p, s0.pm.pluginMap.get? k = some p → p.unchanged = false → p.deps = [] ∧ p.bound = [])
    (hks : ks = done ++ k :: rest) (hnd : ks.Nodup)
    (hk : k ∈ s0.pm.pluginMap.keys)
    (h : ImpInv s0 done s) :
    wp (importPlugin k) (fun _ s' => ImpInv s0 (done ++ [k]) s') (ImpFail s0 ks) s := by
  have hkd : k ∉ done := by
    rw [hks, List.nodup_append] at hnd
    intro hkd
    exact hnd.2.2 k hkd k (List.mem_cons_self ..) rfl
  obtain ⟨p0, hp0⟩ := GoMap.mem_keys.mp hk
  have hp : s.pm.pluginMap.get? k = some p0 := by rw [h.todo k hkd, hp0]
  have hpre : done <+: ks := ⟨k :: rest, hks.symm⟩
  have hpre' : done ++ [k] <+: ks := ⟨rest, by simp [hks]⟩
  unfold importPlugin
  simp only [wp_bind, wp_get, hp]
  cases hu : p0.unchanged with
  | true =>
    simp only [if_true, wp_mpure]
    have hinst : importInst s0.pm.pluginMap k = none := by simp [importInst, hp0, hu]
    refine ⟨h.frame, ?_, ?_, ?_⟩
    · rw [List.filterMap_append]; simp [hinst, h.acts]
    · intro k' p hp' hpu hk'
      rcases List.mem_append.mp hk' with hk' | hk'
      · exact h.fresh k' p hp' hpu hk'
      · simp at hk'; subst hk'
        rw [hp] at hp'; cases hp'; rw [hu] at hpu; cases hpu
    · intro k' hk'
      exact h.todo k' (fun hm => hk' (List.mem_append_left _ hm))
  | false =>
    have hinst : importInst s0.pm.pluginMap k = some p0.inst := by simp [importInst, hp0, hu]
    have hacts : s.acts ++ [Act.callImport p0.inst]
        = s0.acts ++ ((done ++ [k]).filterMap (importInst s0.pm.pluginMap)).map Act.callImport := by
      rw [List.filterMap_append]; simp [hinst, h.acts]
    obtain ⟨hd0, hb0⟩ := hempty k p0 hp0 hu
    simp only [Bool.false_eq_true, if_false, wp_emit, wp_bind]
    -- a plugin without import fields
    have nofields : importFields p0 = [] → GoodImport p0.code →
        ImpInv s0 (done ++ [k]) { s with acts := s.acts ++ [Act.callImport p0.inst] } := by
      intro hnf hgi
      refine ⟨⟨h.frame.next, h.frame.pm, h.frame.same⟩, hacts, ?_, ?_⟩
      · intro k' p hp' hpu hk'
        rcases List.mem_append.mp hk' with hk' | hk'
        · exact h.fresh k' p hp' hpu hk'
        · simp at hk'; subst hk'
          simp only at hp'
          rw [hp] at hp'; cases hp'
          refine ⟨?_, ?_, ?_, hgi⟩ <;> rw [hnf]
          · intro f hf; simp at hf
          · simpa using hd0
          · simpa using hb0
      · intro k' hk'
        exact h.todo k' (fun hm => hk' (List.mem_append_left _ hm))
    have failnow : ∀ e, FailOK s.pm (.inl e) →
        ImpFail s0 ks (.inl e) { s with acts := s.acts ++ [Act.callImport p0.inst] } :=
      fun e he => ⟨⟨h.frame.next, h.frame.pm, h.frame.same⟩, he, done ++ [k], hpre', hacts⟩
    cases himp : p0.code.importRet with
    | panics =>
      simp only [invokeRet, wp_throw]
      exact failnow _ ⟨p0, GoMap.mem_vals.mpr ⟨k, hp⟩, rfl, hu, .inl himp⟩
    | ret imp =>
      simp only [invokeRet, wp_mpure]
      cases hv : imp.val with
      | none =>
        simp only [wp_mpure]
        exact nofields (by simp [importFields, himp, hv, isNil]) ⟨imp, himp, .inl (by rw [hv]; rfl)⟩
      | some v =>
        dsimp only
        cases hnil : isNil (some v) with
        | true =>
          simp only [if_true, wp_mpure]
          exact nofields (by simp [importFields, himp, hv, hnil]) ⟨imp, himp, .inl (by rw [hv]; exact hnil)⟩
        | false =>
          simp only [Bool.false_eq_true, if_false]
          cases hsp : isStructPtr v.typ with
          | false =>
            simp only [if_true, wp_throw]
            exact failnow _ ⟨p0, GoMap.mem_vals.mpr ⟨k, hp⟩, rfl, hu, imp, v, himp, hv, hnil, hsp⟩
          | true =>
            simp only [Bool.true_eq_false, if_false]
            have hfields : importFields p0 = imp.fields.filter importable := by
              simp [importFields, himp, hv, hnil]
            refine wp_forEach _ _ (FieldInv k p0 { s with acts := s.acts ++ [Act.callImport p0.inst] }) _ ?_ ?_ ?_
            · refine ⟨⟨rfl, rfl, SameMap.refl _⟩, rfl, ?_, fun _ _ => rfl, by simp⟩
              simp only [List.filter_nil, List.filterMap_nil]
              rw [hp, ← hd0, ← hb0]
            · intro dn f rst s' hl hinv
              refine bindField_wp ?_ hu (fun hf => by rw [hfields, List.mem_filter]; exact ⟨by rw [hl]; simp, hf⟩) hp hinv
              intro fl s'' hok hfr hac
              refine ⟨⟨hfr.next.trans h.frame.next, ?_, h.frame.same.trans hfr.same⟩, hok, done ++ [k], hpre', ?_⟩
              · have e1 := hfr.pm
                have e2 := h.frame.pm
                simp only at e1
                rw [e1, e2]
              · rw [hac]; exact hacts
            · intro s' hinv
              have hs := hinv.frame.same
              simp only at hs
              refine ⟨⟨hinv.frame.next.trans h.frame.next, ?_, h.frame.same.trans hs⟩, ?_, ?_, ?_⟩
              · have e1 := hinv.frame.pm
                have e2 := h.frame.pm
                simp only at e1
                rw [e1, e2]
              · rw [hinv.acts]; exact hacts
              · intro k' p hp' hpu hk'
                by_cases hkk : k' = k
                · subst hkk
                  have hm := hinv.mine
                  rw [hp'] at hm
                  simp only [Option.some.injEq] at hm
                  have hif : importFields p = imp.fields.filter importable := by
                    rw [hm]; exact hfields
                  have hsame := h.frame.same
                  refine ⟨?_, ?_, ?_, by rw [hm]; exact ⟨imp, himp, .inr ((isStructPtr_true hsp).elim fun id hid => ⟨v, id, hv, hid⟩)⟩⟩
                  · rw [hif]
                    intro f hf
                    obtain ⟨dep, hd, hok⟩ := hinv.ok f hf
                    simp only at hd
                    obtain ⟨dep0, d, b, h0, rfl, _⟩ := hsame.get' hd
                    refine ⟨dep0, h0, ?_⟩
                    rw [hm]
                    exact ⟨hok.named, hok.stable, hok.typed, hok.settable⟩
                  · rw [hif, hm]
                    simp only
                    congr 1; funext f
                    exact hsame.map (·.name) (fun _ _ _ => rfl) _
                  · rw [hif, hm]
                    simp only
                    congr 1; funext f
                    exact hsame.map (fun dep => (⟨f.name, dep.inst, boundValue dep⟩ : Binding)) (fun _ _ _ => rfl) _
                · rw [hinv.others k' hkk] at hp'
                  have hk'd : k' ∈ done := by
                    rcases List.mem_append.mp hk' with h' | h'
                    · exact h'
                    · simp at h'; exact absurd h' hkk
                  exact h.fresh k' p hp' hpu hk'd
              · intro k' hk'
                have hkk : k' ≠ k := fun e => hk' (by simp [e])
                rw [hinv.others k' hkk]
                exact h.todo k' (fun hm => hk' (List.mem_append_left _ hm))

theorem importLoop_wp {s0 : LoadSt} {ks : List Str}
    (hempty : ∀ k p, s0.pm.pluginMap.get? k = some p → p.unchanged = false → p.deps = [] ∧ p.bound = [])
    (hnd : ks.Nodup) (hks : ∀ k ∈ ks, k ∈ s0.pm.pluginMap.keys) :
    wp (forEach ks importPlugin) (fun _ s' => ImpInv s0 ks s') (ImpFail s0 ks) s0 := by
  refine wp_forEach _ _ (ImpInv s0) _ ?_ ?_ (fun _ h => h)
  · exact ⟨⟨rfl, rfl, SameMap.refl _⟩, by simp, by simp, fun _ _ => rfl⟩
  · intro done a rest s hl h
    exact importPlugin_wp hempty hl hnd (hks a (by rw [hl]; simp)) h

end Hotswap
