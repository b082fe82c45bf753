import Verif.Proofs.Plan
import Verif.Spec.Clash

/-! Static loads when names are equal up to case: what is left if the actions of overwritten instances are dropped. -/

namespace Hotswap

variable [GoRuntime]

/-- The actions that do not concern the instances `lost`. -/
def without (lost : List Nat) (l : List Act) : List Act :=
  l.filter (fun a => match a.inst? with | some i => !lost.contains i | none => true)

omit [GoRuntime] in
theorem mem_without {lost : List Nat} {l : List Act} {a : Act} : a ∈ without lost l ↔ a ∈ l ∧ ∀ i, a.inst? = some i → i ∉ lost := by
  unfold without
  rw [List.mem_filter]
  constructor
  · rintro ⟨h1, h2⟩
    refine ⟨h1, fun i hi => ?_⟩
    rw [hi] at h2
    simpa using h2
  · rintro ⟨h1, h2⟩
    refine ⟨h1, ?_⟩
    cases hi : a.inst? with
    | none => rfl
    | some i => simpa using h2 i hi

omit [GoRuntime] in
theorem acquires_inst {a : Act} {i : Nat} (h : acquires a = some i) : a.inst? = some i := by
  cases a <;> simp [acquires] at h <;> simp [Act.inst?, h]

omit [GoRuntime] in
theorem hookOf_inst {a : Act} {i : Nat} {g : Hook} (h : hookOf a = some (i, g)) : a.inst? = some i := by
  cases a <;> simp [hookOf] at h <;> simp [Act.inst?, h]

omit [GoRuntime] in
theorem acquired_without_one (i : Nat) (l : List Act) : acquired (without [i] l) = (acquired l).filter (fun j => j != i) := by
  induction l with
  | nil => rfl
  | cons a r ih =>
    have hs : ∀ x : List Act, acquired (a :: x) = (acquires a).toList ++ acquired x := by
      intro x; unfold acquired; rw [List.filterMap_cons]; cases acquires a <;> rfl
    rw [hs, List.filter_append, ← ih]
    unfold without
    rw [List.filter_cons]
    cases hq : acquires a with
    | none =>
      by_cases hc : (match a.inst? with | some i_1 => !List.contains [i] i_1 | none => true) = true
      · rw [if_pos hc, hs, hq]; rfl
      · rw [if_neg hc]; rfl
    | some j =>
      rw [acquires_inst hq]
      by_cases e : j = i
      · subst e; simp
      · simp only [List.contains_cons, List.contains_nil, Bool.or_false]
        rw [if_pos (by simp [e]), hs, hq]
        simp [e]

omit [GoRuntime] in
theorem inst_ne_iff {pm : Manager} (hn : pm.insts.Nodup) {k : Str} {p : Plugin} (hp : pm.pluginMap.get? k = some p) :
    ({ pm with pluginMap := pm.pluginMap.filter (fun k' _ => k' != k) } : Manager).insts = pm.insts.filter (fun j => j != p.inst) := by
  unfold Manager.insts GoMap.vals GoMap.filter
  simp only [List.map_map]
  rw [List.filter_map]
  congr 1
  refine List.filter_congr ?_
  intro e he
  have hg : pm.pluginMap.get? e.1 = some e.2 := GoMap.get?_eq_some.mpr he
  by_cases hk : e.1 = k
  · have : e.2 = p := by rw [hk, hp] at hg; cases hg; rfl
    simp [hk, this]
  · have : e.2.inst ≠ p.inst := fun h => hk (inst_key_inj hn hg hp h).1
    rw [bne_iff_ne.mpr hk]; exact (bne_iff_ne.mpr this).symm

/-- Actions on a list restricted to a sublist. -/
theorem Base.remove {n0 : Nat} {pm0 : Manager} {s : LoadSt} (h : Base none n0 pm0 s) {k : Str} {p : Plugin} (hp : s.pm.pluginMap.get? k = some p) :
    Base none n0 pm0 { s with
      acts := without [p.inst] s.acts
      pm := { s.pm with pluginMap := s.pm.pluginMap.filter (fun k' _ => k' != k) } } := by
  have hsub : ∀ a ∈ without [p.inst] s.acts, a ∈ s.acts := fun a ha => (mem_without.mp ha).1
  have hget : ∀ k' q, (s.pm.pluginMap.filter (fun k' _ => k' != k)).get? k' = some q → s.pm.pluginMap.get? k' = some q := by
    intro k' q hq
    rw [GoMap.get?_filter] at hq
    cases hk' : s.pm.pluginMap.get? k' with
    | none => rw [hk'] at hq; cases hq
    | some q' =>
      rw [hk'] at hq
      simp only [Option.filter] at hq
      split at hq
      · exact hq
      · cases hq
  refine ⟨fun k' q hq => h.keyed k' q (hget k' q hq), ?_, ?_, h.lo, fun k' q hq => h.origin k' q (hget k' q hq), ?_, fun a ha => h.stage a (hsub a ha), ?_,
    fun a ha => h.range a (hsub a ha), fun i hi => h.incs i (hsub _ hi), fun i hi => h.regs i (hsub _ hi)⟩
  · rw [acquired_without_one, inst_ne_iff h.nodup hp]
    exact h.acq.filter _
  · rw [inst_ne_iff h.nodup hp]; exact h.nodup.filter _
  · have := h.pm
    show ({ s.pm with pluginMap := s.pm.pluginMap.filter (fun k' _ => k' != k) } : Manager) = _
    generalize s.pm = pm at *
    rw [this]
  · exact h.incr.sublist List.filter_sublist

/-- The order of the entries of the map does not matter. -/
theorem Base.congr {n0 : Nat} {pm0 : Manager} {s : LoadSt} (h : Base none n0 pm0 s) {m : GoMap Plugin} (hm : ∀ k, m.get? k = s.pm.pluginMap.get? k) :
    Base none n0 pm0 { s with pm := { s.pm with pluginMap := m } } := by
  have hperm : m.entries.Perm s.pm.pluginMap.entries := GoMap.entries_perm_of_get? hm
  have hi : ({ s.pm with pluginMap := m } : Manager).insts.Perm s.pm.insts := (hperm.map Prod.snd).map (fun p : Plugin => p.inst)
  refine ⟨fun k q hq => h.keyed k q (by rw [← hm]; exact hq), h.acq.trans hi.symm, hi.symm.nodup h.nodup, h.lo,
    fun k q hq => h.origin k q (by rw [← hm]; exact hq), ?_, h.stage, h.incr, h.range, h.incs, h.regs⟩
  have := h.pm
  show ({ s.pm with pluginMap := m } : Manager) = _
  generalize s.pm = pm at *
  rw [this]

theorem StaticInv.congr {n0 : Nat} {pm0 : Manager} {sps : GoMap StaticPlugin} {done : List Str} {s : LoadSt} (h : StaticInv n0 pm0 sps done s) {m : GoMap Plugin}
    (hm : ∀ k, m.get? k = s.pm.pluginMap.get? k) : StaticInv n0 pm0 sps done { s with pm := { s.pm with pluginMap := m } } := by
  refine ⟨h.base.congr hm, ?_, ?_, ?_, ?_⟩
  · intro n hn
    obtain ⟨sp, p, h1, h2, h3⟩ := h.new n hn
    exact ⟨sp, p, h1, (hm _).trans h2, h3⟩
  · intro k p hp; exact h.only k p ((hm k).symm.trans hp)
  · intro a ha i g hg
    obtain ⟨k, p, h1, h2⟩ := h.asked.only a ha i g hg
    exact ⟨k, p, (hm k).trans h1, h2⟩
  · intro k p hp hu; exact h.asked.all k p ((hm k).symm.trans hp) hu

/-- Forgetting a plugin. -/
theorem StaticInv.remove {n0 : Nat} {pm0 : Manager} {sps : GoMap StaticPlugin} {done : List Str} {s : LoadSt} (h : StaticInv n0 pm0 sps done s)
    {n : Str} {sp : StaticPlugin} {p : Plugin} (hsp : sps.get? n = some sp) (hp : s.pm.pluginMap.get? (name2key sp.name) = some p)
    (hinj : ∀ n' ∈ done, ∀ sp', sps.get? n' = some sp' → name2key sp'.name = name2key sp.name → n' = n) (hnd : done.Nodup) :
    StaticInv n0 pm0 sps (done.erase n) { s with
      acts := without [p.inst] s.acts
      pm := { s.pm with pluginMap := s.pm.pluginMap.filter (fun k' _ => k' != name2key sp.name) } } := by
  have hget : ∀ k' q, (s.pm.pluginMap.filter (fun k' _ => k' != name2key sp.name)).get? k' = some q ↔ s.pm.pluginMap.get? k' = some q ∧ k' ≠ name2key sp.name := by
    intro k' q
    rw [GoMap.get?_filter]
    cases s.pm.pluginMap.get? k' with
    | none => simp
    | some q' => by_cases hk : k' = name2key sp.name <;> simp [hk, Option.filter]
  have hother : ∀ k' q, s.pm.pluginMap.get? k' = some q → k' ≠ name2key sp.name → q.inst ≠ p.inst := by
    intro k' q hq hne he
    exact hne (inst_key_inj h.base.nodup hq hp he).1
  refine ⟨h.base.remove hp, ?_, ?_, ?_, ?_⟩
  · intro n' hn'
    have hmem := List.mem_of_mem_erase hn'
    have hne : n' ≠ n := ((List.Nodup.mem_erase_iff hnd).mp hn').1
    obtain ⟨sp', q, h1, h2, h3⟩ := h.new n' hmem
    exact ⟨sp', q, h1, (hget _ _).mpr ⟨h2, fun e => hne (hinj n' hmem sp' h1 e)⟩, h3⟩
  · intro k' q hq
    obtain ⟨hq, hne⟩ := (hget _ _).mp hq
    obtain ⟨n', hn', sp', hsp', hk'⟩ := h.only k' q hq
    refine ⟨n', (List.Nodup.mem_erase_iff hnd).mpr ⟨?_, hn'⟩, sp', hsp', hk'⟩
    rintro rfl
    rw [hsp] at hsp'; cases hsp'
    exact hne hk'.symm
  · intro a ha i g hg
    obtain ⟨ha, hni⟩ := mem_without.mp ha
    obtain ⟨k', q, hq, hu, hi⟩ := h.asked.only a ha i g hg
    refine ⟨k', q, (hget _ _).mpr ⟨hq, ?_⟩, hu, hi⟩
    rintro rfl
    rw [hp] at hq; cases hq
    exact hni i (hookOf_inst hg) (by simp [hi])
  · intro k' q hq hu
    obtain ⟨hq, hne⟩ := (hget _ _).mp hq
    obtain ⟨h1, h2⟩ := h.asked.all k' q hq hu
    have := hother k' q hq hne
    refine ⟨mem_without.mpr ⟨h1, ?_⟩, mem_without.mpr ⟨h2, ?_⟩⟩ <;>
    · intro i hi; cases hi; simpa using this

/-- The plugin `loadStaticPlugin` enters. -/
def staticPluginOf (sp : StaticPlugin) (i : Nat) (r : Bool) (x : Option Val) : Plugin :=
  { inst := i, name := sp.name, file := [], sha := 0, note := .ok, unchanged := false, syms := none, code := sp.code, deps := [], exported := x,
    reloadable := r, bound := [] }

/-- What `loadStaticPlugin` does on success for a new instance. -/
def threeActs (i : Nat) : List Act := [.callReloadable i, .callExport i, .register i]

/-- What `loadStaticPlugin` does depends on the plugin only. -/
theorem loadStaticPlugin_run (sp : StaticPlugin) :
    (∃ r x, staticMissing sp = [] ∧ sp.code.reloadable = .ret r ∧ sp.code.exportRet = .ret x ∧ ∀ s, loadStaticPlugin sp s = (.ok (),
        ⟨s.next + 1, { s.pm with pluginMap := s.pm.pluginMap.insert (name2key sp.name) (staticPluginOf sp s.next r x) }, s.acts ++ threeActs s.next⟩)) ∨
    (∃ e, StaticFault sp e ∧ ∀ s, ∃ ext, loadStaticPlugin sp s = (.err e, ⟨s.next + 1, s.pm, s.acts ++ ext⟩) ∧
      ext <+: [Act.callReloadable s.next, Act.callExport s.next]) := by
  unfold loadStaticPlugin
  cases hl : staticMissing sp with
  | cons m ms => exact .inr ⟨.missing (m :: ms), ⟨hl.symm, by simp⟩, fun s => ⟨[], by simp [Bind.bind, M.bind, M.alloc, M.throw], List.nil_prefix⟩⟩
  | nil =>
    cases hr : sp.code.reloadable with
    | panics =>
      exact .inr ⟨.hookPanic sp.name, ⟨rfl, hl, .inl hr⟩, fun s => ⟨[.callReloadable s.next], by simp [Bind.bind, M.bind, M.alloc, M.throw, M.emit, invokeRet], ⟨[.callExport s.next], rfl⟩⟩⟩
    | ret r =>
      cases he : sp.code.exportRet with
      | panics =>
        exact .inr ⟨.hookPanic sp.name, ⟨rfl, hl, .inr he⟩, fun s => ⟨[.callReloadable s.next, .callExport s.next], by simp [Bind.bind, M.bind, M.alloc, M.throw, M.emit, M.pure, invokeRet], List.prefix_refl _⟩⟩
      | ret x =>
        exact .inl ⟨r, x, rfl, rfl, rfl, fun s => by simp [Bind.bind, M.bind, M.alloc, M.emit, M.pure, M.modPm, invokeRet, setPlugin, staticPluginOf, threeActs]⟩

/-- The actions of `n` plugins that were registered, with instances from `a` on. -/
def createdActs (a n : Nat) : List Act := (List.range' a n).flatMap threeActs

omit [GoRuntime] in
theorem createdActs_succ (a n : Nat) : createdActs a (n + 1) = createdActs a n ++ threeActs (a + n) := by
  unfold createdActs
  rw [List.range'_concat, List.flatMap_append]
  simp

/-- State of the loading loop after the map keys `done`; `alive` are those that were not overwritten. -/
structure ClashInv (n0 : Nat) (pm0 : Manager) (sel : GoMap StaticPlugin) (a : Nat) (done alive : List Str) (s : LoadSt) : Prop where
  inv : ∃ acts', StaticInv n0 pm0 sel alive { s with acts := acts' }
  sub : ∀ n ∈ alive, n ∈ done
  nodup : alive.Nodup
  inj : ∀ n ∈ alive, ∀ n' ∈ alive, ∀ sp sp', sel.get? n = some sp → sel.get? n' = some sp' → name2key sp.name = name2key sp'.name → n = n'
  top : ∀ n ∈ done, ∀ sp, sel.get? n = some sp → ∃ n' ∈ alive, ∃ sp', sel.get? n' = some sp' ∧ name2key sp'.name = name2key sp.name ∧ n ≤ n'
  usable : ∀ n ∈ done, ∀ sp, sel.get? n = some sp → staticMissing sp = [] ∧ (∃ r, sp.code.reloadable = .ret r) ∧ ∃ x, sp.code.exportRet = .ret x
  next : s.next = a + done.length
  acts : s.acts = createdActs a done.length

theorem ClashInv.step {n0 : Nat} {pm0 : Manager} {sel : GoMap StaticPlugin} {a : Nat} {done alive : List Str} {s : LoadSt} (h : ClashInv n0 pm0 sel a done alive s)
    {n : Str} {sp : StaticPlugin} (hsp : sel.get? n = some sp) (hlast : ∀ n' ∈ done, n' ≤ n ∧ n' ≠ n) {r : Bool} {x : Option Val}
    (hm : staticMissing sp = []) (hr : sp.code.reloadable = .ret r) (hx : sp.code.exportRet = .ret x)
    (hrun : ∀ s, loadStaticPlugin sp s = (.ok (),
        ⟨s.next + 1, { s.pm with pluginMap := s.pm.pluginMap.insert (name2key sp.name) (staticPluginOf sp s.next r x) }, s.acts ++ threeActs s.next⟩)) :
    ∃ alive', ClashInv n0 pm0 sel a (done ++ [n]) alive'
      ⟨s.next + 1, { s.pm with pluginMap := s.pm.pluginMap.insert (name2key sp.name) (staticPluginOf sp s.next r x) }, s.acts ++ threeActs s.next⟩ := by
  obtain ⟨acts', hinv⟩ := h.inv
  -- the plugin with that name up to case, if there is one, is forgotten
  obtain ⟨alive0, acts0, m0, hinv0, hsub0, hnd0, hfresh, hm0⟩ : ∃ alive0 acts0 m0, StaticInv n0 pm0 sel alive0 ⟨s.next, { s.pm with pluginMap := m0 }, acts0⟩ ∧
      (∀ n' ∈ alive0, n' ∈ alive) ∧ alive0.Nodup ∧ (∀ n' ∈ alive0, ∀ sp', sel.get? n' = some sp' → name2key sp'.name ≠ name2key sp.name) ∧
      (∀ k, k ≠ name2key sp.name → m0.get? k = s.pm.pluginMap.get? k) ∧
      (∀ n' ∈ alive, n' ∉ alive0 → ∀ sp', sel.get? n' = some sp' → name2key sp'.name = name2key sp.name) := by
    by_cases hc : ∃ n' ∈ alive, ∃ sp', sel.get? n' = some sp' ∧ name2key sp'.name = name2key sp.name
    · obtain ⟨n', hn', sp', hsp', hkey⟩ := hc
      obtain ⟨sp'', p, h1, h2, h3⟩ := hinv.new n' hn'
      rw [hsp'] at h1; cases h1
      have hrem := hinv.remove hsp' h2 (fun n2 hn2 sp2 hsp2 e => h.inj n2 hn2 n' hn' sp2 sp' hsp2 hsp' e) h.nodup
      refine ⟨alive.erase n', _, _, hrem, fun n2 hn2 => List.mem_of_mem_erase hn2, h.nodup.erase _, ?_, ?_, ?_⟩
      · intro n2 hn2 sp2 hsp2 e
        obtain ⟨hne, hmem⟩ := (List.Nodup.mem_erase_iff h.nodup).mp hn2
        exact hne (h.inj n2 hmem n' hn' sp2 sp' hsp2 hsp' (e.trans hkey.symm))
      · intro k hk
        rw [GoMap.get?_filter, hkey]
        cases s.pm.pluginMap.get? k with
        | none => rfl
        | some q => simp [Option.filter, hk]
      · intro n2 hn2 hni sp2 hsp2
        by_cases e : n2 = n'
        · subst e; rw [hsp'] at hsp2; cases hsp2; exact hkey
        · exact absurd ((List.Nodup.mem_erase_iff h.nodup).mpr ⟨e, hn2⟩) hni
    · refine ⟨alive, acts', s.pm.pluginMap, hinv, fun _ h => h, h.nodup, ?_, fun _ _ => rfl, fun n' hn' hni => absurd hn' hni⟩
      intro n' hn' sp' hsp' e
      exact hc ⟨n', hn', sp', hsp', e⟩
  have hwp := loadStaticPlugin_wp hsp hfresh hinv0
  unfold wp at hwp
  rw [hrun] at hwp
  have hnew : StaticInv n0 pm0 sel (alive0 ++ [n]) _ := hwp
  have hnn : n ∉ alive0 := fun hn => (hlast n (h.sub n (hsub0 n hn))).2 rfl
  have hcong := hnew.congr (m := s.pm.pluginMap.insert (name2key sp.name) (staticPluginOf sp s.next r x)) (by
    intro k
    simp only [GoMap.get?_insert]
    split
    · rfl
    · rename_i hk; exact (hm0.1 k (fun e => hk e)).symm)
  refine ⟨alive0 ++ [n], ⟨⟨_, hcong⟩, ?_, ?_, ?_, ?_, ?_, ?_, ?_⟩⟩
  · intro n' hn'
    rcases List.mem_append.mp hn' with hn' | hn'
    · exact List.mem_append_left _ (h.sub n' (hsub0 n' hn'))
    · exact List.mem_append_right _ hn'
  · rw [List.nodup_append]
    refine ⟨hnd0, by simp, ?_⟩
    rintro u hu v hv rfl
    simp at hv; subst hv
    exact hnn hu
  · intro n1 hn1 n2 hn2 sp1 sp2 h1 h2 he
    replace hn1 := List.mem_append.mp hn1
    replace hn2 := List.mem_append.mp hn2
    rcases hn1 with hn1 | hn1 <;> rcases hn2 with hn2 | hn2
    · exact h.inj n1 (hsub0 _ hn1) n2 (hsub0 _ hn2) sp1 sp2 h1 h2 he
    · simp at hn2; subst hn2; rw [hsp] at h2; cases h2
      exact absurd he (hfresh n1 hn1 sp1 h1)
    · simp at hn1; subst hn1; rw [hsp] at h1; cases h1
      exact absurd he.symm (hfresh n2 hn2 sp2 h2)
    · simp at hn1 hn2; rw [hn1, hn2]
  · intro n1 hn1 sp1 h1
    rcases List.mem_append.mp hn1 with hn1 | hn1
    · obtain ⟨n', hn', sp', hsp', hkey, hle⟩ := h.top n1 hn1 sp1 h1
      by_cases hin : n' ∈ alive0
      · exact ⟨n', by simp [hin], sp', hsp', hkey, hle⟩
      · have := hm0.2 n' hn' hin sp' hsp'
        exact ⟨n, by simp, sp, hsp, this.symm.trans hkey, List.le_trans hle (hlast n' (h.sub n' hn')).1⟩
    · simp at hn1; subst hn1
      rw [hsp] at h1; cases h1
      exact ⟨n1, by simp, sp, hsp, rfl, List.le_refl _⟩
  · intro n1 hn1 sp1 h1
    rcases List.mem_append.mp hn1 with hn1 | hn1
    · exact h.usable n1 hn1 sp1 h1
    · simp at hn1; subst hn1
      rw [hsp] at h1; cases h1
      exact ⟨hm, ⟨r, hr⟩, ⟨x, hx⟩⟩
  · simp [h.next]; omega
  · simp only [List.length_append, List.length_cons, List.length_nil]
    rw [createdActs_succ, h.acts, h.next]

/-- How the loading loop ends when a plugin cannot be used. -/
structure ClashFailed (n0 : Nat) (pm0 : Manager) (sel : GoMap StaticPlugin) (a : Nat) (f : Fail) (s : LoadSt) : Prop where
  base : ∃ acts', Base none n0 pm0 { s with acts := acts' }
  why : StaticNewFail sel s f
  acts : ∃ k ext, s.next = a + k + 1 ∧ s.acts = createdActs a k ++ ext ∧ ext <+: [Act.callReloadable (a + k), Act.callExport (a + k)]

theorem GoMap_get?_lastOnes {sel : GoMap StaticPlugin} {n : Str} {sp : StaticPlugin} : (lastOnes sel).get? n = some sp ↔
    sel.get? n = some sp ∧ ∀ n' sp', sel.get? n' = some sp' → name2key sp'.name = name2key sp.name → n' ≤ n := by
  unfold lastOnes
  rw [GoMap.get?_filter]
  have hall : ∀ q : StaticPlugin, (sel.entries.all (fun e => name2key e.2.name != name2key q.name || decide (e.1 ≤ n))) = true ↔
      ∀ n' sp', sel.get? n' = some sp' → name2key sp'.name = name2key q.name → n' ≤ n := by
    intro q
    rw [List.all_eq_true]
    constructor
    · intro h n' sp' hs hk
      have := h (n', sp') (GoMap.get?_eq_some.mp hs)
      simpa [hk] using this
    · intro h e he
      by_cases hk : name2key e.2.name = name2key q.name
      · simp [h e.1 e.2 (GoMap.get?_eq_some.mpr he) hk]
      · simp [hk]
  cases sel.get? n with
  | none => simp
  | some q =>
    simp only [Option.filter, Option.some.injEq]
    split
    · rename_i hc
      constructor
      · intro h; cases h; exact ⟨rfl, (hall _).mp hc⟩
      · rintro ⟨rfl, _⟩; rfl
    · rename_i hc
      constructor
      · intro h; cases h
      · rintro ⟨rfl, h⟩; exact absurd ((hall _).mpr h) hc

/-- How the loading loop ends when all plugins can be used. -/
structure ClashDone (n0 : Nat) (pm0 : Manager) (sel : GoMap StaticPlugin) (a : Nat) (s : LoadSt) : Prop where
  inv : ∃ acts', StaticInv n0 pm0 (lastOnes sel) (lastOnes sel).keys { s with acts := acts' }
  usable : ∀ n sp, sel.get? n = some sp → staticMissing sp = [] ∧ (∃ r, sp.code.reloadable = .ret r) ∧ ∃ x, sp.code.exportRet = .ret x
  next : s.next = a + sel.size
  acts : s.acts = createdActs a sel.size

theorem loadStaticNew_clash {n0 : Nat} {s0 : LoadSt} {sel : GoMap StaticPlugin} (it : Iter)
    (h : Base none n0 s0.pm s0) (hempty : s0.pm.pluginMap = .empty) (hacts : s0.acts = []) :
    wp (loadStaticNew it sel) (fun _ s => ClashDone n0 s0.pm sel s0.next s) (fun f s => ClashFailed n0 s0.pm sel s0.next f s) s0 := by
  unfold loadStaticNew
  have hperm : (sortStrings (sel.range it .static)).Perm sel.keys := (sortStrings_perm _).trans (GoMap.range_perm ..)
  have hnd : (sortStrings (sel.range it .static)).Nodup := (sortStrings_perm _).symm.nodup (GoMap.range_nodup ..)
  have hsorted := sortStrings_sorted (sel.range it .static)
  have hall : ∀ k, k ∈ sortStrings (sel.range it .static) ↔ k ∈ sel.keys := by
    intro k; rw [mem_sortStrings, GoMap.mem_range]
  refine wp_forEach _ _ (fun done s => ∃ alive, ClashInv n0 s0.pm sel s0.next done alive s) _ ⟨[], ⟨⟨[], ?_⟩, by simp, by simp, by simp, by simp, by simp, by simp, by simp [createdActs, hacts]⟩⟩ ?_ ?_
  · rw [← hacts]
    refine ⟨h, by simp, ?_, ?_⟩
    · intro k p hp; rw [hempty] at hp; cases hp
    · constructor
      · intro a ha; rw [hacts] at ha; cases ha
      · intro k p hp; rw [hempty] at hp; cases hp
  · rintro done n rest s hl ⟨alive, hinv⟩
    have hmem : n ∈ sel.keys := (hall n).mp (by rw [hl]; simp)
    obtain ⟨sp, hsp⟩ := GoMap.mem_keys.mp hmem
    have hlast : ∀ n' ∈ done, n' ≤ n ∧ n' ≠ n := by
      intro n' hn'
      rw [hl, List.nodup_append] at hnd
      rw [hl, List.pairwise_append] at hsorted
      exact ⟨hsorted.2.2 n' hn' n (by simp), hnd.2.2 n' hn' n (by simp)⟩
    rw [hsp]
    unfold wp tagPanic wrapLoading
    simp only
    rcases loadStaticPlugin_run sp with ⟨r, x, hm, hr, hx, hrun⟩ | ⟨e, hf, hrun⟩
    · rw [hrun s]
      exact hinv.step hsp hlast hm hr hx hrun
    · obtain ⟨ext, he, hpre⟩ := hrun s
      rw [he]
      obtain ⟨acts', hb⟩ := hinv.inv
      refine ⟨⟨acts', hb.base.alloc⟩, ⟨sp, hsp, hf⟩, done.length, ext, ?_, ?_, ?_⟩
      · simp [hinv.next]
      · simp [hinv.acts]
      · rw [← hinv.next]; exact hpre
  · rintro s ⟨alive, hinv⟩
    have hlen : (sortStrings (sel.range it .static)).length = sel.size := by
      rw [hperm.length_eq]; simp [GoMap.keys, GoMap.size]
    have hmem : ∀ n, n ∈ alive ↔ n ∈ (lastOnes sel).keys := by
      intro n
      constructor
      · intro hn
        obtain ⟨sp, hsp⟩ := GoMap.mem_keys.mp ((hall n).mp (hinv.sub n hn))
        refine GoMap.mem_keys.mpr ⟨sp, GoMap_get?_lastOnes.mpr ⟨hsp, fun n' sp' hsp' hk => ?_⟩⟩
        obtain ⟨n2, hn2, sp2, hsp2, hk2, hle⟩ := hinv.top n' ((hall n').mpr (GoMap.mem_keys.mpr ⟨sp', hsp'⟩)) sp' hsp'
        have := hinv.inj n2 hn2 n hn sp2 sp hsp2 hsp (hk2.trans hk)
        rw [this] at hle; exact hle
      · intro hn
        obtain ⟨sp, hsp⟩ := GoMap.mem_keys.mp hn
        obtain ⟨hsp, hmax⟩ := GoMap_get?_lastOnes.mp hsp
        obtain ⟨n2, hn2, sp2, hsp2, hk2, hle⟩ := hinv.top n ((hall n).mpr (GoMap.mem_keys.mpr ⟨sp, hsp⟩)) sp hsp
        have := List.le_antisymm hle (hmax n2 sp2 hsp2 hk2)
        rw [this]; exact hn2
    obtain ⟨acts', hi⟩ := hinv.inv
    have hget : ∀ n ∈ alive, (lastOnes sel).get? n = sel.get? n := by
      intro n hn
      obtain ⟨sp, hsp⟩ := GoMap.mem_keys.mp ((hmem n).mp hn)
      rw [hsp, (GoMap_get?_lastOnes.mp hsp).1]
    refine ⟨⟨acts', hi.base, ?_, ?_, hi.asked⟩, fun n sp hsp => hinv.usable n ((hall n).mpr (GoMap.mem_keys.mpr ⟨sp, hsp⟩)) sp hsp, by rw [hinv.next, hlen], by rw [hinv.acts, hlen]⟩
    · intro n hn
      obtain ⟨sp, p, h1, h2⟩ := hi.new n ((hmem n).mpr hn)
      exact ⟨sp, p, (hget n ((hmem n).mpr hn)).trans h1, h2⟩
    · intro k p hp
      obtain ⟨n, hn, sp, hsp, hk⟩ := hi.only k p hp
      exact ⟨n, (hmem n).mp hn, sp, (hget n hn).trans hsp, hk⟩

end Hotswap
