import Verif.Proofs.FinishLoad

/-! Invariant of the first stage of a load (keeping and opening plugins). -/

namespace Hotswap

variable [GoRuntime]

open M

/-- On every instance, the hooks called are in strictly increasing life-cycle order. -/
def HooksIncr (l : List Act) : Prop :=
  l.Pairwise (fun a b => ∀ i h h', hookOf a = some (i, h) → hookOf b = some (i, h') → h.rank < h'.rank)

/-- `p` is a copy of the plugin the old manager stores under `k`. -/
def KeptFrom (old : Option Manager) (k : Str) (p : Plugin) : Prop :=
  ∃ om oldP note, old = some om ∧ om.pluginMap.get? k = some oldP ∧ p = { oldP with unchanged := true, note := note }

/-- `p` was created by this load. -/
structure FreshIn (n0 next : Nat) (p : Plugin) : Prop where
  changed : p.unchanged = false
  lo : n0 ≤ p.inst
  hi : p.inst < next
  deps : p.deps = []
  bound : p.bound = []
  faithful : Faithful p

/-- Holds throughout the first stage. `pm0` is the manager at the start. -/
structure Base (old : Option Manager) (n0 : Nat) (pm0 : Manager) (s : LoadSt) : Prop where
  keyed : Keyed s.pm.pluginMap
  acq : (acquired s.acts).Perm s.pm.insts
  nodup : s.pm.insts.Nodup
  lo : n0 < s.next
  origin : ∀ k p, s.pm.pluginMap.get? k = some p → KeptFrom old k p ∨ FreshIn n0 s.next p
  pm : s.pm = { pm0 with pluginMap := s.pm.pluginMap }
  stage : ∀ a ∈ s.acts, a.stage = 1
  incr : HooksIncr s.acts
  range : ∀ a ∈ s.acts, ∀ i h, hookOf a = some (i, h) → n0 ≤ i ∧ i < s.next
  incs : ∀ i, Act.inc i ∈ s.acts → ∃ om, old = some om ∧ i ∈ om.insts
  regs : ∀ i, Act.register i ∈ s.acts → n0 ≤ i ∧ i < s.next

/-- In the first stage of a load exactly the new plugins were asked `Reloadable` and `Export`. -/
structure Asked (s : LoadSt) : Prop where
  only : ∀ a ∈ s.acts, ∀ i g, hookOf a = some (i, g) → ∃ k p, s.pm.pluginMap.get? k = some p ∧ p.unchanged = false ∧ p.inst = i
  all : ∀ k p, s.pm.pluginMap.get? k = some p → p.unchanged = false → Act.callReloadable p.inst ∈ s.acts ∧ Act.callExport p.inst ∈ s.acts

omit [GoRuntime] in
theorem inst_key_inj {pm : Manager} (hn : pm.insts.Nodup) {k k' : Str} {p p' : Plugin}
    (h : pm.pluginMap.get? k = some p) (h' : pm.pluginMap.get? k' = some p') (he : p.inst = p'.inst) : k = k' ∧ p = p' := by
  have h1 := GoMap.get?_eq_some.mp h
  have h2 := GoMap.get?_eq_some.mp h'
  have hn' : (pm.pluginMap.entries.map (fun e => e.2.inst)).Nodup := by
    have : pm.insts = pm.pluginMap.entries.map (fun e => e.2.inst) := by
      simp [Manager.insts, GoMap.vals, List.map_map, Function.comp_def]
    rwa [this] at hn
  have := List.inj_on_of_nodup_map hn' h1 h2 he
  exact ⟨congrArg Prod.fst this, congrArg Prod.snd this⟩

theorem acquired_append (a b : List Act) : acquired (a ++ b) = acquired a ++ acquired b := List.filterMap_append ..

theorem mem_acquired {l : List Act} {i : Nat} : i ∈ acquired l ↔ Act.register i ∈ l ∨ Act.inc i ∈ l := by
  unfold acquired
  rw [List.mem_filterMap]
  constructor
  · rintro ⟨a, ha, h⟩
    cases a <;> simp [acquires] at h
    · subst h; exact .inl ha
    · subst h; exact .inr ha
  · rintro (h | h)
    · exact ⟨_, h, rfl⟩
    · exact ⟨_, h, rfl⟩

theorem HooksIncr.snoc {l : List Act} {a : Act} (h : HooksIncr l)
    (ha : ∀ b ∈ l, ∀ i h h', hookOf b = some (i, h) → hookOf a = some (i, h') → h.rank < h'.rank) :
    HooksIncr (l ++ [a]) := by
  unfold HooksIncr
  rw [List.pairwise_append]
  refine ⟨h, by simp, ?_⟩
  intro b hb c hc
  simp at hc; subst hc
  exact ha b hb

theorem HooksIncr.append {l r : List Act} (hl : HooksIncr l) (hr : HooksIncr r) (c : Nat)
    (h1 : ∀ a ∈ l, ∀ i h, hookOf a = some (i, h) → h.rank < c)
    (h2 : ∀ a ∈ r, ∀ i h, hookOf a = some (i, h) → c ≤ h.rank) : HooksIncr (l ++ r) := by
  unfold HooksIncr
  rw [List.pairwise_append]
  refine ⟨hl, hr, ?_⟩
  intro a ha b hb i h h' hh hh'
  exact Nat.lt_of_lt_of_le (h1 a ha i h hh) (h2 b hb i h' hh')

/-- An action without hook and reference may be added. -/
theorem Base.plain {old : Option Manager} {n0 : Nat} {pm0 : Manager} {s : LoadSt} (h : Base old n0 pm0 s) {a : Act}
    (hs : a.stage = 1) (hh : hookOf a = none) (ha : acquires a = none) :
    Base old n0 pm0 { s with acts := s.acts ++ [a] } := by
  have hmem : ∀ {b}, b ∈ s.acts ++ [a] → b ∈ s.acts ∨ b = a := by
    intro b hb; rcases List.mem_append.mp hb with hb | hb
    · exact .inl hb
    · exact .inr (by simpa using hb)
  refine ⟨h.keyed, ?_, h.nodup, h.lo, h.origin, h.pm, ?_, ?_, ?_, ?_, ?_⟩
  · rw [acquired_append]; simpa [acquired, ha] using h.acq
  · intro b hb; rcases hmem hb with hb | rfl
    · exact h.stage b hb
    · exact hs
  · exact h.incr.snoc (fun b _ i g g' _ hg' => by rw [hh] at hg'; cases hg')
  · intro b hb; rcases hmem hb with hb | rfl
    · exact h.range b hb
    · intro i g hg; rw [hh] at hg; cases hg
  · intro i hi; rcases hmem hi with hi | rfl
    · exact h.incs i hi
    · simp [acquires] at ha
  · intro i hi; rcases hmem hi with hi | rfl
    · exact h.regs i hi
    · simp [acquires] at ha

/-- A hook of an instance of this load may be called after lower-ranked ones. -/
theorem Base.hook {old : Option Manager} {n0 : Nat} {pm0 : Manager} {s : LoadSt} (h : Base old n0 pm0 s) {a : Act}
    {i : Nat} {g : Hook} (hs : a.stage = 1) (hh : hookOf a = some (i, g)) (ha : acquires a = none)
    (hi : n0 ≤ i ∧ i < s.next) (hlt : ∀ b ∈ s.acts, ∀ g', hookOf b = some (i, g') → g'.rank < g.rank) :
    Base old n0 pm0 { s with acts := s.acts ++ [a] } := by
  have hmem : ∀ {b}, b ∈ s.acts ++ [a] → b ∈ s.acts ∨ b = a := by
    intro b hb; rcases List.mem_append.mp hb with hb | hb
    · exact .inl hb
    · exact .inr (by simpa using hb)
  refine ⟨h.keyed, ?_, h.nodup, h.lo, h.origin, h.pm, ?_, ?_, ?_, ?_, ?_⟩
  · rw [acquired_append]; simpa [acquired, ha] using h.acq
  · intro b hb; rcases hmem hb with hb | rfl
    · exact h.stage b hb
    · exact hs
  · refine h.incr.snoc (fun b hb j g1 g2 h1 h2 => ?_)
    rw [hh] at h2; cases h2
    exact hlt b hb g1 h1
  · intro b hb; rcases hmem hb with hb | rfl
    · exact h.range b hb
    · intro j g' hg; rw [hh] at hg; cases hg; exact hi
  · intro j hj; rcases hmem hj with hj | rfl
    · exact h.incs j hj
    · simp [acquires] at ha
  · intro j hj; rcases hmem hj with hj | rfl
    · exact h.regs j hj
    · simp [acquires] at ha

/-- Allocating an identity. -/
theorem Base.alloc {old : Option Manager} {n0 : Nat} {pm0 : Manager} {s : LoadSt} (h : Base old n0 pm0 s) :
    Base old n0 pm0 { s with next := s.next + 1 } := by
  refine ⟨h.keyed, h.acq, h.nodup, Nat.lt_succ_of_lt h.lo, ?_, h.pm, h.stage, h.incr, ?_, h.incs, ?_⟩
  · intro k p hp
    rcases h.origin k p hp with hk | hf
    · exact .inl hk
    · exact .inr ⟨hf.changed, hf.lo, Nat.lt_succ_of_lt hf.hi, hf.deps, hf.bound, hf.faithful⟩
  · intro a ha i g hg
    have := h.range a ha i g hg
    exact ⟨this.1, Nat.lt_succ_of_lt this.2⟩
  · intro i hi
    have := h.regs i hi
    exact ⟨this.1, Nat.lt_succ_of_lt this.2⟩

/-- Entering a plugin under a new key, with the matching reference action. -/
theorem Base.enter {old : Option Manager} {n0 : Nat} {pm0 : Manager} {s : LoadSt} (h : Base old n0 pm0 s)
    {k : Str} {p : Plugin} {a : Act}
    (hk : name2key p.name = k) (hnew : s.pm.pluginMap.get? k = none)
    (hinst : p.inst ∉ s.pm.insts) (horig : KeptFrom old k p ∨ FreshIn n0 s.next p)
    (hs : a.stage = 1) (hh : hookOf a = none) (ha : acquires a = some p.inst)
    (hinc : ∀ i, a = .inc i → ∃ om, old = some om ∧ i ∈ om.insts)
    (hreg : ∀ i, a = .register i → n0 ≤ i ∧ i < s.next) :
    Base old n0 pm0 { s with acts := s.acts ++ [a], pm := { s.pm with pluginMap := s.pm.pluginMap.insert k p } } := by
  have hmem : ∀ {b}, b ∈ s.acts ++ [a] → b ∈ s.acts ∨ b = a := by
    intro b hb; rcases List.mem_append.mp hb with hb | hb
    · exact .inl hb
    · exact .inr (by simpa using hb)
  have hins : ({ s.pm with pluginMap := s.pm.pluginMap.insert k p } : Manager).insts = p.inst :: s.pm.insts := by
    unfold Manager.insts
    rw [GoMap.vals_insert_of_not_mem _ _ _ hnew]; rfl
  refine ⟨?_, ?_, ?_, h.lo, ?_, ?_, ?_, ?_, ?_, ?_, ?_⟩
  · intro k' p' hp'
    simp only [GoMap.get?_insert] at hp'
    split at hp'
    · rename_i e; cases hp'; rw [e]; exact hk
    · exact h.keyed k' p' hp'
  · rw [hins, acquired_append]
    have : acquired [a] = [p.inst] := by simp [acquired, ha]
    rw [this]
    exact List.perm_append_comm.trans (List.Perm.cons _ h.acq)
  · rw [hins, List.nodup_cons]; exact ⟨hinst, h.nodup⟩
  · intro k' p' hp'
    simp only [GoMap.get?_insert] at hp'
    split at hp'
    · rename_i e; cases hp'; rw [e]; exact horig
    · exact h.origin k' p' hp'
  · have := h.pm
    show ({ s.pm with pluginMap := s.pm.pluginMap.insert k p } : Manager) = _
    generalize s.pm = pm at *
    rw [this]
  · intro b hb; rcases hmem hb with hb | rfl
    · exact h.stage b hb
    · exact hs
  · exact h.incr.snoc (fun b _ i g g' _ hg' => by rw [hh] at hg'; cases hg')
  · intro b hb; rcases hmem hb with hb | rfl
    · exact h.range b hb
    · intro i g hg; rw [hh] at hg; cases hg
  · intro i hi; rcases hmem hi with hi | hi
    · exact h.incs i hi
    · exact hinc i hi.symm
  · intro i hi; rcases hmem hi with hi | hi
    · exact h.regs i hi
    · exact hreg i hi.symm

theorem Base.mem_insts {old : Option Manager} {n0 : Nat} {pm0 : Manager} {s : LoadSt} (h : Base old n0 pm0 s)
    {i : Nat} (hi : i ∈ s.pm.insts) :
    (∃ om k p, old = some om ∧ om.pluginMap.get? k = some p ∧ p.inst = i ∧ k ∈ s.pm.pluginMap.keys) ∨ (n0 ≤ i ∧ i < s.next) := by
  obtain ⟨p, hp, rfl⟩ := List.mem_map.mp hi
  obtain ⟨k, hk⟩ := GoMap.mem_vals.mp hp
  rcases h.origin k p hk with ⟨om, oldP, note, ho, hg, rfl⟩ | hf
  · exact .inl ⟨om, k, oldP, ho, hg, rfl, GoMap.mem_keys.mpr ⟨_, hk⟩⟩
  · exact .inr ⟨hf.lo, hf.hi⟩

/-- Keeping a plugin of the old manager. -/
theorem Base.keep {om : Manager} {n0 : Nat} {pm0 : Manager} {s : LoadSt} (h : Base (some om) n0 pm0 s)
    (hgood : SoundManager n0 om) {k : Str} {oldP : Plugin} (note : Note)
    (hold : om.pluginMap.get? k = some oldP) (hnew : s.pm.pluginMap.get? k = none) :
    Base (some om) n0 pm0 { s with
      acts := s.acts ++ [.inc oldP.inst]
      pm := { s.pm with pluginMap := s.pm.pluginMap.insert (name2key oldP.name) { oldP with unchanged := true, note := note } } } := by
  have hk := hgood.keyed k oldP hold
  have hmem : oldP.inst ∈ om.insts := List.mem_map.mpr ⟨oldP, GoMap.mem_vals.mpr ⟨k, hold⟩, rfl⟩
  rw [hk]
  refine h.enter (p := { oldP with unchanged := true, note := note }) hk hnew ?_ (.inl ⟨om, oldP, note, rfl, hold, rfl⟩) rfl rfl rfl ?_ ?_
  · intro hin
    rcases h.mem_insts hin with ⟨om', k', p', ho, hg, he, hkm⟩ | ⟨hlo, _⟩
    · cases ho
      obtain ⟨rfl, _⟩ := inst_key_inj hgood.nodup hg hold he
      exact GoMap.get?_eq_none.mp hnew hkm
    · have := hgood.fresh _ hmem
      simp only at hlo
      omega
  · intro i hi; cases hi; exact ⟨om, rfl, hmem⟩
  · intro i hi; cases hi

end Hotswap
