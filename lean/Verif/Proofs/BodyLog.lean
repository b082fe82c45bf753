import Verif.Proofs.Body

/-! The action log of a load and the manager it builds. -/

namespace Hotswap

variable [GoRuntime]

open M

/-- What the machine needs to know about the actions of a load (or a piece of one). -/
structure Log (old : Option Manager) (n0 next : Nat) (acts : List Act) : Prop where
  sorted : acts.Pairwise (fun a b => a.stage ≤ b.stage)
  incr : HooksIncr acts
  range : ∀ a ∈ acts, ∀ i h, hookOf a = some (i, h) → n0 ≤ i ∧ i < next
  incs : ∀ i, Act.inc i ∈ acts → ∃ om, old = some om ∧ i ∈ om.insts
  regs : ∀ i, Act.register i ∈ acts → n0 ≤ i ∧ i < next

theorem hooksIncr_of_map {acts : List Act} {insts : List Nat} {g : Hook}
    (h : acts.map hookOf = insts.map (fun i => some (i, g))) (hn : insts.Nodup) : HooksIncr acts := by
  have h1 : (acts.map hookOf).Pairwise (fun a b => ∀ i h h', a = some (i, h) → b = some (i, h') → h.rank < h'.rank) := by
    rw [h, List.pairwise_map]
    refine hn.imp ?_
    intro a b hab i h h' e e'
    cases e; cases e'
    exact absurd rfl hab
  rw [List.pairwise_map] at h1
  exact h1

theorem hooksIncr_of_none {acts : List Act} (h : ∀ a ∈ acts, hookOf a = none) : HooksIncr acts := by
  unfold HooksIncr
  rw [List.pairwise_iff_forall_sublist]
  intro a b hab i g g' hg
  have := h a (hab.subset (by simp))
  rw [this] at hg; cases hg

theorem initActs_hooks (mid : Nat) (v : Vault) (l : List Plugin) :
    (initActs mid v l).map hookOf = (l.map (·.inst)).map (fun i => some (i, Hook.onInit)) := by
  induction l generalizing v with
  | nil => rfl
  | cons p r ih => simp [initActs, hookOf, ih]

theorem mem_initActs {mid : Nat} {v : Vault} {l : List Plugin} {a : Act} (h : a ∈ initActs mid v l) :
    ∃ p ∈ l, ∃ v', a = .callOnInit p.inst mid v' := by
  induction l generalizing v with
  | nil => simp [initActs] at h
  | cons p r ih =>
    simp only [initActs, List.mem_cons] at h
    rcases h with rfl | h
    · exact ⟨p, by simp, v, rfl⟩
    · obtain ⟨q, hq, v', he⟩ := ih h
      exact ⟨q, List.mem_cons_of_mem _ hq, v', he⟩

/-- Every plugin of `pm` is either new or a copy of a plugin of the old manager. -/
def Origin (old : Option Manager) (n0 : Nat) (pm : Manager) : Prop :=
  ∀ k p, pm.pluginMap.get? k = some p →
    (p.unchanged = true ∧ ∃ om oldP, old = some om ∧ om.pluginMap.get? k = some oldP ∧ oldP.inst = p.inst ∧ oldP.bound = p.bound ∧
      oldP.deps = p.deps ∧ oldP.code = p.code) ∨ (p.unchanged = false ∧ n0 ≤ p.inst)

/-- The facts about the log and the references of a load that is over, whether well or badly (before cleanup). -/
structure BodyLog (old : Option Manager) (n0 : Nat) (s : LoadSt) : Prop where
  log : Log old n0 s.next s.acts
  stage : ∀ a ∈ s.acts, a.stage ≤ 5
  acq : (acquired s.acts).Perm s.pm.insts
  nodup : s.pm.insts.Nodup
  lo : n0 < s.next
  order : s.pm.ordered = [] ∨ SoundManager s.next s.pm
  origin : Origin old n0 s.pm

omit [GoRuntime] in
theorem acquired_eq_nil {l : List Act} (h : ∀ a ∈ l, a.stage ≠ 1) : acquired l = [] := by
  unfold acquired
  rw [List.filterMap_eq_nil_iff]
  intro a ha
  have := h a ha
  cases a <;> simp [Act.stage] at this <;> rfl

theorem BodyLog.ofBase {old : Option Manager} {n0 : Nat} {pm0 : Manager} {s : LoadSt} (h : Base old n0 pm0 s)
    (ho : pm0.ordered = []) : BodyLog old n0 s := by
  refine ⟨⟨?_, h.incr, h.range, h.incs, h.regs⟩, ?_, h.acq, h.nodup, h.lo, .inl ?_, ?_⟩
  · rw [List.pairwise_iff_forall_sublist]
    intro a b hab
    rw [h.stage a (hab.subset (by simp)), h.stage b (hab.subset (by simp))]; exact Nat.le_refl _
  · intro a ha; rw [h.stage a ha]; decide
  · rw [h.pm]; exact ho
  · intro k p hp
    rcases h.origin k p hp with ⟨om, oldP, note, ho, hop, rfl⟩ | hf
    · exact .inl ⟨rfl, om, oldP, ho, hop, rfl, rfl, rfl, rfl⟩
    · exact .inr ⟨hf.changed, hf.lo⟩

/-- Blocks of constant, increasing stage. -/
theorem pairwise_stage_append {l r : List Act} (c : Nat) (hl : l.Pairwise (fun a b => a.stage ≤ b.stage))
    (hr : r.Pairwise (fun a b => a.stage ≤ b.stage)) (h1 : ∀ a ∈ l, a.stage ≤ c) (h2 : ∀ a ∈ r, c ≤ a.stage) :
    (l ++ r).Pairwise (fun a b => a.stage ≤ b.stage) := by
  rw [List.pairwise_append]
  exact ⟨hl, hr, fun a ha b hb => Nat.le_trans (h1 a ha) (h2 b hb)⟩

theorem pairwise_stage_const {l : List Act} (c : Nat) (h : ∀ a ∈ l, a.stage = c) : l.Pairwise (fun a b => a.stage ≤ b.stage) := by
  rw [List.pairwise_iff_forall_sublist]
  intro a b hab
  rw [h a (hab.subset (by simp)), h b (hab.subset (by simp))]; exact Nat.le_refl _

/-- Facts about the instances of a manager after the import phase. -/
theorem fresh_range {old : Option Manager} {n0 : Nat} {pm0 : Manager} {s1 s : LoadSt} (hb : Base old n0 pm0 s1)
    (hf : FinishFrame s1 s) {k : Str} {p : Plugin} (hp : s.pm.pluginMap.get? k = some p) (hu : p.unchanged = false) :
    n0 ≤ p.inst ∧ p.inst < s.next := by
  obtain ⟨q, d, b, hq, rfl, _⟩ := hf.same.get' hp
  rw [hf.next]
  rcases hb.origin k q hq with ⟨om, oldP, note, _, _, rfl⟩ | hfr
  · simp at hu
  · exact ⟨hfr.lo, hfr.hi⟩

theorem mem_freshOnes {l : List Plugin} {p : Plugin} : p ∈ freshOnes l ↔ p ∈ l ∧ p.unchanged = false := by
  simp [freshOnes]

/-- The manager built by a load that established an order is sound. -/
theorem sound_of_ordered {old : Option Manager} {n0 : Nat} {pm0 : Manager} {s1 s : LoadSt}
    (hgood : ∀ om, old = some om → SoundManager n0 om)
    (hb : Base old n0 pm0 s1) (hfr : FinishFrame s1 s) (h : OrderedOK s.pm.pluginMap s.pm.ordered) : SoundManager s.next s.pm := by
  have hkeyed := hfr.same.keyed hb.keyed
  have hinsts : s.pm.insts = s1.pm.insts := hfr.same.insts
  have hnx := hfr.next
  refine ⟨hkeyed, h.perm, h.topo, hinsts ▸ hb.nodup, ?_, ?_, ?_⟩
  · intro i hi
    rw [hinsts] at hi
    rcases hb.mem_insts hi with ⟨om, k, p, ho, hg, rfl, _⟩ | ⟨_, h2⟩
    · have := (hgood om ho).fresh p.inst (List.mem_map.mpr ⟨p, GoMap.mem_vals.mpr ⟨k, hg⟩, rfl⟩)
      have := hb.lo
      omega
    · omega
  · intro k p hp
    cases hu : p.unchanged with
    | false => exact h.fresh k p hp hu
    | true =>
      -- a kept plugin: its dependencies are kept too
      have hreb := h.rebuilt k p hp hu
      obtain ⟨q, d, b, hq, rfl, hsame⟩ := hfr.same.get' hp
      have hu' : q.unchanged = true := hu
      have he := hsame hu'
      rw [he] at hreb hp ⊢
      clear he hsame
      have keptOf : ∀ k' q', s.pm.pluginMap.get? k' = some q' → q'.unchanged = true → KeptFrom old k' q' := by
        intro k' q' hq' hu'
        obtain ⟨q0, d0, b0, hq0, e0, hs0⟩ := hfr.same.get' hq'
        have hu0 : q0.unchanged = true := by rw [e0] at hu'; exact hu'
        have := hs0 hu0
        subst this
        rcases hb.origin k' q' hq0 with hk | hf
        · exact hk
        · rw [hf.changed] at hu'; cases hu'
      obtain ⟨om, oldP, note, ho, hop, rfl⟩ := keptOf k q hp hu'
      have gm := hgood om ho
      obtain ⟨r1, r2, r3, r4⟩ := gm.resolved k oldP hop
      -- the new counterpart of a dependency
      have hcorr : ∀ f ∈ importFields oldP, ∃ dep note', om.pluginMap.get? (name2key f.name) = some dep ∧ FieldOK oldP f dep ∧
          s.pm.pluginMap.get? (name2key f.name) = some { dep with unchanged := true, note := note' } := by
        intro f hf
        obtain ⟨dep, hd, hok⟩ := r1 f hf
        have hmem : dep.name ∈ oldP.deps := by
          rw [r2, List.mem_filterMap]
          exact ⟨f, hf, by rw [hd]; rfl⟩
        obtain ⟨q', hq', hu''⟩ := hreb dep.name hmem
        rw [gm.keyed _ _ hd] at hq'
        obtain ⟨om', oldD, note', ho', hod, rfl⟩ := keptOf _ _ hq' hu''
        rw [ho] at ho'; cases ho'
        rw [hd] at hod; cases hod
        exact ⟨dep, note', hd, hok, hq'⟩
      refine ⟨?_, ?_, ?_, r4⟩
      · intro f hf
        obtain ⟨dep, note', _, hok, hq'⟩ := hcorr f hf
        exact ⟨_, hq', ⟨hok.named, hok.stable, hok.typed, hok.settable⟩⟩
      · show oldP.deps = _
        rw [r2]
        refine List.filterMap_congr ?_
        intro f hf
        obtain ⟨dep, note', hd, hok, hq'⟩ := hcorr f hf
        rw [hd, hq']; rfl
      · show oldP.bound = _
        rw [r3]
        refine List.filterMap_congr ?_
        intro f hf
        obtain ⟨dep, note', hd, hok, hq'⟩ := hcorr f hf
        rw [hd, hq']; rfl
  · intro k p hp
    obtain ⟨q, d, b, hq, rfl, _⟩ := hfr.same.get' hp
    rcases hb.origin k q hq with ⟨om, oldP, note, ho, hop, rfl⟩ | hf
    · exact (hgood om ho).faithful k oldP hop
    · exact hf.faithful

theorem BodyLog.ofFinish {old : Option Manager} {n0 : Nat} {pm0 : Manager} {s1 s : LoadSt} {it : Iter} {data : Nat}
    {im : List Str} {ol lf lt oi : List Plugin} {v0 : Vault} (hgood : ∀ om, old = some om → SoundManager n0 om)
    (hb : Base old n0 pm0 s1) (hf : FinishFrame s1 s)
    (hl : FinishLog s1 it data s im ol lf lt oi v0) : BodyLog old n0 s := by
  have hinsts : s.pm.insts = s1.pm.insts := hf.same.insts
  have hordn : (s.pm.ordered.map (·.inst)).Nodup := by
    rcases hf.order with h | ⟨h, _, _, _⟩
    · rw [h]; simp
    · have : (s.pm.ordered.map (·.inst)).Perm s.pm.insts := h.map _
      exact this.symm.nodup (hinsts ▸ hb.nodup)
  have hordm : ∀ p ∈ s.pm.ordered, ∃ k, s.pm.pluginMap.get? k = some p := by
    intro p hp
    rcases hf.order with h | ⟨h, _, _, _⟩
    · rw [h] at hp; cases hp
    · exact GoMap.mem_vals.mp (h.mem_iff.mp hp)
  have hfreshn : ((freshOnes s.pm.ordered).map (·.inst)).Nodup :=
    (List.Sublist.map _ List.filter_sublist).nodup hordn
  have hfreshr : ∀ p ∈ freshOnes s.pm.ordered, n0 ≤ p.inst ∧ p.inst < s.next := by
    intro p hp
    obtain ⟨hp, hu⟩ := mem_freshOnes.mp hp
    obtain ⟨k, hk⟩ := hordm p hp
    exact fresh_range hb hf hk hu
  -- the import block
  have himn : (im.filterMap (importInst s1.pm.pluginMap)).Nodup := by
    have hk : im.Nodup := by
      refine hl.im_pre.sublist.nodup ?_
      exact (sortStrings_perm _).symm.nodup (GoMap.range_nodup ..)
    refine List.Nodup.filterMap ?_ hk
    intro k k' i h h'
    unfold importInst at h h'
    cases hg : s1.pm.pluginMap.get? k with
    | none => rw [hg] at h; simp at h
    | some p =>
      cases hg' : s1.pm.pluginMap.get? k' with
      | none => rw [hg'] at h'; simp at h'
      | some p' =>
        rw [hg] at h; rw [hg'] at h'
        simp only at h h'
        split at h
        · simp at h
        · split at h'
          · simp at h'
          · simp at h h'
            exact (inst_key_inj hb.nodup hg hg' (h.trans h'.symm)).1
  have himr : ∀ i ∈ im.filterMap (importInst s1.pm.pluginMap), n0 ≤ i ∧ i < s.next := by
    intro i hi
    obtain ⟨k, _, hk⟩ := List.mem_filterMap.mp hi
    unfold importInst at hk
    cases hg : s1.pm.pluginMap.get? k with
    | none => rw [hg] at hk; cases hk
    | some p =>
      rw [hg] at hk
      simp only at hk
      split at hk
      · cases hk
      · rename_i hu
        cases hk
        rw [hf.next]
        rcases hb.origin k p hg with ⟨om, oldP, note, _, _, rfl⟩ | hfr
        · simp at hu
        · exact ⟨hfr.lo, hfr.hi⟩
  have holn : (ol.map (·.inst)).Nodup := (hl.ol_pre.sublist.map _).nodup hfreshn
  have hoin : (oi.map (·.inst)).Nodup := (hl.oi_pre.sublist.map _).nodup hfreshn
  -- the blocks
  have hacts := hl.acts
  have p2 : (im.filterMap (importInst s1.pm.pluginMap)).map Act.callImport
      |>.map hookOf |> (· = (im.filterMap (importInst s1.pm.pluginMap)).map (fun i => some (i, Hook.import))) := by
    simp [hookOf, Function.comp_def]
  have p3 : (ol.map (fun p => Act.callOnLoad p.inst data)).map hookOf = (ol.map (·.inst)).map (fun i => some (i, Hook.onLoad)) := by
    simp [hookOf, Function.comp_def]
  have p6 := initActs_hooks s1.pm.mid v0 oi
  have s2 : ∀ a ∈ (im.filterMap (importInst s1.pm.pluginMap)).map Act.callImport, a.stage = 2 := by
    intro a ha; obtain ⟨i, _, rfl⟩ := List.mem_map.mp ha; rfl
  have s3 : ∀ a ∈ ol.map (fun p => Act.callOnLoad p.inst data), a.stage = 3 := by
    intro a ha; obtain ⟨i, _, rfl⟩ := List.mem_map.mp ha; rfl
  have s4 : ∀ a ∈ lf.map (fun p => Act.callLiveFuncs p.inst), a.stage = 4 ∧ hookOf a = none := by
    intro a ha; obtain ⟨i, _, rfl⟩ := List.mem_map.mp ha; exact ⟨rfl, rfl⟩
  have s5 : ∀ a ∈ lt.map (fun p => Act.callLiveTypes p.inst), a.stage = 4 ∧ hookOf a = none := by
    intro a ha; obtain ⟨i, _, rfl⟩ := List.mem_map.mp ha; exact ⟨rfl, rfl⟩
  have s6 : ∀ a ∈ initActs s1.pm.mid v0 oi, a.stage = 5 := by
    intro a ha; obtain ⟨p, _, v', rfl⟩ := mem_initActs ha; rfl
  have hk : ∀ {B : List Act} {l : List Nat} {g : Hook}, B.map hookOf = l.map (fun i => some (i, g)) →
      ∀ a ∈ B, ∀ i h, hookOf a = some (i, h) → i ∈ l ∧ h = g := by
    intro B l g hB a ha i h hh
    have : hookOf a ∈ B.map hookOf := List.mem_map.mpr ⟨a, ha, rfl⟩
    rw [hB, hh] at this
    obtain ⟨j, hj, e⟩ := List.mem_map.mp this
    cases e; exact ⟨hj, rfl⟩
  have k2 := hk p2
  have k3 := hk p3
  have k6 := hk p6
  have i2 := hooksIncr_of_map p2 himn
  have i3 := hooksIncr_of_map p3 holn
  have i6 := hooksIncr_of_map p6 hoin
  have i4 := hooksIncr_of_none (fun a ha => (s4 a ha).2)
  have i5 := hooksIncr_of_none (fun a ha => (s5 a ha).2)
  generalize (im.filterMap (importInst s1.pm.pluginMap)).map Act.callImport = B2 at *
  generalize ol.map (fun p => Act.callOnLoad p.inst data) = B3 at *
  generalize lf.map (fun p => Act.callLiveFuncs p.inst) = B4 at *
  generalize lt.map (fun p => Act.callLiveTypes p.inst) = B5 at *
  generalize initActs s1.pm.mid v0 oi = B6 at *
  have hstage1 : ∀ a ∈ s1.acts, ∀ i h, hookOf a = some (i, h) → h.rank < 2 := by
    intro a ha i h hh
    have := hb.stage a ha
    cases a <;> simp [Act.stage] at this <;> simp [hookOf] at hh <;> obtain ⟨_, rfl⟩ := hh <;> decide
  have hmem : ∀ a ∈ s.acts, a ∈ s1.acts ∨ a ∈ B2 ∨ a ∈ B3 ∨ a ∈ B4 ∨ a ∈ B5 ∨ a ∈ B6 := by
    intro a ha; rw [hacts] at ha; simpa [List.mem_append] using ha
  have hlate : ∀ a, a ∈ B2 ++ (B3 ++ (B4 ++ (B5 ++ B6))) → 2 ≤ a.stage ∧ a.stage ≤ 5 := by
    intro a ha
    simp only [List.mem_append] at ha
    rcases ha with h | h | h | h | h
    · rw [s2 a h]; decide
    · rw [s3 a h]; decide
    · rw [(s4 a h).1]; decide
    · rw [(s5 a h).1]; decide
    · rw [s6 a h]; decide
  refine ⟨⟨?_, ?_, ?_, ?_, ?_⟩, ?_, ?_, ?_, ?_, hf.order.imp id (sound_of_ordered hgood hb hf), ?_⟩
  · -- sorted
    rw [hacts]
    refine pairwise_stage_append 1 (pairwise_stage_const 1 hb.stage) ?_ (fun a ha => by rw [hb.stage a ha]; exact Nat.le_refl _)
      (fun a ha => by have := (hlate a ha).1; omega)
    refine pairwise_stage_append 2 (pairwise_stage_const 2 s2) ?_ (fun a ha => by rw [s2 a ha]; exact Nat.le_refl _)
      (fun a ha => (hlate a (List.mem_append_right _ ha)).1)
    refine pairwise_stage_append 3 (pairwise_stage_const 3 s3) ?_ (fun a ha => by rw [s3 a ha]; exact Nat.le_refl _) ?_
    · refine pairwise_stage_append 4 (pairwise_stage_const 4 (fun a ha => (s4 a ha).1)) ?_ (fun a ha => by rw [(s4 a ha).1]; exact Nat.le_refl _) ?_
      · refine pairwise_stage_append 4 (pairwise_stage_const 4 (fun a ha => (s5 a ha).1)) (pairwise_stage_const 5 s6)
          (fun a ha => by rw [(s5 a ha).1]; exact Nat.le_refl _) (fun a ha => by rw [s6 a ha]; decide)
      · intro a ha
        rcases List.mem_append.mp ha with h | h
        · rw [(s5 a h).1]; exact Nat.le_refl _
        · rw [s6 a h]; decide
    · intro a ha
      simp only [List.mem_append] at ha
      rcases ha with h | h | h
      · rw [(s4 a h).1]; decide
      · rw [(s5 a h).1]; decide
      · rw [s6 a h]; decide
  · -- hooks increasing
    rw [hacts]
    refine HooksIncr.append hb.incr ?_ 2 hstage1 ?_
    · refine HooksIncr.append i2 ?_ 3 (fun a ha i h hh => by rw [(k2 a ha i h hh).2]; decide) ?_
      · refine HooksIncr.append i3 ?_ 4 (fun a ha i h hh => by rw [(k3 a ha i h hh).2]; decide) ?_
        · refine HooksIncr.append i4 (HooksIncr.append i5 i6 4 ?_ ?_) 4 ?_ ?_
          · intro a ha i h hh; rw [(s5 a ha).2] at hh; cases hh
          · intro a ha i h hh; rw [(k6 a ha i h hh).2]; decide
          · intro a ha i h hh; rw [(s4 a ha).2] at hh; cases hh
          · intro a ha i h hh
            rcases List.mem_append.mp ha with ha | ha
            · rw [(s5 a ha).2] at hh; cases hh
            · rw [(k6 a ha i h hh).2]; decide
        · intro a ha i h hh
          simp only [List.mem_append] at ha
          rcases ha with ha | ha | ha
          · rw [(s4 a ha).2] at hh; cases hh
          · rw [(s5 a ha).2] at hh; cases hh
          · rw [(k6 a ha i h hh).2]; decide
      · intro a ha i h hh
        simp only [List.mem_append] at ha
        rcases ha with ha | ha | ha | ha
        · rw [(k3 a ha i h hh).2]; decide
        · rw [(s4 a ha).2] at hh; cases hh
        · rw [(s5 a ha).2] at hh; cases hh
        · rw [(k6 a ha i h hh).2]; decide
    · intro a ha i h hh
      simp only [List.mem_append] at ha
      rcases ha with ha | ha | ha | ha | ha
      · rw [(k2 a ha i h hh).2]; decide
      · rw [(k3 a ha i h hh).2]; decide
      · rw [(s4 a ha).2] at hh; cases hh
      · rw [(s5 a ha).2] at hh; cases hh
      · rw [(k6 a ha i h hh).2]; decide
  · -- range
    intro a ha i h hh
    rcases hmem a ha with ha | ha | ha | ha | ha | ha
    · have := hb.range a ha i h hh
      rw [hf.next]; exact this
    · exact himr i (k2 a ha i h hh).1
    · obtain ⟨p, hp, rfl⟩ := List.mem_map.mp (k3 a ha i h hh).1
      exact hfreshr p (hl.ol_pre.subset hp)
    · rw [(s4 a ha).2] at hh; cases hh
    · rw [(s5 a ha).2] at hh; cases hh
    · obtain ⟨p, hp, rfl⟩ := List.mem_map.mp (k6 a ha i h hh).1
      exact hfreshr p (hl.oi_pre.subset hp)
  · intro i hi
    rw [hacts, List.mem_append] at hi
    rcases hi with hi | hi
    · exact hb.incs i hi
    · have := (hlate _ hi).1; simp [Act.stage] at this
  · intro i hi
    rw [hacts, List.mem_append] at hi
    rcases hi with hi | hi
    · rw [hf.next]; exact hb.regs i hi
    · have := (hlate _ hi).1; simp [Act.stage] at this
  · intro a ha
    rw [hacts, List.mem_append] at ha
    rcases ha with ha | ha
    · rw [hb.stage a ha]; decide
    · exact (hlate a ha).2
  · rw [hacts, acquired_append, acquired_eq_nil (l := B2 ++ _) (fun a ha => by have := (hlate a ha).1; omega), List.append_nil, hinsts]
    exact hb.acq
  · rw [hinsts]; exact hb.nodup
  · rw [hf.next]; exact hb.lo
  · intro k p hp
    obtain ⟨q, d, b, hq, rfl, hsame⟩ := hf.same.get' hp
    rcases hb.origin k q hq with ⟨om, oldP, note, ho, hop, rfl⟩ | hfr
    · rw [hsame rfl]
      exact .inl ⟨rfl, om, oldP, ho, hop, rfl, rfl, rfl, rfl⟩
    · exact .inr ⟨hfr.changed, hfr.lo⟩

end Hotswap
