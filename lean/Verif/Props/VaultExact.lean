import Verif.Props.Vaults
import Verif.Props.Grace

/-!
# C25: exactly which plugins of the current manager were initialised with its vault
-/

namespace Hotswap

section
variable [GoRuntime]

/-- The calls of `OnInit` of instance `i`. -/
def initsOf (i : Nat) (tr : History) : List (Nat × Ev) :=
  tr.filter (fun e => match e.2 with | .act (.callOnInit j _ _) => j == i | _ => false)

omit [GoRuntime] in
theorem initsOf_count (i : Nat) (m : Machine) : (initsOf i m.trace).length = (m.hooksOf i).count .onInit := by
  unfold Machine.hooksOf Machine.hooks Machine.events
  generalize m.trace = tr
  induction tr with
  | nil => rfl
  | cons e r ih =>
    obtain ⟨t, e⟩ := e
    unfold initsOf at ih ⊢
    rw [List.filter_cons, List.map_cons]
    cases e with
    | act a =>
      cases a with
      | callOnInit j mid v =>
        rw [List.filterMap_cons_some (f := evHook) (a := Ev.act (.callOnInit j mid v)) (b := (j, .onInit)) rfl, List.filter_cons]
        by_cases h : j = i
        · simp [h, ih]
        · simp [h, ih]
      | callReloadable j =>
        rw [List.filterMap_cons_some (f := evHook) (a := Ev.act (.callReloadable j)) (b := (j, .reloadable)) rfl, List.filter_cons]
        by_cases h : j = i <;> simp [h, ih]
      | callExport j =>
        rw [List.filterMap_cons_some (f := evHook) (a := Ev.act (.callExport j)) (b := (j, .export)) rfl, List.filter_cons]
        by_cases h : j = i <;> simp [h, ih]
      | callImport j =>
        rw [List.filterMap_cons_some (f := evHook) (a := Ev.act (.callImport j)) (b := (j, .import)) rfl, List.filter_cons]
        by_cases h : j = i <;> simp [h, ih]
      | callOnLoad j d =>
        rw [List.filterMap_cons_some (f := evHook) (a := Ev.act (.callOnLoad j d)) (b := (j, .onLoad)) rfl, List.filter_cons]
        by_cases h : j = i <;> simp [h, ih]
      | _ => exact ih
    | freeBegin j =>
      rw [List.filterMap_cons_some (f := evHook) (a := Ev.freeBegin j) (b := (j, .onFree)) rfl, List.filter_cons]
      by_cases h : j = i <;> simp [h, ih]
    | _ => exact ih

/-- An instance is initialised with one vault only. -/
theorem initialised_unique {cfg : Config} (hcfg : cfg.OK) {m : Machine} (h : Reachable cfg m) {i a b : Nat} (ha : InitialisedWith m i a) (hb : InitialisedWith m i b) : a = b := by
  have hc : (initsOf i m.trace).length ≤ 1 := by
    rw [initsOf_count]
    exact Nat.le_trans ((C03_lifecycle hcfg h i).count_le .onInit) (by decide)
  obtain ⟨t, v, ha⟩ := ha
  obtain ⟨t', v', hb⟩ := hb
  have ha' : (t, Ev.act (.callOnInit i a v)) ∈ initsOf i m.trace := List.mem_filter.mpr ⟨ha, by simp⟩
  have hb' : (t', Ev.act (.callOnInit i b v')) ∈ initsOf i m.trace := List.mem_filter.mpr ⟨hb, by simp⟩
  match hl : initsOf i m.trace, hc with
  | [], _ => rw [hl] at ha'; cases ha'
  | [x], _ =>
    rw [hl] at ha' hb'
    simp at ha' hb'
    have := ha'.trans hb'.symm
    simp at this
    exact this.2.1
  | x :: y :: r, hc => simp at hc

/-- Every plugin of a manager that was published was initialised with the vault of that manager or of an earlier one. -/
theorem published_initialised {cfg : Config} (hcfg : cfg.OK) {m : Machine} (h : Reachable cfg m) :
    ∀ pm ∈ published m.trace, ∀ p ∈ pm.plugins, ∃ pm0 ∈ published m.trace, pm0.mid ≤ pm.mid ∧ InitialisedWith m p.inst pm0.mid := by
  refine Reachable.ind (P := fun m => ∀ pm ∈ published m.trace, ∀ p ∈ pm.plugins, ∃ pm0 ∈ published m.trace, pm0.mid ≤ pm.mid ∧ InitialisedWith m p.inst pm0.mid) ?_ ?_ h
  · intro pm hp; cases hp
  · intro m m' l hr ih hs
    have hr' : Reachable cfg m' := hr.step _ hs.enabled
    intro pm hpm p hp
    by_cases hc : m'.current = some pm
    · obtain ⟨⟨pm0, h1, p0, h2, h3, h4⟩, _⟩ := C25_initialised_by_creator_partial hcfg hr' hc hp
      refine ⟨pm0, h1, ?_, h4⟩
      have hinc := C38_managers_distinct hcfg hr'
      rw [current_eq hr'] at hc
      obtain ⟨l, hl⟩ := List.getLast?_eq_some_iff.mp hc
      rw [hl] at hinc h1
      rcases List.mem_append.mp h1 with h1 | h1
      · exact Nat.le_of_lt ((List.pairwise_append.mp hinc).2.2 pm0 h1 pm (by simp))
      · simp at h1; exact Nat.le_of_eq (congrArg _ h1)
    · have hext : ∃ ext, m'.trace = m.trace ++ ext := by
        rcases hs.emits with h | ⟨ev, h, _⟩
        · exact ⟨[], by rw [h]; simp⟩
        · exact ⟨_, h⟩
      have hold : pm ∈ published m.trace := by
        rcases hs.emits with h | ⟨ev, h, _⟩
        · rw [h] at hpm; exact hpm
        · have hpm0 := hpm
          rw [h, published_append] at hpm
          rcases List.mem_append.mp hpm with hpm | hpm
          · exact hpm
          · exfalso
            apply hc
            have he : published [(m.now, ev)] = [pm] := by
              unfold published at hpm ⊢
              cases ev with
              | act a =>
                cases a with
                | publish q => simp at hpm; simp [hpm]
                | _ => cases hpm
              | _ => cases hpm
            rw [current_eq hr', h, lastPublished, published_append, he]
            simp
      obtain ⟨ext, hext⟩ := hext
      obtain ⟨pm0, h1, h2, t, v, h4⟩ := ih pm hold p hp
      exact ⟨pm0, by rw [hext, published_append]; exact List.mem_append_left _ h1, h2, t, v, by rw [hext]; exact List.mem_append_left _ h4⟩

/-- **C25**, exactly. In every history: a plugin of the current manager was initialised with the vault of the current manager iff its instance was in no manager that was published
before; that is, iff the load that published the current manager has created it. A kept plugin never gets to see the current vault. -/
theorem C25_exact {cfg : Config} (hcfg : cfg.OK) {m : Machine} (h : Reachable cfg m) {pm : Manager} (hc : m.current = some pm) {p : Plugin} (hp : p ∈ pm.plugins) :
    InitialisedWith m p.inst pm.mid ↔ ∀ pm0 ∈ published m.trace, ∀ p0 ∈ pm0.plugins, p0.inst = p.inst → pm0 = pm := by
  have hinc := C38_managers_distinct hcfg h
  have hlast := hc
  rw [current_eq h] at hlast
  obtain ⟨l, hl⟩ := List.getLast?_eq_some_iff.mp hlast
  have hle : ∀ pm0 ∈ published m.trace, pm0 = pm ∨ pm0.mid < pm.mid := by
    intro pm0 h0
    rw [hl] at hinc h0
    rcases List.mem_append.mp h0 with h0 | h0
    · exact .inr ((List.pairwise_append.mp hinc).2.2 pm0 h0 pm (by simp))
    · simp at h0; exact .inl h0
  constructor
  · intro hi pm0 h0 q hq he
    rcases hle pm0 h0 with h1 | h1
    · exact h1
    · exfalso
      obtain ⟨pm1, _, h3, h5⟩ := published_initialised hcfg h pm0 h0 q hq
      rw [he] at h5
      have := initialised_unique hcfg h hi h5
      omega
  · intro hall
    obtain ⟨⟨pm0, h1, p0, h2, h3, h4⟩, _⟩ := C25_initialised_by_creator_partial hcfg h hc hp
    rw [hall pm0 h1 p0 h2 h3] at h4
    exact h4

end

section Examples
open Demo
attribute [local instance] Demo.rt

/-- After the second load of the demo program one plugin of the current manager was initialised with its vault (the new one), the other was not (it was kept). -/
example : ∃ pm, m2.current = some pm ∧ pm.plugins.map (·.inst) = [2, 4] ∧ InitialisedWith m2 4 pm.mid ∧ ¬ InitialisedWith m2 2 pm.mid := by
  have hc : m2.current.isSome = true := by decide +kernel
  obtain ⟨pm, hpm⟩ := Option.isSome_iff_exists.mp hc
  have hi : (m2.current.map (fun pm => (pm.mid, pm.plugins.map (·.inst)))) = some (3, [2, 4]) := by decide +kernel
  rw [hpm] at hi
  simp only [Option.map_some, Option.some.injEq, Prod.mk.injEq] at hi
  refine ⟨pm, hpm, hi.2, ?_, ?_⟩
  · rw [← initialisedWith_iff, hi.1]; decide +kernel
  · rw [← initialisedWith_iff, hi.1]; decide +kernel

end Examples

end Hotswap
