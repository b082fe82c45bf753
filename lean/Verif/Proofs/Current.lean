import Verif.Proofs.Views

/-! Induction over the managers ever published. -/

namespace Hotswap

variable [GoRuntime]

theorem perform_publish {cfg : Config} {m : Machine} {a : Act} {pm : Manager} (h : (m.perform cfg a).current = some pm) : m.current = some pm ∨ a = .publish pm := by
  cases a <;> simp [Machine.perform] at h <;> first | exact .inl h | exact .inr (by rw [h])

/-- A property that every call passes on from the current manager to the one it publishes holds of every manager that is ever current. -/
theorem current_induction {cfg : Config} {P : Manager → Prop}
    (hstep : ∀ m env k pm, Reachable cfg m → refused cfg k = false → (∀ om, m.current = some om → P om) →
      Act.publish pm ∈ (plan cfg env k m.current m.next).acts → P pm)
    {m : Machine} (h : Reachable cfg m) : ∀ pm, m.current = some pm → P pm := by
  have key : (∀ pm, m.current = some pm → P pm) ∧ (∀ r, m.running = some r → ∀ pm, Act.publish pm ∈ r.todo → P pm) := by
    refine Reachable.ind (P := fun m => (∀ pm, m.current = some pm → P pm) ∧ (∀ r, m.running = some r → ∀ pm, Act.publish pm ∈ r.todo → P pm)) ?_ ?_ h
    · exact ⟨fun pm h => (by cases h), fun r h => (by cases h)⟩
    · intro m m' l hr ih hs
      obtain ⟨ih1, ih2⟩ := ih
      cases hs with
      | refused k env hk => exact ⟨ih1, ih2⟩
      | call k env hk run =>
        refine ⟨ih1, ?_⟩
        intro r hr' pm hpm
        cases hr'
        exact hstep m env k pm hr hk ih1 hpm
      | act r a rest run phase todo plain =>
        refine ⟨?_, ?_⟩
        · intro pm hpm
          rcases perform_publish (m := m.log (.act a)) hpm with h | h
          · exact ih1 pm h
          · exact ih2 r run pm (by rw [todo, h]; simp)
        · intro r' hr' pm hpm
          cases hr'
          exact ih2 r run pm (by rw [todo]; exact List.mem_cons_of_mem _ hpm)
      | release r i rest run phase todo =>
        refine ⟨ih1, ?_⟩
        intro r' hr' pm hpm
        cases hr'
        exact ih2 r run pm (by rw [todo]; exact List.mem_cons_of_mem _ hpm)
      | runSkip r i run phase once =>
        refine ⟨ih1, ?_⟩
        intro r' hr' pm hpm
        cases hr'
        exact ih2 r run pm hpm
      | runBegin r i run phase once =>
        refine ⟨ih1, ?_⟩
        intro r' hr' pm hpm
        cases hr'
        exact ih2 r run pm hpm
      | runEnd r i run phase =>
        refine ⟨ih1, ?_⟩
        intro r' hr' pm hpm
        cases hr'
        exact ih2 r run pm hpm
      | ret r run todo phase => exact ⟨ih1, fun r' hr' => (by cases hr')⟩
      | freeDec t x y frees phase i rest todo due => exact ⟨ih1, ih2⟩
      | freeSkip t x y frees i phase once => exact ⟨ih1, ih2⟩
      | freeBegin t x y frees i phase once => exact ⟨ih1, ih2⟩
      | freeEnd t x y frees i phase => exact ⟨ih1, ih2⟩
      | tick d => exact ⟨ih1, ih2⟩
      | read => exact ⟨ih1, ih2⟩
      | readCounter => exact ⟨ih1, ih2⟩
  exact key.1

/-- The same for a call made in a reachable state. -/
theorem publish_induction {cfg : Config} {P : Manager → Prop}
    (hstep : ∀ m env k pm, Reachable cfg m → refused cfg k = false → (∀ om, m.current = some om → P om) →
      Act.publish pm ∈ (plan cfg env k m.current m.next).acts → P pm)
    {m : Machine} (h : Reachable cfg m) (env : Env) {k : Kind} (hk : refused cfg k = false) {pm : Manager}
    (hp : Act.publish pm ∈ (plan cfg env k m.current m.next).acts) : P pm :=
  hstep m env k pm h hk (current_induction hstep h) hp

end Hotswap
