import Verif.Proofs.Views
import Verif.Proofs.InvAll

/-! The live functions and types of published managers: part of `GoodManager`, and not of the invariant `InvL`. -/

namespace Hotswap

variable [GoRuntime]

/-- The part of `GoodManager` that is not in `SoundManager`. -/
def Manager.LivesOK (pm : Manager) : Prop := LiveOK (·.code.liveFuncs) pm.ordered ∧ LiveOK (·.code.liveTypes) pm.ordered

theorem SoundManager.good {n : Nat} {pm : Manager} (h : SoundManager n pm) (hl : pm.LivesOK) : GoodManager n pm := { h with liveFuncs := hl.1, liveTypes := hl.2 }

theorem GoodManager.lives {n : Nat} {pm : Manager} (h : GoodManager n pm) : pm.LivesOK := ⟨h.liveFuncs, h.liveTypes⟩

structure LiveInv (m : Machine) : Prop where
  cur : ∀ pm, m.current = some pm → pm.LivesOK
  todo : ∀ pm, Act.publish pm ∈ runTodo m.running → pm.LivesOK
  published : ∀ T pm, (T, Ev.act (.publish pm)) ∈ m.trace → pm.LivesOK

theorem LiveInv.init : LiveInv Machine.init := ⟨(by intro pm h; cases h), (by intro pm h; cases h), (by intro T pm h; cases h)⟩

/-- A step that publishes nothing. -/
theorem LiveInv.quiet {m m' : Machine} (h : LiveInv m) {es : History} (hc : m'.current = m.current) (hr : ∀ a ∈ runTodo m'.running, a ∈ runTodo m.running)
    (ht : m'.trace = m.trace ++ es) (hes : ∀ e ∈ es, ∀ pm, e.2 ≠ .act (.publish pm)) : LiveInv m' := by
  refine ⟨by rw [hc]; exact h.cur, fun pm hp => h.todo pm (hr _ hp), ?_⟩
  intro T pm hp
  rw [ht] at hp
  rcases List.mem_append.mp hp with hp | hp
  · exact h.published T pm hp
  · exact absurd rfl (hes _ hp pm)

theorem LiveInv.step {cfg : Config} (hcfg : cfg.OK) {m m' : Machine} {l : Label} (hs : ∀ om, m.current = some om → SoundManager m.next om) (h : LiveInv m) (st : Step cfg m l m') : LiveInv m' := by
  have one : ∀ {T : Nat} {e0 : Ev}, (∀ pm, e0 ≠ .act (.publish pm)) → ∀ e ∈ [(T, e0)], ∀ pm, e.2 ≠ .act (.publish pm) := by
    intro T e0 h0 e he pm
    simp only [List.mem_singleton] at he
    subst he; exact h0 pm
  have nil : ∀ e ∈ ([] : History), ∀ pm, e.2 ≠ .act (.publish pm) := by intro e he; cases he
  cases st with
  | refused k env hr => exact h.quiet (es := [(m.now, .refused)]) rfl (fun a ha => ha) rfl (one (by simp))
  | call k env hr run =>
    refine ⟨h.cur, ?_, ?_⟩
    · intro pm hp
      obtain ⟨he, s0, s1, s, d, hsucc⟩ := (plan_view (env := env) (k := k) (old := m.current) (n0 := m.next) hcfg hs).published hr hp
      rw [he, hsucc.built]; exact hsucc.good.lives
    · intro T pm hp
      rcases List.mem_append.mp hp with hp | hp
      · exact h.published T pm hp
      · simp at hp
  | act r a rest run phase todo plain =>
    have hin : ∀ b ∈ a :: rest, b ∈ runTodo m.running := by intro b hb; rw [run]; change b ∈ r.todo; rw [todo]; exact hb
    have htr : ((m.log (.act a)).perform cfg a).trace = m.trace ++ [(m.now, .act a)] := by cases a <;> rfl
    refine ⟨?_, fun pm hp => h.todo pm (hin _ (List.mem_cons_of_mem _ hp)), ?_⟩
    · intro pm hp
      change ((m.log (.act a)).perform cfg a).current = some pm at hp
      cases a with
      | publish new => cases hp; exact h.todo _ (hin _ (List.mem_cons_self ..))
      | _ => exact h.cur pm hp
    · intro T pm hp
      change _ ∈ ((m.log (.act a)).perform cfg a).trace at hp
      rw [htr] at hp
      rcases List.mem_append.mp hp with hp | hp
      · exact h.published T pm hp
      · simp only [List.mem_singleton, Prod.mk.injEq, Ev.act.injEq] at hp
        exact h.todo pm (hin _ (by rw [hp.2]; exact List.mem_cons_self ..))
  | release r i rest run phase todo =>
    exact h.quiet (es := [(m.now, .act (.release i))]) rfl (fun a ha => by rw [run]; change a ∈ r.todo; rw [todo]; exact List.mem_cons_of_mem _ ha) rfl (one (by simp))
  | runSkip r i run phase once => exact h.quiet (es := []) rfl (fun a ha => by rw [run]; exact ha) (by simp) nil
  | runBegin r i run phase once => exact h.quiet (es := [(m.now, .freeBegin i)]) rfl (fun a ha => by rw [run]; exact ha) rfl (one (by simp))
  | runEnd r i run phase => exact h.quiet (es := [(m.now, .freeEnd i)]) rfl (fun a ha => by rw [run]; exact ha) rfl (one (by simp))
  | ret r run todo phase => exact h.quiet (es := [(m.now, .returned r.kind r.res)]) rfl (fun a ha => by cases ha) rfl (one (by simp))
  | freeDec t x y frees phase i rest todo due => exact h.quiet (es := []) rfl (fun a ha => ha) (by simp) nil
  | freeSkip t x y frees i phase once => exact h.quiet (es := []) rfl (fun a ha => ha) (by simp) nil
  | freeBegin t x y frees i phase once => exact h.quiet (es := [(m.now, .freeBegin i)]) rfl (fun a ha => ha) rfl (one (by simp))
  | freeEnd t x y frees i phase => exact h.quiet (es := [(m.now, .freeEnd i)]) rfl (fun a ha => ha) rfl (one (by simp))
  | tick d => exact h.quiet (es := []) rfl (fun a ha => ha) (by simp) nil
  | read => exact h.quiet (es := [(m.now, .observed (m.current.map (·.mid)))]) rfl (fun a ha => ha) rfl (one (by simp))
  | readCounter => exact h.quiet (es := [(m.now, .counted m.counter)]) rfl (fun a ha => ha) rfl (one (by simp))

theorem liveInv {cfg : Config} (hcfg : cfg.OK) {m : Machine} (h : Reachable cfg m) : LiveInv m := by
  refine Reachable.ind (P := fun m => LiveInv m) .init ?_ h
  intro m m' l hr ih hs
  exact ih.step hcfg (fun om ho => ((inv hcfg hr).cur om ho).1) hs

theorem good_old {cfg : Config} (hcfg : cfg.OK) {m : Machine} (h : Reachable cfg m) : ∀ om, m.current = some om → GoodManager m.next om :=
  fun om ho => ((inv hcfg h).cur om ho).1.good ((liveInv hcfg h).cur om ho)

end Hotswap
