import Verif.Proofs.Calls

/-! Further facts about schedules: pending frees, reference holders, draining. -/

namespace Hotswap

variable [GoRuntime]

/-- How a step changes `pending`. -/
theorem Step.pending {cfg : Config} {m m' : Machine} {l : Label} (h : Step cfg m l m') :
    (m'.pending = m.pending ∧ m'.current = m.current ∧ ∀ pm t, m'.trace ≠ m.trace ++ [(t, .act (.publish pm))]) ∨ m'.pending = none ∨
    ∃ r om rest, m.running = some r ∧ r.todo = .spawnFree om :: rest ∧ m'.pending = some (m.now + cfg.delay) ∧ m'.current = m.current ∧
      m'.trace = m.trace ++ [(m.now, .act (.spawnFree om))] := by
  cases h with
  | act r a rest run phase todo plain =>
    cases a with
    | spawnFree om => exact .inr (.inr ⟨r, om, rest, run, todo, rfl, rfl, rfl⟩)
    | publish pm => exact .inr (.inl rfl)
    | _ => exact .inl ⟨rfl, rfl, by intro pm t; simp [Machine.perform, Machine.log]⟩
  | _ => exact .inl ⟨rfl, rfl, by intro pm t; simp [Machine.log]⟩

/-- While a manager waits for publication, its predecessor's delayed free was started after the last publication. -/
theorem pendingInv {cfg : Config} (hcfg : cfg.OK) {m : Machine} (h : Reachable cfg m) :
    ∀ due, m.pending = some due → ∃ a1 T0 pm a2, m.trace = a1 ++ (T0, .act (.spawnFree pm)) :: a2 ∧ published a2 = [] ∧
      due = T0 + cfg.delay ∧ m.current = some pm := by
  refine Reachable.ind (P := fun m => ∀ due, m.pending = some due → ∃ a1 T0 pm a2, m.trace = a1 ++ (T0, .act (.spawnFree pm)) :: a2 ∧ published a2 = [] ∧
      due = T0 + cfg.delay ∧ m.current = some pm) ?_ ?_ h
  · intro due hd; cases hd
  intro m m' l hreach ih hs due hd
  rcases hs.pending with ⟨h1, h2, h3⟩ | h1 | ⟨r, om, rest, h1, h2, h3, h4, h5⟩
  · obtain ⟨a1, T0, pm, a2, e1, e2, e3, e4⟩ := ih due (h1 ▸ hd)
    rw [h2]
    rcases hs.emits with ht | ⟨e, ht, hc⟩
    · exact ⟨a1, T0, pm, a2, by rw [ht, e1], e2, e3, e4⟩
    · refine ⟨a1, T0, pm, a2 ++ [(m.now, e)], by rw [ht, e1]; simp, ?_, e3, e4⟩
      rw [published_append, e2, List.nil_append]
      refine published_nil ?_
      intro pm' hp
      obtain ⟨t, htm⟩ := mem_actsOf.mp hp
      simp at htm
      exact h3 pm' m.now (by rw [ht, htm.2])
  · rw [h1] at hd; cases hd
  · obtain ⟨new, d, hc, _⟩ := (inv hcfg hreach).after_spawn h1 h2
    rw [h3] at hd
    cases hd
    exact ⟨m.trace, m.now, om, [], h5, rfl, rfl, by rw [h4, hc]⟩

/-- `OnFree` is about to begin on an instance of the current manager only if the publication of its successor has been
waiting for the whole delay. -/
theorem zero_of_current {cfg : Config} (hcfg : cfg.OK) {m : Machine} (h : Reachable cfg m) {i : Nat} (hz : i ∈ m.zs) (hi : i ∈ m.currentInsts) :
    ∃ a1 T0 pm a2, m.trace = a1 ++ (T0, .act (.spawnFree pm)) :: a2 ∧ published a2 = [] ∧ m.current = some pm ∧ T0 + cfg.delay ≤ m.now := by
  have hinv := inv hcfg h
  have hnot := (hinv.core.zero i hz).2.1
  cases hp : m.pending with
  | none => exact absurd (by unfold Machine.holds Machine.curHeld; simp [hp, hi]) hnot
  | some due =>
    obtain ⟨a1, T0, pm, a2, e1, e2, e3, e4⟩ := pendingInv hcfg h due hp
    refine ⟨a1, T0, pm, a2, e1, e2, e4, ?_⟩
    obtain ⟨t, h1, h2, h3⟩ := (delayInv hcfg h).spawned T0 pm (by rw [e1]; simp)
    have hip : i ∈ pm.insts := by rwa [Machine.currentInsts, e4] at hi
    rcases h3 i ((hinv.cur pm e4).1.release_perm.mem_iff.mpr hip) with hm | hm
    · exfalso; apply hnot
      unfold Machine.holds
      exact List.mem_append_left _ (List.mem_flatMap.mpr ⟨t, h1, hm⟩)
    · omega

/-! ### Who holds a reference -/

theorem nodup_of_suffix {α : Type} {l l' : List α} (h : l <:+ l') (hn : l'.Nodup) : l.Nodup := h.sublist.nodup hn

theorem Inv.free_nodup {cfg : Config} {m : Machine} (h : Inv cfg m) {t : FreeTask} (ht : t ∈ m.frees) : t.todo.Nodup := by
  obtain ⟨pm, _, hs, hsuf⟩ := h.frees t ht
  have := nodup_of_suffix hsuf (hs.release_perm.symm.nodup hs.nodup)
  exact (List.nodup_append.mp this).2.1

end Hotswap
